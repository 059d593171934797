import Verif.IldClassify

/-!
# C39, C40: instruction length decode
-/

set_option linter.unusedSimpArgs false

namespace Ipt.Props

open Ipt Ild Spec

/-- C39, size: a decoded instruction has at least one byte and at most as many as were given. -/
theorem C39_size (raw : List UInt8) (max : Nat) (mode : Mode) (n : Nat) (x : Iext)
    (h : ildDecode raw max mode = (n, .ok x)) : 1 ≤ n ∧ n ≤ max := by
  unfold ildDecode at h
  split at h
  · rename_i hd
    obtain ⟨rfl, -⟩ := Prod.mk.inj h
    have := good_decode mode hd
    exact ⟨this.1, this.2.1⟩
  · cases h
  · cases h

/-- C39, locality: the result depends on the bytes of the instruction only.  Every other byte
array that starts with the same instruction, with the same or a different number of bytes given,
is decoded to the same instruction. -/
theorem C39_depends_on_instruction_only (raw raw' : List UInt8) (max max' : Nat) (mode : Mode) (n : Nat)
    (x : Iext) (hl : max ≤ raw.length) (hn : n ≤ max')
    (h : ildDecode raw max mode = (n, .ok x)) (heq : raw'.take n = raw.take n) :
    ildDecode raw' max' mode = (n, .ok x) := by
  have ha : Agree n raw raw' := by
    intro i hi
    rw [← List.getElem?_take_of_lt hi, heq, List.getElem?_take_of_lt hi]
  unfold ildDecode at h ⊢
  split at h
  · rename_i s n' hd
    obtain ⟨rfl, hc⟩ := Prod.mk.inj h
    rw [(good_decode mode hd).2.2 raw' max' hn ha]
    obtain ⟨y, hy, hy'⟩ := classify_ok hd hl
    rw [hy] at hc
    cases hc
    simp only [hy' raw' ha]
  · cases h
  · cases h

/-- C39, errors: if no instruction can be decoded, the error is -pte_bad_insn and the size is
unchanged. -/
theorem C39_error (raw : List UInt8) (max : Nat) (mode : Mode) (n : Nat) (e : Err)
    (hl : max ≤ raw.length) (h : ildDecode raw max mode = (n, .err e)) : e = .badInsn ∧ n = max := by
  unfold ildDecode at h
  split at h
  · rename_i s n' hd
    obtain ⟨-, hc⟩ := Prod.mk.inj h
    obtain ⟨y, hy, -⟩ := classify_ok hd hl
    rw [hy] at hc; cases hc
  · rename_i e' hd
    cases h
    unfold decode at hd
    exact ⟨(good_prefixDecode (max + 1) { mode := mode } 0 0 rfl).err _ _ _ hd, rfl⟩
  · cases h

/-- C39, memory safety: pt_ild_decode does not read behind the array, except in one case: the array
holds exactly the given bytes, the mode is 64-bit and the last but one byte is 0xd5, a REX2
prefix.  Missing for the full property: that case, see `C39_overread`. -/
theorem C39_reads_inside_partial (raw : List UInt8) (max : Nat) (mode : Mode) (hl : max ≤ raw.length)
    (hx : ¬ (mode = .b64 ∧ raw.length = max ∧ ∃ i, i + 2 = max ∧ raw[i]? = some 0xd5)) :
    (ildDecode raw max mode).2 ≠ .ub := by
  have key : Fine (decode raw max mode) := by
    unfold decode
    rcases fine_prefixDecode hl (max + 1) { mode := mode } 0 0 (by omega) (by omega) with h | h
    · exact h
    · exfalso
      obtain ⟨h1, h2, i, h3, h4⟩ := h
      obtain ⟨c, hc, hc'⟩ := rd_u8 h4
      have : c = 0xd5 := by rw [← UInt8.toNat_inj]; exact hc
      exact hx ⟨h1, h2, i, h3, this ▸ hc'⟩
  unfold ildDecode
  rcases key with ⟨⟨s, n⟩, hd⟩ | hd
  · rw [hd]
    obtain ⟨y, hy, -⟩ := classify_ok hd hl
    simp only [hy]
    simp
  · rw [hd]; simp

/-- The over-read: with a REX2 prefix in the last but one of 15 bytes, the byte behind `insn->raw`
is read. -/
theorem C39_overread :
    (ildDecode (List.replicate 13 0x66 ++ [0xd5, 0x00]) 15 .b64).2 = .ub := by decide +kernel

/-- C39, the bytes behind the given ones: they do not influence the outcome, even in the case in
which one of them is read. -/
theorem C39_bytes_behind (raw raw' : List UInt8) (max : Nat) (mode : Mode) (h1 : max < raw.length)
    (h2 : max < raw'.length) (heq : raw'.take max = raw.take max) :
    ildDecode raw' max mode = ildDecode raw max mode := by
  have nub : ∀ r : List UInt8, max < r.length → (ildDecode r max mode).2 ≠ .ub := fun r hr =>
    C39_reads_inside_partial r max mode (by omega) (fun h => by omega)
  have take : ∀ {a b : List UInt8} {n}, n ≤ max → b.take max = a.take max → b.take n = a.take n := by
    intro a b n hn he
    have := congrArg (List.take n) he
    rwa [List.take_take, List.take_take, Nat.min_eq_left hn] at this
  have one := nub raw h1
  have two := nub raw' h2
  rcases hr : ildDecode raw max mode with ⟨n, x | e | _⟩
  · have hs := C39_size raw max mode n x hr
    exact C39_depends_on_instruction_only raw raw' max max mode n x (by omega) hs.2 hr (take hs.2 heq)
  · rcases hr' : ildDecode raw' max mode with ⟨n', x' | e' | _⟩
    · have hs := C39_size raw' max mode n' x' hr'
      have := C39_depends_on_instruction_only raw' raw max max mode n' x' (by omega) hs.2 hr'
        (take hs.2 heq.symm)
      rw [this] at hr; cases hr
    · obtain ⟨rfl, rfl⟩ := C39_error _ _ _ _ _ (by omega) hr
      obtain ⟨rfl, rfl⟩ := C39_error _ _ _ _ _ (by omega) hr'
      rfl
    · rw [hr'] at two; exact absurd rfl two
  · rw [hr] at one; exact absurd rfl one

/-- C39, incomplete instructions: if not all bytes of the instruction are given, the result is
-pte_bad_insn; a prefix of an instruction is never taken for another instruction. -/
theorem C39_incomplete (raw : List UInt8) (max max' : Nat) (mode : Mode) (n : Nat) (x : Iext)
    (hl : max ≤ raw.length) (h : ildDecode raw max mode = (n, .ok x)) (hm : max' < n) :
    ildDecode raw max' mode = (max', .err .badInsn) := by
  have hs := C39_size raw max mode n x h
  have nub := C39_reads_inside_partial raw max' mode (by omega) (fun h => by omega)
  rcases hr : ildDecode raw max' mode with ⟨n', x' | e' | _⟩
  · have hs' := C39_size raw max' mode n' x' hr
    have := C39_depends_on_instruction_only raw raw max' max mode n' x' (by omega) (by omega) hr rfl
    rw [h] at this
    cases this
    omega
  · obtain ⟨rfl, rfl⟩ := C39_error _ _ _ _ _ (by omega) hr
    rfl
  · rw [hr] at nub; exact absurd rfl nub

/-! Concrete instructions: a call with operand size prefix in the three modes, and the same bytes
cut short. -/

example : ildDecode [0x66, 0xe8, 0xfe, 0xff, 0xff, 0xff, 0x90] 7 .b64 =
    (6, .ok ⟨.call, .callE8, -2, true⟩) := by decide +kernel
example : ildDecode [0x66, 0xe8, 0xfe, 0xff, 0xff, 0xff, 0x90] 7 .b32 =
    (4, .ok ⟨.call, .callE8, -2, true⟩) := by decide +kernel
example : ildDecode [0x66, 0xe8, 0xfe, 0xff, 0xff, 0xff, 0x90] 7 .b16 =
    (6, .ok ⟨.call, .callE8, -2, true⟩) := by decide +kernel
example : ildDecode [0x66, 0xe8, 0xfe, 0xff, 0xff, 0xff, 0x90] 5 .b64 = (5, .err .badInsn) := by
  decide +kernel

/-- C40, soundness: an instruction reported as direct branch (other than JMPABS, see
`C40_jmpabs`) is one: its bytes are prefixes, the opcode of a direct branch of the reported class
and a displacement of the architectural width, and the reported displacement is the sign-extended
value of these bytes. -/
theorem C40_direct_sound (raw : List UInt8) (max : Nat) (mode : Mode) (n : Nat) (x : Iext)
    (hl : max ≤ raw.length) (h : ildDecode raw max mode = (n, .ok x)) (hd : x.isDirect = true)
    (hj : x.inst ≠ .jmpabs) : DirectBranch mode (raw.take n) x.cls x.displacement :=
  direct_sound h hd hj hl

/-- C40, completeness: every encoding of a direct branch is recognized, with its class,
displacement and size. -/
theorem C40_direct_complete (raw : List UInt8) (max : Nat) (mode : Mode) (n : Nat) (cls : Iclass)
    (disp : Int) (hl : max ≤ raw.length) (hn : n ≤ max)
    (h : DirectBranch mode (raw.take n) cls disp) :
    ∃ x, ildDecode raw max mode = (n, .ok x) ∧ x.cls = cls ∧ x.displacement = disp ∧
      x.isDirect = true ∧ x.inst ≠ .jmpabs :=
  direct_complete hn hl h

example : DirectBranch .b32 ([0x3e, 0x66, 0x0f, 0x84, 0x00, 0x80, 0x90].take 6) .condJump (-32768) :=
  ⟨[0x3e, 0x66], [0x0f, 0x84], [0x00, 0x80], true, rfl, by simp [IsPrefix], by decide, by decide,
    by decide, by decide, -1, by decide⟩

end Ipt.Props
