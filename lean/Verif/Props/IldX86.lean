import Verif.IldX86All

/-!
# C53: instructions are decoded as the architecture defines them
-/

namespace Ipt.Props

open Ipt Ild Spec Spec.X86

/-- C53, size and class: every instruction, at the beginning of memory of which at least all of the instruction is given, is
decoded.  The size is that of the instruction, the class is what the instruction does, and the displacement of a direct branch
is the one in the instruction. -/
theorem C53_x86 (raw : List UInt8) (max : Nat) (m : Mode) (i : Insn) (hm : m ≠ .unknown) (hi : i.Valid m)
    (hraw : raw.take i.bytes.length = i.bytes) (hmax : i.bytes.length ≤ max) :
    ∃ x, ildDecode raw max m = (i.bytes.length, .ok x) ∧ Describes m i x := by
  have ha : At raw max 0 i.bytes := ⟨⟨raw.drop i.bytes.length, by rw [List.drop_zero]; exact (congrArg (· ++ raw.drop i.bytes.length) hraw).symm.trans (List.take_append_drop _ raw)⟩, by omega⟩
  obtain ⟨x, h1, h2, h3⟩ := x86_all hm hi ha
  refine ⟨x, h1, ?_⟩
  by_cases hv : i.vmclear
  · obtain ⟨hk, hd, ht⟩ := h3 hv
    have e : i.kind m = (.other, .invalid) := by
      obtain ⟨hin, h4, h5, h6, h7⟩ := hv
      have e2 : i.kindTwo m = (.other, .invalid) := by
        unfold Insn.kindTwo
        rw [h4]
        show (if i.reg = 6 ∧ i.mod ≠ 3 ∧ 0x66 ∉ i.pre ∧ i.rep = none then (Iclass.other, Inst.vmptrld) else (.other, .invalid)) = _
        rw [if_neg]
        rintro ⟨-, -, g1, g2⟩
        rcases h7 with h | h
        · exact g1 h
        · rw [g2] at h; cases h
      unfold Insn.kind
      rcases hin with h | ⟨p, h, hp⟩
      · rw [h]; exact e2
      · rw [h]; dsimp only; rw [if_neg (by omega)]; exact e2
    simp only [Prod.mk.injEq] at hk
    exact ⟨by rw [e]; exact hk.1, by rw [e]; exact hd, ht⟩
  · obtain ⟨hk, hd, ht⟩ := h2 hv
    exact ⟨congrArg Prod.fst hk, hd, ht⟩

/-- C53, instruction: the decoders need to know some instructions, for example to tell where the address space may change.
Missing: VMCLEAR and VMXON, for which this is false. -/
theorem C53_instruction_partial (raw : List UInt8) (max : Nat) (m : Mode) (i : Insn) (hm : m ≠ .unknown) (hi : i.Valid m)
    (hv : ¬ i.vmclear) (hraw : raw.take i.bytes.length = i.bytes) (hmax : i.bytes.length ≤ max) :
    ∃ x, ildDecode raw max m = (i.bytes.length, .ok x) ∧ x.inst = (i.kind m).2 := by
  have ha : At raw max 0 i.bytes := ⟨⟨raw.drop i.bytes.length, by rw [List.drop_zero]; exact (congrArg (· ++ raw.drop i.bytes.length) hraw).symm.trans (List.take_append_drop _ raw)⟩, by omega⟩
  obtain ⟨x, h1, h2, -⟩ := x86_all hm hi ha
  exact ⟨x, h1, congrArg Prod.snd (h2 hv).kind⟩

/-- C53: VMCLEAR is taken for VMPTRLD. -/
theorem C53_vmclear_fails : ∃ (i : Insn) (x : Iext), i.Valid .b64 ∧ ildDecode i.bytes i.bytes.length .b64 = (i.bytes.length, .ok x) ∧
    x.inst = .vmptrld ∧ (i.kind .b64).2 ≠ .vmptrld := by
  refine ⟨{ pre := [0x66], intro := .two, op := 0xc7, modrm := some 0x30 }, { inst := .vmptrld }, ⟨⟨?_, ?_⟩, .yes, [], ?_⟩, ?_, rfl, ?_⟩
  · intro b hb
    have : b = 0x66 := by simpa using hb
    subst this
    exact .inl (by decide)
  · show Insn.twoPrefixes _
    unfold Insn.twoPrefixes
    decide
  · exact ⟨by decide, by decide, by unfold Insn.hasSib; decide, by decide, by decide⟩
  · decide +kernel
  · decide

/-! Concrete instructions -/

/-- `lock add dword ptr [rax + rcx * 4 + 0x12345678], 0x11223344` with REX. -/
example : let i : Insn := { pre := [0xf0, 0x40], op := 0x81, modrm := some 0x84, sib := some 0x88, disp := [0x78, 0x56, 0x34, 0x12], opds := [0x44, 0x33, 0x22, 0x11] }
    i.Valid .b64 ∧ ildDecode i.bytes i.bytes.length .b64 = (13, .ok {}) := by
  refine ⟨⟨⟨?_, trivial⟩, .yes, [.iz], ?_⟩, by decide +kernel⟩
  · intro b hb
    simp only [List.mem_cons, List.not_mem_nil, or_false] at hb
    rcases hb with h | h <;> subst h
    · exact .inl (by decide)
    · exact .inr (by decide)
  · exact ⟨by decide, by decide, by unfold Insn.hasSib; decide, by decide, by decide⟩

/-- `jne` with an operand size prefix in 32-bit mode. -/
example : let i : Insn := { pre := [0x66], intro := .two, op := 0x85, opds := [0xfe, 0xff] }
    i.Valid .b32 ∧ ∃ x, ildDecode (i.bytes ++ [0x90]) 6 .b32 = (5, .ok x) ∧ x.cls = .condJump ∧ x.displacement = -2 := by
  refine ⟨⟨⟨?_, ?_⟩, .no, [.jz], ?_⟩, { cls := .condJump, inst := .jcc, displacement := -2, isDirect := true }, by decide +kernel, rfl, rfl⟩
  · intro b hb
    have : b = 0x66 := by simpa using hb
    subst this
    exact .inl (by decide)
  · show Insn.twoPrefixes _
    unfold Insn.twoPrefixes
    decide
  · exact ⟨by decide, by decide, by unfold Insn.hasSib; decide, by decide, by decide⟩

/-- VEX with an immediate, EVEX with a displacement, REX2. -/
example : (Insn.Valid .b64 { intro := .vex3 0xe3 0x79, op := 0x0f, modrm := some 0xc1, opds := [8] }) ∧
    (Insn.Valid .b64 { intro := .evex 0xf1 0x7c 0x48, op := 0x10, modrm := some 0x42, disp := [1] }) ∧
    (Insn.Valid .b64 { intro := .rex2 0x08, op := 0x89, modrm := some 0xc8 }) := by
  refine ⟨⟨⟨by simp, .inl rfl, by decide, by simp⟩, .yes, [.ib], ?_⟩, ⟨⟨by simp, .inl rfl, by decide, by simp⟩, .yes, [], ?_⟩,
    ⟨⟨by simp, rfl, by decide, by intro h; exact absurd h (by decide), by intro _ h; exact absurd h (by decide)⟩, .yes, [], ?_⟩⟩
  all_goals exact ⟨by decide, by decide, by unfold Insn.hasSib; decide, by decide, by decide⟩

end Ipt.Props
