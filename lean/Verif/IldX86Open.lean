import Verif.IldX86Tail
import Verif.IldAbs

/-!
# Helper lemmas: prefixes and opcodes of x86 instructions
-/

set_option linter.unusedSimpArgs false
set_option linter.unusedVariables false

namespace Ipt.Ild

open Spec Spec.X86

variable {raw : List UInt8} {max : Nat}

/-- Reading prefixes. -/
theorem skipPrefixes : ∀ (P : List UInt8) (s : Ild) (len rex fuel : Nat), At raw max len P → (∀ b ∈ P, isPfx s.mode b.toNat) →
    prefixDecode raw max (fuel + P.length) s len rex =
      prefixDecode raw max fuel (P.foldl (fun s b => pfxSt s b.toNat) s) (len + P.length)
        (match P.getLast? with | some b => pfxRex b.toNat | none => rex)
  | [], s, len, rex, fuel, _, _ => rfl
  | b :: P, s, len, rex, fuel, ha, hp => by
    obtain ⟨hb, hl, ha'⟩ := ha.cons
    have ih := skipPrefixes P (pfxSt s b.toNat) (len + 1) (pfxRex b.toNat) fuel ha'
      (fun c hc => by rw [pfxSt_mode]; exact hp c (by simp [hc]))
    rw [show fuel + (b :: P).length = (fuel + P.length) + 1 from by simp; omega, prefixDecode_succ,
      if_neg (by omega), hb, Res.bind_ok, pfxStep_pfx (hp b (by simp)), ih]
    have e : len + 1 + P.length = len + (b :: P).length := by simp; omega
    rw [e]
    congr 1
    rcases h : P.getLast? with _ | c
    · rw [List.getLast?_eq_none_iff] at h; subst h; rfl
    · have : (b :: P).getLast? = some c := by
        rw [List.getLast?_cons, h]; rfl
      rw [this]

def repVal : Option UInt8 → Nat
  | some b => if b = 0xf2 then 2 else 3
  | none => 0

theorem pfxSt_f3 (s b) : (pfxSt s b).f3 = (s.f3 || decide (pfxOf b = .f3)) := by
  unfold pfxSt; split <;> simp_all

theorem pfxOf_f3 (b : UInt8) : pfxOf b.toNat = .f3 ↔ b = 0xf3 := by
  have h : ∀ n, n < 256 → (pfxOf n = .f3 ↔ n = 0xf3) := by decide +kernel
  rw [h _ b.toNat_lt, ← UInt8.toNat_inj]; rfl

theorem pfxOf_f2 (b : UInt8) : pfxOf b.toNat = .f2 ↔ b = 0xf2 := by
  have h : ∀ n, n < 256 → (pfxOf n = .f2 ↔ n = 0xf2) := by decide +kernel
  rw [h _ b.toNat_lt, ← UInt8.toNat_inj]; rfl

theorem foldl_pfx_f3 (P : List UInt8) (s : Ild) :
    (P.foldl (fun s b => pfxSt s b.toNat) s).f3 = (s.f3 || decide (0xf3 ∈ P)) := by
  induction P generalizing s with
  | nil => simp
  | cons b P ih =>
    simp only [List.foldl_cons, ih, pfxSt_f3, pfxOf_f3, List.mem_cons]
    cases s.f3 <;> by_cases h : b = 0xf3 <;> simp [h, eq_comm]

theorem pfxSt_last (s : Ild) (b : UInt8) : (pfxSt s b.toNat).lastF2f3 = if b = 0xf2 then 2 else if b = 0xf3 then 3 else s.lastF2f3 := by
  by_cases h2 : b = 0xf2
  · subst h2; rfl
  · by_cases h3 : b = 0xf3
    · subst h3; rfl
    · rw [if_neg h2, if_neg h3]
      have e2 := fun e => h2 ((pfxOf_f2 b).1 e)
      have e3 := fun e => h3 ((pfxOf_f3 b).1 e)
      unfold pfxSt
      split <;> simp_all

theorem foldl_pfx_last (P : List UInt8) (s : Ild) :
    (P.foldl (fun s b => pfxSt s b.toNat) s).lastF2f3 =
      match (P.filter fun b => b = 0xf2 ∨ b = 0xf3).getLast? with | some b => repVal (some b) | none => s.lastF2f3 := by
  induction P generalizing s with
  | nil => rfl
  | cons b P ih =>
    rw [List.foldl_cons, ih, pfxSt_last]
    by_cases h : b = 0xf2 ∨ b = 0xf3
    · rw [List.filter_cons_of_pos (by simpa using h)]
      rcases e : (P.filter fun b => b = 0xf2 ∨ b = 0xf3).getLast? with _ | c
      · rw [List.getLast?_eq_none_iff] at e
        rw [e]
        rcases h with h | h <;> subst h <;> rfl
      · rw [List.getLast?_cons, e]
        rfl
    · rw [List.filter_cons_of_neg (by simpa using h), if_neg (fun e => h (.inl e)), if_neg (fun e => h (.inr e))]

theorem pfxSt_rexRW (s b) : (pfxSt s b).rexR = s.rexR ∧ (pfxSt s b).rexW = s.rexW := by
  unfold pfxSt; split <;> exact ⟨rfl, rfl⟩

theorem foldl_pfx_rex (P : List UInt8) (s : Ild) :
    (P.foldl (fun s b => pfxSt s b.toNat) s).rexR = s.rexR ∧ (P.foldl (fun s b => pfxSt s b.toNat) s).rexW = s.rexW := by
  induction P generalizing s with
  | nil => exact ⟨rfl, rfl⟩
  | cons b P ih => rw [List.foldl_cons, (ih _).1, (ih _).2]; exact pfxSt_rexRW s _

/-- The state after the prefixes. -/
structure Start (m : Mode) (i : Insn) (s : Ild) : Prop where
  mode : s.mode = m
  init : Init s
  osz : s.osz = decide (0x66 ∈ i.pre)
  asz : s.asz = i.asz
  f3 : s.f3 = decide (0xf3 ∈ i.pre)
  last : s.lastF2f3 = repVal i.rep
  rexR : s.rexR = 0
  rexW : s.rexW = false

theorem rex_val {m : Mode} {i : Insn} (hp : ∀ b ∈ i.pre, IsPrefix m b) :
    (match i.pre.getLast? with | some b => pfxRex b.toNat | none => 0) = i.rex m := by
  unfold Insn.rex
  rcases h : i.pre.getLast? with _ | b
  · rfl
  · have hb := hp b (List.mem_of_getLast? h)
    have key : ∀ n, n < 256 → (pfxOf n = .rex ↔ n / 16 = 4) := by decide +kernel
    dsimp only
    unfold pfxRex
    simp only [key _ b.toNat_lt]
    by_cases h4 : b.toNat / 16 = 4
    · have hm : m = .b64 := by
        rcases hb with hb | hb
        · exfalso
          simp only [List.mem_cons, List.not_mem_nil, or_false] at hb
          rcases hb with h|h|h|h|h|h|h|h|h|h|h <;> subst h <;> revert h4 <;> decide
        · exact hb.1
      rw [if_pos h4, if_pos ⟨hm, h4⟩]
    · rw [if_neg h4, if_neg (fun x => h4 x.2)]

theorem start {m : Mode} {i : Insn} {l : List UInt8} (hp : ∀ b ∈ i.pre, IsPrefix m b) (ha : At raw max 0 (i.pre ++ l)) (hl : l ≠ []) :
    ∃ s fuel, decode raw max m = prefixDecode raw max (fuel + 1) s i.pre.length (i.rex m) ∧ Start m i s := by
  have hf := ha.fits
  have h1 : 0 < l.length := List.length_pos_iff.2 hl
  rw [List.length_append] at hf
  refine ⟨i.pre.foldl (fun s b => pfxSt s b.toNat) { mode := m }, max - i.pre.length, ?_, ?_⟩
  · unfold decode
    rw [show max + 1 = (max - i.pre.length + 1) + i.pre.length by omega,
      skipPrefixes i.pre _ _ _ _ ha.append.1 (fun b hb => (isPfx_iff _ _).2 (hp b hb)), rex_val hp]
    simp
  · refine ⟨foldl_pfx_mode _ _, foldl_pfx_init _ (init0 m), ?_, ?_, ?_, ?_, (foldl_pfx_rex _ _).1, (foldl_pfx_rex _ _).2⟩
    · rw [foldl_pfx_osz]; simp
    · rw [foldl_pfx_asz]; simp [Insn.asz]
    · rw [foldl_pfx_f3]; simp
    · rw [foldl_pfx_last]
      unfold Insn.rep
      rcases (i.pre.filter fun b => b = 0xf2 ∨ b = 0xf3).getLast? <;> rfl

/-- The state after a one-byte or two-byte opcode. -/
structure Legacy (m : Mode) (i : Insn) (map : Nat) (r2 : Bool) (s : Ild) : Prop extends Ready m i s where
  vex : s.vex = 0
  imm1 : s.imm1 = 0
  map : s.map = map
  rex2 : s.rex2 = r2
  f3 : s.f3 = decide (0xf3 ∈ i.pre)
  oszP : s.osz = decide (0x66 ∈ i.pre)
  last : s.lastF2f3 = repVal i.rep
  rexR : s.rexR = 0 ↔ i.noR m = true

theorem one_ops : ∀ m ≠ Mode.unknown, ∀ op < 256, ∀ reg < 8, ∀ mod3 : Bool, (oneByte m op reg mod3).isSome = true →
    op ≠ 0x0f ∧ (pfxOf op = .done ∨ (m ≠ .b64 ∧ (pfxOf op = .rex ∨ pfxOf op = .rex2 ∨
      ((pfxOf op = .c4 ∨ pfxOf op = .c5 ∨ pfxOf op = .evex) ∧ mod3 = false ∧ (oneByte m op reg mod3) = some (.yes, []))))) := by
  intro m hm
  have key : ∀ m ∈ [Mode.b16, .b32, .b64], ((List.range 256).all fun op => (List.range 8).all fun reg => [false, true].all fun mod3 =>
      decide ((oneByte m op reg mod3).isSome = true →
    op ≠ 0x0f ∧ (pfxOf op = .done ∨ (m ≠ .b64 ∧ (pfxOf op = .rex ∨ pfxOf op = .rex2 ∨
      ((pfxOf op = .c4 ∨ pfxOf op = .c5 ∨ pfxOf op = .evex) ∧ mod3 = false ∧ (oneByte m op reg mod3) = some (.yes, []))))))) = true := by
    decide +kernel
  intro op ho reg hr mod3
  have := key m (by cases m <;> simp at hm ⊢)
  simp only [List.all_eq_true, List.mem_range] at this
  exact of_decide_eq_true (this op ho reg hr mod3 (by cases mod3 <;> simp))

theorem Insn.reg_lt (i : Insn) : i.reg < 8 := by unfold Insn.reg; omega

theorem bit_testBit (b k : Nat) : decide (bit b k = 1) = b.testBit k := by
  unfold bit
  rw [Nat.testBit_eq_decide_div_mod_eq]

theorem bit_zero (b k : Nat) : bit b k = 0 ↔ b.testBit k = false := by
  unfold bit
  rw [Nat.testBit_eq_decide_div_mod_eq]
  simp

theorem Start.legacy {m : Mode} {i : Insn} {s : Ild} (h : Start m i s) (hk : m ≠ .unknown) (hi : i.intro = .one ∨ i.intro = .two) (map : Nat) :
    Legacy m i map false { s with rexR := bit (i.rex m) 2, rexW := decide (bit (i.rex m) 3 = 1), map := map, opcode := i.op.toNat } := by
  have ho : i.osz = decide (0x66 ∈ i.pre) := by unfold Insn.osz; rcases hi with hi | hi <;> rw [hi]
  have hw : i.w m = (i.rex m).testBit 3 := by unfold Insn.w; rcases hi with hi | hi <;> rw [hi]
  have hr : i.noR m = !(i.rex m).testBit 2 := by unfold Insn.noR; rcases hi with hi | hi <;> rw [hi]
  refine {
      mode := h.mode
      known := hk
      disp := h.init.disp
      modrm := h.init.modrm
      imm2 := h.init.imm2
      osz := h.osz.trans ho.symm
      asz := h.asz
      w := ?_
      op := rfl
      vex := h.init.vex
      imm1 := h.init.imm1
      map := rfl
      rex2 := h.init.rex2
      f3 := h.f3
      oszP := h.osz
      last := h.last
      rexR := ?_ }
  · show decide (bit (i.rex m) 3 = 1) = _
    rw [bit_testBit, hw]
  · show bit (i.rex m) 2 = 0 ↔ _
    rw [bit_zero, hr]; simp

/-- Outside of 64-bit mode there is no REX. -/
theorem rex_zero {m : Mode} (i : Insn) (h : m ≠ .b64) : i.rex m = 0 := by
  unfold Insn.rex
  split
  · rw [if_neg (fun x => h x.1)]
  · rfl

theorem Start.norex {m : Mode} {i : Insn} {s : Ild} (h : Start m i s) (h0 : i.rex m = 0) :
    { s with rexR := bit (i.rex m) 2, rexW := decide (bit (i.rex m) 3 = 1) } = s := by
  have h1 := h.rexR
  have h2 := h.rexW
  rw [h0]
  rcases s
  simp only at h1 h2
  subst h1 h2
  rfl

theorem open_one {m : Mode} {i : Insn} (hk : m ≠ .unknown) (hi : i.intro = .one) (hp : ∀ b ∈ i.pre, IsPrefix m b) {rm : Rm} {opds : List Opd}
    (hf : Fits m i rm opds) (ha : At raw max 0 i.bytes) :
    ∃ s, decode raw max m = modrmDec raw max s (i.pre.length + 1) ∧ Legacy m i 0 false s := by
  unfold Insn.bytes at ha
  rw [hi] at ha
  simp only [Intro.bytes, List.append_assoc, List.nil_append, List.singleton_append] at ha
  obtain ⟨s, fuel, hd, hs⟩ := start (l := [i.op] ++ (i.modrm.toList ++ (i.sib.toList ++ (i.disp ++ i.opds)))) hp ha (by simp)
  have ha2 := ha.append.2
  obtain ⟨hb, hl, ha3⟩ := ha2.cons
  rw [Nat.zero_add] at hb hl ha3
  refine ⟨_, ?_, hs.legacy hk (.inl hi) 0⟩
  have hform := hf.form
  unfold Insn.form at hform
  rw [hi] at hform
  dsimp only at hform
  obtain ⟨h0f, hcase⟩ := one_ops m hk i.op.toNat i.op.toNat_lt i.reg (Insn.reg_lt i) (decide (i.mod = 3)) (by rw [hform]; rfl)
  rw [hd, prefixDecode_succ, if_neg (by omega), hb, Res.bind_ok]
  have hopc : ∀ s', opc i.op.toNat raw max s' i.pre.length = modrmDec raw max { s' with map := 0, opcode := i.op.toNat } (i.pre.length + 1) := by
    intro s'
    unfold opc
    rw [if_pos h0f]
  unfold pfxStep
  rcases hcase with hc | ⟨hm, hc⟩
  · rw [hc]
    exact hopc _
  · have e := hs.norex (rex_zero i hm)
    have e2 : ({ s with rexR := bit (i.rex m) 2, rexW := decide (bit (i.rex m) 3 = 1), map := 0, opcode := i.op.toNat } : Ild) =
        { ({ s with rexR := bit (i.rex m) 2, rexW := decide (bit (i.rex m) 3 = 1) } : Ild) with map := 0, opcode := i.op.toNat } := rfl
    rw [e2, e, ← hopc]
    have hm' : s.mode ≠ .b64 := by rw [hs.mode]; exact hm
    rcases hc with hc | hc | ⟨hc, h3, hy⟩
    · rw [hc]
      dsimp only
      rw [if_neg hm']
    · rw [hc]
      dsimp only
      unfold rex2'
      rw [if_pos hm', pfxOf_rex2 hc]
    · -- LES, LDS, BOUND
      rw [hform] at hy
      simp only [Option.some.injEq, Prod.mk.injEq] at hy
      have hmr := hf.modrm.2 (by rw [hy.1]; decide)
      obtain ⟨b, hb2⟩ := Option.isSome_iff_exists.1 hmr
      rw [hb2] at ha3
      obtain ⟨hb3, hl3, -⟩ := ha3.cons
      have hn : b.toNat / 64 ≠ 3 := by
        intro h
        simp only [decide_eq_false_iff_not] at h3
        exact h3 (by unfold Insn.mod; rw [hb2]; exact h)
      rcases hc with hc | hc | hc
      · rw [hc]
        dsimp only
        unfold vexC4'
        rw [if_neg (by omega), hb3, Res.bind_ok, if_pos ⟨hm', hn⟩, pfxOf_c4 hc]
      · rw [hc]
        dsimp only
        unfold vexC5'
        rw [if_neg (by omega), hb3, Res.bind_ok, if_pos ⟨hm', hn⟩, pfxOf_c5 hc]
      · rw [hc]
        dsimp only
        unfold evex'
        rw [if_neg (by omega), hb3, Res.bind_ok, if_pos ⟨hm', hn⟩, pfxOf_evex hc]

theorem two_ops : ∀ op < 256, (twoByte op).isSome = true → op ≠ 0x38 ∧ op ≠ 0x3a ∧ op / 8 ≠ 7 := by decide +kernel

theorem open_two {m : Mode} {i : Insn} (hk : m ≠ .unknown) (hi : i.intro = .two) (hp : ∀ b ∈ i.pre, IsPrefix m b) {rm : Rm} {opds : List Opd}
    (hf : Fits m i rm opds) (ha : At raw max 0 i.bytes) :
    ∃ s, decode raw max m = modrmDec raw max s (i.pre.length + 2) ∧ Legacy m i 1 false s := by
  unfold Insn.bytes at ha
  rw [hi] at ha
  simp only [Intro.bytes, List.append_assoc, List.nil_append, List.singleton_append] at ha
  obtain ⟨s, fuel, hd, hs⟩ := start hp ha (by simp)
  have ha2 := ha.append.2
  obtain ⟨hb, hl, ha3⟩ := ha2.cons
  obtain ⟨hb2, hl2, ha4⟩ := ha3.cons
  rw [Nat.zero_add] at hb hl hb2 hl2
  refine ⟨_, ?_, hs.legacy hk (.inr hi) 1⟩
  have hform := hf.form
  unfold Insn.form at hform
  rw [hi] at hform
  dsimp only at hform
  obtain ⟨h1, h2, h3⟩ := two_ops i.op.toNat i.op.toNat_lt (by rw [hform]; rfl)
  rw [hd, prefixDecode_succ, if_neg (by omega), hb, Res.bind_ok]
  show opc 0x0f raw max _ i.pre.length = _
  unfold opc
  rw [if_neg (by decide), if_neg (by omega), hb2, Res.bind_ok, if_neg h1, if_neg h2, if_neg h3]

theorem open_rex2 {m : Mode} {i : Insn} {p : UInt8} (hk : m ≠ .unknown) (hi : i.intro = .rex2 p) (hp : ∀ b ∈ i.pre, IsPrefix m b)
    (hm : m = .b64) (h0 : i.rex m = 0) (ha : At raw max 0 i.bytes) :
    ∃ s, decode raw max m = modrmDec raw max s (i.pre.length + 3) ∧ Legacy m i (p.toNat / 128) true s := by
  unfold Insn.bytes at ha
  rw [hi] at ha
  simp only [Intro.bytes, List.append_assoc, List.cons_append, List.nil_append, List.singleton_append] at ha
  obtain ⟨s, fuel, hd, hs⟩ := start hp ha (by simp)
  have ha2 := ha.append.2
  obtain ⟨hb, hl, ha3⟩ := ha2.cons
  obtain ⟨hb2, hl2, ha4⟩ := ha3.cons
  obtain ⟨hb3, hl3, ha5⟩ := ha4.cons
  rw [Nat.zero_add] at hb hl hb2 hl2 hb3 hl3
  refine ⟨{ s with rexR := 2 * bit p.toNat 6 + bit p.toNat 2, rexW := decide (bit p.toNat 3 = 1), rex2 := true, map := p.toNat / 128, opcode := i.op.toNat }, ?_, ?_⟩
  · rw [hd, prefixDecode_succ, if_neg (by omega), hb, Res.bind_ok]
    show rex2' raw max s i.pre.length = _
    unfold rex2'
    rw [if_neg (by rw [hs.mode, hm]; simp), if_neg (by omega), hb2, Res.bind_ok]
    unfold vexDone
    rw [hb3, Res.bind_ok]
  · have ho : i.osz = decide (0x66 ∈ i.pre) := by unfold Insn.osz; rw [hi]
    have hw : i.w m = p.toNat.testBit 3 := by unfold Insn.w; rw [hi]
    have hr : i.noR m = (!p.toNat.testBit 2 && !p.toNat.testBit 6) := by unfold Insn.noR; rw [hi]
    refine {
      mode := hs.mode
      known := hk
      disp := hs.init.disp
      modrm := hs.init.modrm
      imm2 := hs.init.imm2
      osz := hs.osz.trans ho.symm
      asz := hs.asz
      w := ?_
      op := rfl
      vex := hs.init.vex
      imm1 := hs.init.imm1
      map := rfl
      rex2 := rfl
      f3 := hs.f3
      oszP := hs.osz
      last := hs.last
      rexR := ?_ }
    · show decide (bit _ 3 = 1) = _
      rw [bit_testBit, hw]
    · show 2 * bit p.toNat 6 + bit p.toNat 2 = 0 ↔ _
      have e1 := bit_zero p.toNat 6
      have e2 := bit_zero p.toNat 2
      rw [hr, Bool.and_eq_true, Bool.not_eq_true', Bool.not_eq_true', ← e1, ← e2]
      omega

/-- The state after another opcode. -/
structure Other (m : Mode) (i : Insn) (vex map : Nat) (s : Ild) : Prop extends Ready m i s where
  vex : s.vex = vex
  map : s.map = map
  imm1 : s.map ≠ 3 → s.imm1 = 0

theorem open_three {m : Mode} {i : Insn} (hk : m ≠ .unknown) (c : Bool) (hi : i.intro = if c = true then .three38 else .three3a)
    (hp : ∀ b ∈ i.pre, IsPrefix m b) (ha : At raw max 0 i.bytes) :
    ∃ s, decode raw max m = modrmDec raw max s (i.pre.length + 3) ∧ Other m i 0 (if c = true then 2 else 3) s := by
  have hib : i.intro.bytes = [0x0f, if c = true then 0x38 else 0x3a] := by rw [hi]; cases c <;> rfl
  unfold Insn.bytes at ha
  rw [hib] at ha
  simp only [Intro.bytes, List.append_assoc, List.cons_append, List.nil_append, List.singleton_append] at ha
  obtain ⟨s, fuel, hd, hs⟩ := start hp ha (by simp)
  have ha2 := ha.append.2
  obtain ⟨hb, hl, ha3⟩ := ha2.cons
  obtain ⟨hb2, hl2, ha4⟩ := ha3.cons
  obtain ⟨hb3, hl3, ha5⟩ := ha4.cons
  rw [Nat.zero_add] at hb hl hb2 hl2 hb3 hl3
  have ho : i.osz = decide (0x66 ∈ i.pre) := by unfold Insn.osz; cases c <;> simp only [Bool.false_eq_true, if_true, if_false] at hi <;> rw [hi]
  have hw : i.w m = (i.rex m).testBit 3 := by unfold Insn.w; cases c <;> simp only [Bool.false_eq_true, if_true, if_false] at hi <;> rw [hi]
  refine ⟨{ s with rexR := bit (i.rex m) 2, rexW := decide (bit (i.rex m) 3 = 1), map := if c = true then 2 else 3, imm1 := if c = true then s.imm1 else 1, opcode := i.op.toNat }, ?_, ?_⟩
  · rw [hd, prefixDecode_succ, if_neg (by omega), hb, Res.bind_ok]
    show opc 0x0f raw max _ i.pre.length = _
    unfold opc
    rw [if_neg (by decide), if_neg (by omega), hb2, Res.bind_ok]
    cases c
    · rw [if_neg (by decide), if_pos (by decide)]
      unfold nextAsOpcode
      rw [if_neg (by omega), hb3, Res.bind_ok]
      rfl
    · rw [if_pos (by decide)]
      unfold nextAsOpcode
      rw [if_neg (by omega), hb3, Res.bind_ok]
      rfl
  · refine {
      mode := hs.mode
      known := hk
      disp := hs.init.disp
      modrm := hs.init.modrm
      imm2 := hs.init.imm2
      osz := hs.osz.trans ho.symm
      asz := hs.asz
      w := ?_
      op := rfl
      vex := hs.init.vex
      map := rfl
      imm1 := ?_ }
    · show decide (bit _ 3 = 1) = _
      rw [bit_testBit, hw]
    · cases c
      · intro h; exact absurd rfl h
      · intro _; exact hs.init.imm1

/-- Without operand size, lock and repeat prefixes. -/
theorem vexPp_eq {m : Mode} {i : Insn} {s : Ild} (hs : Start m i s) (hno : ∀ b ∈ i.pre, b ∉ [(0x66 : UInt8), 0xf0, 0xf2, 0xf3]) (pp : Nat) (hpp : pp < 4)
    (vex rexR map op : Nat) (rexW : Bool) :
    ∃ f3 f2 last, { vexPp { s with vex := vex, rexR := rexR, rexW := rexW } pp with map := map, opcode := op } =
      ({ s with vex := vex, rexR := rexR, rexW := rexW, osz := pp == 1, f3 := f3, f2 := f2, lastF2f3 := last, map := map, opcode := op } : Ild) := by
  have ho : s.osz = false := by
    rw [hs.osz]
    simp only [decide_eq_false_iff_not]
    intro h
    exact hno _ h (by decide)
  rcases s
  simp only at ho
  subst ho
  rcases (by omega : pp = 0 ∨ pp = 1 ∨ pp = 2 ∨ pp = 3) with e | e | e | e <;> subst e <;> exact ⟨_, _, _, rfl⟩

theorem open_vex2 {m : Mode} {i : Insn} {p : UInt8} (hk : m ≠ .unknown) (hi : i.intro = .vex2 p) (hp : ∀ b ∈ i.pre, IsPrefix m b)
    (hm : m = .b64 ∨ p.toNat / 64 = 3) (hno : ∀ b ∈ i.pre, b ∉ [(0x66 : UInt8), 0xf0, 0xf2, 0xf3]) (ha : At raw max 0 i.bytes) :
    ∃ s, decode raw max m = modrmDec raw max s (i.pre.length + 3) ∧ Other m i 1 1 s := by
  unfold Insn.bytes at ha
  rw [hi] at ha
  simp only [Intro.bytes, List.append_assoc, List.cons_append, List.nil_append, List.singleton_append] at ha
  obtain ⟨s, fuel, hd, hs⟩ := start hp ha (by simp)
  have ha2 := ha.append.2
  obtain ⟨hb, hl, ha3⟩ := ha2.cons
  obtain ⟨hb2, hl2, ha4⟩ := ha3.cons
  obtain ⟨hb3, hl3, ha5⟩ := ha4.cons
  rw [Nat.zero_add] at hb hl hb2 hl2 hb3 hl3
  obtain ⟨f3, f2, last, he⟩ := vexPp_eq hs hno (p.toNat % 4) (by omega) 1 (nbit p.toNat 7) 1 i.op.toNat s.rexW
  refine ⟨{ vexPp { s with vex := 1, rexR := nbit p.toNat 7, rexW := s.rexW } (p.toNat % 4) with map := 1, opcode := i.op.toNat }, ?_, ?_⟩
  · rw [hd, prefixDecode_succ, if_neg (by omega), hb, Res.bind_ok]
    show vexC5' raw max s i.pre.length = _
    unfold vexC5'
    rw [if_neg (by omega), hb2, Res.bind_ok, if_neg (by rw [hs.mode]; rintro ⟨h1, h2⟩; rcases hm with h | h <;> contradiction), if_neg (by omega)]
    dsimp only
    unfold vexDone
    rw [hb3, Res.bind_ok]
  · rw [he]
    refine {
      mode := hs.mode
      known := hk
      disp := hs.init.disp
      modrm := hs.init.modrm
      imm2 := hs.init.imm2
      osz := ?_
      asz := hs.asz
      w := ?_
      op := rfl
      vex := rfl
      map := rfl
      imm1 := fun _ => hs.init.imm1 }
    · unfold Insn.osz; rw [hi]
    · show s.rexW = _
      unfold Insn.w; rw [hi, hs.rexW]

theorem open_vex3 {m : Mode} {i : Insn} {p q : UInt8} (hk : m ≠ .unknown) (hi : i.intro = .vex3 p q) (hp : ∀ b ∈ i.pre, IsPrefix m b)
    (hm : m = .b64 ∨ p.toNat / 64 = 3) (hno : ∀ b ∈ i.pre, b ∉ [(0x66 : UInt8), 0xf0, 0xf2, 0xf3]) (h8 : p.toNat % 32 < 8)
    (ha : At raw max 0 i.bytes) :
    ∃ s, decode raw max m = modrmDec raw max s (i.pre.length + 4) ∧ Other m i 1 (p.toNat % 32) s := by
  unfold Insn.bytes at ha
  rw [hi] at ha
  simp only [Intro.bytes, List.append_assoc, List.cons_append, List.nil_append, List.singleton_append] at ha
  obtain ⟨s, fuel, hd, hs⟩ := start hp ha (by simp)
  have ha2 := ha.append.2
  obtain ⟨hb, hl, ha3⟩ := ha2.cons
  obtain ⟨hb2, hl2, ha4⟩ := ha3.cons
  obtain ⟨hb3, hl3, ha5⟩ := ha4.cons
  obtain ⟨hb4, hl4, ha6⟩ := ha5.cons
  rw [Nat.zero_add] at hb hl hb2 hl2 hb3 hl3 hb4 hl4
  obtain ⟨f3, f2, last, he⟩ := vexPp_eq hs hno (q.toNat % 4) (by omega) 1 (nbit p.toNat 7) (p.toNat % 32) i.op.toNat (decide (bit q.toNat 7 = 1))
  refine ⟨{ vexPp { s with vex := 1, rexR := nbit p.toNat 7, rexW := decide (bit q.toNat 7 = 1) } (q.toNat % 4) with map := p.toNat % 32, opcode := i.op.toNat }, ?_, ?_⟩
  · rw [hd, prefixDecode_succ, if_neg (by omega), hb, Res.bind_ok]
    show vexC4' raw max s i.pre.length = _
    unfold vexC4'
    rw [if_neg (by omega), hb2, Res.bind_ok, if_neg (by rw [hs.mode]; rintro ⟨h1, h2⟩; rcases hm with h | h <;> contradiction), if_neg (by omega),
      hb3, Res.bind_ok]
    dsimp only
    rw [if_neg (by omega)]
    unfold vexDone
    rw [hb4, Res.bind_ok]
  · rw [he]
    refine {
      mode := hs.mode
      known := hk
      disp := hs.init.disp
      modrm := hs.init.modrm
      imm2 := hs.init.imm2
      osz := ?_
      asz := hs.asz
      w := ?_
      op := rfl
      vex := rfl
      map := rfl
      imm1 := fun _ => hs.init.imm1 }
    · unfold Insn.osz; rw [hi]
    · show decide (bit q.toNat 7 = 1) = _
      unfold Insn.w; rw [hi, bit_testBit]

theorem open_evex {m : Mode} {i : Insn} {p q r : UInt8} (hk : m ≠ .unknown) (hi : i.intro = .evex p q r) (hp : ∀ b ∈ i.pre, IsPrefix m b)
    (hm : m = .b64 ∨ p.toNat / 64 = 3) (hno : ∀ b ∈ i.pre, b ∉ [(0x66 : UInt8), 0xf0, 0xf2, 0xf3])
    (ha : At raw max 0 i.bytes) :
    ∃ s, decode raw max m = modrmDec raw max s (i.pre.length + 5) ∧ Other m i 2 (p.toNat % 8) s := by
  unfold Insn.bytes at ha
  rw [hi] at ha
  simp only [Intro.bytes, List.append_assoc, List.cons_append, List.nil_append, List.singleton_append] at ha
  obtain ⟨s, fuel, hd, hs⟩ := start hp ha (by simp)
  have ha2 := ha.append.2
  obtain ⟨hb, hl, ha3⟩ := ha2.cons
  obtain ⟨hb2, hl2, ha4⟩ := ha3.cons
  obtain ⟨hb3, hl3, ha5⟩ := ha4.cons
  obtain ⟨hb4, hl4, ha6⟩ := ha5.cons
  obtain ⟨hb5, hl5, ha7⟩ := ha6.cons
  rw [Nat.zero_add] at hb hl hb2 hl2 hb3 hl3 hb4 hl4 hb5 hl5
  obtain ⟨f3, f2, last, he⟩ := vexPp_eq hs hno (q.toNat % 4) (by omega) 2 (nbit p.toNat 7 + 2 * nbit p.toNat 4) (p.toNat % 8) i.op.toNat
    (decide (bit q.toNat 7 = 1))
  refine ⟨{ vexPp { s with vex := 2, rexR := nbit p.toNat 7 + 2 * nbit p.toNat 4, rexW := decide (bit q.toNat 7 = 1) } (q.toNat % 4) with map := p.toNat % 8, opcode := i.op.toNat }, ?_, ?_⟩
  · rw [hd, prefixDecode_succ, if_neg (by omega), hb, Res.bind_ok]
    show evex' raw max s i.pre.length = _
    unfold evex'
    rw [if_neg (by omega), hb2, Res.bind_ok, if_neg (by rw [hs.mode]; rintro ⟨h1, h2⟩; rcases hm with h | h <;> contradiction), if_neg (by omega),
      hb3, Res.bind_ok]
    dsimp only
    unfold vexDone
    rw [hb5, Res.bind_ok]
  · rw [he]
    refine {
      mode := hs.mode
      known := hk
      disp := hs.init.disp
      modrm := hs.init.modrm
      imm2 := hs.init.imm2
      osz := ?_
      asz := hs.asz
      w := ?_
      op := rfl
      vex := rfl
      map := rfl
      imm1 := fun _ => hs.init.imm1 }
    · unfold Insn.osz; rw [hi]
    · show decide (bit q.toNat 7 = 1) = _
      unfold Insn.w; rw [hi, bit_testBit]

end Ipt.Ild
