import Verif.IldX86Kind

/-!
# Helper lemmas: decoding all of an x86 instruction
-/

set_option linter.unusedSimpArgs false
set_option linter.unusedVariables false

namespace Ipt.Ild

open Spec Spec.X86

variable {raw : List UInt8} {max : Nat}

/-! ## The kinds of instructions -/

theorem kind_one : ∀ m ≠ Mode.unknown, ∀ op < 256, ∀ reg < 8, ∀ mod3 : Bool, (oneByte m op reg mod3).isSome = true →
    core0 op reg (decide (m = .b64)) false false = ((kindOne op reg).1, (kindOne op reg).2, direct (kindOne op reg).2) ∧
    (m = .b64 → op / 16 ∉ [4, 7, 10, 14] → ∀ abs : Bool,
      core0 op reg true true abs = ((kindOne op reg).1, (kindOne op reg).2, direct (kindOne op reg).2)) := by
  intro m hm
  have key : ∀ m ∈ [Mode.b16, .b32, .b64], ((List.range 256).all fun op => (List.range 8).all fun reg => [false, true].all fun mod3 =>
      decide ((oneByte m op reg mod3).isSome = true →
    core0 op reg (decide (m = .b64)) false false = ((kindOne op reg).1, (kindOne op reg).2, direct (kindOne op reg).2) ∧
    (m = .b64 → op / 16 ∉ [4, 7, 10, 14] → ∀ abs : Bool,
      core0 op reg true true abs = ((kindOne op reg).1, (kindOne op reg).2, direct (kindOne op reg).2)))) = true := by
    decide +kernel
  intro op ho reg hr mod3
  have := key m (by cases m <;> simp at hm ⊢)
  simp only [List.all_eq_true, List.mem_range] at this
  exact of_decide_eq_true (this op ho reg hr mod3 (by cases mod3 <;> simp))

/-- Direct branches have their target and nothing else. -/
theorem direct_one : ∀ op < 256, ∀ reg < 8, ∀ m64 r2 abs : Bool, (core0 op reg m64 r2 abs).2.2 = true →
    tabRm (hasModrm 0 0 op) = .no ∧ tabD (dispMap0.getD op .none) 0 ∈ [[.jb], [.jz], [.addr]] ∧ tabI (immLegacy0.getD op .zero) 0 = [] := by
  have key : ((List.range 256).all fun op => (List.range 8).all fun reg => [false, true].all fun m64 => [false, true].all fun r2 => [false, true].all fun abs =>
      decide ((core0 op reg m64 r2 abs).2.2 = true →
    tabRm (hasModrm 0 0 op) = .no ∧ tabD (dispMap0.getD op .none) 0 ∈ [[.jb], [.jz], [.addr]] ∧ tabI (immLegacy0.getD op .zero) 0 = [])) = true := by
    decide +kernel
  intro op ho reg hr m64 r2 abs
  simp only [List.all_eq_true, List.mem_range] at key
  exact of_decide_eq_true (key op ho reg hr m64 (by cases m64 <;> simp) r2 (by cases r2 <;> simp) abs (by cases abs <;> simp))

theorem direct_two : ∀ op < 256, op / 16 = 8 →
    tabRm (hasModrm 0 1 op) = .no ∧ tabD (dispMap0F.getD op .none) 0 ∈ [[.jb], [.jz], [.addr]] ∧ tabI (immLegacy1.getD op .zero) 0 = [] := by
  decide +kernel

theorem core1_direct {op modrm last : Nat} {r0 f3 osz r2 : Bool} (h : (core1 op modrm last r0 f3 osz r2).2.2 = true) : op / 16 = 8 := by
  unfold core1 at h
  split at h
  · assumption
  · exfalso
    repeat' split at h
    all_goals cases h

theorem reg_eq' {i : Insn} {s : Ild} {D p a b : Nat} :
    ({ s with modrm := (i.modrm.getD 0).toNat, disp := D, dispPos := p, imm1 := a, imm2 := b } : Ild).reg = i.reg := rfl

theorem c7_only : ∀ op < 256, dispMap0F.getD op .none ≠ .opC7 := by decide +kernel

theorem rep_cases (i : Insn) : i.rep = none ∨ i.rep = some 0xf2 ∨ i.rep = some 0xf3 := by
  unfold Insn.rep
  rcases h : (i.pre.filter fun b => b = 0xf2 ∨ b = 0xf3).getLast? with _ | b
  · exact .inl h
  · have := List.mem_of_getLast? h
    rw [List.mem_filter] at this
    have := this.2
    simp only [decide_eq_true_eq] at this
    rcases this with e | e <;> subst e
    · exact .inr (.inl h)
    · exact .inr (.inr h)

theorem u8_eq {a : UInt8} {n : Nat} (h : a.toNat = n) (hn : n < 256) : a = UInt8.ofNat n := by
  rw [← UInt8.toNat_inj, h]
  simp; omega

theorem modrm_some {i : Insn} {n : Nat} (h : (i.modrm.getD 0).toNat = n) (h0 : 0 < n) (hn : n < 256) : i.modrm = some (UInt8.ofNat n) := by
  rcases e : i.modrm with _ | b
  · rw [e] at h; have : (0 : Nat) = n := h; omega
  · rw [e] at h; rw [u8_eq (a := b) h hn]

theorem match_default (mr : Nat) (x y z u v w : Iclass × Inst) :
    mr ≠ 193 → mr ≠ 194 → mr ≠ 195 → mr ≠ 202 → mr ≠ 236 →
    (match (generalizing := false) mr with | 193 => x | 194 => y | 195 => z | 202 => u | 236 => v | _ => w) = w := by
  intro h1 h2 h3 h4 h5
  split <;> first | rfl | contradiction

theorem kind_two {m : Mode} {i : Insn} {r2 : Bool} (hp : i.twoPrefixes)
    (hv : ¬ (i.op = 0xc7 ∧ i.reg = 6 ∧ i.mod ≠ 3 ∧ (0x66 ∈ i.pre ∨ i.rep = some 0xf3)))
    (hr : r2 = true → i.op.toNat / 16 ∉ [3, 8]) :
    core1 i.op.toNat (i.modrm.getD 0).toNat (repVal i.rep) (i.noR m) (decide (0xf3 ∈ i.pre)) (decide (0x66 ∈ i.pre)) r2 =
      ((i.kindTwo m).1, (i.kindTwo m).2, direct (i.kindTwo m).2) := by
  obtain ⟨-, -, -, hp4⟩ := hp
  have hrep := rep_cases i
  unfold core1 Insn.kindTwo
  by_cases h8 : i.op.toNat / 16 = 8
  · rw [if_pos h8, if_pos h8]
    cases r2
    · rfl
    · exact absurd (by rw [h8]; simp) (hr rfl)
  · rw [if_neg h8, if_neg h8]
    by_cases hc7 : i.op = 0xc7
    · rw [hc7]
      show (if i.mod ≠ 3 ∧ i.reg = 6 then _ else _) = _
      show _ = ((if i.reg = 6 ∧ i.mod ≠ 3 ∧ 0x66 ∉ i.pre ∧ i.rep = none then (Iclass.other, Inst.vmptrld) else (.other, .invalid)).1,
        (if i.reg = 6 ∧ i.mod ≠ 3 ∧ 0x66 ∉ i.pre ∧ i.rep = none then (Iclass.other, Inst.vmptrld) else (.other, .invalid)).2,
        direct (if i.reg = 6 ∧ i.mod ≠ 3 ∧ 0x66 ∉ i.pre ∧ i.rep = none then (Iclass.other, Inst.vmptrld) else (.other, .invalid)).2)
      by_cases h6 : i.mod ≠ 3 ∧ i.reg = 6
      · rw [if_pos h6]
        have h66 : 0x66 ∉ i.pre := fun h => hv ⟨hc7, h6.2, h6.1, .inl h⟩
        have hf3 : i.rep ≠ some 0xf3 := fun h => hv ⟨hc7, h6.2, h6.1, .inr h⟩
        have hn : i.rep = none := by
          rcases hrep with h | h | h
          · exact h
          · exact absurd h (hp4 hc7 h6.2)
          · exact absurd h hf3
        rw [if_pos ⟨h6.2, h6.1, h66, hn⟩]
        rfl
      · rw [if_neg h6, if_neg (fun x => h6 ⟨x.2.1, x.1⟩)]
        rfl
    · have hc7' : i.op.toNat ≠ 0xc7 := by
        intro h; exact hc7 (u8_eq h (by decide))
      have hr3 : i.op.toNat / 16 = 3 → r2 = false := by
        intro h
        cases r2
        · rfl
        · exact absurd (by rw [h]; simp) (hr rfl)
      show _ = _
      rw [show i.reg = (i.modrm.getD 0).toNat / 8 % 8 from rfl]
      generalize i.op.toNat = op at *
      generalize (i.modrm.getD 0).toNat = mr at *
      split
      · split <;> rfl
      · rfl
      · rw [hr3 rfl]; rfl
      · rw [hr3 rfl]; rfl
      · rfl
      · split <;> first | rfl | skip
        · rcases hrep with h | h | h <;> rw [h] <;> rfl
        · rename_i a b c d e
          exact (congrArg (fun c : Iclass × Inst => (c.1, c.2, direct c.2)) (match_default mr (.farCall, .vmcall) (.farReturn, .vmlaunch) (.farReturn, .vmresume)
            (if i.rep = some 0xf2 then (.farReturn, .erets) else if i.rep = some 0xf3 then (.farReturn, .eretu) else (.other, .invalid))
            (.farReturn, .uiret) (.other, .invalid) a b c e d)).symm
      · exact absurd rfl hc7'
      · by_cases h4 : mr / 8 % 8 = 4 <;> by_cases hf : (0xf3 : UInt8) ∈ i.pre <;> by_cases h6 : (0x66 : UInt8) ∈ i.pre <;> simp [h4, hf, h6, direct]
      · split <;> first | rfl | (exfalso; simp_all; done)

/-! ## Decoding -/

theorem opd_sizes {s : Ild} {l : List Opd} (h : l ∈ [[Opd.jb], [.jz], [.addr]]) : total s l = 1 ∨ total s l = 2 ∨ total s l = 4 ∨ total s l = 8 := by
  simp only [List.mem_cons, List.not_mem_nil, or_false] at h
  rcases s with ⟨mode, osz, asz, lock, f3, f2, last, rex2, rexR, rexW, imm1, imm2, disp, modrm, vex, map, opcode, dispPos⟩
  unfold total
  dsimp only
  rcases h with h | h | h <;> subst h <;> cases mode <;> cases osz <;> cases asz <;> cases rexW <;> decide

/-- What is reported. -/
structure Told (i : Insn) (k : Iclass × Inst) (x : Iext) : Prop where
  kind : (x.cls, x.inst) = k
  direct : x.isDirect = direct k.2
  target : if x.isDirect = true then IsSigned i.opds x.displacement else x.displacement = 0

/-- One-byte and two-byte opcodes. -/
theorem finish {m : Mode} {i : Insn} {map : Nat} {r2 : Bool} {s : Ild} {len : Nat} {rm : Rm} {opds : List Opd} {c : Iclass × Inst × Bool}
    (hl : Legacy m i map r2 s) (hmap : map ≤ 1) (hf : Fits m i rm opds) (hd : decode raw max m = modrmDec raw max s len)
    (ht : Tab (some (rm, opds)) (hasModrm 0 map i.op.toNat) (dispEntry s)
      ((if map = 0 then immLegacy0 else immLegacy1).getD i.op.toNat .zero) i.reg (i.mod = 3) = true)
    (h78 : map = 1 → i.op = 0x78 → 0x66 ∉ i.pre ∧ i.rep ≠ some 0xf2)
    (hat : At raw max len (i.modrm.toList ++ i.sib.toList ++ i.disp ++ i.opds))
    (hc : ∀ D p a b, classify raw { s with modrm := (i.modrm.getD 0).toNat, disp := D, dispPos := p, imm1 := a, imm2 := b } =
      outcome raw { s with modrm := (i.modrm.getD 0).toNat, disp := D, dispPos := p, imm1 := a, imm2 := b } c)
    (hdir : c.2.2 = direct c.2.1)
    (hsole : c.2.2 = true → tabRm (hasModrm 0 map i.op.toNat) = .no ∧ tabD (dispEntry s) 0 ∈ [[.jb], [.jz], [.addr]] ∧
      tabI ((if map = 0 then immLegacy0 else immLegacy1).getD i.op.toNat .zero) 0 = []) :
    ∃ x, ildDecode raw max m = (len + i.modrm.toList.length + i.sib.toList.length + i.disp.length + i.opds.length, .ok x) ∧ Told i (c.1, c.2.1) x := by
  have e1 := hl.map
  have e2 := hl.op
  rw [← e1, ← e2] at ht
  have hh : Home 0 s.map ((if s.map = 0 then immLegacy0 else immLegacy1).getD s.opcode .zero) = true := by
    rw [e1, e2]
    have := home i.op.toNat i.op.toNat_lt
    rcases (by omega : map = 0 ∨ map = 1) with h | h <;> rw [h]
    · exact this.1
    · exact this.2.1
  have h78' : (if s.map = 0 then immLegacy0 else immLegacy1).getD s.opcode .zero = .op78 → s.osz = false ∧ s.lastF2f3 ≠ 2 := by
    rw [e1, e2]
    intro h
    have := op78_only i.op.toNat i.op.toNat_lt
    rcases (by omega : map = 0 ∨ map = 1) with h0 | h1
    · rw [if_pos h0] at h; exact absurd h this.1
    · rw [if_neg (by omega)] at h
      obtain ⟨a, b⟩ := h78 h1 (u8_eq (this.2 h) (by decide))
      refine ⟨by rw [hl.oszP]; simp [a], ?_⟩
      rw [hl.last]
      rcases rep_cases i with h | h | h
      · rw [h]; decide
      · exact absurd h b
      · rw [h]; decide
  have h7 : dispEntry s = .opC7 → s.map = 0 := by
    intro h
    rcases (by omega : map = 0 ∨ map = 1) with h0 | h1
    · rw [e1, h0]
    · unfold dispEntry at h
      rw [e1, if_neg (by omega), e2] at h
      exact absurd h (c7_only _ i.op.toNat_lt)
  obtain ⟨D, p, a, b, hdec, hpos⟩ := tail_legacy hl.toReady hl.imm1 hl.vex (by omega) ht h7 hh h78' hf.modrm hf.sib hf.disp hf.opds hat
  unfold ildDecode
  rw [hd, hdec]
  dsimp only
  rw [hc]
  obtain ⟨cls, inst, d⟩ := c
  dsimp only at hdir hsole
  cases hdd : d
  · rw [hdd] at hdir
    refine ⟨_, rfl, rfl, ?_, ?_⟩
    · exact hdir
    · rfl
  · obtain ⟨s1, s2, s3⟩ := hsole hdd
    have hrm : rm = .no := by
      have := (Tab.some ht rfl).1
      rw [← this, e1, e2, s1]
    have hne : tabD (dispEntry s) 0 ≠ [] := by
      intro h; rw [h] at s2; simp at s2
    obtain ⟨hD, hp⟩ := hpos hrm hne (by rw [e1, e2]; exact s3)
    have hmn : i.modrm = none := by
      rcases e : i.modrm with _ | _
      · rfl
      · exact absurd hrm (hf.modrm.1 (by rw [e]; rfl))
    have hsn : i.sib = none := by
      rcases e : i.sib with _ | _
      · rfl
      · exact absurd (hf.sib.1 (by rw [e]; rfl)).1 (by rw [hrm]; decide)
    have hdn : i.disp = [] := by
      have := hf.disp
      rw [hrm, if_neg (by decide)] at this
      exact List.eq_nil_of_length_eq_zero this
    rw [hmn, hsn, hdn] at hat
    have hat : At raw max len i.opds := hat
    have hsz : i.opds.length = total s (tabD (dispEntry s) 0) := by
      obtain ⟨-, t2, -⟩ := Tab.some ht rfl
      have hreg : i.reg = 0 := by unfold Insn.reg; rw [hmn]; rfl
      rw [hf.opds, total_eq hl.toReady, ← t2, hreg, total_append]
      rw [e1, e2, s3]
      rfl
    have h1248 := opd_sizes (s := s) s2
    have hb : branchTarget raw { s with modrm := (i.modrm.getD 0).toNat, disp := D, dispPos := p, imm1 := a, imm2 := b } cls inst =
        .ok { cls, inst, displacement := sext i.opds.length (leVal i.opds), isDirect := true } := by
      unfold branchTarget
      dsimp only
      rw [if_pos (by omega), hD, hp, rdLE_eq _ _ (hat.le (by intro h; rw [h] at hsz; simp at hsz; omega)), hat.take]
      rfl
    refine ⟨_, by unfold outcome; dsimp only; rw [hb], rfl, ?_, ?_⟩
    · rw [hdd] at hdir; exact hdir
    · exact sext_isSigned

theorem lengths (i : Insn) : i.bytes.length = i.pre.length + i.intro.bytes.length + 1 + i.modrm.toList.length + i.sib.toList.length +
    i.disp.length + i.opds.length := by
  unfold Insn.bytes
  simp only [List.length_append, List.length_singleton]

theorem at_tail {i : Insn} (h : At raw max 0 i.bytes) :
    At raw max (i.pre.length + i.intro.bytes.length + 1) (i.modrm.toList ++ i.sib.toList ++ i.disp ++ i.opds) := by
  have e : i.bytes = (i.pre ++ i.intro.bytes ++ [i.op]) ++ (i.modrm.toList ++ i.sib.toList ++ i.disp ++ i.opds) := by
    unfold Insn.bytes
    simp only [List.append_assoc]
  rw [e] at h
  have := h.append.2
  simpa [Nat.add_assoc] using this

theorem finish_other {m : Mode} {i : Insn} {vex map : Nat} {s : Ild} {len : Nat} {rm : Rm} {opds : List Opd}
    (hl : Other m i vex map s) (h8 : map < 8) (hv : vex ≠ 0 ∨ 2 ≤ map) (hf : Fits m i rm opds) (hd : decode raw max m = modrmDec raw max s len)
    (t1 : tabRm (hasModrm vex map i.op.toNat) = rm)
    (himm : (∃ w, immDesc vex map = .width w ∧ w ≠ 0xff ∧ w = total s opds) ∨
      (map ≠ 3 ∧ ∃ t, immDesc vex map = .table t ∧ tabI (t.getD i.op.toNat .zero) i.reg = opds ∧ Home vex map (t.getD i.op.toNat .zero) = true ∧
        t.getD i.op.toNat .zero ≠ .op78))
    (hat : At raw max len (i.modrm.toList ++ i.sib.toList ++ i.disp ++ i.opds)) :
    ∃ x, ildDecode raw max m = (len + i.modrm.toList.length + i.sib.toList.length + i.disp.length + i.opds.length, .ok x) ∧ Told i (.other, .invalid) x := by
  obtain ⟨D, p, a, b, hdec⟩ := tail_other hl.toReady (by rw [hl.map]; exact h8) (by rw [hl.map, hl.vex]; exact hv)
    (by rw [hl.map, hl.vex, hl.op]; exact t1)
    (by
      rw [hl.map, hl.vex, hl.op]
      rcases himm with h | ⟨h3, t, h⟩
      · exact .inl h
      · exact .inr ⟨t, h.1, h.2.1, h.2.2.1, h.2.2.2, hl.imm1 (by rw [hl.map]; exact h3)⟩)
    hf.modrm hf.sib hf.disp hf.opds hat
  unfold ildDecode
  rw [hd, hdec]
  dsimp only
  have hc : classify raw { s with modrm := (i.modrm.getD 0).toNat, disp := D, dispPos := p, imm1 := a, imm2 := b } = .ok {} := by
    unfold classify
    dsimp only
    rw [hl.map, hl.vex]
    by_cases h : 1 < map
    · rw [if_pos h]
    · rw [if_neg h, if_pos (by rcases hv with h | h; exact h; omega)]
  rw [hc]
  exact ⟨_, rfl, rfl, rfl, rfl⟩

/-- What is reported for an instruction. -/
def Reported (m : Mode) (i : Insn) (x : Iext) : Prop :=
  (¬ i.vmclear → Told i (i.kind m) x) ∧ (i.vmclear → Told i (.other, .vmptrld) x)

theorem kind_vmclear {i : Insn} {last : Nat} {r0 f3 osz r2 : Bool}
    (hv : i.op = 0xc7 ∧ i.reg = 6 ∧ i.mod ≠ 3) :
    core1 i.op.toNat (i.modrm.getD 0).toNat last r0 f3 osz r2 = (.other, .vmptrld, false) := by
  rw [hv.1]
  show (if i.mod ≠ 3 ∧ i.reg = 6 then _ else _) = _
  rw [if_pos ⟨hv.2.2, hv.2.1⟩]

theorem finish_two {m : Mode} {i : Insn} {r2 : Bool} {s : Ild} {len : Nat} {rm : Rm} {opds : List Opd}
    (hl : Legacy m i 1 r2 s) (hf : Fits m i rm opds) (hd : decode raw max m = modrmDec raw max s len)
    (hform : twoByte i.op.toNat = some (rm, opds)) (hp : i.twoPrefixes) (hr : r2 = true → i.op.toNat / 16 ∉ [3, 8])
    (hin : i.intro = .two ∨ ∃ p, i.intro = .rex2 p ∧ 128 ≤ p.toNat) (hkind : i.kind m = i.kindTwo m)
    (hat : At raw max len (i.modrm.toList ++ i.sib.toList ++ i.disp ++ i.opds)) :
    ∃ x, ildDecode raw max m = (len + i.modrm.toList.length + i.sib.toList.length + i.disp.length + i.opds.length, .ok x) ∧ Reported m i x := by
  have hde : dispEntry s = dispMap0F.getD i.op.toNat .none := by
    unfold dispEntry; rw [hl.map, hl.op]; rfl
  have ht := tab_two i.op.toNat i.op.toNat_lt i.reg (Insn.reg_lt i) (decide (i.mod = 3))
  rw [hform] at ht
  have key := fun (c : Iclass × Inst × Bool)
      (hc : core1 i.op.toNat (i.modrm.getD 0).toNat (repVal i.rep) (i.noR m) (decide (0xf3 ∈ i.pre)) (decide (0x66 ∈ i.pre)) r2 = c)
      (hdir : c.2.2 = direct c.2.1) =>
    finish (c := c) hl (by omega) hf hd (by rw [hde]; exact ht) (fun _ h => hp.1 h) hat
      (by
        intro D p a b
        rw [classify1 (s := { s with modrm := (i.modrm.getD 0).toNat, disp := D, dispPos := p, imm1 := a, imm2 := b }) hl.vex hl.map]
        dsimp only
        rw [hl.op, hl.last, hl.f3, hl.oszP, hl.rex2, show decide (s.rexR = 0) = i.noR m from by
          have := hl.rexR
          cases h : i.noR m
          · rw [h] at this; simpa using this
          · rw [h] at this; simpa using this]
        rw [hc])
      hdir
      (by
        intro h
        rw [← hc] at h
        rw [hde]
        exact direct_two _ i.op.toNat_lt (core1_direct h))
  by_cases hv : i.op = 0xc7 ∧ i.reg = 6 ∧ i.mod ≠ 3 ∧ (0x66 ∈ i.pre ∨ i.rep = some 0xf3)
  · obtain ⟨x, h1, h2⟩ := key _ (kind_vmclear ⟨hv.1, hv.2.1, hv.2.2.1⟩) rfl
    exact ⟨x, h1, fun h => absurd ⟨hin, hv⟩ h, fun _ => h2⟩
  · obtain ⟨x, h1, h2⟩ := key _ (kind_two hp hv hr) rfl
    exact ⟨x, h1, fun _ => by rw [hkind]; exact h2, fun h => absurd h.2 hv⟩

theorem finish_one {m : Mode} {i : Insn} {r2 : Bool} {s : Ild} {len : Nat} {rm : Rm} {opds : List Opd} {k : Iclass × Inst}
    (hl : Legacy m i 0 r2 s) (hf : Fits m i rm opds) (hd : decode raw max m = modrmDec raw max s len)
    (hform : Tab (some (rm, opds)) (hasModrm 0 0 i.op.toNat) (dispMap0.getD i.op.toNat .none) (immLegacy0.getD i.op.toNat .zero)
      i.reg (i.mod = 3) = true)
    (hc : core0 i.op.toNat i.reg (decide (m = .b64)) r2 (decide (m = .b64) && r2 && !i.w m && !i.asz && !i.osz) = (k.1, k.2, direct k.2))
    (hin : i.intro = .one ∨ ∃ p, i.intro = .rex2 p ∧ p.toNat < 128) (hkind : i.kind m = k)
    (hat : At raw max len (i.modrm.toList ++ i.sib.toList ++ i.disp ++ i.opds)) :
    ∃ x, ildDecode raw max m = (len + i.modrm.toList.length + i.sib.toList.length + i.disp.length + i.opds.length, .ok x) ∧ Reported m i x := by
  have hde : dispEntry s = dispMap0.getD i.op.toNat .none := by
    unfold dispEntry; rw [hl.map, hl.op]; rfl
  obtain ⟨x, h1, h2⟩ := finish (c := (k.1, k.2, direct k.2)) hl (by omega) hf hd (by rw [hde]; exact hform) (fun h => absurd h (by decide)) hat
      (by
        intro D p a b
        rw [classify0 (s := { s with modrm := (i.modrm.getD 0).toNat, disp := D, dispPos := p, imm1 := a, imm2 := b }) hl.vex hl.map]
        dsimp only
        rw [reg_eq', hl.op, hl.rex2, hl.mode, hl.w, hl.asz, hl.osz, hc])
      rfl
      (by
        intro h
        rw [hde]
        exact direct_one _ i.op.toNat_lt i.reg (Insn.reg_lt i) _ _ _ (by rw [hc]; exact h))
  refine ⟨x, h1, fun _ => by rw [hkind]; exact h2, fun h => ?_⟩
  exfalso
  rcases h.1 with h | ⟨p, h, h'⟩ <;> rcases hin with g | ⟨q, g, g'⟩
  · rw [h] at g; cases g
  · rw [h] at g; cases g
  · rw [h] at g; cases g
  · rw [h] at g; cases g; omega

theorem x86_all {m : Mode} {i : Insn} (hm : m ≠ .unknown) (hv : i.Valid m) (ha : At raw max 0 i.bytes) :
    ∃ x, ildDecode raw max m = (i.bytes.length, .ok x) ∧ Reported m i x := by
  obtain ⟨⟨hp, hpi⟩, rm, opds, hf⟩ := hv
  rw [lengths]
  have hat := at_tail ha
  have hform := hf.form
  unfold Insn.form at hform
  have hother : (∀ p, i.intro ≠ .rex2 p) → i.intro ≠ .two → i.intro ≠ .one → ∀ x, Told i (.other, .invalid) x → Reported m i x := by
    intro h1 h2 h3 x hx
    refine ⟨fun _ => ?_, fun h => ?_⟩
    · have : i.kind m = (.other, .invalid) := by
        unfold Insn.kind
        cases h : i.intro <;> first | rfl | exact absurd h h2 | exact absurd h h3 | exact absurd h (h1 _)
      rw [this]; exact hx
    · rcases h.1 with h | ⟨p, h, -⟩
      · exact absurd h h2
      · exact absurd h (h1 p)
  cases hi : i.intro <;> rw [hi] at hat hform hpi <;> simp only [Intro.bytes, List.length_nil, List.length_cons, Nat.add_zero, Nat.zero_add] at hat ⊢ <;>
    dsimp only at hform hpi
  · -- one byte
    obtain ⟨s, hd, hl⟩ := open_one hm hi hp hf ha
    have ht := tab_one m hm i.op.toNat i.op.toNat_lt i.reg (Insn.reg_lt i) (decide (i.mod = 3))
    have hk := (kind_one m hm i.op.toNat i.op.toNat_lt i.reg (Insn.reg_lt i) (decide (i.mod = 3)) (by rw [hform]; rfl)).1
    rw [hform] at ht
    exact finish_one hl hf hd ht (k := kindOne i.op.toNat i.reg) (by simpa using hk) (.inl hi) (by unfold Insn.kind; rw [hi]) hat
  · obtain ⟨s, hd, hl⟩ := open_two hm hi hp hf ha
    exact finish_two hl hf hd hform hpi (by simp) (.inl hi) (by unfold Insn.kind; rw [hi]) hat
  · simp only [Option.some.injEq, Prod.mk.injEq] at hform
    obtain ⟨s, hd, hl⟩ := open_three hm true hi hp ha
    obtain ⟨x, h1, h2⟩ := finish_other hl (by decide) (.inr (by decide)) hf hd (by rw [← hform.1]; rfl) (.inl ⟨0, rfl, by decide, by rw [← hform.2]; rfl⟩) hat
    exact ⟨x, h1, hother (by simp [hi]) (by simp [hi]) (by simp [hi]) x h2⟩
  · simp only [Option.some.injEq, Prod.mk.injEq] at hform
    obtain ⟨s, hd, hl⟩ := open_three hm false hi hp ha
    obtain ⟨x, h1, h2⟩ := finish_other hl (by decide) (.inr (by decide)) hf hd (by rw [← hform.1]; rfl) (.inl ⟨1, rfl, by decide, by rw [← hform.2]; rfl⟩) hat
    exact ⟨x, h1, hother (by simp [hi]) (by simp [hi]) (by simp [hi]) x h2⟩
  · -- REX2
    rename_i p
    obtain ⟨h64, hr0, hp2, hpa⟩ := hpi
    obtain ⟨s, hd, hl⟩ := open_rex2 hm hi hp h64 hr0 ha
    by_cases h128 : p.toNat < 128
    · rw [if_pos h128] at hform
      rw [show p.toNat / 128 = 0 by omega] at hl
      by_cases ha1 : i.op.toNat = 0xa1
      · rw [if_pos ha1] at hform
        have hop : i.op = 0xa1 := u8_eq ha1 (by decide)
        obtain ⟨q1, q2, q3⟩ := hpa h128 hop
        simp only [Option.some.injEq, Prod.mk.injEq] at hform
        refine finish_one hl hf hd ?_ (k := (.jump, .jmpabs)) ?_ (.inr ⟨p, hi, h128⟩) ?_ hat
        · rw [← hform.1, ← hform.2, ha1]
          have := tabA1
          rw [this.1, this.2.1]
          rw [show immLegacy0.getD 0xa1 Imm.zero = .zero from by decide +kernel]
          rfl
        · have hw : i.w m = false := by unfold Insn.w; rw [hi]; exact q1
          have hz : i.asz = false := by unfold Insn.asz; simp [q3]
          have ho : i.osz = false := by unfold Insn.osz; rw [hi]; simp [q2]
          rw [ha1, hw, hz, ho, h64]
          rfl
        · unfold Insn.kind; rw [hi]; dsimp only; rw [if_pos h128, if_pos hop]
      · rw [if_neg ha1] at hform
        have hrow : i.op.toNat / 16 ∉ [4, 7, 10, 14] := by
          intro h; rw [if_pos h] at hform; cases hform
        rw [if_neg hrow] at hform
        have ht := tab_one m hm i.op.toNat i.op.toNat_lt i.reg (Insn.reg_lt i) (decide (i.mod = 3))
        have hk := (kind_one m hm i.op.toNat i.op.toNat_lt i.reg (Insn.reg_lt i) (decide (i.mod = 3)) (by rw [hform]; rfl)).2 h64 hrow
        rw [hform] at ht
        refine finish_one hl hf hd ht (k := kindOne i.op.toNat i.reg) ?_ (.inr ⟨p, hi, h128⟩) ?_ hat
        · rw [show decide (m = .b64) = true from by simp [h64], hk]
        · unfold Insn.kind; rw [hi]; dsimp only
          rw [if_pos h128, if_neg (fun h => ha1 (by rw [h]; rfl))]
    · rw [if_neg h128] at hform
      have hrow : i.op.toNat / 16 ∉ [3, 8] := by
        intro h; rw [if_pos h] at hform; cases hform
      rw [if_neg hrow] at hform
      have := p.toNat_lt
      rw [show p.toNat / 128 = 1 by omega] at hl
      exact finish_two hl hf hd hform (hp2 (by omega)) (fun _ => hrow) (.inr ⟨p, hi, by omega⟩)
        (by unfold Insn.kind; rw [hi]; dsimp only; rw [if_neg h128]) hat
  · -- VEX, two bytes
    obtain ⟨q1, q2, q3⟩ := hpi
    obtain ⟨s, hd, hl⟩ := open_vex2 hm hi hp q1 q3 ha
    obtain ⟨t1, t2, -⟩ := Tab.some (tab_vex1 i.op.toNat i.op.toNat_lt i.reg) hform
    have hh := (home i.op.toNat i.op.toNat_lt).2.2.1
    obtain ⟨x, h1, h2⟩ := finish_other hl (by decide) (.inl (by decide)) hf hd t1
      (.inr ⟨by decide, immVex1, rfl, t2, hh, fun h => by rw [h] at hh; cases hh⟩) hat
    exact ⟨x, h1, hother (by simp [hi]) (by simp [hi]) (by simp [hi]) x h2⟩
  · -- VEX, three bytes
    rename_i p q
    obtain ⟨q1, q2, q3⟩ := hpi
    have hmap : p.toNat % 32 = 1 ∨ p.toNat % 32 = 2 ∨ p.toNat % 32 = 3 ∨ p.toNat % 32 = 7 := by
      unfold vexForm at hform
      by_cases h1 : p.toNat % 32 = 1
      · exact .inl h1
      by_cases h2 : p.toNat % 32 = 2
      · exact .inr (.inl h2)
      by_cases h3 : p.toNat % 32 = 3
      · exact .inr (.inr (.inl h3))
      by_cases h7 : p.toNat % 32 = 7
      · exact .inr (.inr (.inr h7))
      simp [h1, h2, h3, h7] at hform
    obtain ⟨s, hd, hl⟩ := open_vex3 hm hi hp q1 q3 (by omega) ha
    have fin : ∀ x, Told i (.other, .invalid) x → Reported m i x := hother (by simp [hi]) (by simp [hi]) (by simp [hi])
    have hh := (home i.op.toNat i.op.toNat_lt).2.2.1
    rcases hmap with h | h | h | h <;> rw [h] at hl hform
    · obtain ⟨t1, t2, -⟩ := Tab.some (tab_vex1 i.op.toNat i.op.toNat_lt i.reg) hform
      obtain ⟨x, h1, h2⟩ := finish_other hl (by decide) (.inl (by decide)) hf hd t1
        (.inr ⟨by decide, immVex1, rfl, t2, hh, fun h => by rw [h] at hh; cases hh⟩) hat
      exact ⟨x, h1, fin x h2⟩
    · obtain ⟨x, h1, h2⟩ := finish_other hl (by decide) (.inl (by decide)) hf hd (by cases hform; rfl) (.inl ⟨0, rfl, by decide, by cases hform; rfl⟩) hat
      exact ⟨x, h1, fin x h2⟩
    · obtain ⟨x, h1, h2⟩ := finish_other hl (by decide) (.inl (by decide)) hf hd (by cases hform; rfl) (.inl ⟨1, rfl, by decide, by cases hform; rfl⟩) hat
      exact ⟨x, h1, fin x h2⟩
    · have hform : some (Rm.yes, [Opd.id]) = some (rm, opds) := by
        unfold vexForm at hform
        simp only [show ¬ (7 = 1) by decide, show ¬ (7 = 2) by decide, show ¬ (7 = 3) by decide, if_false, true_and] at hform
        split at hform
        · exact hform
        · cases hform
      obtain ⟨x, h1, h2⟩ := finish_other hl (by decide) (.inl (by decide)) hf hd (by cases hform; rfl) (.inl ⟨4, rfl, by decide, by cases hform; rfl⟩) hat
      exact ⟨x, h1, fin x h2⟩
  · -- EVEX
    rename_i p q r
    obtain ⟨q1, q2, q3⟩ := hpi
    obtain ⟨s, hd, hl⟩ := open_evex hm hi hp q1 q3 ha
    have fin : ∀ x, Told i (.other, .invalid) x → Reported m i x := hother (by simp [hi]) (by simp [hi]) (by simp [hi])
    have hh := (home i.op.toNat i.op.toNat_lt).2.2.2
    have hmap : p.toNat % 8 = 0 ∨ p.toNat % 8 = 1 ∨ p.toNat % 8 = 4 ∨ (p.toNat % 8 = 2 ∨ p.toNat % 8 = 5 ∨ p.toNat % 8 = 6) ∨ p.toNat % 8 = 3 ∨ p.toNat % 8 = 7 := by
      omega
    rcases hmap with h | h | h | h | h | h
    · rw [h] at hform; simp [evexForm] at hform
    · rw [h] at hl hform
      obtain ⟨t1, t2, -⟩ := Tab.some (tab_evex1 i.op.toNat i.op.toNat_lt i.reg (Insn.reg_lt i)) hform
      obtain ⟨x, h1, h2⟩ := finish_other hl (by decide) (.inl (by decide)) hf hd t1
        (.inr ⟨by decide, immEvex1, rfl, t2, hh.1, fun h => by rw [h] at hh; cases hh.1⟩) hat
      exact ⟨x, h1, fin x h2⟩
    · rw [h] at hl hform
      obtain ⟨t1, t2, -⟩ := Tab.some (tab_evex4 i.op.toNat i.op.toNat_lt i.reg (Insn.reg_lt i)) hform
      obtain ⟨x, h1, h2⟩ := finish_other hl (by decide) (.inl (by decide)) hf hd t1
        (.inr ⟨by decide, immEvex4, rfl, t2, hh.2, fun h => by rw [h] at hh; cases hh.2⟩) hat
      exact ⟨x, h1, fin x h2⟩
    · have hform : some (Rm.yes, []) = some (rm, opds) := by
        rcases h with h | h | h <;> rw [h] at hform <;> exact hform
      have himm : immDesc 2 (p.toNat % 8) = .width 0 ∧ hasModrm 2 (p.toNat % 8) i.op.toNat = .yes := by
        rcases h with h | h | h <;> rw [h] <;> exact ⟨rfl, rfl⟩
      obtain ⟨x, h1, h2⟩ := finish_other hl (by omega) (.inl (by decide)) hf hd (by rw [himm.2]; cases hform; rfl)
        (.inl ⟨0, himm.1, by decide, by cases hform; rfl⟩) hat
      exact ⟨x, h1, fin x h2⟩
    · rw [h] at hl hform
      obtain ⟨x, h1, h2⟩ := finish_other hl (by decide) (.inl (by decide)) hf hd (by cases hform; rfl) (.inl ⟨1, rfl, by decide, by cases hform; rfl⟩) hat
      exact ⟨x, h1, fin x h2⟩
    · rw [h] at hl hform
      have hform : some (Rm.yes, [Opd.id]) = some (rm, opds) := by
        unfold evexForm at hform
        simp only [show ¬ (7 = 1) by decide, show ¬ (7 = 2) by decide, show ¬ (7 = 3) by decide, show ¬ (7 = 4) by decide, show ¬ (7 = 5) by decide,
          show ¬ (7 = 6) by decide, or_self, if_false, true_and] at hform
        split at hform
        · exact hform
        · cases hform
      obtain ⟨x, h1, h2⟩ := finish_other hl (by decide) (.inl (by decide)) hf hd (by cases hform; rfl) (.inl ⟨4, rfl, by decide, by cases hform; rfl⟩) hat
      exact ⟨x, h1, fin x h2⟩

end Ipt.Ild
