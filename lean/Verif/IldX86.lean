import Verif.IldX86Tables

/-!
# Helper lemmas: lengths of x86 instructions
-/

set_option linter.unusedSimpArgs false
set_option linter.unusedVariables false

namespace Ipt.Ild

open Spec Spec.X86

variable {raw : List UInt8} {max : Nat}

/-- The bytes `l` are at `p`, and inside of the first `max` bytes. -/
structure At (raw : List UInt8) (max p : Nat) (l : List UInt8) : Prop where
  is : l <+: raw.drop p
  fits : p + l.length ≤ max

theorem At.cons {p : Nat} {b : UInt8} {l : List UInt8} (h : At raw max p (b :: l)) :
    rd raw p = .ok b.toNat ∧ p < max ∧ At raw max (p + 1) l := by
  obtain ⟨⟨r, h⟩, hf⟩ := h
  have hp : p < raw.length := by
    apply Nat.lt_of_not_le
    intro hle
    rw [List.drop_eq_nil_of_le hle] at h
    cases h
  rw [List.drop_eq_getElem_cons hp, List.cons_append] at h
  simp only [List.cons.injEq] at h
  obtain ⟨h1, h2⟩ := h
  simp only [List.length_cons] at hf
  refine ⟨by rw [rd_lt hp, h1], by omega, ⟨r, h2⟩, by omega⟩

theorem At.append {p : Nat} {l l' : List UInt8} (h : At raw max p (l ++ l')) : At raw max p l ∧ At raw max (p + l.length) l' := by
  obtain ⟨⟨r, h⟩, hf⟩ := h
  rw [List.append_assoc] at h
  rw [List.length_append] at hf
  refine ⟨⟨⟨_, h⟩, by omega⟩, ⟨⟨r, ?_⟩, by omega⟩⟩
  rw [← List.drop_drop, ← h, List.drop_left]

theorem At.take {p : Nat} {l : List UInt8} (h : At raw max p l) : (raw.drop p).take l.length = l := by
  obtain ⟨⟨r, h⟩, hf⟩ := h
  rw [← h, List.take_left]

theorem At.le {p : Nat} {l : List UInt8} (h : At raw max p l) (hl : l ≠ []) : p + l.length ≤ raw.length := by
  obtain ⟨⟨r, h⟩, hf⟩ := h
  have := congrArg List.length h
  simp only [List.length_append, List.length_drop] at this
  have : 0 < l.length := List.length_pos_iff.2 hl
  omega

/-! ## Sizes -/

theorem resolveZ_eosz {s : Ild} (hm : s.mode ≠ .unknown) : resolveZ (eosz s) = .ok (min 4 (opSize s.mode s.osz s.rexW)) := by
  unfold eosz eoszNon64 opSize
  rcases h : s.mode with _ | _ | _ | _ <;> cases s.osz <;> cases s.rexW <;> first | exact absurd h hm | rfl

theorem resolveZ_df64 {s : Ild} (hm : s.mode ≠ .unknown) : resolveZ (eoszDf64 s) = .ok (min 4 (opSize s.mode s.osz s.rexW)) := by
  unfold eoszDf64 eoszNon64 opSize
  rcases h : s.mode with _ | _ | _ | _ <;> cases s.osz <;> cases s.rexW <;> first | exact absurd h hm | rfl

theorem resolveV_eosz {s : Ild} (hm : s.mode ≠ .unknown) : resolveV (eosz s) = .ok (opSize s.mode s.osz s.rexW) := by
  unfold eosz eoszNon64 opSize
  rcases h : s.mode with _ | _ | _ | _ <;> cases s.osz <;> cases s.rexW <;> first | exact absurd h hm | rfl

theorem resolveV_easz {s : Ild} (hm : s.mode ≠ .unknown) : resolveV (easz s) = .ok (addrSize s.mode s.asz) := by
  unfold easz easzNon64 addrSize
  rcases h : s.mode with _ | _ | _ | _ <;> cases s.asz <;> first | exact absurd h hm | rfl

/-- The sum of the sizes of operands. -/
def total (s : Ild) (l : List Opd) : Nat := (l.map (Opd.size s.mode s.osz s.asz s.rexW)).sum

theorem setImm_ok {s : Ild} {t : List Imm} (hm : s.mode ≠ .unknown) (h1 : s.imm1 = 0) (h2 : s.imm2 = 0) (h8 : s.map < 8)
    (hd : immDesc s.vex s.map = .table t) (hh : Home s.vex s.map (t.getD s.opcode .zero) = true)
    (h78 : t.getD s.opcode .zero = .op78 → s.osz = false ∧ s.lastF2f3 ≠ 2) :
    ∃ a b, setImm s = .ok { s with imm1 := a, imm2 := b } ∧ a + b = total s (tabI (t.getD s.opcode .zero) s.reg) := by
  unfold setImm
  rw [if_neg (by omega), hd]
  dsimp only
  have hs : s = { s with imm1 := 0, imm2 := 0 } := by
    rcases s
    simp only at h1 h2
    subst h1 h2
    rfl
  have hs1 : ∀ n, ({ s with imm1 := n } : Ild) = { s with imm1 := n, imm2 := 0 } := by
    intro n
    rcases s
    simp only at h2
    subst h2
    rfl
  rcases he : t.getD s.opcode .zero with _ | _ | _ | _ | _ | _ | _ | _ | _ | _ | _ | _ | _ | _ <;> rw [he] at hh <;>
    dsimp only [tabI, total, Home] at hh ⊢
  · exact ⟨0, 0, congrArg Res.ok hs, rfl⟩
  · exact ⟨1, 0, congrArg Res.ok (hs1 1), rfl⟩
  · exact ⟨1, 0, congrArg Res.ok (hs1 1), rfl⟩
  · rw [resolveZ_eosz hm]; exact ⟨_, 0, congrArg Res.ok (hs1 _), by simp [Opd.size]⟩
  · rw [resolveV_eosz hm]; exact ⟨_, 0, congrArg Res.ok (hs1 _), by simp [Opd.size]⟩
  · exact ⟨2, 0, congrArg Res.ok (hs1 _), rfl⟩
  · have hmap : s.map = 0 := by simpa using hh
    by_cases hr : s.reg < 2
    · rw [if_pos ⟨hmap, hr⟩, if_pos hr, resolveZ_eosz hm]; exact ⟨_, 0, congrArg Res.ok (hs1 _), by simp [Opd.size]⟩
    · rw [if_neg (by omega), if_neg hr]; exact ⟨0, 0, congrArg Res.ok hs, rfl⟩
  · have hmap : s.map = 0 := by simpa using hh
    by_cases hr : s.reg = 0
    · rw [if_pos ⟨hmap, hr⟩, if_pos hr, resolveZ_eosz hm]; exact ⟨_, 0, congrArg Res.ok (hs1 _), by simp [Opd.size]⟩
    · rw [if_neg (by omega), if_neg hr]; exact ⟨0, 0, congrArg Res.ok hs, rfl⟩
  · rw [resolveZ_df64 hm]; exact ⟨_, 0, congrArg Res.ok (hs1 _), by simp [Opd.size]⟩
  · have hmap : s.map = 0 := by simpa using hh
    by_cases hr : s.reg < 2
    · rw [if_pos ⟨hmap, hr⟩, if_pos hr]; exact ⟨1, 0, congrArg Res.ok (hs1 _), by simp [Opd.size]⟩
    · rw [if_neg (by omega), if_neg hr]; exact ⟨0, 0, congrArg Res.ok hs, rfl⟩
  · have hmap : s.map = 0 := by simpa using hh
    rw [if_pos hmap]; exact ⟨2, 1, rfl, rfl⟩
  · obtain ⟨ho, hf⟩ := h78 he
    have hmap : s.map = 1 := by simp at hh; exact hh.1
    rw [if_pos hmap, if_neg (by rw [ho]; simp [hf])]; exact ⟨0, 0, congrArg Res.ok hs, rfl⟩
  · by_cases hr : s.reg < 2
    · rw [if_pos hr, if_pos hr]; exact ⟨1, 0, congrArg Res.ok (hs1 _), by simp [Opd.size]⟩
    · rw [if_neg hr, if_neg hr]; exact ⟨0, 0, congrArg Res.ok hs, rfl⟩
  · by_cases hr : s.reg < 2
    · rw [if_pos hr, if_pos hr, resolveZ_eosz hm]; exact ⟨_, 0, congrArg Res.ok (hs1 _), by simp [Opd.size]⟩
    · rw [if_neg hr, if_neg hr]; exact ⟨0, 0, congrArg Res.ok hs, rfl⟩

/-- The entry for displacements. -/
def dispEntry (s : Ild) : Disp := (if s.map = 0 then dispMap0 else dispMap0F).getD s.opcode .none

theorem legacyDisp_zero {s : Ild} (hm : s.mode ≠ .unknown) (h0 : s.disp = 0) (h1 : s.map ≤ 1)
    (h7 : dispEntry s = .opC7 → s.map = 0) :
    legacyDisp s = .ok { s with disp := total s (tabD (dispEntry s) s.reg) } := by
  unfold legacyDisp
  rw [if_neg (by omega), if_neg (by omega)]
  have hs : s = { s with disp := 0 } := by rw [← h0]
  show (match dispEntry s with | .none => _ | .preserve => _ | .brdisp8 => _ | .bucket0 => _ | .memdispv => _ | .brdispz => _ | .opC7 => _) = _
  rcases he : dispEntry s with _ | _ | _ | _ | _ | _ | _ <;> dsimp only [tabD, total]
  · rfl
  · exact congrArg Res.ok hs
  · rfl
  · by_cases h64 : s.mode = .b64
    · rw [if_pos h64]; simp [Opd.size, h64]
    · rw [if_neg h64, resolveZ_eosz hm]
      have : min 4 (opSize s.mode s.osz s.rexW) = opSize s.mode s.osz s.rexW := by
        unfold opSize
        rcases h : s.mode with _ | _ | _ | _ <;> cases s.osz <;> cases s.rexW <;> first | exact absurd h h64 | rfl
      simp [Opd.size, h64, this]
  · rw [resolveV_easz hm]; simp [Opd.size]
  · rw [resolveZ_eosz hm]; simp [Opd.size]
  · by_cases hr : s.reg = 7
    · rw [if_pos ⟨h7 he, hr⟩, if_pos hr, resolveZ_eosz hm]; simp [Opd.size]
    · rw [if_neg (by omega), if_neg hr]; exact congrArg Res.ok hs

theorem dispDec_ok {s : Ild} {len D a b : Nat} (h1 : disp1 s = .ok { s with disp := D })
    (h2 : ∀ pos, setImm { s with disp := D, dispPos := pos } = .ok { s with disp := D, dispPos := pos, imm1 := a, imm2 := b })
    (h3 : len + D + a + b ≤ max) :
    dispDec max s len = .ok ({ s with disp := D, dispPos := if D = 0 then s.dispPos else len, imm1 := a, imm2 := b }, len + D + a + b) := by
  have hd : dispDec max s len = (disp1 s >>= fun s => if s.disp = 0 then immDec max s len
      else if max < len + s.disp then .err .badInsn else immDec max { s with dispPos := len } (len + s.disp)) := by
    unfold dispDec disp1
    by_cases hv : s.vex = 0
    · rw [if_pos hv, if_pos hv]
    · rw [if_neg hv, if_neg hv]
  rw [hd, h1]
  simp only [Res.bind_ok]
  by_cases h0 : D = 0
  · rw [if_pos h0, if_pos h0]
    unfold immDec
    have := h2 s.dispPos
    rw [show ({ s with disp := D } : Ild) = { s with disp := D, dispPos := s.dispPos } from rfl, this]
    simp only [Res.bind_ok]
    rw [if_neg (by omega)]
    subst h0
    rfl
  · rw [if_neg h0, if_neg (by omega), if_neg h0]
    unfold immDec
    rw [h2 len]
    simp only [Res.bind_ok]
    rw [if_neg (by omega)]

/-! ## The ModR/M byte -/

theorem sib_tab : ∀ mode ∈ [Mode.b16, .b32, .b64], ∀ asz : Bool, ∀ b < 256,
    (tab3 hasSib (eamode asz mode) (b / 64) (b % 8) ≠ 0 ↔ addrSize mode asz ≠ 2 ∧ b / 64 ≠ 3 ∧ b % 8 = 4) := by
  decide +kernel

theorem disp_tab : ∀ mode ∈ [Mode.b16, .b32, .b64], ∀ asz : Bool, ∀ b < 256,
    tab3 dispDefault (eamode asz mode) (b / 64) (b % 8) =
      if addrSize mode asz = 2 then
        if b / 64 = 1 then 1 else if b / 64 = 2 ∨ (b / 64 = 0 ∧ b % 8 = 6) then 2 else 0
      else if b / 64 = 1 then 1 else if b / 64 = 2 ∨ (b / 64 = 0 ∧ b % 8 = 5) then 4 else 0 := by
  decide +kernel

theorem modrmDec_ok {s : Ild} {len : Nat} {i : Insn} {rm : Rm} (hm : s.mode ≠ .unknown) (h8 : s.map < 8) (h0 : s.disp = 0)
    (hmr : s.modrm = 0) (ha : s.asz = i.asz) (ht : tabRm (hasModrm s.vex s.map s.opcode) = rm)
    (hmodrm : i.modrm.isSome = true ↔ rm ≠ .no) (hsib : i.sib.isSome = true ↔ rm = .yes ∧ i.hasSib s.mode)
    (hdisp : i.disp.length = if rm = .yes then i.dispSize s.mode else 0)
    (hat : At raw max len (i.modrm.toList ++ i.sib.toList)) :
    modrmDec raw max s len = dispDec max { s with modrm := (i.modrm.getD 0).toNat, disp := i.disp.length }
      (len + i.modrm.toList.length + i.sib.toList.length) := by
  have hmode : s.mode ∈ [Mode.b16, .b32, .b64] := by cases h : s.mode <;> simp [h] at hm ⊢
  unfold modrmDec
  rw [if_neg (by omega)]
  have hno : rm = .no → dispDec max s len = dispDec max { s with modrm := (i.modrm.getD 0).toNat, disp := i.disp.length }
      (len + i.modrm.toList.length + i.sib.toList.length) := by
    intro hrm
    subst hrm
    have e1 : i.modrm = none := by
      rcases h : i.modrm with _ | _
      · rfl
      · exact absurd rfl (hmodrm.1 (by rw [h]; rfl))
    have e2 : i.sib = none := by
      rcases h : i.sib with _ | _
      · rfl
      · exact absurd (hsib.1 (by rw [h]; rfl)).1 (by decide)
    rw [e1, e2, hdisp]
    simp only [Option.getD_none, Option.toList_none, List.length_nil, Nat.add_zero]
    rw [if_neg (by decide)]
    congr 1
    rcases s
    simp only at h0 hmr
    subst h0 hmr
    rfl
  rcases hh : hasModrm s.vex s.map s.opcode with _ | _ | _ | _ <;> rw [hh] at ht <;> dsimp only
  · exact hno ht.symm
  · -- yes
    have hrm : rm = .yes := ht.symm
    subst hrm
    obtain ⟨b, hb⟩ := Option.isSome_iff_exists.1 (hmodrm.2 (by decide))
    rw [if_pos rfl] at hdisp
    have hmod : i.mod = b.toNat / 64 := by unfold Insn.mod; rw [hb]; rfl
    have hrm : i.rm = b.toNat % 8 := by unfold Insn.rm; rw [hb]; rfl
    rw [hb] at hat ⊢
    simp only [Option.toList_some, List.cons_append, List.nil_append] at hat
    obtain ⟨r1, r2, hat⟩ := hat.cons
    rw [if_neg (by omega), r1]
    simp only [Res.bind_ok, Option.getD_some, Option.toList_some, List.length_singleton]
    have hs : ({ s with modrm := b.toNat } : Ild).mod = b.toNat / 64 := rfl
    have hs2 : ({ s with modrm := b.toNat } : Ild).rm = b.toNat % 8 := rfl
    rw [hs, hs2, disp_tab _ hmode _ _ b.toNat_lt]
    generalize hdd : (if addrSize s.mode s.asz = 2 then
        if b.toNat / 64 = 1 then 1 else if b.toNat / 64 = 2 ∨ (b.toNat / 64 = 0 ∧ b.toNat % 8 = 6) then 2 else 0
      else if b.toNat / 64 = 1 then 1 else if b.toNat / 64 = 2 ∨ (b.toNat / 64 = 0 ∧ b.toNat % 8 = 5) then 4 else 0) = dd
    have hs4 : ({ s with modrm := b.toNat, disp := dd } : Ild).mod = b.toNat / 64 := rfl
    have hs5 : ({ s with modrm := b.toNat, disp := dd } : Ild).rm = b.toNat % 8 := rfl
    rw [hs4, hs5]
    have hst := sib_tab _ hmode s.asz _ b.toNat_lt
    unfold Insn.hasSib at hsib
    unfold Insn.dispSize at hdisp
    rw [hmod, hrm, ← ha] at hsib hdisp
    by_cases hS : tab3 hasSib (eamode s.asz s.mode) (b.toNat / 64) (b.toNat % 8) ≠ 0
    · rw [if_pos hS]
      obtain ⟨x1, x2, x3⟩ := hst.1 hS
      obtain ⟨c, hc⟩ := Option.isSome_iff_exists.1 (hsib.2 ⟨rfl, x1, x2, x3⟩)
      rw [hc] at hat ⊢
      simp only [Option.toList_some] at hat
      obtain ⟨r3, r4, _⟩ := hat.cons
      unfold sibDec
      rw [if_neg (by omega), r3]
      simp only [Res.bind_ok, Option.toList_some, List.length_singleton]
      rw [hc] at hdisp
      rw [if_neg x1] at hdisp hdd
      subst hdd
      have hs3 : ∀ d, ({ s with modrm := b.toNat, disp := d } : Ild).mod = b.toNat / 64 := fun _ => rfl
      congr 1
      rw [hs3, hdisp]
      simp only [Option.getD_some]
      by_cases h5 : c.toNat % 8 = 5
      · by_cases hz : b.toNat / 64 = 0
        · simp [h5, hz, x3]
        · by_cases h1 : b.toNat / 64 = 1
          · simp [h5, hz, x3, h1]
          · have : b.toNat / 64 = 2 := by have := b.toNat_lt; omega
            simp [h5, hz, x3, h1, this]
      · simp [h5, x3]
    · rw [if_neg hS]
      have hns : i.sib = none := by
        rcases h : i.sib with _ | _
        · rfl
        · exact absurd (hst.2 (hsib.1 (by rw [h]; rfl)).2) hS
      rw [hns] at hdisp ⊢
      simp only [Option.toList_none, List.length_nil, Nat.add_zero]
      congr 2
      rw [hdisp, ← hdd]
      simp only [Option.getD_none]
      split
      · rfl
      · split
        · rfl
        · simp
  · -- ignored
    have hrm : rm = .regs := ht.symm
    subst hrm
    obtain ⟨b, hb⟩ := Option.isSome_iff_exists.1 (hmodrm.2 (by decide))
    have e2 : i.sib = none := by
      rcases h : i.sib with _ | _
      · rfl
      · exact absurd (hsib.1 (by rw [h]; rfl)).1 (by decide)
    rw [if_neg (by decide)] at hdisp
    rw [hb, e2] at hat ⊢
    simp only [Option.toList_some, Option.toList_none, List.append_nil] at hat
    obtain ⟨r1, r2, _⟩ := hat.cons
    rw [if_neg (by omega), r1]
    simp only [Res.bind_ok, Option.getD_some, Option.toList_some, Option.toList_none, List.length_singleton, List.length_nil, Nat.add_zero]
    rw [hdisp, ← h0]
  · exact hno ht.symm

end Ipt.Ild
