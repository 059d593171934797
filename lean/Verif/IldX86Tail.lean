import Verif.IldX86

/-!
# Helper lemmas: what follows the opcode
-/

set_option linter.unusedSimpArgs false
set_option linter.unusedVariables false

namespace Ipt.Ild

open Spec Spec.X86

variable {raw : List UInt8} {max : Nat}

/-- The decoder is about to read the ModR/M byte of `i`. -/
structure Ready (m : Mode) (i : Insn) (s : Ild) : Prop where
  mode : s.mode = m
  known : m ≠ .unknown
  disp : s.disp = 0
  modrm : s.modrm = 0
  imm2 : s.imm2 = 0
  osz : s.osz = i.osz
  asz : s.asz = i.asz
  w : s.rexW = i.w m
  op : s.opcode = i.op.toNat

/-- The state at the end. -/
structure End (s s' : Ild) (i : Insn) : Prop where
  is : ∃ D p a b, s' = { s with modrm := (i.modrm.getD 0).toNat, disp := D, dispPos := p, imm1 := a, imm2 := b }

theorem total_eq {m : Mode} {i : Insn} {s : Ild} (h : Ready m i s) (l : List Opd) :
    (l.map (Opd.size m i.osz i.asz (i.w m))).sum = total s l := by
  unfold total
  rw [h.mode, h.osz, h.asz, h.w]

theorem total_append (s : Ild) (l l' : List Opd) : total s (l ++ l') = total s l + total s l' := by simp [total]

theorem reg_eq {i : Insn} {s : Ild} {d : Nat} : ({ s with modrm := (i.modrm.getD 0).toNat, disp := d } : Ild).reg = i.reg := rfl

theorem Tab.some {rm : Rm} {opds : List Opd} {hm : Modrm} {d : Disp} {im : Imm} {reg : Nat} {mod3 : Bool} {f : Option (Rm × List Opd)}
    (h : Tab f hm d im reg mod3 = true) (hf : f = some (rm, opds)) :
    tabRm hm = rm ∧ tabD d reg ++ tabI im reg = opds ∧ (rm = .no ∨ mod3 = true ∨ tabD d reg = []) := by
  subst hf
  unfold Tab at h
  simp only [Bool.and_eq_true, Bool.or_eq_true, beq_iff_eq] at h
  obtain ⟨⟨h1, h2⟩, h3⟩ := h
  refine ⟨h1, h2, ?_⟩
  rcases h3 with (h3 | h3) | h3
  · exact .inl h3
  · exact .inr (.inl h3)
  · exact .inr (.inr h3)

theorem opd_pos {m : Mode} {osz asz w : Bool} (o : Opd) : 0 < Opd.size m osz asz w o := by
  cases o <;> cases m <;> cases osz <;> cases asz <;> cases w <;> decide

theorem total_pos {s : Ild} {l : List Opd} (h : l ≠ []) : 0 < total s l := by
  rcases l with _ | ⟨o, l⟩
  · exact absurd rfl h
  · unfold total
    have := opd_pos (m := s.mode) (osz := s.osz) (asz := s.asz) (w := s.rexW) o
    simp only [List.map_cons, List.sum_cons]
    omega

/-- The immediates do not depend on the position of the displacement. -/
theorem setImm_pos (x : Ild) (q : Nat) : setImm { x with dispPos := q } = (setImm x >>= fun y => .ok { y with dispPos := q }) := by
  unfold setImm
  dsimp only
  split
  · rfl
  · split
    · split <;> rfl
    · have e1 : eosz { x with dispPos := q } = eosz x := rfl
      have e2 : eoszDf64 { x with dispPos := q } = eoszDf64 x := rfl
      have e3 : Ild.reg { x with dispPos := q } = x.reg := rfl
      rw [e1, e2, e3]
      have z : ∀ (r : Res Nat) , (do let n ← r; pure ({ x with dispPos := q, imm1 := n } : Ild)) =
          ((do let n ← r; pure ({ x with imm1 := n } : Ild)) >>= fun y => .ok { y with dispPos := q }) := by
        intro r; cases r <;> rfl
      split <;> first | rfl | exact z _ | (split <;> first | rfl | exact z _ | (split <;> rfl))

theorem tail_legacy {m : Mode} {i : Insn} {s : Ild} {len : Nat} {rm : Rm} {opds : List Opd} (h : Ready m i s) (h1 : s.imm1 = 0)
    (hv : s.vex = 0) (hmap : s.map ≤ 1)
    (ht : Tab (some (rm, opds)) (hasModrm 0 s.map s.opcode) (dispEntry s)
      ((if s.map = 0 then immLegacy0 else immLegacy1).getD s.opcode .zero) i.reg (i.mod = 3) = true)
    (h7 : dispEntry s = .opC7 → s.map = 0)
    (hh : Home 0 s.map ((if s.map = 0 then immLegacy0 else immLegacy1).getD s.opcode .zero) = true)
    (h78 : (if s.map = 0 then immLegacy0 else immLegacy1).getD s.opcode .zero = .op78 → s.osz = false ∧ s.lastF2f3 ≠ 2)
    (hmodrm : i.modrm.isSome = true ↔ rm ≠ .no) (hsib : i.sib.isSome = true ↔ rm = .yes ∧ i.hasSib m)
    (hdisp : i.disp.length = if rm = .yes then i.dispSize m else 0)
    (hopds : i.opds.length = (opds.map (Opd.size m i.osz i.asz (i.w m))).sum)
    (hat : At raw max len (i.modrm.toList ++ i.sib.toList ++ i.disp ++ i.opds)) :
    ∃ D p a b, modrmDec raw max s len = .ok ({ s with modrm := (i.modrm.getD 0).toNat, disp := D, dispPos := p, imm1 := a, imm2 := b },
        len + i.modrm.toList.length + i.sib.toList.length + i.disp.length + i.opds.length) ∧
      (rm = .no → tabD (dispEntry s) 0 ≠ [] → tabI ((if s.map = 0 then immLegacy0 else immLegacy1).getD s.opcode .zero) 0 = [] →
        D = i.opds.length ∧ p = len) := by
  obtain ⟨t1, t2, t3⟩ := Tab.some ht rfl
  generalize hI : (if s.map = 0 then immLegacy0 else immLegacy1).getD s.opcode .zero = im at *
  rw [← h.mode] at hsib hdisp
  have hk := h.known
  rw [← h.mode] at hk
  have hat1 := hat.append.1.append.1
  have hfit := hat.fits
  rw [← hv] at t1
  rw [modrmDec_ok hk (by omega) h.disp h.modrm h.asz t1 hmodrm hsib hdisp hat1]
  simp only [List.length_append] at hfit
  have hD : disp1 { s with modrm := (i.modrm.getD 0).toNat, disp := i.disp.length } =
      .ok { s with modrm := (i.modrm.getD 0).toNat, disp := i.disp.length + total s (tabD (dispEntry s) i.reg) } := by
    unfold disp1
    rw [if_pos (show ({ s with modrm := (i.modrm.getD 0).toNat, disp := i.disp.length } : Ild).vex = 0 from hv)]
    by_cases h0 : i.disp.length = 0
    · have e := legacyDisp_zero (s := { s with modrm := (i.modrm.getD 0).toNat, disp := i.disp.length }) hk h0 hmap h7
      rw [e, h0, Nat.zero_add]
      rfl
    · have hnil : tabD (dispEntry s) i.reg = [] := by
        rcases t3 with t3 | t3 | t3
        · rw [t3, if_neg (by decide)] at hdisp; exact absurd hdisp h0
        · exfalso
          apply h0
          rw [hdisp]
          have : i.mod = 3 := by simpa using t3
          split
          · unfold Insn.dispSize; rw [this]; simp
          · rfl
        · exact t3
      rw [hnil]
      unfold legacyDisp
      rw [if_pos (by show 0 < i.disp.length; omega)]
      simp [total]
  have hdesc : immDesc s.vex s.map = .table (if s.map = 0 then immLegacy0 else immLegacy1) := by
    rw [hv]
    rcases (by omega : s.map = 0 ∨ s.map = 1) with e | e <;> rw [e] <;> rfl
  have hset : ∃ a b, (∀ pos, setImm { s with modrm := (i.modrm.getD 0).toNat, disp := i.disp.length + total s (tabD (dispEntry s) i.reg), dispPos := pos } =
      .ok { s with modrm := (i.modrm.getD 0).toNat, disp := i.disp.length + total s (tabD (dispEntry s) i.reg), dispPos := pos, imm1 := a, imm2 := b }) ∧
      a + b = total s (tabI im i.reg) := by
    have key := fun pos => setImm_ok (s := { s with modrm := (i.modrm.getD 0).toNat, disp := i.disp.length + total s (tabD (dispEntry s) i.reg), dispPos := pos })
      hk h1 h.imm2 (by show s.map < 8; omega) hdesc (by show Home s.vex s.map _ = true; rw [hv]; exact hI ▸ hh) (by show _ → _; rw [hI]; exact h78)
    obtain ⟨a, b, k1, k2⟩ := key 0
    refine ⟨a, b, ?_, by rw [k2]; show total s (tabI ((if s.map = 0 then immLegacy0 else immLegacy1).getD s.opcode .zero) _) = _; rw [hI]; rfl⟩
    intro pos
    obtain ⟨a', b', k3, k4⟩ := key pos
    rw [k3]
    have := setImm_pos { s with modrm := (i.modrm.getD 0).toNat, disp := i.disp.length + total s (tabD (dispEntry s) i.reg), dispPos := 0 } pos
    dsimp only at this
    rw [k3, k1] at this
    simp only [Res.bind_ok] at this
    exact this
  obtain ⟨a, b, ha, hab⟩ := hset
  have hsum : i.opds.length = total s (tabD (dispEntry s) i.reg) + (a + b) := by
    rw [hopds, total_eq h, ← t2, total_append, hab]
  refine ⟨i.disp.length + total s (tabD (dispEntry s) i.reg), if i.disp.length + total s (tabD (dispEntry s) i.reg) = 0 then s.dispPos
    else len + i.modrm.toList.length + i.sib.toList.length, a, b, ?_, ?_⟩
  · rw [dispDec_ok hD ha (by omega)]
    congr 2
    omega
  · intro hrm hdn hin
    have hmn : i.modrm = none := by
      rcases e : i.modrm with _ | _
      · rfl
      · exact absurd hrm (hmodrm.1 (by rw [e]; rfl))
    have hsn : i.sib = none := by
      rcases e : i.sib with _ | _
      · rfl
      · exact absurd (hsib.1 (by rw [e]; rfl)).1 (by rw [hrm]; decide)
    have hreg : i.reg = 0 := by unfold Insn.reg; rw [hmn]; rfl
    rw [hreg] at hsum hab ⊢
    rw [hin] at hab
    rw [hrm, if_neg (by decide)] at hdisp
    have hab : a + b = 0 := hab
    have := total_pos (s := s) hdn
    refine ⟨by omega, ?_⟩
    rw [if_neg (by omega), hmn, hsn]
    rfl

/-- Instructions without direct branches: three-byte opcodes, VEX and EVEX. -/
theorem tail_other {m : Mode} {i : Insn} {s : Ild} {len : Nat} {rm : Rm} {opds : List Opd} (h : Ready m i s) (h8 : s.map < 8)
    (hv : s.vex ≠ 0 ∨ 2 ≤ s.map) (t1 : tabRm (hasModrm s.vex s.map s.opcode) = rm)
    (himm : (∃ w, immDesc s.vex s.map = .width w ∧ w ≠ 0xff ∧ w = total s opds) ∨
      (∃ t, immDesc s.vex s.map = .table t ∧ tabI (t.getD s.opcode .zero) i.reg = opds ∧ Home s.vex s.map (t.getD s.opcode .zero) = true ∧
        t.getD s.opcode .zero ≠ .op78 ∧ s.imm1 = 0))
    (hmodrm : i.modrm.isSome = true ↔ rm ≠ .no) (hsib : i.sib.isSome = true ↔ rm = .yes ∧ i.hasSib m)
    (hdisp : i.disp.length = if rm = .yes then i.dispSize m else 0)
    (hopds : i.opds.length = (opds.map (Opd.size m i.osz i.asz (i.w m))).sum)
    (hat : At raw max len (i.modrm.toList ++ i.sib.toList ++ i.disp ++ i.opds)) :
    ∃ D p a b, modrmDec raw max s len = .ok ({ s with modrm := (i.modrm.getD 0).toNat, disp := D, dispPos := p, imm1 := a, imm2 := b },
        len + i.modrm.toList.length + i.sib.toList.length + i.disp.length + i.opds.length) := by
  rw [← h.mode] at hsib hdisp
  have hk := h.known
  rw [← h.mode] at hk
  have hat1 := hat.append.1.append.1
  have hfit := hat.fits
  rw [modrmDec_ok hk h8 h.disp h.modrm h.asz t1 hmodrm hsib hdisp hat1]
  simp only [List.length_append] at hfit
  have hD : disp1 { s with modrm := (i.modrm.getD 0).toNat, disp := i.disp.length } =
      .ok { s with modrm := (i.modrm.getD 0).toNat, disp := i.disp.length } := by
    unfold disp1
    by_cases e : s.vex = 0
    · rw [if_pos (show ({ s with modrm := (i.modrm.getD 0).toNat, disp := i.disp.length } : Ild).vex = 0 from e)]
      have h2 := hv.resolve_left (fun x => x e)
      unfold legacyDisp
      split
      · rfl
      · rfl
    · rw [if_neg (show ({ s with modrm := (i.modrm.getD 0).toNat, disp := i.disp.length } : Ild).vex ≠ 0 from e)]
  have hset : ∃ a b, (∀ pos, setImm { s with modrm := (i.modrm.getD 0).toNat, disp := i.disp.length, dispPos := pos } =
      .ok { s with modrm := (i.modrm.getD 0).toNat, disp := i.disp.length, dispPos := pos, imm1 := a, imm2 := b }) ∧
      a + b = total s opds := by
    rcases himm with ⟨w, e1, e2, e3⟩ | ⟨t, e1, e2, e3, e4, e5⟩
    · refine ⟨w, 0, fun pos => ?_, by omega⟩
      unfold setImm
      rw [if_neg (by show ¬ 8 ≤ s.map; omega)]
      show (match immDesc s.vex s.map with | .width w => _ | .table t => _) = _
      rw [e1]
      dsimp only
      rw [if_neg e2, ← h.imm2]
    · have key := fun pos => setImm_ok (s := { s with modrm := (i.modrm.getD 0).toNat, disp := i.disp.length, dispPos := pos })
        hk e5 h.imm2 h8 e1 e3 (fun e => absurd e e4)
      obtain ⟨a, b, k1, k2⟩ := key 0
      refine ⟨a, b, ?_, by rw [k2, ← e2]; rfl⟩
      intro pos
      obtain ⟨a', b', k3, k4⟩ := key pos
      rw [k3]
      have := setImm_pos { s with modrm := (i.modrm.getD 0).toNat, disp := i.disp.length, dispPos := 0 } pos
      dsimp only at this
      rw [k3, k1] at this
      simp only [Res.bind_ok] at this
      exact this
  obtain ⟨a, b, ha, hab⟩ := hset
  have hsum : i.opds.length = a + b := by
    rw [hopds, total_eq h, hab]
  refine ⟨i.disp.length, if i.disp.length = 0 then s.dispPos else len + i.modrm.toList.length + i.sib.toList.length, a, b, ?_⟩
  rw [dispDec_ok hD ha (by omega)]
  congr 2
  omega

end Ipt.Ild
