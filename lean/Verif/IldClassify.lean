import Verif.IldBranch

/-!
# Helper lemmas: classification never fails and is local; JMPABS
-/

set_option linter.unusedSimpArgs false

namespace Ipt

open Ild Spec

namespace Ild

/-- The conditions for JMPABS. -/
def isAbs (s : Ild) : Prop :=
  s.map = 0 ∧ s.opcode = 0xa1 ∧ s.vex = 0 ∧ s.mode = .b64 ∧ s.rex2 = true ∧ s.rexW = false ∧
    s.asz = false ∧ s.osz = false

theorem classify_cases (s : Ild) :
    (∃ x, (x.isDirect = false ∧ x.inst ≠ .jmpabs) ∧ ∀ raw, classify raw s = .ok x) ∨
    (s.vex = 0 ∧ s.rex2 = false ∧ ∃ near cls inst, kind s.map s.opcode = some (near, cls, inst) ∧
      ∀ raw, classify raw s = branchTarget raw s cls inst) ∨
    (isAbs s ∧ ∀ raw, classify raw s = branchTarget raw s .jump .jmpabs) := by
  by_cases hm : 1 < s.map
  · left; exact ⟨{}, ⟨rfl, by decide⟩, fun raw => by unfold classify; rw [if_pos hm]⟩
  by_cases hv : s.vex = 0
  case neg => left; exact ⟨{}, ⟨rfl, by decide⟩, fun raw => by unfold classify; rw [if_neg hm, if_pos hv]⟩
  by_cases hk : s.rex2 = false ∧ (kind s.map s.opcode).isSome
  · right; left
    obtain ⟨⟨near, cls, inst⟩, hk2⟩ := Option.isSome_iff_exists.1 hk.2
    exact ⟨hv, hk.1, near, cls, inst, hk2, fun raw => classify_kind hv hk.1 hk2⟩
  by_cases ha : isAbs s
  · right; right
    refine ⟨ha, fun raw => ?_⟩
    obtain ⟨a1, a2, a3, a4, a5, a6, a7, a8⟩ := ha
    unfold classify
    simp [a1, a2, a3, a4, a5, a6, a7, a8]
  · left
    obtain ⟨x, hx⟩ : ∃ x, classify [] s = .ok x ∧ (x.isDirect = false ∧ x.inst ≠ .jmpabs) ∧
        ∀ raw, classify raw s = classify [] s := by
      unfold classify
      rw [if_neg hm, if_neg (by simp [hv])]
      by_cases h7 : s.opcode / 16 = 7
      · rw [if_pos h7]
        have : ¬ (s.map = 0 ∧ ¬ s.rex2 = true) := by
          intro h; exact hk ⟨by simpa using h.2, by simp [kind, h.1, h7]⟩
        rw [if_neg this]
        exact ⟨_, rfl, ⟨rfl, by decide⟩, fun raw => by rw [if_neg hm, if_neg (by simp [hv]), if_pos h7, if_neg this]⟩
      by_cases h8 : s.opcode / 16 = 8
      · rw [if_neg h7, if_pos h8]
        have : ¬ (s.map = 1 ∧ ¬ s.rex2 = true) := by
          intro h; exact hk ⟨by simpa using h.2, by simp [kind, h.1, h8]⟩
        rw [if_neg this]
        exact ⟨_, rfl, ⟨rfl, by decide⟩, fun raw => by
          rw [if_neg hm, if_neg (by simp [hv]), if_neg h7, if_pos h8, if_neg this]⟩
      rw [if_neg h7, if_neg h8]
      have hd : ∀ raw, classify raw s = _ := fun raw => by
        rw [classify, if_neg hm, if_neg (by simp [hv]), if_neg h7, if_neg h8]
      simp only [if_neg hm, if_neg (show ¬ s.vex ≠ 0 by simp [hv]), if_neg h7, if_neg h8]
      split
      all_goals (repeat' split)
      all_goals first
        | exact ⟨_, rfl, ⟨rfl, by decide⟩, fun raw => rfl⟩
        | (exfalso; rename_i ho h0
           exact hk ⟨by simpa using h0.2, by simp [kind, h0.1, ho]⟩)
        | (exfalso; rename_i ho h0
           exact ha ⟨h0.1, ho, hv, h0.2.1, by simpa using h0.2.2⟩)
    exact ⟨x, hx.2.1, fun raw => by rw [hx.2.2, hx.1]⟩

theorem tabA1 : hasModrm 0 0 0xa1 = .no ∧ dispMap0.getD 0xa1 .none = .memdispv ∧
    immLegacy0.getD 0xa1 .zero = .zero := by decide +kernel

/-- JMPABS has an eight byte absolute address. -/
theorem modrm_abs {raw : List UInt8} {max : Nat} {s : Ild} {len : Nat} (hv : s.vex = 0)
    (h1 : s.imm1 = 0) (h2 : s.imm2 = 0) (hd : s.disp = 0) (hmap : s.map = 0)
    (ho : s.opcode = 0xa1) (hm : s.mode = .b64) (ha : s.asz = false) :
    modrmDec raw max s len =
      if max < len + 8 then .err .badInsn
      else .ok ({ s with disp := 8, dispPos := len }, len + 8) := by
  apply modrm_branch hv h1 h2 (by omega) (by rw [hmap, ho]; exact tabA1.1) _ (by omega)
    (by rw [hmap, ho]; exact tabA1.2.2)
  unfold legacyDisp
  rw [if_neg (by omega), if_neg (by omega), if_pos hmap, ho, tabA1.2.1]
  simp [easz, hm, ha, resolveV]

theorem Frame.asz {s s'} (h : Frame s s') : s'.asz = s.asz := by
  obtain ⟨_, _, _, _, _, rfl⟩ := h; rfl

/-- Where the displacement of a branch is. -/
theorem decode_disp {raw : List UInt8} {max : Nat} {mode : Mode} {s' : Ild} {n : Nat}
    (hd : decode raw max mode = .ok (s', n)) :
    (∀ near cls inst, s'.vex = 0 → s'.rex2 = false →
      kind s'.map s'.opcode = some (near, cls, inst) →
      (s'.disp = 1 ∨ s'.disp = 2 ∨ s'.disp = 4 ∨ s'.disp = 8) ∧ s'.dispPos + s'.disp = n) ∧
    (isAbs s' → s'.disp = 8 ∧ s'.dispPos + s'.disp = n) := by
  unfold decode at hd
  constructor
  · intro near cls inst hv hr hk
    rcases prefix_cases _ _ _ _ _ _ (init0 mode) hd with
      ⟨P, b, rr, rw', h1, h2, h3, h4, h5, h6⟩ | h' | h'
    · simp only [Nat.zero_add] at h4 h5 h6
      have hi := (foldl_pfx_init P (init0 mode)).rex rr rw'
      have hb : b < 256 := (rd_ok_bound h5).2
      have hmap : s'.map ≤ 1 := by
        unfold kind at hk
        repeat' split at hk
        all_goals first
          | (cases hk; done)
          | omega
      rcases opc_frame h6 hmap with ⟨hb0, hm, ho⟩ | ⟨hb0, hm, ho⟩
      · rw [hm, ho] at hk
        rw [opc_kind0 hi hb hk] at h6
        split at h6
        · cases h6
        obtain ⟨h7, rfl⟩ := Prod.mk.inj (Res.ok.inj h6)
        rw [← h7]
        exact ⟨(kindW_mem _ near).elim .inl
          (fun h => h.elim (fun h => .inr (.inl h)) fun h => .inr (.inr (.inl h))), rfl⟩
      · rw [hm] at hk
        obtain ⟨k1, rfl, k3⟩ := kind1_inv hk
        have hwe := kindW_mem { (P.foldl (fun s b => pfxSt s b.toNat) { mode := mode }) with
          rexR := rr, rexW := rw' } true
        simp only [kindW, if_true] at hwe
        rw [hb0, opc_jcc hi (rd_ok_bound ho).2 k1 ho] at h6
        split at h6
        · cases h6
        obtain ⟨h7, rfl⟩ := Prod.mk.inj (Res.ok.inj h6)
        rw [← h7]
        exact ⟨by dsimp only; omega, rfl⟩
    · exact absurd hv h'
    · rw [h'.rex2'] at hr; cases hr
  · rintro ⟨a1, a2, a3, a4, a5, a6, a7, a8⟩
    rcases prefix_cases _ _ _ _ _ _ (init0 mode) hd with
      ⟨P, b, rr, rw', h1, h2, h3, h4, h5, h6⟩ | h' | ⟨P, p, b, h1, h2, h3, h4, h5, h6, h7⟩
    · exfalso
      have hi := (foldl_pfx_init P (init0 mode)).rex rr rw'
      have : s'.rex2 = false := by
        unfold opc at h6
        split at h6
        · rw [(modrmDec_frame h6).rex2]; exact hi.rex2
        split at h6
        · cases h6
        obtain ⟨m, hr, h⟩ := Res.bind_eq_ok.1 h6
        have nx : ∀ {s0 l}, nextAsOpcode raw max s0 l = .ok (s', n) → s'.rex2 = s0.rex2 := by
          intro s0 l h
          unfold nextAsOpcode at h
          split at h
          · cases h
          obtain ⟨m, hr, h⟩ := Res.bind_eq_ok.1 h
          exact (modrmDec_frame h).rex2
        split at h
        · rw [nx h]; exact hi.rex2
        split at h
        · rw [nx h]; exact hi.rex2
        split at h
        · rw [nx h]; exact hi.rex2
        rw [(modrmDec_frame h).rex2]; exact hi.rex2
      rw [this] at a5; cases a5
    · exact absurd a3 h'
    · have hi := foldl_pfx_init P (init0 mode)
      have f := modrmDec_frame h7
      have e1 : p / 128 = 0 := by rw [← a1, f.map]
      have e2 : b = 0xa1 := by rw [← a2, f.opcode]
      have e3 := f.asz
      rw [a7] at e3
      rw [modrm_abs (by exact hi.vex) (by exact hi.imm1) (by exact hi.imm2) (by exact hi.disp)
        (by exact e1) (by exact e2) (by dsimp only; rw [foldl_pfx_mode]; exact h3)
        (by exact e3.symm)] at h7
      split at h7
      · cases h7
      obtain ⟨h8, rfl⟩ := Prod.mk.inj (Res.ok.inj h7)
      rw [← h8]
      exact ⟨rfl, rfl⟩

/-- With enough fuel or with an outcome, the amount of fuel does not matter. -/
theorem fuel_irrel {raw : List UInt8} {max : Nat} :
    ∀ (f g : Nat) (s0 : Ild) (len rex : Nat),
      ((len ≤ max ∧ max < len + f ∧ max < len + g) ∨
        (f ≤ g ∧ prefixDecode raw max f s0 len rex ≠ .ub)) →
      prefixDecode raw max g s0 len rex = prefixDecode raw max f s0 len rex := by
  intro f
  induction f with
  | zero =>
    intro g s0 len rex h
    rcases h with h | h
    · omega
    · exact absurd rfl h.2
  | succ f ih =>
    intro g s0 len rex h
    obtain ⟨g, rfl⟩ : ∃ k, g = k + 1 := ⟨g - 1, by rcases h with h | h <;> omega⟩
    rw [prefixDecode_succ] at h
    rw [prefixDecode_succ, prefixDecode_succ]
    by_cases hl : max ≤ len
    · rw [if_pos hl, if_pos hl]
    rw [if_neg hl] at h
    rw [if_neg hl, if_neg hl]
    cases hr : rd raw len with
    | ok b =>
      rw [hr, Res.bind_ok] at h
      rw [Res.bind_ok, Res.bind_ok]
      by_cases hp : isPfx s0.mode b
      · rw [pfxStep_pfx hp] at h
        rw [pfxStep_pfx hp, pfxStep_pfx hp]
        refine ih g _ _ _ ?_
        rcases h with h | h
        · left; omega
        · right; exact ⟨by omega, h.2⟩
      · unfold pfxStep
        cases hq : pfxOf b <;> dsimp only
        · exact absurd (by simp [isPfx, hq]) hp
        · exact absurd (by simp [isPfx, hq]) hp
        · exact absurd (by simp [isPfx, hq]) hp
        · exact absurd (by simp [isPfx, hq]) hp
        · exact absurd (by simp [isPfx, hq]) hp
        · by_cases hm : s0.mode = .b64
          · exact absurd (by simp [isPfx, hq, hm]) hp
          · rw [if_neg hm, if_neg hm]
        · exact absurd (by simp [isPfx, hq]) hp
    | err e => rfl
    | ub => rfl

theorem good_decode (mode : Mode) {raw max s n} (h : decode raw max mode = .ok (s, n)) :
    1 ≤ n ∧ n ≤ max ∧ ∀ raw' max', n ≤ max' → Agree n raw raw' →
      decode raw' max' mode = .ok (s, n) := by
  unfold decode at h
  obtain ⟨a, b, c⟩ := (good_prefixDecode (max + 1) { mode := mode } 0 0 rfl).ok raw max s n h
  refine ⟨a, b, fun raw' max' h1 h2 => ?_⟩
  have h3 := c raw' max' h1 h2
  unfold decode
  rw [← h3]
  by_cases hle : max ≤ max'
  · exact fuel_irrel _ _ _ _ _ (.inr ⟨by omega, by rw [h3]; simp⟩)
  · exact fuel_irrel _ _ _ _ _ (.inl ⟨by omega, by omega, by omega⟩)

theorem branchTarget_ok {raw : List UInt8} {s : Ild} {cls inst n}
    (hd : s.disp = 1 ∨ s.disp = 2 ∨ s.disp = 4 ∨ s.disp = 8) (hn : s.dispPos + s.disp = n)
    (hl : n ≤ raw.length) :
    ∃ x, branchTarget raw s cls inst = .ok x ∧ ∀ raw', Agree n raw raw' →
      branchTarget raw' s cls inst = .ok x := by
  obtain ⟨v, _, hv⟩ := rdLE_ex (m := raw) (n := s.disp) (pos := s.dispPos) (by omega)
  unfold branchTarget
  simp only [if_pos hd, hv, Res.bind_ok, Res.pure_eq]
  refine ⟨_, rfl, fun raw' ha => ?_⟩
  have : rdLE raw' s.dispPos s.disp = rdLE raw s.dispPos s.disp :=
    rdLE_congr fun k hk => ha _ (by omega)
  rw [this, hv, Res.bind_ok]

/-- Classification of a decoded instruction succeeds and looks at its bytes only. -/
theorem classify_ok {raw : List UInt8} {max : Nat} {mode : Mode} {s : Ild} {n : Nat}
    (hd : decode raw max mode = .ok (s, n)) (hmax : max ≤ raw.length) :
    ∃ x, classify raw s = .ok x ∧ ∀ raw', Agree n raw raw' → classify raw' s = .ok x := by
  obtain ⟨h1, h2⟩ := decode_disp hd
  have hn := (good_decode mode hd).2.1
  rcases classify_cases s with ⟨x, -, hx⟩ | ⟨hv, hr, near, cls, inst, hk, hx⟩ | ⟨ha, hx⟩
  · exact ⟨x, hx _, fun raw' _ => hx _⟩
  · obtain ⟨k1, k2⟩ := h1 near cls inst hv hr hk
    simp only [hx]
    exact branchTarget_ok k1 k2 (by omega)
  · obtain ⟨k1, k2⟩ := h2 ha
    simp only [hx]
    exact branchTarget_ok (by omega) k2 (by omega)

end Ild

end Ipt
