import Verif.Timing

/-! Helper lemmas: an invariant of the timing state that rules out internal errors. -/

set_option linter.unusedSimpArgs false

namespace Ipt

/-- The configurations a processor provides: a 4-bit MTC frequency and a 32-bit CPUID register. -/
structure TimeCfg.Sane (c : TimeCfg) : Prop where
  freq : c.mtcFreq < 16
  ebx : c.ebx < 2 ^ 32

/-- The invariant. -/
structure Timing.Ok (t : Timing) : Prop where
  tma : t.time.haveTsc = true → t.time.haveMtc = true → t.time.haveTma = true
  ctc : t.time.haveTma = true → t.time.haveMtc = false → t.time.ctc < 2 ^ 16
  tsc : t.tcal.tsc < 2 ^ 56

theorem Timing.ok_init : Timing.Ok {} := ⟨by simp, by simp, by simp⟩

theorem ctcDelta_no_internal {a b : Nat} {c : TimeCfg} : ctcDelta a b c ≠ .err .internal := by
  unfold ctcDelta shl1
  repeat' split
  · rw [Res.bind_ok]; dsimp only; split <;> simp
  · simp
  · simp

theorem ctcFc_no_internal {a : Nat} {c : TimeCfg} : ctcFc a c ≠ .err .internal := by
  unfold ctcFc
  repeat' split
  all_goals simp

theorem shl32_ok {v n r : Nat} (h : shl32 v n = .ok r) : r = v * 2 ^ n % 2 ^ 32 := by
  unfold shl32 at h
  split at h <;> cases h
  rfl

theorem ctcDelta_lt {a b d f : Nat} {c : TimeCfg} (hf : c.mtcFreq = f) (ha : a < 2 ^ (f + 8))
    (h : ctcDelta a b c = .ok d) : d < 2 ^ (f + 8) := by
  unfold ctcDelta shl1 at h
  split at h
  · split at h
    · simp only [Res.bind_ok] at h
      split at h
      · cases h
      · injection h with h
        have : (a + 2 ^ (c.mtcFreq + 8)) % 2 ^ 32 ≤ a + 2 ^ (f + 8) := by rw [hf]; exact Nat.mod_le _ _
        omega
    · cases h
  · injection h with h; omega

theorem ctcFc_lt {d r : Nat} {c : TimeCfg} (hc : c.Sane) (hd : d < 2 ^ 23) (h : ctcFc d c = .ok r) : r < 2 ^ 56 := by
  unfold ctcFc at h
  split at h
  · cases h
  · split at h
    · cases h
    · injection h with h
      have h1 : d * c.ebx ≤ 2 ^ 23 * 2 ^ 32 := Nat.mul_le_mul (by omega) (by have := hc.ebx; omega)
      have h2 : d * c.ebx % 2 ^ 64 ≤ d * c.ebx := Nat.mod_le _ _
      have h3 : d * c.ebx % 2 ^ 64 / c.eax ≤ d * c.ebx % 2 ^ 64 := Nat.div_le_self _ _
      omega

theorem mtc_lt {p f r : Nat} (hp : p < 2 ^ 8) (h : shl32 p f = .ok r) : r < 2 ^ (f + 8) := by
  have h0 := shl32_ok h
  have h1 : p * 2 ^ f % 2 ^ 32 ≤ p * 2 ^ f := Nat.mod_le _ _
  have h2 : p * 2 ^ f < 2 ^ 8 * 2 ^ f := Nat.mul_lt_mul_of_pos_right hp (Nat.pos_of_ne_zero (by simp))
  rw [Nat.pow_add, Nat.mul_comm (2 ^ f)]
  omega

theorem pow_le_23 {f : Nat} (hf : f < 16) : 2 ^ (f + 8) ≤ 2 ^ 23 := Nat.pow_le_pow_right (by omega) (by omega)

theorem tcal_mtc_no_internal {c : TimeCfg} (hc : c.Sane) (t : Tcal) {p : Nat} (hp : p < 2 ^ 8) :
    (t.updateMtc p c).2 ≠ .err .internal := by
  unfold Tcal.updateMtc
  have h23 := pow_le_23 hc.freq
  split
  · rename_i ctc hctc
    have h1 := mtc_lt hp hctc
    split
    · simp
    · split
      · simp
      · have hd := @ctcDelta_no_internal ctc t.ctc c
        dsimp only
        split
        · rename_i e he; intro h; injection h with h; subst h; exact hd he
        · simp
        · rename_i delta hdelta
          have h2 := ctcDelta_lt rfl h1 hdelta
          have hd := @ctcFc_no_internal delta c
          split
          · rename_i e he; intro h; injection h with h; subst h; exact hd he
          · simp
          · rename_i fc hfc
            have h3 := ctcFc_lt hc (by omega) hfc
            rw [if_neg (by omega)]
            split
            · simp
            · simp
            · rename_i e he
              split at he
              · unfold Tcal.skl168Skips shl1 at he
                split at he
                · simp only [Res.bind_ok] at he
                  repeat' split at he
                  all_goals cases he
                · cases he
              · cases he
            · simp
  · simp

theorem tcal_mtc_tsc {c : TimeCfg} (t : Tcal) (p : Nat) : (t.updateMtc p c).1.tsc = t.tsc := by
  unfold Tcal.updateMtc Tcal.setFcr
  repeat' split
  all_goals try rfl
  all_goals dsimp only
  all_goals repeat' split
  all_goals rfl

theorem time_mtc_no_internal {c : TimeCfg} (t : Time) {p : Nat} (h : t.haveTma = true → t.haveMtc = false → t.ctc < 2 ^ 16) :
    (t.updateMtc p c).2 ≠ .err .internal := by
  unfold Time.updateMtc
  split
  · simp
  · split
    · rename_i ctc _
      dsimp only
      split
      · simp
      · rename_i hn
        split
        · rename_i e he
          split at he
          · rename_i hm
            unfold tmaCtc at he
            rw [if_neg (by have := h (by simp_all) hm; omega)] at he
            dsimp only at he
            split at he
            · unfold shl32 at he
              split at he
              · simp at he
              · cases he
            · cases he
          · cases he
        · simp
        · rename_i last _
          have hd := @ctcDelta_no_internal ctc last c
          split
          · rename_i e he; intro h; injection h with h; subst h; exact hd he
          · simp
          · rename_i delta _
            have hd := @ctcFc_no_internal delta c
            split
            · rename_i e he; intro h; injection h with h; subst h; exact hd he
            · simp
            · simp
    · simp

theorem time_cyc_no_internal {c : TimeCfg} (t : Time) (v fcr : Nat) : (t.updateCyc v c fcr).2 ≠ .err .internal := by
  unfold Time.updateCyc
  split
  · simp
  · rename_i hfcr
    split
    · simp
    · rename_i e he
      split at he
      · unfold adjustCyc at he
        rw [if_neg hfcr] at he
        split at he
        · cases he
        · intro hh; injection hh with hh; subst hh
          have hd := @ctcDelta_no_internal t.ctc t.ctcCyc c
          revert he hd
          cases ctcDelta t.ctc t.ctcCyc c with
          | err e => intro he hd; simp at he; simp [he] at hd
          | ub => simp
          | ok d =>
            intro he _
            have hd := @ctcFc_no_internal d c
            rw [Res.bind_ok] at he
            revert hd he
            cases ctcFc d c with
            | err e => intro he hd; simp at he; simp [he] at hd
            | ub => simp
            | ok d => simp [hfcr]
      · cases he
    · simp

theorem time_cyc_same {c : TimeCfg} (t : Time) (v fcr : Nat) :
    (t.updateCyc v c fcr).1.haveTma = t.haveTma ∧ (t.updateCyc v c fcr).1.haveMtc = t.haveMtc ∧
    (t.updateCyc v c fcr).1.haveTsc = t.haveTsc ∧ (t.updateCyc v c fcr).1.ctc = t.ctc := by
  unfold Time.updateCyc
  repeat' split
  all_goals exact ⟨rfl, rfl, rfl, rfl⟩

theorem time_mtc_ok {c : TimeCfg} (t : Time) (p : Nat) :
    ((t.updateMtc p c).1.haveTma = t.haveTma ∧ (t.updateMtc p c).1.haveTsc = t.haveTsc) ∧
    ((t.updateMtc p c).1 = t ∨ ((t.updateMtc p c).1.haveMtc = true ∧ ¬ (t.haveTsc = true ∧ t.haveTma = false))) := by
  unfold Time.updateMtc
  split
  · simp
  · rename_i hg
    split
    · dsimp only
      repeat' split
      all_goals exact ⟨⟨rfl, rfl⟩, .inr ⟨rfl, hg⟩⟩
    · simp

theorem both_inv {x : Tcal × Res Unit} {t : Time} {f : Time × Res Unit} (h1 : Timing.Ok ⟨t, x.1⟩)
    (h2 : Timing.Ok ⟨f.1, x.1⟩) : (Timing.both x t f).1.Ok := by
  unfold Timing.both
  split
  · exact h2
  · exact h1

theorem both_no_internal {x : Tcal × Res Unit} {t : Time} {f : Time × Res Unit} (h1 : x.2 ≠ .err .internal)
    (h2 : f.2 ≠ .err .internal) : (Timing.both x t f).2 ≠ .err .internal := by
  have key : ∀ r : Res Unit, r ≠ .err .internal → okBadConfig r ≠ .err .internal := by
    intro r hr
    unfold okBadConfig
    split
    · simp
    · exact hr
  unfold Timing.both
  split
  · exact key _ h2
  · exact key _ h1

/-- Applying timing packets with payloads in range preserves the invariant and gives no internal error. -/
theorem timing_ok {c : TimeCfg} (hc : c.Sane) {s : Timing} (h : s.Ok) {p : TimePkt} (hp : p.InRange) :
    (s.apply c p).1.Ok ∧ (s.apply c p).2 ≠ .err .internal := by
  obtain ⟨h1, h2, h3⟩ := h
  cases p with
  | tsc v =>
    have hv : v < 2 ^ 56 := hp
    refine ⟨both_inv ⟨h1, h2, hv⟩ ⟨by simp [Time.updateTsc], by simp [Time.updateTsc], hv⟩, both_no_internal (by simp) (by simp)⟩
  | hTsc v =>
    have hv : v < 2 ^ 56 := hp
    have e1 : (s.tcal.headerTsc v).1.tsc = v := by
      unfold Tcal.headerTsc Tcal.setFcr
      dsimp only
      repeat' split
      all_goals rfl
    have e2 : (s.tcal.headerTsc v).2 ≠ .err .internal := by
      unfold Tcal.headerTsc
      dsimp only
      repeat' split
      all_goals first | simp | skip
      all_goals omega
    refine ⟨both_inv ⟨h1, h2, by rw [e1]; exact hv⟩ ⟨by simp [Time.updateTsc], by simp [Time.updateTsc], by rw [e1]; exact hv⟩,
      both_no_internal e2 (by simp)⟩
  | hCbr r =>
    have e1 : (s.tcal.headerCbr r c).1.tsc = s.tcal.tsc := by
      unfold Tcal.headerCbr Tcal.setFcr
      repeat' split
      all_goals rfl
    have e2 : (s.tcal.headerCbr r c).2 ≠ .err .internal := by
      unfold Tcal.headerCbr
      repeat' split
      all_goals simp
    have e3 : (s.time.updateCbr r).2 ≠ .err .internal := by
      unfold Time.updateCbr
      split <;> simp
    refine ⟨both_inv ⟨h1, h2, by rw [e1]; exact h3⟩ ⟨?_, ?_, by rw [e1]; exact h3⟩, both_no_internal e2 e3⟩
    · unfold Time.updateCbr; split <;> exact h1
    · unfold Time.updateCbr; split <;> exact h2
  | cbr r =>
    have e1 : (s.tcal.updateCbr r c).1.tsc = 0 := by
      unfold Tcal.updateCbr Tcal.headerCbr Tcal.setFcr
      repeat' split
      all_goals rfl
    have e2 : (s.tcal.updateCbr r c).2 ≠ .err .internal := by
      unfold Tcal.updateCbr Tcal.headerCbr
      repeat' split
      all_goals simp
    have e3 : (s.time.updateCbr r).2 ≠ .err .internal := by
      unfold Time.updateCbr
      split <;> simp
    refine ⟨both_inv ⟨h1, h2, by rw [e1]; omega⟩ ⟨?_, ?_, by rw [e1]; omega⟩, both_no_internal e2 e3⟩
    · unfold Time.updateCbr; split <;> exact h1
    · unfold Time.updateCbr; split <;> exact h2
  | tma ctc fc =>
    refine ⟨both_inv ⟨h1, h2, h3⟩ ⟨?_, ?_, h3⟩, both_no_internal (by simp) ?_⟩
    · unfold Time.updateTma
      repeat' split
      all_goals first | exact h1 | (intro _ _; rfl)
    · unfold Time.updateTma
      repeat' split
      all_goals try exact h2
      all_goals
        intro _ _
        exact Nat.lt_of_le_of_lt (Nat.mod_le _ _) hp.1
    · unfold Time.updateTma
      repeat' split
      all_goals try simp
      simp_all
  | mtc p =>
    have hv : p < 2 ^ 8 := hp
    have e1 := tcal_mtc_tsc (c := c) s.tcal p
    obtain ⟨⟨a1, a2⟩, a3⟩ := time_mtc_ok (c := c) s.time p
    refine ⟨both_inv ⟨h1, h2, by rw [e1]; exact h3⟩ ⟨?_, ?_, by rw [e1]; exact h3⟩,
      both_no_internal (tcal_mtc_no_internal hc _ hv) (time_mtc_no_internal _ h2)⟩
    · dsimp only
      rw [a1, a2]
      rcases a3 with a3 | ⟨_, a3⟩
      · rw [a3]; exact h1
      · intro b1 _
        cases h : s.time.haveTma
        · exact absurd ⟨b1, h⟩ a3
        · rfl
    · dsimp only
      rw [a1]
      rcases a3 with a3 | ⟨a3, _⟩
      · rw [a3]; exact h2
      · rw [a3]; simp
  | cyc v =>
    have key : ∀ fcr, (Timing.both (s.tcal.updateCyc v, .ok ()) s.time (s.time.updateCyc v c fcr)).1.Ok ∧
        (Timing.both (s.tcal.updateCyc v, .ok ()) s.time (s.time.updateCyc v c fcr)).2 ≠ .err .internal := by
      intro fcr
      obtain ⟨a1, a2, a3, a4⟩ := time_cyc_same (c := c) s.time v fcr
      refine ⟨both_inv ⟨h1, h2, h3⟩ ⟨?_, ?_, h3⟩, both_no_internal (by simp) (time_cyc_no_internal _ _ _)⟩
      · dsimp only; rw [a1, a2, a3]; exact h1
      · dsimp only; rw [a1, a2, a4]; exact h2
    exact key _

end Ipt
