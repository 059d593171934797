import Verif.Spec.Pevent

/-!
# Time conversion for perf event records
-/

namespace Ipt.Props

open Spec

variable {c : PevConfig}

theorem split_div (d m k : Nat) (hm : 0 < m) : d / m * k + d % m * k / m = d * k / m := by
  have h := Nat.div_add_mod d m
  have : d * k = d % m * k + m * (d / m * k) := by
    conv => lhs; rw [← h]
    rw [Nat.add_mul, Nat.mul_assoc, Nat.add_comm]
  rw [this, Nat.add_mul_div_left _ _ hm, Nat.add_comm]

/-- C56: the TSC of a time is that of the formula, without overflow in between.  Times before time zero wrap around. -/
theorem C56_to_tsc (h : TimeConfig c) (time : Nat) (ht : time ≠ 0) (ht' : time < 2 ^ 64) :
    pevTimeToTsc c time = .ok (ticks c (if c.timeZero ≤ time then time - c.timeZero else 2 ^ 64 + time - c.timeZero) % 2 ^ 64) := by
  have hs := h.size
  have hsh := h.shift
  obtain ⟨hm, hm'⟩ := h.mult
  have hz := h.zero
  unfold pevTimeToTsc
  rw [if_neg ht, if_neg (by omega), if_neg (by omega), if_neg (by omega)]
  have : (time + (2 ^ 64 - c.timeZero)) % 2 ^ 64 = if c.timeZero ≤ time then time - c.timeZero else 2 ^ 64 + time - c.timeZero := by
    split <;> omega
  dsimp only
  rw [this]
  generalize (if c.timeZero ≤ time then time - c.timeZero else 2 ^ 64 + time - c.timeZero) = d
  have hk : 2 ^ c.timeShift ≤ 2 ^ 32 := Nat.pow_le_pow_right (by decide) hsh
  have hr : d % c.timeMult * 2 ^ c.timeShift < 2 ^ 64 := by
    have h1 : d % c.timeMult < 2 ^ 32 := Nat.lt_trans (Nat.mod_lt _ hm) hm'
    calc d % c.timeMult * 2 ^ c.timeShift ≤ (2 ^ 32 - 1) * 2 ^ 32 := Nat.mul_le_mul (by omega) hk
      _ < 2 ^ 64 := by decide
  rw [Nat.mod_eq_of_lt hr]
  unfold ticks
  rw [← split_div d c.timeMult _ hm, Nat.mod_add_mod]

/-- C56: the time of a TSC is that of the formula, without overflow in between. -/
theorem C56_from_tsc (h : TimeConfig c) (tsc : Nat) : pevTimeFromTsc c tsc = .ok ((c.timeZero + nanoseconds c tsc) % 2 ^ 64) := by
  have hs := h.size
  have hsh := h.shift
  obtain ⟨hm, hm'⟩ := h.mult
  unfold pevTimeFromTsc
  rw [if_neg (by omega), if_neg (by omega), if_neg (by omega)]
  dsimp only
  have hk : 2 ^ c.timeShift ≤ 2 ^ 32 := Nat.pow_le_pow_right (by decide) hsh
  have hp : 0 < 2 ^ c.timeShift := Nat.pow_pos (by decide)
  have hr : tsc % 2 ^ c.timeShift * c.timeMult < 2 ^ 64 := by
    have h1 : tsc % 2 ^ c.timeShift < 2 ^ 32 := Nat.lt_of_lt_of_le (Nat.mod_lt _ hp) hk
    calc tsc % 2 ^ c.timeShift * c.timeMult ≤ (2 ^ 32 - 1) * 2 ^ 32 := Nat.mul_le_mul (by omega) (by omega)
      _ < 2 ^ 64 := by decide
  rw [Nat.mod_eq_of_lt hr]
  unfold nanoseconds
  rw [← split_div tsc (2 ^ c.timeShift) _ hp, ← Nat.add_assoc]
  congr 1
  rw [Nat.add_mod, Nat.add_mod c.timeZero, Nat.mod_mod, ← Nat.add_mod c.timeZero, ← Nat.add_mod]

/-- C56: later times have later TSCs, from time zero on and as long as the TSC does not overflow. -/
theorem C56_to_tsc_mono (h : TimeConfig c) (t₁ t₂ : Nat) (h₀ : c.timeZero ≤ t₁) (h₁ : t₁ ≤ t₂) (h₂ : t₂ < 2 ^ 64)
    (ho : ticks c (t₂ - c.timeZero) < 2 ^ 64) :
    ∃ x y, pevTimeToTsc c t₁ = .ok x ∧ pevTimeToTsc c t₂ = .ok y ∧ x ≤ y := by
  have le : ticks c (t₁ - c.timeZero) ≤ ticks c (t₂ - c.timeZero) :=
    Nat.div_le_div_right (Nat.mul_le_mul_right _ (by omega))
  have eq : ∀ t, c.timeZero ≤ t → t ≤ t₂ → pevTimeToTsc c t = .ok (ticks c (t - c.timeZero)) := by
    intro t hz ht
    by_cases h0 : t = 0
    · subst h0
      have : ticks c (0 - c.timeZero) = 0 := by simp [ticks]
      rw [this]; rfl
    · have : ticks c (t - c.timeZero) ≤ ticks c (t₂ - c.timeZero) := Nat.div_le_div_right (Nat.mul_le_mul_right _ (by omega))
      rw [C56_to_tsc h t h0 (by omega), if_pos hz, Nat.mod_eq_of_lt (by omega)]
  exact ⟨_, _, eq t₁ h₀ h₁, eq t₂ (by omega) (Nat.le_refl _), le⟩

/-- C56: later TSCs have later times, as long as the time does not overflow. -/
theorem C56_from_tsc_mono (h : TimeConfig c) (t₁ t₂ : Nat) (h₁ : t₁ ≤ t₂) (ho : c.timeZero + nanoseconds c t₂ < 2 ^ 64) :
    ∃ x y, pevTimeFromTsc c t₁ = .ok x ∧ pevTimeFromTsc c t₂ = .ok y ∧ x ≤ y := by
  have le : nanoseconds c t₁ ≤ nanoseconds c t₂ := Nat.div_le_div_right (Nat.mul_le_mul_right _ h₁)
  refine ⟨_, _, C56_from_tsc h t₁, C56_from_tsc h t₂, ?_⟩
  rw [Nat.mod_eq_of_lt (by omega), Nat.mod_eq_of_lt (by omega)]
  omega

theorem there_back (d a b : Nat) (ha : 0 < a) (hb : 0 < b) : d * a / b * b / a ≤ d ∧ d ≤ d * a / b * b / a + b / a + 1 := by
  constructor
  · apply Nat.div_le_of_le_mul
    rw [Nat.mul_comm a]
    exact Nat.div_mul_le_self _ _
  · have h1 := Nat.lt_div_mul_add hb (a := d * a)
    generalize d * a / b * b = y at h1 ⊢
    have h2 := Nat.lt_div_mul_add ha (a := y)
    have h3 := Nat.lt_div_mul_add ha (a := b)
    have h4 : d * a < (y / a + b / a + 2) * a := by
      rw [Nat.add_mul, Nat.add_mul]; omega
    have := Nat.lt_of_mul_lt_mul_right h4
    omega

/-- C56: converting a TSC to a time and back loses less than the ticks of a nanosecond, and one. -/
theorem C56_tsc_time_tsc (h : TimeConfig c) (tsc : Nat) (ht : tsc < 2 ^ 64) (ho : c.timeZero + nanoseconds c tsc < 2 ^ 64)
    (h0 : c.timeZero + nanoseconds c tsc ≠ 0) :
    ∃ time tsc', pevTimeFromTsc c tsc = .ok time ∧ pevTimeToTsc c time = .ok tsc' ∧ tsc' ≤ tsc ∧ tsc ≤ tsc' + ticks c 1 + 1 := by
  obtain ⟨h1, h2⟩ := there_back tsc c.timeMult (2 ^ c.timeShift) h.mult.1 (Nat.pow_pos (by decide))
  refine ⟨_, _, by rw [C56_from_tsc h, Nat.mod_eq_of_lt ho], ?_, h1, by unfold ticks; rw [Nat.one_mul]; exact h2⟩
  rw [C56_to_tsc h _ h0 ho, if_pos (by omega), Nat.add_sub_cancel_left]
  unfold ticks nanoseconds
  rw [Nat.mod_eq_of_lt (by omega)]

/-- C56: converting a time to a TSC and back loses less than the nanoseconds of a tick, and one. -/
theorem C56_time_tsc_time (h : TimeConfig c) (time : Nat) (h0 : time ≠ 0) (hz : c.timeZero ≤ time) (ht : time < 2 ^ 64)
    (ho : ticks c (time - c.timeZero) < 2 ^ 64) :
    ∃ tsc time', pevTimeToTsc c time = .ok tsc ∧ pevTimeFromTsc c tsc = .ok time' ∧ time' ≤ time ∧ time ≤ time' + nanoseconds c 1 + 1 := by
  obtain ⟨h1, h2⟩ := there_back (time - c.timeZero) (2 ^ c.timeShift) c.timeMult (Nat.pow_pos (by decide)) h.mult.1
  have hn : nanoseconds c (ticks c (time - c.timeZero)) = (time - c.timeZero) * 2 ^ c.timeShift / c.timeMult * c.timeMult / 2 ^ c.timeShift := rfl
  have h1' : nanoseconds c 1 = c.timeMult / 2 ^ c.timeShift := by unfold nanoseconds; rw [Nat.one_mul]
  rw [← hn] at h1 h2
  rw [← h1'] at h2
  refine ⟨_, _, by rw [C56_to_tsc h _ h0 ht, if_pos hz, Nat.mod_eq_of_lt ho], C56_from_tsc h _, ?_⟩
  rw [Nat.mod_eq_of_lt (by omega)]
  omega

/-- C56: without the parameters, only time zero, which stands for no time, can be converted. -/
theorem C56_no_config (time tsc : Nat) (h : c.size < 32 ∨ c.timeMult = 0) :
    pevTimeToTsc c time = (if time = 0 then .ok 0 else .err .badConfig) ∧ pevTimeFromTsc c tsc = .err .badConfig := by
  unfold pevTimeToTsc pevTimeFromTsc
  constructor
  · split
    · rfl
    · rcases h with h | h <;> simp [h]
  · rcases h with h | h <;> simp [h]

/-- The parameters of a 2 GHz TSC, with an odd time zero. -/
def timeCfg : PevConfig := { timeShift := 31, timeMult := 2 ^ 30, timeZero := 2 ^ 64 - 1000 }

example : TimeConfig timeCfg ∧ pevTimeToTsc timeCfg (2 ^ 64 - 1) = .ok 1998 ∧ pevTimeFromTsc timeCfg 1998 = .ok (2 ^ 64 - 1) ∧
    pevTimeFromTsc timeCfg 5000 = .ok 1500 ∧ pevTimeToTsc timeCfg 1500 = .ok 5000 ∧ ticks timeCfg 999 < 2 ^ 64 ∧
    timeCfg.timeZero + nanoseconds timeCfg 1999 < 2 ^ 64 := by
  refine ⟨⟨by decide, by decide, by decide, by decide⟩, ?_, ?_, ?_, ?_, ?_, ?_⟩ <;> decide +kernel

/-- C56 does not hold for larger shifts: the TSC is not that of the formula, and from a shift of 64 on the behaviour is
undefined. -/
theorem C56_large_shift_fails :
    (∃ c time, c.size = 40 ∧ c.timeShift = 40 ∧ c.timeMult < 2 ^ 32 ∧ c.timeZero = 0 ∧ ticks c time < 2 ^ 64 ∧
      ∃ tsc, pevTimeToTsc c time = .ok tsc ∧ tsc ≠ ticks c time) ∧
    (∃ c time, c.size = 40 ∧ c.timeShift = 64 ∧ c.timeMult = 1 ∧ pevTimeToTsc c time = .ub ∧ pevTimeFromTsc c time = .ub) := by
  constructor
  · exact ⟨{ timeShift := 40, timeMult := 2 ^ 31 }, 2 ^ 31 - 1, rfl, rfl, by decide, rfl, by decide +kernel, _, rfl, by decide +kernel⟩
  · exact ⟨{ timeShift := 64, timeMult := 1 }, 1, rfl, rfl, rfl, rfl, rfl⟩

end Ipt.Props
