import Verif.Errors
import Verif.Packet

/-!
# Errors are described (C85)
-/

namespace Ipt

theorem errstr_inj : ∀ a b : Fin 28, errstr a = errstr b → a = b := by decide +kernel

theorem errstr_known : ∀ a : Fin 28, errstr a ≠ "internal error." ∧ errstr a ≠ "" := by decide +kernel

theorem code_inj {e e' : Err} (h : ∀ n, e ≠ .user n) (h' : ∀ n, e' ≠ .user n) (hc : e.code = e'.code) : e = e' := by
  cases e <;> first | exact absurd rfl (h _) | skip
  all_goals cases e' <;> first | exact absurd rfl (h' _) | rfl | (exact absurd hc (by decide))

theorem code_range {e : Err} (h : ∀ n, e ≠ .user n) : 0 < e.code ∧ e.code < 28 := by
  cases e <;> first | exact absurd rfl (h _) | decide

end Ipt

namespace Ipt.Props
open Ipt

/-- C85: `pt_errstr (pt_errcode (status))` is a fixed text for every `int` but the smallest one: "OK" exactly for statuses
that are not negative, another text for each error of the library, and "internal error." for all numbers that are not errors of
the library. -/
theorem C85_described (s : Int) (h1 : -2 ^ 31 < s) :
    ∃ k, errcode s = .ok k ∧ (errstr k = "OK" ↔ 0 ≤ s) ∧ (errstr k = "internal error." ↔ s ≤ -28) ∧ errstr k ≠ "" := by
  unfold errcode
  by_cases h0 : 0 ≤ s
  · rw [if_pos h0]
    exact ⟨0, rfl, ⟨fun _ => h0, fun _ => rfl⟩, ⟨fun h => absurd h (by decide), fun h => by omega⟩, by decide⟩
  · rw [if_neg h0, if_neg (by omega)]
    refine ⟨_, rfl, ⟨fun h => ?_, fun h => absurd h h0⟩, ?_⟩
    · by_cases hk : (-s).toNat < 28
      · have := errstr_inj ⟨(-s).toNat, hk⟩ 0 h
        have := congrArg Fin.val this
        simp only [Fin.val_zero] at this
        omega
      · have e : errstr (-s).toNat = "internal error." := by
          obtain ⟨m, hm⟩ : ∃ m, (-s).toNat = m + 28 := ⟨(-s).toNat - 28, by omega⟩
          rw [hm]; rfl
        rw [e] at h; exact absurd h (by decide)
    · by_cases hk : (-s).toNat < 28
      · have := errstr_known ⟨(-s).toNat, hk⟩
        exact ⟨⟨fun h => absurd h this.1, fun h => by omega⟩, this.2⟩
      · have e : errstr (-s).toNat = "internal error." := by
          obtain ⟨m, hm⟩ : ∃ m, (-s).toNat = m + 28 := ⟨(-s).toNat - 28, by omega⟩
          rw [hm]; rfl
        rw [e]
        exact ⟨⟨fun _ => by omega, fun _ => rfl⟩, by decide⟩

/-- C85: for every function of the library, the text tells its errors apart: when two outcomes, of whatever functions, are errors of the
library (not the user's) and the texts for the returned statuses are equal, the errors are. -/
theorem C85_distinct {α β : Type} (f : α → Nat) (g : β → Nat) (r : Res α) (r' : Res β) (e e' : Err) (hr : r = .err e) (hr' : r' = .err e')
    (h : ∀ n, e ≠ .user n) (h' : ∀ n, e' ≠ .user n) :
    ∃ s s' k k', r.status f = some s ∧ r'.status g = some s' ∧ s < 0 ∧ s' < 0 ∧ errcode s = .ok k ∧ errcode s' = .ok k' ∧
      errstr k ≠ "OK" ∧ (errstr k = errstr k' → e = e') := by
  subst hr hr'
  have c := code_range h
  have c' := code_range h'
  have key : ∀ n : Nat, 0 < n → n < 28 → errcode (-(n : Int)) = .ok n := by
    intro n h1 h2
    unfold errcode
    rw [if_neg (by omega), if_neg (by omega)]
    congr 1; omega
  refine ⟨_, _, _, _, rfl, rfl, by omega, by omega, key _ c.1 c.2, key _ c'.1 c'.2, ?_, ?_⟩
  · intro hs
    have := congrArg Fin.val (errstr_inj ⟨e.code, c.2⟩ 0 hs)
    simp only [Fin.val_zero] at this
    omega
  · intro hs
    have := congrArg Fin.val (errstr_inj ⟨e.code, c.2⟩ ⟨e'.code, c'.2⟩ hs)
    exact code_inj h h' this

/-- C85 does not extend to the smallest `int`, which a user's callback could return. -/
theorem C85_smallest_int : errcode (-2 ^ 31) = .ub := by decide

/-- The end of the trace and an unknown opcode. -/
example : (pktNext { mem := [] } (some 0)).status (·.2.1) = some (-7) ∧ (pktNext { mem := [0xd5] } (some 0)).status (·.2.1) = some (-4) ∧
    (errcode (-7) >>= fun k => .ok (errstr k)) = .ok "reached end of trace stream" ∧
    (errcode (-4) >>= fun k => .ok (errstr k)) = .ok "unknown opcode" := by
  decide +kernel

end Ipt.Props
