import Verif.Props.Time

/-!
# Core:bus ratio (C81)

`Time.queryCbr` is what `pt_qry_core_bus_ratio`, `pt_insn_core_bus_ratio` and
`pt_blk_core_bus_ratio` provide.
-/

namespace Ipt.Spec

/-- The ratio of the last CBR packet, or `r` if there is none. -/
def lastRatio (r : Option Nat) : List TimePkt → Option Nat
  | [] => r
  | .cbr x :: ps => lastRatio (some x) ps
  | .hCbr x :: ps => lastRatio (some x) ps
  | _ :: ps => lastRatio r ps

/-- What is known about the ratio. -/
def ratioKnown : Option Nat → Res Nat
  | some r => .ok r
  | none => .err .noCbr

end Ipt.Spec

namespace Ipt
open Spec

theorem updateMtc_cbr (t : Time) (p : Nat) (c : TimeCfg) :
    (t.updateMtc p c).1.haveCbr = t.haveCbr ∧ (t.updateMtc p c).1.cbr = t.cbr := by
  unfold Time.updateMtc
  dsimp only
  repeat' first | exact ⟨rfl, rfl⟩ | split

theorem updateTma_cbr (t : Time) (a b : Nat) (c : TimeCfg) :
    (t.updateTma a b c).1.haveCbr = t.haveCbr ∧ (t.updateTma a b c).1.cbr = t.cbr := by
  unfold Time.updateTma
  repeat' first | exact ⟨rfl, rfl⟩ | split

theorem updateCyc_cbr (t : Time) (a : Nat) (c : TimeCfg) (fcr : Nat) :
    (t.updateCyc a c fcr).1.haveCbr = t.haveCbr ∧ (t.updateCyc a c fcr).1.cbr = t.cbr := by
  unfold Time.updateCyc
  dsimp only
  repeat' first | exact ⟨rfl, rfl⟩ | split

theorem queryCbr_same {t t' : Time} (h : t'.haveCbr = t.haveCbr ∧ t'.cbr = t.cbr) : t'.queryCbr = t.queryCbr := by
  rw [Time.queryCbr, h.1, h.2]; rfl

/-- What a packet does to the ratio. -/
def newRatio (r : Option Nat) : TimePkt → Option Nat
  | .cbr x | .hCbr x => some x
  | _ => r

theorem both_queryCbr {x : Tcal × Res Unit} {t : Time} {f : Time × Res Unit}
    (h : f.1.haveCbr = t.haveCbr ∧ f.1.cbr = t.cbr) : (Timing.both x t f).1.time.queryCbr = t.queryCbr := by
  rcases both_time (x := x) (t := t) (f := f) with e | e <;> rw [e]
  exact queryCbr_same h

theorem both_cbr_ok {x : Tcal × Res Unit} {t : Time} {r : Nat} {s' : Timing}
    (h : Timing.both x t (t.updateCbr r) = (s', .ok ())) : s'.time.queryCbr = .ok r := by
  unfold Timing.both at h
  split at h
  · injection h with h1 h2
    subst h1
    unfold Time.updateCbr at h2 ⊢
    split at h2
    · cases h2
    · rename_i h0
      rw [if_neg h0]
      rfl
  · rename_i hx
    injection h with h1 h2
    exact absurd h2 (hx ·)

theorem apply_ratio (c : TimeCfg) (s s' : Timing) (p : TimePkt) (h : s.apply c p = (s', .ok ())) (r : Option Nat)
    (hr : s.time.queryCbr = ratioKnown r) : s'.time.queryCbr = ratioKnown (newRatio r p) := by
  have e : s' = (s.apply c p).1 := by rw [h]
  cases p with
  | tsc v => rw [e]; exact (both_queryCbr (by exact ⟨rfl, rfl⟩)).trans hr
  | hTsc v => rw [e]; exact (both_queryCbr (by exact ⟨rfl, rfl⟩)).trans hr
  | tma a b => rw [e]; exact (both_queryCbr (updateTma_cbr _ _ _ _)).trans hr
  | mtc n => rw [e]; exact (both_queryCbr (updateMtc_cbr _ _ _)).trans hr
  | cyc w => rw [e]; exact (both_queryCbr (updateCyc_cbr _ _ _ _)).trans hr
  | cbr x => exact both_cbr_ok h
  | hCbr x => exact both_cbr_ok h

theorem lastRatio_cons (r : Option Nat) (p : TimePkt) (ps : List TimePkt) :
    lastRatio r (p :: ps) = lastRatio (newRatio r p) ps := by
  cases p <;> rfl

end Ipt

namespace Ipt.Props
open Ipt Spec

/-- C81: the core:bus ratio is that of the last CBR packet; if there was none, -pte_no_cbr is
reported. -/
theorem C81_last_ratio (c : TimeCfg) (ps : List TimePkt) (s : Timing) (h : Timing.applyAll c {} ps = (s, .ok ())) :
    s.time.queryCbr = ratioKnown (lastRatio none ps) := by
  have key : ∀ (ps : List TimePkt) (s0 : Timing) (r : Option Nat), s0.time.queryCbr = ratioKnown r →
      s0.applyAll c ps = (s, .ok ()) → s.time.queryCbr = ratioKnown (lastRatio r ps) := by
    intro ps
    induction ps with
    | nil => intro s0 r hr h; cases h; exact hr
    | cons p ps ih =>
      intro s0 r hr h
      rw [Timing.applyAll] at h
      split at h
      · rename_i s1 he
        rw [lastRatio_cons]
        exact ih s1 _ (apply_ratio c s0 s1 p he r hr) h
      · rename_i s1 x hx he
        cases h
        exact (hx rfl).elim
  exact key ps {} none rfl h

example : (Timing.applyAll ⟨2, 84, 3, 24, false⟩ {} [.hCbr 30, .tsc 7, .tma 1 2, .cyc 9, .cbr 20, .mtc 3, .cyc 8]).2 = .ok () ∧
    (Timing.applyAll ⟨2, 84, 3, 24, false⟩ {} [.hCbr 30, .tsc 7, .tma 1 2, .cyc 9, .cbr 20, .mtc 3, .cyc 8]).1.time.queryCbr =
      .ok 20 ∧
    (Timing.applyAll ⟨2, 84, 3, 24, false⟩ {} [.tsc 7, .tma 1 2]).1.time.queryCbr = .err .noCbr := by decide +kernel

/-- C81: a CBR packet with a ratio of zero is refused, and the time and the ratio stay as they
are. -/
theorem C81_zero_refused (c : TimeCfg) (s : Timing) :
    (s.apply c (.cbr 0)).2 = .err .badPacket ∧ (s.apply c (.cbr 0)).1.time = s.time ∧
      (s.apply c (.hCbr 0)).2 = .err .badPacket ∧ (s.apply c (.hCbr 0)).1.time = s.time := by
  by_cases hn : c.nomFreq = 0 <;>
    simp [Timing.apply, Tcal.updateCbr, Tcal.headerCbr, hn, Timing.both, okBadConfig, Time.updateCbr]

end Ipt.Props
