import Verif.PtSeg
import Verif.Spec.Segment
import Verif.Props.Sync

/-!
# C73: `ptseg` finds the segment
-/

namespace Ipt

open Spec

/-- A run of the pattern that begins at or before an offset and ends behind it has a PSB around the offset. -/
theorem inside_of_run {m : List UInt8} {s q o : Nat} (hs : s ≤ o) (ho : o < q) (h : PsbRun m s (q + 16)) :
    InsidePsb m o := by
  obtain ⟨k, hk, hp⟩ := h
  refine ⟨s + 2 * ((o - s) / 2), by omega, by omega, fun j hj => ?_⟩
  have := hp ((o - s) / 2 + j) (by omega)
  rwa [show s + 2 * ((o - s) / 2 + j) = s + 2 * ((o - s) / 2) + 2 * j by omega] at this

/-- What the backward search finds is before an offset that is not inside a PSB. -/
theorem back_before {m : List UInt8} {base o q : Nat} (hn : ¬ InsidePsb m o) (h : syncBackward m base o = .ok q) :
    q + 16 ≤ o ∧ SegmentStart m q ∧ ∀ q0, q0 ≤ o → IsPsb m q0 → q0 ≤ q := by
  obtain ⟨h1, h2, h3, h4, s, h5, h6⟩ := Props.C09_sync_backward_sound m base o q h
  have hq : q ≤ o := by
    apply Nat.le_of_not_lt
    intro hlt
    exact hn (inside_of_run (by omega) hlt h6)
  refine ⟨?_, ⟨h1, h3⟩, fun q0 h0 hp => ?_⟩
  · apply Nat.le_of_not_lt
    intro hlt
    exact hn ⟨q, hq, hlt, h1⟩
  · apply h4 q0 _ hp
    apply Nat.le_of_not_lt
    intro hlt
    exact hn ⟨q0, h0, hlt, hp⟩

/-- The end of the segment. -/
theorem forward_end {m : List UInt8} {base b o : Nat} {d : PktDec} (hd : d.pos = some b ∧ d.sync = some b)
    (hb : b < m.length) (hlast : ∀ q, b < q → q ≤ o → ¬ IsPsb m q) :
    (∃ q, pktSyncForward { mem := m } base d = ({ pos := some q, sync := some q }, .ok ()) ∧ o < q ∧ SegmentStart m q ∧
      ∀ p, b < p → p < q → ¬ SegmentStart m p) ∨
    (pktSyncForward { mem := m } base d = (d, .err .eos) ∧ ∀ p, b < p → ¬ SegmentStart m p) := by
  have hw : Props.PktDec.WF d := by unfold Props.PktDec.WF; rw [hd.1, hd.2]
  have hss : Props.searchStart d = b + 1 := by unfold Props.searchStart; rw [hd.1, hd.2]; simp
  rw [Props.pktSyncForward_eq _ base d hw, hss]
  have hc := Props.C08_sync_forward_complete m base (b + 1) (by omega)
  dsimp only
  cases hs : syncForward m base (b + 1) with
  | ub => exact absurd hs (Props.C08_sync_forward_safe m base (b + 1))
  | err e =>
    right
    rw [hc.2 e hs]
    exact ⟨rfl, fun p hp h => hc.1.1 ⟨e, hs⟩ p hp h.1⟩
  | ok q =>
    left
    obtain ⟨h1, h2, h3, h4, h5⟩ := Props.C08_sync_forward_sound m base (b + 1) q hs
    refine ⟨q, rfl, ?_, ⟨h3, h4⟩, fun p hp hpq hst => ?_⟩
    · apply Nat.lt_of_not_le
      intro hle
      exact hlast q (by omega) hle h3
    · obtain ⟨k, hk, hj⟩ := h5 p hp hpq hst.1
      exact hst.2 (by have := hj 8 (by omega); rwa [show p + 2 * 8 = p + 16 by omega] at this)

namespace Props

/-- **C73.**  For every trace file and every offset into it that is not inside a PSB, `ptseg` prints the segment of the
trace that contains the offset, the offset into this segment and its size.
Missing: offsets inside a PSB and the end of the trace; for them, the claim is false of the code, see below. -/
theorem C73_segment_partial (m : List UInt8) (base offset : Nat) (hm : m.length < 2 ^ 63) (ho : offset < m.length)
    (hn : ¬ InsidePsb m offset) :
    ∃ l, ptsegPrintSeg m base offset = .ok l ∧ Segment m l.begin_ l.end_ ∧
      l.begin_ ≤ offset ∧ offset < l.end_ ∧ l.end_ ≤ m.length ∧
      l.offset = offset - l.begin_ ∧ l.size = l.end_ - l.begin_ := by
  have key : ∀ b e, ptsegPktFindSeg { mem := m } base {} 0 m.length offset = .ok (b, e) → Segment m b e → b ≤ offset →
      offset < e → e ≤ m.length → ∃ l, ptsegPrintSeg m base offset = .ok l ∧ Segment m l.begin_ l.end_ ∧
        l.begin_ ≤ offset ∧ offset < l.end_ ∧ l.end_ ≤ m.length ∧
        l.offset = offset - l.begin_ ∧ l.size = l.end_ - l.begin_ := by
    intro b e h1 h2 h3 h4 h5
    refine ⟨⟨b, e, (offset + 2 ^ 64 - b) % 2 ^ 64, (e + 2 ^ 64 - b) % 2 ^ 64⟩, ?_, h2, h3, h4, h5, ?_, ?_⟩
    · unfold ptsegPrintSeg; rw [h1]; rfl
    · dsimp only; omega
    · dsimp only; omega
  have hset : pktSyncSet { mem := m } {} offset = ({ pos := some offset, sync := some offset }, .ok ()) := by
    unfold pktSyncSet; rw [if_neg (by dsimp only; omega)]
  have hle : ∀ q, SegmentStart m q → q ≤ m.length := fun q h => by have := isPsb_bound h.1; omega
  unfold ptsegPktFindSeg at key
  rw [hset] at key
  dsimp only [pktSyncBackward, Option.getD_some] at key
  cases hs : syncBackward m base offset with
  | ub => exact absurd hs (C09_sync_backward_safe m base offset)
  | err e =>
    obtain ⟨he, hnone⟩ := C09_sync_backward_complete m base offset e (by omega) hs
    subst he
    have hnone : ∀ q, q ≤ offset → ¬ IsPsb m q := by
      intro q hq hp
      apply hnone q _ hp
      apply Nat.le_of_not_lt
      intro hlt
      exact hn ⟨q, hq, hlt, hp⟩
    rw [hs] at key
    dsimp only [ne_eq, not_true_eq_false] at key
    rw [if_neg (by simp)] at key
    dsimp only at key
    rcases forward_end (m := m) (base := base) (b := offset) (o := offset)
      (d := { pos := some offset, sync := some offset }) ⟨rfl, rfl⟩ ho (by omega) with
      ⟨q, h1, h2, h3, h4⟩ | ⟨h1, h2⟩
    · rw [h1] at key
      refine key 0 q rfl ⟨.inl rfl, .inr h3, fun p hp hpq hst => ?_⟩ (by omega) h2 (hle q h3)
      by_cases hpo : p ≤ offset
      · exact hnone p hpo hst.1
      · exact h4 p (by omega) hpq hst
    · rw [h1] at key
      refine key 0 m.length rfl ⟨.inl rfl, .inl rfl, fun p hp hpq hst => ?_⟩ (by omega) ho (by omega)
      by_cases hpo : p ≤ offset
      · exact hnone p hpo hst.1
      · exact h2 p (by omega) hst
  | ok b =>
    obtain ⟨hb, hst, hlast⟩ := back_before hn hs
    rw [hs] at key
    dsimp only [pktGetOffset] at key
    rcases forward_end (m := m) (base := base) (b := b) (o := offset)
      (d := { pos := some b, sync := some b }) ⟨rfl, rfl⟩ (by omega)
      (fun q h1 h2 hp => by have := hlast q h2 hp; omega) with ⟨q, h1, h2, h3, h4⟩ | ⟨h1, h2⟩
    · rw [h1] at key
      exact key b q rfl ⟨.inr hst, .inr h3, h4⟩ (by omega) h2 (hle q h3)
    · rw [h1] at key
      exact key b m.length rfl ⟨.inr hst, .inl rfl, fun p hp _ => h2 p hp⟩ (by omega) ho (by omega)

/-- Not about nothing: an offset behind the second of two PSBs. -/
example : ¬ InsidePsb (twoPsbs ++ [0, 0]) 17 ∧
    ptsegPrintSeg (twoPsbs ++ [0, 0]) 3 17 = .ok ⟨0, 19, 17, 19⟩ := by
  refine ⟨?_, by decide +kernel⟩
  rintro ⟨q, h1, h2, h3⟩
  have : q ∈ (List.range 18).filter (fun q => decide (IsPsb (twoPsbs ++ [0, 0]) q)) := by
    simp only [List.mem_filter, List.mem_range, decide_eq_true_eq]; exact ⟨by omega, h3⟩
  rw [show (List.range 18).filter (fun q => decide (IsPsb (twoPsbs ++ [0, 0]) q)) = [0] by decide +kernel] at this
  simp only [List.mem_singleton] at this
  omega

/-- **C73 is false of the code** for the offset of a PSB: the segment that is printed ends where it should begin. -/
theorem C73_at_psb_fails : IsPsb twoPsbs 19 ∧ ptsegPrintSeg twoPsbs 0 19 = .ok ⟨0, 19, 19, 19⟩ := by decide +kernel

/-- **C73 is false of the code** at the end of a trace without PSB: `ptseg` reports an internal error. -/
theorem C73_at_end_fails : ptsegPrintSeg [0] 0 1 = .err .internal := by decide +kernel

end Props

end Ipt
