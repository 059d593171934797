import Verif.EventOffset
import Verif.Props.EventDecoder

/-!
# The offset the event decoder reports (C86)
-/

namespace Ipt.Spec

/-- Perform calls on a new event decoder, newest first; and, for each call, whether it succeeded. -/
def evtCalls (c : EvtCfg) : List EvtCall → Evd × List (EvtCall × Bool)
  | [] => (evtInit, [])
  | k :: ks =>
    let r := evtCalls c ks
    ((k.run c r.1).1, (k, match (k.run c r.1).2 with | .ok _ => true | _ => false) :: r.2)

/-- Synchronizing backwards failed, and there was no successful synchronization since.  Newest call first. -/
def lostBackward : List (EvtCall × Bool) → Bool
  | [] => false
  | (.syncBackward, ok) :: _ => !ok
  | (.next, _) :: t => lostBackward t
  | (_, true) :: _ => false
  | (_, false) :: t => lostBackward t

end Ipt.Spec

namespace Ipt
open Spec

variable {c : EvtCfg}

/-- A synchronization of the packet decoder either leaves it where it is or puts it inside the trace. -/
def Finds (c : EvtCfg) (f : PktDec → PktDec × Res Unit) : Prop :=
  ∀ d, (∃ q, (f d).1.pos = some q ∧ q ≤ c.pkt.mem.length ∧ (f d).2 = .ok ()) ∨ ((f d).1 = d ∧ (f d).2 ≠ .ok ())

theorem forward_finds : Finds c (pktSyncForward c.pkt c.base) := by
  intro d
  unfold pktSyncForward
  dsimp only
  split
  · rename_i q h
    exact .inl ⟨q, rfl, by have := (Props.C08_sync_forward_sound _ _ _ _ h).2.1; omega, rfl⟩
  · exact .inr ⟨rfl, by simp⟩
  · exact .inr ⟨rfl, by simp⟩

theorem backward_finds : Finds c (pktSyncBackward c.pkt c.base) := by
  intro d
  unfold pktSyncBackward
  split
  · rename_i q h
    exact .inl ⟨q, rfl, by have := (Props.C09_sync_backward_sound _ _ _ _ h).2.1; omega, rfl⟩
  · exact .inr ⟨rfl, by simp⟩
  · exact .inr ⟨rfl, by simp⟩

theorem set_finds (o : Nat) : Finds c (fun d => pktSyncSet c.pkt d o) := by
  intro d
  unfold pktSyncSet
  dsimp only
  split
  · exact .inr ⟨rfl, by simp⟩
  · exact .inl ⟨o, rfl, by omega, rfl⟩

/-- `pt_evt_sync_forward` and `pt_evt_sync_set`. -/
theorem sync_inTrace (hc : CbProgress c.pkt) {f : PktDec → PktDec × Res Unit} (hf : Finds c f) (s : Evd)
    (h : InTrace c s ∨ ((do EM.modify evtReset; onPkt f; evtStart c : EM Unit) s).2 = .ok ()) :
    InTrace c ((do EM.modify evtReset; onPkt f; evtStart c : EM Unit) s).1 := by
  revert h
  rw [EM.bind_def]
  simp only [EM.modify]
  rw [EM.bind_def]
  simp only [onPkt]
  rcases hf (evtReset s).pd with ⟨q, h1, h2, h3⟩ | ⟨h1, h2⟩
  · rw [h3]
    intro _
    refine evtStart_inTrace hc _ ?_
    intro p hp
    dsimp only at hp
    rw [h1] at hp
    simp only [Option.some.injEq] at hp
    omega
  · revert h2
    rcases (f (evtReset s).pd).2 with a | e | _
    · intro h2; exact absurd rfl h2
    · intro _ h
      rcases h with h | h
      · unfold InTrace; dsimp only; rw [h1]; exact h
      · cases h
    · intro _ h
      rcases h with h | h
      · unfold InTrace; dsimp only; rw [h1]; exact h
      · cases h

theorem backInner_found (sync : Nat) : ∀ (n : Nat) (s s' : Evd) (q : Nat), evtSyncBackInner c sync n s = (s', .ok q) →
    ∀ p, s'.pd.pos = some p → p ≤ c.pkt.mem.length := by
  intro n
  induction n with
  | zero => intro s s' q h; simp [evtSyncBackInner, EM.undef] at h
  | succ n ih =>
    intro s s' q h
    unfold evtSyncBackInner at h
    rw [EM.bind_def] at h
    simp only [onPkt] at h
    rcases backward_finds (c := c) s.pd with ⟨o, h1, h2, h3⟩ | ⟨h1, h2⟩
    · rw [h3] at h
      dsimp only at h
      rw [EM.bind_def] at h
      simp only [EM.get] at h
      split at h
      · exact ih _ _ _ h
      · simp only [EM.pure_def, Prod.mk.injEq] at h
        obtain ⟨rfl, -⟩ := h
        intro p hp
        dsimp only at hp
        rw [h1] at hp
        simp only [Option.some.injEq] at hp
        omega
    · revert h2 h
      rcases (pktSyncBackward c.pkt c.base s.pd).2 with a | e | _
      · intro h h2; exact absurd rfl h2
      · intro h; simp at h
      · intro h; simp at h

theorem backLoop_inTrace (hc : CbProgress c.pkt) (start : Nat) : ∀ (n sync : Nat) (s s' : Evd),
    evtSyncBackLoop c start n sync s = (s', .ok ()) → InTrace c s' := by
  intro n
  induction n with
  | zero => intro sync s s' h; simp [evtSyncBackLoop, EM.undef] at h
  | succ n ih =>
    intro sync s s' h
    unfold evtSyncBackLoop at h
    rw [EM.bind_def] at h
    simp only [EM.modify] at h
    rw [EM.bind_def] at h
    rcases hi : evtSyncBackInner c sync c.fuel (evtReset s) with ⟨s1, q | e | _⟩
    · rw [hi] at h
      dsimp only at h
      have h1 := evtStart_inTrace hc s1 fun p hp => by have := backInner_found _ _ _ _ _ hi p hp; omega
      rw [EM.bind_def] at h
      unfold tryStart at h
      revert h h1
      rcases evtStart c s1 with ⟨s2, a | e | _⟩
      · intro h h1
        dsimp only at h
        rw [EM.bind_def] at h
        simp only [EM.get] at h
        split at h
        · simp only [EM.lift, Prod.mk.injEq] at h
          obtain ⟨rfl, -⟩ := h
          exact h1
        · exact ih _ _ _ h
      · intro h h1
        dsimp only at h
        rw [EM.bind_def] at h
        simp only [EM.get] at h
        split at h
        · simp [EM.lift] at h
        · exact ih _ _ _ h
      · intro h; simp at h
    · rw [hi] at h; simp at h
    · rw [hi] at h; simp at h

theorem evtCalls_inTrace (hc : CbProgress c.pkt) (ks : List EvtCall)
    (hl : lostBackward (evtCalls c ks).2 = false) : InTrace c (evtCalls c ks).1 := by
  induction ks with
  | nil => intro p hp; cases hp
  | cons k ks ih =>
    revert ih hl
    simp only [evtCalls]
    generalize (evtCalls c ks).1 = s
    generalize (evtCalls c ks).2 = l
    intro ih hl
    cases k with
    | next =>
      simp only [lostBackward] at hl
      exact evtNext_offs hc s (ih hl)
    | syncForward =>
      simp only [EvtCall.run] at hl ⊢
      refine sync_inTrace hc forward_finds s ?_
      rcases hr : evtSyncForward c s with ⟨s', a | e | _⟩
      · exact .inr (by unfold evtSyncForward at hr; rw [hr])
      · rw [hr] at hl; exact .inl (ih hl)
      · rw [hr] at hl; exact .inl (ih hl)
    | syncSet o =>
      simp only [EvtCall.run] at hl ⊢
      refine sync_inTrace hc (set_finds o) s ?_
      rcases hr : evtSyncSet c o s with ⟨s', a | e | _⟩
      · exact .inr (by unfold evtSyncSet at hr; rw [hr])
      · rw [hr] at hl; exact .inl (ih hl)
      · rw [hr] at hl; exact .inl (ih hl)
    | syncBackward =>
      simp only [EvtCall.run] at hl ⊢
      rcases hr : evtSyncBackward c s with ⟨s', a | e | _⟩
      · unfold evtSyncBackward at hr
        rw [EM.bind_def] at hr
        simp only [EM.get] at hr
        exact backLoop_inTrace hc _ _ _ _ _ hr
      · rw [hr] at hl; cases hl
      · rw [hr] at hl; cases hl

end Ipt

namespace Ipt.Props
open Ipt Spec

/-- C86, unless synchronizing backwards failed: whatever calls were made to the event decoder, and whatever the trace is, the
offset it reports is never beyond the end of the trace; or it says that the decoder is not synchronized.  (At most one byte beyond,
since the workaround for SKZ84 may skip one that is not there.)  Missing: the state after a failed `pt_evt_sync_backward`, of which it is false, see
`C86_wraps_around`. -/
theorem C86_offset_partial (c : EvtCfg) (hc : CbProgress c.pkt)
    (hlen : c.pkt.mem.length + 1 < 2 ^ 64) (ks : List EvtCall) (hl : lostBackward (evtCalls c ks).2 = false) :
    evtGetOffset (evtCalls c ks).1 = .err .nosync ∨
    ∃ o, evtGetOffset (evtCalls c ks).1 = .ok o ∧ o ≤ c.pkt.mem.length + 1 := by
  have h := evtCalls_inTrace hc ks hl
  revert h
  generalize (evtCalls c ks).1 = s
  intro h
  unfold evtGetOffset pktGetOffset
  cases hp : s.pd.pos with
  | none => exact .inl rfl
  | some p =>
    obtain ⟨h1, h2⟩ := h p hp
    refine .inr ⟨_, rfl, ?_⟩
    have : p + 2 ^ 64 - s.size = (p - s.size) + 2 ^ 64 := by omega
    rw [this, Nat.add_mod_right, Nat.mod_eq_of_lt (by omega)]
    omega

/-- A PSB, a CBR and a PSBEND. -/
def onePsbPlus : List UInt8 := (List.replicate 8 [0x02, 0x82]).flatten ++ [0x02, 0x03, 4, 0, 0x02, 0x23]

/-- After synchronizing forward and reading the two events the decoder is at the end of the trace; synchronizing again fails, and
the offset is as it was. -/
example : (evtCalls { pkt := { mem := onePsbPlus } } [.syncForward, .next, .next, .next, .syncForward]).2.map (·.2) =
      [false, false, true, true, true] ∧
    lostBackward (evtCalls { pkt := { mem := onePsbPlus } } [.syncForward, .next, .next, .next, .syncForward]).2 = false ∧
    evtGetOffset (evtCalls { pkt := { mem := onePsbPlus } } [.syncForward]).1 = .ok 20 ∧
    evtGetOffset (evtCalls { pkt := { mem := onePsbPlus } } [.next, .next, .next, .syncForward]).1 = .ok 22 := by
  decide +kernel

/-- C86 is false of the code: when there is no earlier PSB to synchronize to, `pt_evt_sync_backward` leaves the decoder at the start
of the PSB it is at, but with the size of the packet it read last; the offset it then reports is negative, as an unsigned number. -/
theorem C86_wraps_around : ∃ c ks, CbProgress c.pkt ∧ c.pkt.errata = {} ∧
    (evtCalls c ks).2 = [(.syncBackward, false), (.syncForward, true)] ∧
    evtGetOffset (evtCalls c ks).1 = .ok (2 ^ 64 - 2) := by
  refine ⟨{ pkt := { mem := onePsbPlus } }, [.syncBackward, .syncForward], ?_, rfl, ?_, ?_⟩
  · intro f h; cases h
  · decide +kernel
  · decide +kernel

end Ipt.Props
