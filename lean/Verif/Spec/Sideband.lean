import Verif.Sideband

/-!
# Specification: the order in which sideband records are applied

In terms of the calls of callbacks (`SbCall`): fetching the next record of a channel, offering the current record of a channel
together with an event, and showing an event to a channel.
-/

namespace Ipt.Spec.Sideband

/-- Where a channel is: it has not started; it has a current record with the given time; its record has been applied; it has no
more records; it is not used any more. -/
inductive Status
  | unknown | pending (tsc : Nat) | applied | ended | gone
deriving DecidableEq, Repr

/-- The effect of a call on the status of channel `id`. -/
def Status.step (id : Nat) (s : Status) : SbCall → Status
  | .fetched i t => if i = id then .pending t else s
  | .due i _ _ => if i = id then .applied else s
  | .ended i => if i = id then (if s = .applied then .ended else .gone) else s
  | .failed i => if i = id then .gone else s
  | .printed _ => s
  | .shown _ _ => s

/-- The status of a channel after some calls. -/
def status (log : List SbCall) (id : Nat) : Status := log.foldl (Status.step id) .unknown

/-- Records are applied when they are due, in the order of their time: whenever a record is applied with an event, it is the
current record of its channel, it is not later than the event, no other channel has an earlier current record, and all channels
have gone on to their next record behind the one applied before. -/
def InOrder (log : List SbCall) : Prop :=
  ∀ before id tsc ev after, log = before ++ .due id tsc ev :: after →
    status before id = .pending tsc ∧ tsc ≤ ev.tsc ∧ (∀ other t, status before other = .pending t → tsc ≤ t) ∧
      ∀ other, status before other ≠ .applied

/-- The channel a call is about. -/
def who : SbCall → Nat
  | .fetched i _ | .ended i | .failed i | .printed i | .due i _ _ | .shown i _ => i

/-- A channel that failed, or that has been given up, is left alone, and one without records is not asked for more. -/
def Quiet (log : List SbCall) : Prop :=
  ∀ before call after, log = before ++ call :: after →
    status before (who call) ≠ .gone ∧ ∀ id tsc, call = .fetched id tsc → status before id ≠ .ended

/-- The time of the last record fetched by a channel. -/
def lastFetched (log : List SbCall) (id : Nat) : Option Nat :=
  log.foldl (fun o c => match c with | .fetched i t => if i = id then some t else o | _ => o) none

/-- Each channel has its records in the order of their time, and all channels have been started before the first record is
applied. -/
def Steady (log : List SbCall) : Prop :=
  ∀ before id tsc after, log = before ++ .fetched id tsc :: after →
    (∀ i t ev, SbCall.due i t ev ∉ before) ∨ ∃ t, lastFetched before id = some t ∧ t ≤ tsc

/-- The channels to which an event was shown. -/
def shownTo (ev : Event) (log : List SbCall) : List Nat :=
  log.filterMap fun c => match c with | .shown i e => if e = ev then some i else none | _ => none

/-- The times of the records that were applied, in this order. -/
def appliedTimes (log : List SbCall) : List Nat :=
  log.filterMap fun c => match c with | .due _ t _ => some t | _ => none

end Ipt.Spec.Sideband
