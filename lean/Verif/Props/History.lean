import Verif.HistorySync
import Verif.Spec.History
import Verif.Props.Query

/-!
# C67: synchronizing starts afresh
-/

namespace Ipt

open Spec

variable {c : EvtCfg}

theorem evtSyncOf_run (o : SyncCall) (s : Evd) :
    o.evt.run c s = ((evtSyncOf c o s).1, (evtSyncOf c o s).2.bind fun _ => .ok none) := by
  cases o <;> rfl

theorem EAlike.offset {s t : Evd} (h : EAlike c s t) : evtGetOffset t = evtGetOffset s := by
  obtain ⟨_, _, _, rfl, _⟩ := h
  rfl

theorem call_alike (o : EvtCall) {s t : Evd} (h : EAlike c s t) :
    (o.run c t).2 = (o.run c s).2 ∧ EAlike c (o.run c s).1 (o.run c t).1 := by
  have key : ∀ {α : Type} (m : EM α) (g : α → Option Event), Sim c m →
      (m t).2.bind (fun a => Res.ok (g a)) = (m s).2.bind (fun a => Res.ok (g a)) ∧ EAlike c (m s).1 (m t).1 := by
    intro α m g hm
    obtain ⟨h1, h2⟩ := hm.run _ _ h
    exact ⟨by rw [h1], h2⟩
  cases o with
  | syncForward => exact key _ (fun _ => none) evtSyncForward_sim
  | syncBackward => exact key _ (fun _ => none) evtSyncBackward_sim
  | syncSet off => exact key _ (fun _ => none) (evtSyncSet_sim off)
  | next => exact key _ some evtNext_sim

theorem evtSeen_alike (os : List EvtCall) {s t : Evd} (h : EAlike c s t) : evtSeen c os t = evtSeen c os s := by
  induction os generalizing s t with
  | nil => rfl
  | cons o os ih =>
    obtain ⟨h1, h2⟩ := call_alike o h
    unfold evtSeen
    rw [h1, h2.offset, ih h2]

theorem query_alike (q : Query) {s t : Qdec} (h : QAlike c s t) :
    (q.run c t).2 = (q.run c s).2 ∧ QAlike c (q.run c s).1 (q.run c t).1 := by
  have key : ∀ {α : Type} (m : QM α) (g : α → Item × Flags), QSim c m →
      (m t).2.bind (fun a => Res.ok (g a)) = (m s).2.bind (fun a => Res.ok (g a)) ∧ QAlike c (m s).1 (m t).1 := by
    intro α m g hm
    obtain ⟨h1, h2⟩ := hm.run _ _ h
    exact ⟨by rw [h1], h2⟩
  cases q with
  | cond => exact key _ (fun (b, f) => (.bit b, f)) condBranch_sim
  | indirect => exact key _ (fun (ip, f) => (.target ip, f)) indirectBranch_sim
  | event => exact key _ (fun (e, f) => (.event e, f)) qryEvent_sim

theorem QAlike.offset {s t : Qdec} (h : QAlike c s t) : t.getOffset = s.getOffset := h.ev.offset

theorem qrySeen_alike (qs : List Query) {s t : Qdec} (h : QAlike c s t) : qrySeen c qs t = qrySeen c qs s := by
  induction qs generalizing s t with
  | nil => rfl
  | cons q qs ih =>
    obtain ⟨h1, h2⟩ := query_alike q h
    unfold qrySeen
    rw [h1, h2.offset, h2.time, ih h2]

namespace Props

/-- C67: two event decoders with the same configuration and arbitrary histories `s` and `s'`.  Synchronizing both to the
same offset has the same result.  If it succeeds, then all calls that follow have the same results in both, also when
the user goes on after errors.  The same holds for synchronizing forward and backward if both are at the same
position. -/
theorem C67_event_decoder_forgets (c : EvtCfg) (o : SyncCall) (s s' : Evd) (h : (∃ off, o = .set off) ∨ s'.pd = s.pd) :
    (o.evt.run c s').2 = (o.evt.run c s).2 ∧
    ((o.evt.run c s).2 = .ok none →
      ∀ calls, evtSeen c calls (o.evt.run c s').1 = evtSeen c calls (o.evt.run c s).1) := by
  obtain ⟨h1, h2⟩ := evt_forgets (c := c) o s s' h.symm
  rw [evtSyncOf_run, evtSyncOf_run]
  refine ⟨by dsimp only; rw [h1], fun hk calls => ?_⟩
  dsimp only at hk ⊢
  rcases hr : (evtSyncOf c o s).2 with u | e | _
  · exact evtSeen_alike calls (h2 u hr)
  · rw [hr] at hk; cases hk
  · rw [hr] at hk; cases hk

/-- C67: the same for query decoders; the results include the IP and the status flags. -/
theorem C67_query_decoder_forgets (c : EvtCfg) (o : SyncCall) (s s' : Qdec)
    (h : (∃ off, o = .set off) ∨ s'.ev.pd = s.ev.pd) :
    (o.run c s').2 = (o.run c s).2 ∧
    (∀ f ip, (o.run c s).2 = .ok (f, ip) →
      ∀ queries, qrySeen c queries (o.run c s').1 = qrySeen c queries (o.run c s).1) := by
  obtain ⟨h1, h2⟩ := qry_forgets (c := c) o s s' h.symm
  exact ⟨h1, fun f ip hr queries => qrySeen_alike queries (h2 _ hr)⟩

/-- A trace with a change of the execution mode (MODE.EXEC and TIP), a TNT and an invalid packet. -/
def forgetTrace : List UInt8 := [0x99, 1, 0x2d, 0x20, 0x80, 0x0e, 5]

/-- The event decoder after decoding all of it. -/
def usedEvt : Evd := evtFinal (cfgOf forgetTrace) (nexts 5) (startedEvt (cfgOf forgetTrace))

/-- The query decoder after a few queries, with a branch outcome in its cache. -/
def usedQry : Qdec := afterQueries (cfgOf forgetTrace) [.event, .indirect, .event, .cond] (started (cfgOf forgetTrace))

/-- The hypotheses of `C67_event_decoder_forgets` are met by a decoder that has reached an error and a new one.  Their
states differ before and after synchronizing them (the used one keeps execution mode bits). -/
example : (evtSyncSet (cfgOf forgetTrace) 0 usedEvt).2 = .ok () ∧ (evtSyncSet (cfgOf forgetTrace) 0 evtInit).2 = .ok () ∧
    (evtNext (cfgOf forgetTrace) usedEvt).2 = .err .badOpc ∧
    (evtSyncSet (cfgOf forgetTrace) 0 usedEvt).1.csl = true ∧ (evtSyncSet (cfgOf forgetTrace) 0 evtInit).1.csl = false ∧
    (evtSeen (cfgOf forgetTrace) (nexts 5) (evtSyncSet (cfgOf forgetTrace) 0 usedEvt).1).map Prod.fst =
      [.ok (some { data := .enabled 0x7001, statusUpdate := true }), .ok (some { data := .tip 0x8020 }),
        .ok (some { data := .execMode 3 0x8020 }), .ok (some { data := .tnt 3 2 }), .err .badOpc] := by decide +kernel

/-- The hypotheses of `C67_query_decoder_forgets` are met by a decoder with a branch outcome left in its cache, and
there are answers to the queries that follow. -/
example : usedQry.tnt.isEmpty = false ∧
    (qrySyncSet (cfgOf forgetTrace) 0 usedQry).2 = .ok ({ eventPending := true }, some 0x7001) ∧
    (qrySeen (cfgOf forgetTrace) [.event, .cond, .indirect, .event, .cond] (qrySyncSet (cfgOf forgetTrace) 0 usedQry).1).map
      (fun x => x.1.bind fun y => .ok y.1) =
      [.ok (.event { data := .enabled 0x7001, statusUpdate := true }), .err .badQuery, .ok (.target (some 0x8020)),
        .ok (.event { data := .execMode 3 0x8020 }), .ok (.bit true)] := by decide +kernel

end Props

end Ipt
