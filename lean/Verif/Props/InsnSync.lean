import Verif.Props.InsnDecoder

/-! # C54: synchronizing the instruction flow decoder -/

set_option linter.unusedSimpArgs false

namespace Ipt

open Spec Ild

theorem onPkt_bind {α : Type} (f : PktDec → PktDec × Res Unit) (g : Unit → EM α) (s : Evd) :
    (onPkt f >>= g) s = match (f s.pd).2 with
      | .ok _ => g () { s with pd := (f s.pd).1 }
      | .err e => ({ s with pd := (f s.pd).1 }, .err e)
      | .ub => ({ s with pd := (f s.pd).1 }, .ub) := by
  show EM.bind (onPkt f) g s = _
  unfold EM.bind onPkt
  rcases (f s.pd).2 with a | e | _ <;> rfl

theorem evt_forward_set {c : EvtCfg} {s : Evd} {r : Evd × Res Unit} (h : evtSyncForward c s = r) {off : Nat}
    (ho : pktSyncForward c.pkt c.base s.pd = ({ pos := some off, sync := some off }, .ok ())) (hl : off ≤ c.pkt.mem.length) :
    evtSyncSet c off s = r := by
  subst h
  unfold evtSyncForward evtSyncSet
  show EM.bind _ _ s = EM.bind _ _ s
  unfold EM.bind EM.modify
  dsimp only
  rw [onPkt_bind, onPkt_bind]
  rw [show (evtReset s).pd = s.pd from rfl, ho, show pktSyncSet c.pkt s.pd off = ({ pos := some off, sync := some off }, .ok ()) by
    unfold pktSyncSet; rw [if_neg (by omega)]]

end Ipt

namespace Ipt.Props

open Spec Ild

/-- C54: if `pt_insn_sync_forward` synchronizes at an offset, then `pt_insn_sync_set` to this offset has the same effect: it
leaves the decoder in the same state, so that all later calls return the same.  `off` is the offset of the next PSB, see C08. -/
theorem C54_forward_set (c : InsnCfg) (s : Idec) (off : Nat)
    (ho : pktSyncForward c.evt.pkt c.evt.base s.q.ev.pd = ({ pos := some off, sync := some off }, .ok ()))
    (hl : off ≤ c.evt.pkt.mem.length) :
    SyncCall.insn c (.set off) s = SyncCall.insn c .forward s := by
  have h : ∀ q : Qdec, q.ev = s.q.ev → qrySyncSet c.evt off q = qrySyncForward c.evt q := by
    intro q hq
    unfold qrySyncSet qrySyncForward onEvt
    rw [show (qryReset q).ev = q.ev from rfl, hq, evt_forward_set rfl ho hl]
  show insnSyncSet c off s = insnSyncForward c s
  unfold insnSyncSet insnSyncForward
  rw [IM.modify_bind, IM.modify_bind]
  have h1 : IM.query (qrySyncSet c.evt off) (insnReset s) = IM.query (qrySyncForward c.evt) (insnReset s) := by
    unfold IM.query
    rw [show (insnReset s).q = s.q from rfl, h _ rfl]
  show IM.bind _ _ _ = IM.bind _ _ _
  unfold IM.bind
  rw [h1]

/-- C54 is false for backward synchronization: at the same point, forward synchronization reports the pending status events,
the execution mode among them, and decodes the program in 64-bit mode.  `pt_insn_sync_backward` reports no
events, since `pt_qry_sync_backward` does not return its status flags.  The user sees the first instruction and then an error:
the first branch has to wait for the events. -/
theorem C54_backward_differs :
    flowSeen flowProgram [0x0e] .forward 8 = some [0, 0, 0x7001, 0x7002, 0x7006, 0x700b, 0x7011, 0x7010] ∧
    flowSeen flowProgram [0x0e] (.set 0) 8 = some [0, 0, 0x7001, 0x7002, 0x7006, 0x700b, 0x7011, 0x7010] ∧
    flowSeen flowProgram [0x0e] .backward 8 = some [0x7001] := by
  decide +kernel

end Ipt.Props
