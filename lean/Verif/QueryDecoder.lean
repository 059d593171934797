import Verif.EventDecoder
import Verif.TntCache

/-!
# The query decoder: libipt/src/pt_query_decoder.c

NULL arguments, `pt_qry_alloc_decoder` and the configuration functions are not modelled.  The configuration
`EvtCfg` stands for the one built by `pt_qry_decoder_init`, libipt/src/pt_query_decoder.c:73-99, which passes the
query decoder flags `keep_tcal_on_ovf` and `enable_iflags_events` to the event decoder.
-/

namespace Ipt

/-- The contents of `decoder->event`: never written (`malloc` in `pt_qry_alloc_decoder`), filled with 0xff after an
error, or an event. -/
inductive QEv
  | uninit
  | bad
  | ok (e : Event)
deriving DecidableEq, Repr

/-- `struct pt_query_decoder`, libipt/internal/include/pt_query_decoder.h:40-76, without the flags.  `status` is
`none` for zero. -/
structure Qdec where
  ev : Evd := evtInit
  tnt : TntCache := {}
  lastTime : Time := {}
  event : QEv := .uninit
  status : Option Err := some .nosync

/-- `enum pt_status_flag`, libipt/include/intel-pt.h.in:2044-2053. -/
structure Flags where
  eventPending : Bool := false
  ipSuppressed : Bool := false
  eos : Bool := false
deriving DecidableEq, Repr

/-- Computations on the state of a query decoder.  The state is kept when a function fails. -/
abbrev QM (α : Type) := Qdec → Qdec × Res α

/-- libipt/src/pt_query_decoder.c:60-71 `pt_qry_reset`. -/
def qryReset (s : Qdec) : Qdec := { s with status := some .nosync, tnt := {}, lastTime := {} }

/-- libipt/src/pt_query_decoder.c:133-146 `pt_qry_event_pending`.  The type of an event filled with 0xff is none of
the enumerators; reading uninitialized memory is undefined. -/
def QEv.pending : QEv → Res Bool
  | .uninit => .ub
  | .bad => .ok true
  | .ok e =>
    match e.data with
    | .tnt .. | .tip .. => .ok false
    | _ => .ok true

/-- libipt/src/pt_query_decoder.c:148-186 `pt_qry_status_flags`. -/
def Qdec.flags (s : Qdec) : Res Flags :=
  if s.tnt.isEmpty = true then
    if s.status = some .eos then .ok { eos := true }
    else
      match s.event.pending with
      | .ok b => .ok { eventPending := b }
      | .err e => .err e
      | .ub => .ub
  else .ok {}

/-- libipt/src/pt_query_decoder.c:188-205 `pt_qry_fetch_event`. -/
def qryFetch (c : EvtCfg) : QM Unit := fun s =>
  match evtNext c s.ev with
  | (ev, .ok e) => ({ s with ev := ev, event := .ok e }, .ok ())
  | (ev, .err e) => ({ s with ev := ev, event := .bad, status := some e }, .ok ())
  | (ev, .ub) => ({ s with ev := ev }, .ub)

/-- libipt/src/pt_query_decoder.c:224-263: the loop of `pt_qry_start`, on a copy `s` of the event decoder at `pos`.
The result is the IP it stores to `*ip`, if any.  The number of iterations is bounded by the number of events in the
queue, see `startLoop_total`. -/
def startLoop (c : EvtCfg) (pos : Option Nat) : Nat → Evd → Res (Option Nat)
  | 0, _ => .ub
  | n + 1, s =>
    if s.pd.pos ≠ pos then .ok none
    else
      match evtNext c s with
      | (_, .err .eos) => .ok none
      | (_, .err e) => .err e
      | (_, .ub) => .ub
      | (s', .ok e) =>
        if e.statusUpdate = false then .ok none
        else
          match e.data with
          | .enabled ip => .ok (some ip)
          | _ => startLoop c pos n s'

/-- libipt/src/pt_query_decoder.c:207-277 `pt_qry_start`.  The result is the status flags and the IP stored to
`*ip`, if any. -/
def qryStart (c : EvtCfg) : QM (Flags × Option Nat) := fun s =>
  match startLoop c s.ev.pd.pos evqFuel s.ev with
  | .err e => (s, .err e)
  | .ub => (s, .ub)
  | .ok ip =>
    match qryFetch c { s with status := none } with
    | (s', .ok ()) =>
      match s'.flags with
      | .ok f => (s', .ok ({ f with ipSuppressed := ip.isNone }, ip))
      | .err e => (s', .err e)
      | .ub => (s', .ub)
    | (s', .err e) => (s', .err e)
    | (s', .ub) => (s', .ub)

/-- Run a function of the event decoder. -/
def onEvt (f : EM Unit) (g : QM α) : QM α := fun s =>
  match f s.ev with
  | (ev, .ok ()) => g { s with ev := ev }
  | (ev, .err e) => ({ s with ev := ev }, .err e)
  | (ev, .ub) => ({ s with ev := ev }, .ub)

/-- libipt/src/pt_query_decoder.c:279-295 `pt_qry_sync_forward`. -/
def qrySyncForward (c : EvtCfg) : QM (Flags × Option Nat) := fun s =>
  onEvt (evtSyncForward c) (qryStart c) (qryReset s)

/-- libipt/src/pt_query_decoder.c:324-330: the inner loop of `pt_qry_sync_backward`. -/
def qrySyncBackInner (c : EvtCfg) (sync : Nat) : Nat → QM Nat
  | 0 => fun s => (s, .ub)
  | n + 1 => onEvt (evtSyncBackward c) fun s =>
    if sync ≤ s.ev.pd.pos.getD 0 then qrySyncBackInner c sync n s else (s, .ok (s.ev.pd.pos.getD 0))

/-- libipt/src/pt_query_decoder.c:318-351: the outer loop of `pt_qry_sync_backward`.  `ip` is the IP stored to `*ip`
so far.  It returns zero, not the status flags. -/
def qrySyncBackLoop (c : EvtCfg) (start : Nat) : Nat → Nat → Option Nat → QM (Flags × Option Nat)
  | 0, _, _ => fun s => (s, .ub)
  | n + 1, sync, ip => fun s =>
    match qrySyncBackInner c sync c.fuel (qryReset s) with
    | (s, .err e) => (s, .err e)
    | (s, .ub) => (s, .ub)
    | (s, .ok sync) =>
      match qryStart c s with
      | (s, .ub) => (s, .ub)
      | (s, .err .eos) => qrySyncBackLoop c start n sync ip s
      | (s, .err e) => (s, .err e)
      | (s, .ok (_, ip')) =>
        if s.ev.pd.pos.getD 0 < start then (s, .ok ({}, ip'.or ip))
        else qrySyncBackLoop c start n sync (ip'.or ip) s

/-- libipt/src/pt_query_decoder.c:297-354 `pt_qry_sync_backward`. -/
def qrySyncBackward (c : EvtCfg) : QM (Flags × Option Nat) := fun s =>
  qrySyncBackLoop c (s.ev.pd.pos.getD c.pkt.mem.length) c.fuel (s.ev.pd.pos.getD c.pkt.mem.length) none s

/-- libipt/src/pt_query_decoder.c:356-373 `pt_qry_sync_set`. -/
def qrySyncSet (c : EvtCfg) (offset : Nat) : QM (Flags × Option Nat) := fun s =>
  onEvt (evtSyncSet c offset) (qryStart c) (qryReset s)

/-- libipt/src/pt_query_decoder.c:375-381 `pt_qry_get_offset`. -/
def Qdec.getOffset (s : Qdec) : Res Nat := evtGetOffset s.ev

/-- libipt/src/pt_query_decoder.c:401-425 `pt_qry_cache_tnt`. -/
def cacheTnt (c : EvtCfg) : QM Unit := fun s =>
  match s.status with
  | some e => (s, .err e)
  | none =>
    match s.event with
    | .uninit => (s, .ub)
    | .bad => (s, .ok ())
    | .ok e =>
      match e.data with
      | .tnt bits size =>
        match s.tnt.add bits size with
        | (t, .ok ()) => qryFetch c { s with tnt := t }
        | (t, .err e) => ({ s with tnt := t }, .err e)
        | (t, .ub) => ({ s with tnt := t }, .ub)
      | _ => (s, .ok ())

/-- The result of a query: the answer and the status flags. -/
def withFlags (s : Qdec) (a : α) : Qdec × Res (α × Flags) :=
  match s.flags with
  | .ok f => (s, .ok (a, f))
  | .err e => (s, .err e)
  | .ub => (s, .ub)

/-- libipt/src/pt_query_decoder.c:427-473 `pt_qry_cond_branch`. -/
def condBranch (c : EvtCfg) : QM (Bool × Flags) := fun s =>
  match s.tnt.query with
  | (t, .ok b) => withFlags { s with tnt := t } b
  | (_, .ub) => (s, .ub)
  | (_, .err .badQuery) =>
    match cacheTnt c { s with lastTime := s.ev.tm.time } with
    | (s, .err e) => (s, .err e)
    | (s, .ub) => (s, .ub)
    | (s, .ok ()) =>
      match s.tnt.query with
      | (t, .ok b) => withFlags { s with tnt := t } b
      | (_, .ub) => (s, .ub)
      | (_, .err .badQuery) =>
        match s.status with
        | some e => (s, .err e)
        | none => (s, .err .badQuery)
      | (_, .err e) => (s, .err e)
  | (_, .err e) => (s, .err e)

/-- `ev->type == ptev_tip`: the event, if so. -/
def QEv.tip : QEv → Res (Option (Bool × Nat))
  | .uninit => .ub
  | .bad => .ok none
  | .ok e =>
    match e.data with
    | .tip ip => .ok (some (e.ipSuppressed, ip))
    | _ => .ok none

/-- libipt/src/pt_query_decoder.c:508-524: the end of `pt_qry_indirect_branch`.  The result is the IP stored to
`*addr`, if any. -/
def takeTip (c : EvtCfg) (suppressed : Bool) (ip : Nat) : QM (Option Nat × Flags) := fun s =>
  match qryFetch c { s with lastTime := s.ev.tm.time } with
  | (s, .ok ()) =>
    match s.flags with
    | .ok f => (s, .ok (if suppressed = true then none else some ip, { f with ipSuppressed := suppressed }))
    | .err e => (s, .err e)
    | .ub => (s, .ub)
  | (s, .err e) => (s, .err e)
  | (s, .ub) => (s, .ub)

/-- libipt/src/pt_query_decoder.c:475-525 `pt_qry_indirect_branch`. -/
def indirectBranch (c : EvtCfg) : QM (Option Nat × Flags) := fun s =>
  match s.status with
  | some e => (s, .err e)
  | none =>
    match s.event.tip with
    | .ub => (s, .ub)
    | .err e => (s, .err e)
    | .ok (some (sup, ip)) => takeTip c sup ip s
    | .ok none =>
      match cacheTnt c s with
      | (s, .err e) => (s, .err e)
      | (s, .ub) => (s, .ub)
      | (s, .ok ()) =>
        match s.event.tip with
        | .ub => (s, .ub)
        | .err e => (s, .err e)
        | .ok (some (sup, ip)) => takeTip c sup ip s
        | .ok none =>
          match s.status with
          | some e => (s, .err e)
          | none => (s, .err .badQuery)

/-- libipt/src/pt_query_decoder.c:527-579 `pt_qry_event`, without truncating the event to the size the user asked
for. -/
def qryEvent (c : EvtCfg) : QM (Event × Flags) := fun s =>
  if s.tnt.isEmpty = false then (s, .err .badQuery)
  else
    match s.status with
    | some e => (s, .err e)
    | none =>
      match s.event.pending with
      | .ub => (s, .ub)
      | .err e => (s, .err e)
      | .ok false => (s, .err .badQuery)
      | .ok true =>
        match s.event with
        | .ok e =>
          match qryFetch c { s with lastTime := s.ev.tm.time } with
          | (s, .ok ()) => withFlags s e
          | (s, .err e) => (s, .err e)
          | (s, .ub) => (s, .ub)
        | _ => (s, .ub)

/-- libipt/src/pt_query_decoder.c:581-588 `pt_qry_time`. -/
def Qdec.time (s : Qdec) : Res (Nat × Nat × Nat) := s.lastTime.queryTsc

/-- libipt/src/pt_query_decoder.c:590-596 `pt_qry_core_bus_ratio`. -/
def Qdec.coreBusRatio (s : Qdec) : Res Nat := s.lastTime.queryCbr

end Ipt
