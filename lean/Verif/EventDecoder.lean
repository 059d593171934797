import Verif.Event

/-!
# The event decoder: libipt/src/pt_event_decoder.c

Packet decode functions return a Boolean: `true` stands for a positive return value (further packets
are needed), `false` for zero (an event was created).  Null pointer checks are omitted.  All loops are
given fuel; running out of fuel is undefined (`ub`), and the theorems tell when that does not happen.
-/

namespace Ipt

/-- Enough fuel for every loop over the packets of the trace buffer. -/
def EvtCfg.fuel (c : EvtCfg) : Nat := c.pkt.mem.length + 4

/-- libipt/src/pt_event_decoder.c:53-71 `pt_evt_reset`. -/
def evtReset (s : Evd) : Evd :=
  { s with packet := .invalid, status := some .nosync, event := none, enabled := false, bound := false,
           modeValid := false, ip := {}, tm := {}, q := {} }

/-- The loop of libipt/src/pt_event_decoder.c:157-168 in `pt_evt_fetch_packet`. -/
def fetchLoop (c : EvtCfg) : Nat → EM Unit
  | 0 => EM.undef
  | n + 1 => fun s =>
    match pktDecNext c.pkt s.pd with
    | (pd, .ok (p, size)) =>
      if p = .pad then fetchLoop c n { s with pd := pd, packet := p, size := size }
      else ({ s with pd := pd, packet := p, size := size }, .ok ())
    | (_, .err e) => ({ s with packet := .invalid, size := 0, status := some e }, .ok ())
    | (_, .ub) => (s, .ub)

/-- libipt/src/pt_event_decoder.c:146-171 `pt_evt_fetch_packet`. -/
def fetchPacket (c : EvtCfg) : EM Unit := fetchLoop c c.fuel

/-- `return pt_evt_fetch_packet(decoder);` -/
def fetchDone (c : EvtCfg) : EM Bool := do
  fetchPacket c
  return false

/-- libipt/src/pt_event_decoder.c:173-189 `pt_evt_event_time`.  `pt_time_query_tsc`
(libipt/src/pt_time.c) fills in its results also when it returns -pte_no_time; there is no other
error. -/
def Event.timed (e : Event) (t : Time) : Event :=
  { e with tsc := t.tsc, lostMtc := t.lostMtc, lostCyc := t.lostCyc,
           hasTsc := if t.haveTsc = true then true else e.hasTsc }

/-- Store to the address field of an event's variant. -/
def EvData.setIp (ip : Nat) : EvData → EvData
  | .enabled _ => .enabled ip
  | .disabled _ => .disabled ip
  | .asyncDisabled a _ => .asyncDisabled a ip
  | .asyncBranch f _ => .asyncBranch f ip
  | .asyncPaging a b _ => .asyncPaging a b ip
  | .overflow _ => .overflow ip
  | .execMode m _ => .execMode m ip
  | .tsx a b _ => .tsx a b ip
  | .asyncVmcs b _ => .asyncVmcs b ip
  | .exstop _ => .exstop ip
  | .mwait a b _ => .mwait a b ip
  | .ptwrite a b _ => .ptwrite a b ip
  | .tip _ => .tip ip
  | .iflags a _ => .iflags a ip
  | .interrupt a b _ => .interrupt a b ip
  | .iret _ => .iret ip
  | .smi _ => .smi ip
  | .init _ => .init ip
  | .vmentry _ => .vmentry ip
  | .vmexit a b d _ => .vmexit a b d ip
  | .shutdown _ => .shutdown ip
  | .uintr a _ => .uintr a ip
  | .uiret _ => .uiret ip
  | .trig a b d _ => .trig a b d ip
  | d => d

/-- libipt/src/pt_event_decoder.c:191-213 `pt_evt_event_ip`, where the destination is the address
field of the event's variant.  `pt_last_ip_query` has no errors other than the two that are handled
here and stores zero in both cases. -/
def Event.withIp (e : Event) (l : LastIp) : Event :=
  match l.query with
  | .ok ip => { e with data := e.data.setIp ip }
  | _ => { e with data := e.data.setIp 0, ipSuppressed := true }

/-- `ev->type == ptev_async_branch` -/
def Event.isAsyncBranch (e : Event) : Bool :=
  match e.data with
  | .asyncBranch .. => true
  | _ => false

/-- `ev->type == ptev_async_paging` -/
def Event.isAsyncPaging (e : Event) : Bool :=
  match e.data with
  | .asyncPaging .. => true
  | _ => false

/-- `ev = pt_evq_enqueue(&decoder->evq, evb); if (!ev) return -pte_nomem;` -/
def enqSlot (evb : Nat) : EM Nat := fun s =>
  match s.q.enqueue evb with
  | (q, some i) => ({ s with q := q }, .ok i)
  | (q, none) => ({ s with q := q }, .err .nomem)

/-- Update `*ev` depending on the decoder state. -/
def updEv (p : EvPtr) (f : Evd → Event → Event) : EM Unit := EM.modify fun s => s.setEv p (f s (s.ev p))

/-- Enqueue an event: `pt_evq_enqueue` followed by filling in the zeroed event. -/
def enq (evb : Nat) (e : Event) : EM Unit := do
  let i ← enqSlot evb
  updEv (.slot i) fun _ _ => e

/-- Enqueue an event and ask for further packets. -/
def enqMore (evb : Nat) (e : Event) : EM Bool := do
  enq evb e
  return true

/-- `pt_evq_dequeue(&decoder->evq, evb)` -/
def deq (evb : Nat) : EM (Option Nat) := fun s =>
  ({ s with q := (s.q.dequeue evb).1 }, .ok (s.q.dequeue evb).2)

/-- `decoder->event = ev;` -/
def setEvent (p : Option EvPtr) : EM Unit := EM.modify fun s => { s with event := p }

/-- `return pt_evt_event_time(ev, &decoder->time);` -/
def timeEv (p : EvPtr) : EM Bool := do
  updEv p fun s e => e.timed s.tm.time
  return false

/-- `pt_evt_event_ip(&ev->..., ev, &decoder->ip)` and `pt_evt_event_time(ev, &decoder->time)` in either
order. -/
def ipTimeEv (p : EvPtr) : EM Bool := do
  updEv p fun s e => e.withIp s.ip
  timeEv p

/-- `decoder->event = ev = pt_evq_standalone(&decoder->evq);` and filling in the event. -/
def alone (e : Event) : EM Unit :=
  EM.modify fun s => { s with q := { s.q with standalone := e }, event := some .alone }

/-- A standalone event with the current time that completes the current packet. -/
def aloneDone (c : EvtCfg) (e : Event) : EM Bool := do
  alone e
  let _ ← timeEv .alone
  fetchDone c

/-- `pt_last_ip_update_ip(&decoder->ip, packet, config)` -/
def updIp (ipc ip : Nat) : EM Unit := fun s =>
  ({ s with ip := (s.ip.update ipc ip).1 }, (s.ip.update ipc ip).2)

/-- libipt/src/pt_event_decoder.c:274-568, applied to the decoder's timing state. -/
def applyTm (c : EvtCfg) (p : TimePkt) : EM Unit := fun s =>
  ({ s with tm := (s.tm.apply c.time p).1 }, (s.tm.apply c.time p).2)

/-- libipt/src/pt_event_decoder.c:328-339, 477-488, 520-531 and 577-588: `pt_evt_decode_tsc`,
`pt_evt_decode_tma`, `pt_evt_decode_mtc`, `pt_evt_decode_cyc`. -/
def decodeTiming (c : EvtCfg) (p : TimePkt) : EM Bool := do
  applyTm c p
  return true

/-- libipt/src/pt_event_decoder.c:419-445 `pt_evt_decode_cbr`. -/
def decodeCbr (c : EvtCfg) (ratio : Nat) : EM Bool := do
  applyTm c (.cbr ratio)
  aloneDone c { data := .cbr ratio }

/-- libipt/src/pt_event_decoder.c:228-272 `pt_evt_find_header_fup`, on a copy of the packet decoder.
The result is the payload of the FUP. -/
def headerFupLoop (c : EvtCfg) : Nat → PktDec → Res (Option (Nat × Nat))
  | 0, _ => .ub
  | n + 1, d =>
    match pktDecNext c.pkt d with
    | (_, .err e) => .err e
    | (_, .ub) => .ub
    | (d, .ok (p, _)) =>
      match p with
      | .fup ipc ip => .ok (some (ipc, ip))
      | .modeExec .. | .modeTsx .. | .modeOther .. | .pip .. | .vmcs .. | .mnt .. | .tsc .. | .cbr ..
      | .tma .. | .mtc .. | .cyc .. | .pad | .invalid => headerFupLoop c n d
      | .psbend | .ovf => .ok none
      | _ => .err .badContext

/-- libipt/src/pt_event_decoder.c:590-639 `pt_evt_check_bdm70`, on a copy of the packet decoder. -/
def bdm70Loop (c : EvtCfg) : Nat → PktDec → Res Bool
  | 0, _ => .ub
  | n + 1, d =>
    match pktDecNext c.pkt d with
    | (_, .err .eos) => .ok false
    | (_, .err e) => .err e
    | (_, .ub) => .ub
    | (d, .ok (p, _)) =>
      match p with
      | .tipPge .. => .ok true
      | .pad | .tsc .. | .cbr .. | .psbend | .pip .. | .modeExec .. | .modeTsx .. | .modeOther ..
      | .vmcs .. | .tma .. | .mtc .. | .cyc .. | .mnt .. => bdm70Loop c n d
      | _ => .ok false

/-- The erratum check in `pt_evt_header_fup`, libipt/src/pt_event_decoder.c:657-664. -/
def checkBdm70 (c : EvtCfg) : EM Bool := fun s =>
  if c.pkt.errata.bdm70 = true then (s, bdm70Loop c c.fuel s.pd) else (s, .ok false)

/-- libipt/src/pt_event_decoder.c:641-671 `pt_evt_header_fup`; `ipc = 0` is `pt_ipc_suppressed`. -/
def headerFup (c : EvtCfg) (ipc ip : Nat) : EM Unit := do
  let hit ← checkBdm70 c
  if ipc = 0 ∨ hit = true then EM.modify fun s => { s with enabled := false }
  else do
    EM.modify fun s => { s with enabled := true }
    updIp ipc ip

/-- libipt/include/intel-pt.h.in:696-703 `pt_get_exec_mode`; the enumerators of `enum pt_exec_mode` are
0: unknown, 1: 16-bit, 2: 32-bit, 3: 64-bit. -/
def execMode (csl csd : Bool) : Nat :=
  if csl = true then (if csd = true then 0 else 3) else (if csd = true then 2 else 1)

/-- libipt/src/pt_event_decoder.c:688-706: the consistency check of MODE.EXEC in PSB+. -/
def checkModeExec (c : EvtCfg) (csl csd iflag : Bool) : EM Unit := fun s =>
  if s.modeValid = true then
    if c.enableIflags = true ∧ s.iflag ≠ iflag then (s, .err .badStatusUpdate)
    else if s.csd ≠ csd then (s, .err .badStatusUpdate)
    else if s.csl ≠ csl then (s, .err .badStatusUpdate)
    else (s, .ok ())
  else ({ s with modeValid := true, iflag := iflag, csd := csd, csl := csl }, .ok ())

/-- libipt/src/pt_event_decoder.c:682-726: `pt_evt_header_mode` for MODE.EXEC. -/
def headerModeExec (c : EvtCfg) (csl csd iflag : Bool) : EM Unit := do
  checkModeExec c csl csd iflag
  enq evbPsbend { data := .execMode (execMode csl csd) 0, statusUpdate := true }
  if c.enableIflags = true then enq evbPsbend { data := .iflags iflag 0, statusUpdate := true }
  else pure ()

/-- libipt/src/pt_event_decoder.c:767-802: the events of MODE.EXEC, depending on what changed. -/
def modeExecEvents (m i csl csd iflag : Bool) : EM Unit := do
  if m = true then do
    enq (evbTip ||| evbFupBound) { data := .execMode (execMode csl csd) 0 }
    EM.modify fun s => { s with csl := csl, csd := csd }
  else pure ()
  if i = true then do
    enq (evbTip ||| evbFupBound) { data := .iflags iflag 0 }
    EM.modify fun s => { s with iflag := iflag }
  else pure ()
  if m = false ∧ i = false then enq (evbTip ||| evbFupBound) { data := .tick 0 } else pure ()

/-- libipt/src/pt_event_decoder.c:743-806 `pt_evt_decode_mode_exec`. -/
def decodeModeExec (c : EvtCfg) (csl csd iflag : Bool) : EM Bool := do
  let s ← EM.get
  modeExecEvents (decide (s.modeValid = false ∨ s.csl ≠ csl ∨ s.csd ≠ csd))
    (decide (c.enableIflags = true ∧ (s.modeValid = false ∨ s.iflag ≠ iflag))) csl csd iflag
  EM.modify fun s => { s with modeValid := true }
  return true

/-- libipt/src/pt_event_decoder.c:808-848 `pt_evt_decode_mode_tsx`. -/
def decodeModeTsx (c : EvtCfg) (intx abrt : Bool) : EM Bool := do
  let s ← EM.get
  if s.enabled = true then
    enqMore (if abrt = true then evbFup else evbFupBound) { data := .tsx intx abrt 0 }
  else aloneDone c { data := .tsx intx abrt 0, ipSuppressed := true }

/-- libipt/src/pt_event_decoder.c:889-929 `pt_evt_decode_pip`. -/
def decodePip (c : EvtCfg) (cr3 : Nat) (nr : Bool) : EM Bool := do
  let s ← EM.get
  if (s.q.find evbTip Event.isAsyncBranch).isSome = true then
    enqMore evbTip { data := .asyncPaging cr3 nr 0 }
  else aloneDone c { data := .paging cr3 nr }

/-- libipt/src/pt_event_decoder.c:967-979: re-use the slot of the async paging event for the async vmcs
event.  In the C code the address field of the new variant overlays bytes of the old one until it is
filled in. -/
def vmcsBeforePaging (base i : Nat) : EM Bool := do
  let j ← enqSlot evbTip
  updEv (.slot j) fun s _ => s.q.get i
  updEv (.slot i) fun _ e => { e with data := .asyncVmcs base 0 }
  return true

/-- libipt/src/pt_event_decoder.c:950-1014 `pt_evt_decode_vmcs`. -/
def decodeVmcs (c : EvtCfg) (base : Nat) : EM Bool := do
  let s ← EM.get
  match s.q.find evbTip Event.isAsyncPaging with
  | some i => vmcsBeforePaging base i
  | none =>
    if (s.q.find evbTip Event.isAsyncBranch).isSome = true then enqMore evbTip { data := .asyncVmcs base 0 }
    else aloneDone c { data := .vmcs base }

/-- libipt/src/pt_event_decoder.c:1128-1152: the event of EXSTOP. -/
def exstopEvent (c : EvtCfg) (ip : Bool) : EM Bool :=
  if ip = true then enqMore evbFupBound { data := .exstop 0 }
  else aloneDone c { data := .exstop 0, ipSuppressed := true }

/-- libipt/src/pt_event_decoder.c:1078-1153 `pt_evt_decode_exstop`. -/
def decodeExstop (c : EvtCfg) (ip : Bool) : EM Bool := do
  match ← deq evbExstop with
  | none => exstopEvent c ip
  | some i => do
    let s ← EM.get
    match (s.q.get i).data with
    | .mwait h x _ =>
      if ip = true then do
        let j ← enqSlot evbFupBound
        updEv (.slot j) fun s _ => s.q.get i
        exstopEvent c ip
      else do
        updEv (.slot i) fun _ e => { e with data := .mwait h x 0, ipSuppressed := true }
        setEvent (some (.slot i))
        timeEv (.slot i)
    | _ => EM.fail .internal

/-- libipt/src/pt_event_decoder.c:1155-1172 `pt_evt_decode_mwait`. -/
def decodeMwait (hints ext : Nat) : EM Bool := enqMore evbExstop { data := .mwait hints ext 0 }

/-- libipt/src/pt_event_decoder.c:1232-1274 `pt_evt_decode_ptw`. -/
def decodePtw (c : EvtCfg) (payload plc : Nat) (ip : Bool) : EM Bool := do
  let size ← EM.lift (ptwSize plc)
  if ip = true then enqMore evbFupBound { data := .ptwrite size payload 0 }
  else aloneDone c { data := .ptwrite size payload 0, ipSuppressed := true }

/-- libipt/src/pt_event_decoder.c:1393-1413: remove the initial event when PSB+ ends with an overflow
and tracing is not enabled. -/
def psbDropHead (i : Nat) : EM Unit := do
  match ← deq evbPsbend with
  | some j => if j = i then pure () else EM.fail .internal
  | none => EM.fail .internal

/-- One packet inside PSB+, libipt/src/pt_event_decoder.c:1332-1428, including `pt_evt_header_pip`
(869-887), `pt_evt_header_vmcs` (931-948), `pt_evt_header_mnt` (1016-1032), `pt_evt_header_mode` (728-737)
and the timing functions (298-303, 368-391, 470-475, 513-518, 570-575).  The result is `true` at the end
of PSB+.  `i` is the slot of the initial event. -/
def psbPacket (c : EvtCfg) (i : Nat) : EM Bool := fun s =>
  match s.packet with
  | .fup ipc ip => (do headerFup c ipc ip; return false) s
  | .modeExec csl csd iflag => (do headerModeExec c csl csd iflag; return false) s
  | .modeTsx intx abrt =>
    (do enq evbPsbend { data := .tsx intx abrt 0, statusUpdate := true }; return false) s
  | .modeOther _ => (s, .ok false)
  | .pip cr3 nr =>
    (do enq evbPsbend { data := .asyncPaging cr3 nr 0, statusUpdate := true }; return false) s
  | .vmcs base => (do enq evbPsbend { data := .asyncVmcs base 0, statusUpdate := true }; return false) s
  | .mnt payload => (do enq evbPsbend { data := .mnt payload }; return false) s
  | .tsc v => (do applyTm c (.hTsc v); return false) s
  | .cbr ratio =>
    (do
      applyTm c (.hCbr ratio)
      enq evbPsbend { data := .cbr ratio, statusUpdate := true }
      return false) s
  | .tma ctc fc => (do applyTm c (.tma ctc fc); return false) s
  | .mtc ctc => (do applyTm c (.mtc ctc); return false) s
  | .cyc v => (do applyTm c (.cyc v); return false) s
  | .psbend =>
    if s.enabled = true then
      (do updEv (.slot i) fun _ e => { e with data := .enabled 0 }
          return true) s
    else
      (do updEv (.slot i) fun _ e => { e with data := .disabled 0, ipSuppressed := true }
          return true) s
  | .ovf =>
    if s.enabled = true then
      (do updEv (.slot i) fun _ e => { e with data := .enabled 0 }
          return true) s
    else (do psbDropHead i; return true) s
  | .pad => (s, .ok false)
  | .invalid =>
    match s.status with
    | some e => (s, .err e)
    | none => (s, .ok false)
  | _ => (s, .err .badContext)

/-- The loop of libipt/src/pt_event_decoder.c:1327-1429 in `pt_evt_decode_psb`. -/
def psbLoop (c : EvtCfg) (i : Nat) : Nat → EM Unit
  | 0 => EM.undef
  | n + 1 => do
    fetchPacket c
    let done ← psbPacket c i
    if done = true then pure () else psbLoop c i n

/-- libipt/src/pt_event_decoder.c:1308-1310: partial events must not be carried across PSB. -/
def psbPending : EM Unit := fun s =>
  match s.q.pending (2 ^ 32 - 1) with
  | .ok false => (s, .ok ())
  | _ => (s, .err .badContext)

/-- libipt/src/pt_event_decoder.c:1299-1430 `pt_evt_decode_psb`. -/
def decodePsb (c : EvtCfg) : EM Unit := do
  psbPending
  EM.modify fun s => { s with ip := {}, enabled := false }
  let i ← enqSlot evbPsbend
  updEv (.slot i) fun _ _ => { statusUpdate := true }
  psbLoop c i c.fuel

/-- libipt/src/pt_event_decoder.c:1432-1464 `pt_evt_start`. -/
def evtStart (c : EvtCfg) : EM Unit := do
  EM.modify fun s => { s with status := none }
  fetchPacket c
  let s ← EM.get
  match s.packet with
  | .psb => decodePsb c
  | .invalid =>
    match s.status with
    | some e => EM.fail e
    | none => EM.fail .internal
  | _ => EM.fail .nosync

/-- Run a function of the packet decoder. -/
def onPkt (f : PktDec → PktDec × Res Unit) : EM Unit := fun s => ({ s with pd := (f s.pd).1 }, (f s.pd).2)

/-- libipt/src/pt_event_decoder.c:1466-1482 `pt_evt_sync_forward`. -/
def evtSyncForward (c : EvtCfg) : EM Unit := do
  EM.modify evtReset
  onPkt (pktSyncForward c.pkt c.base)
  evtStart c

/-- libipt/src/pt_event_decoder.c:1505-1511: the inner loop of `pt_evt_sync_backward`. -/
def evtSyncBackInner (c : EvtCfg) (sync : Nat) : Nat → EM Nat
  | 0 => EM.undef
  | n + 1 => do
    onPkt (pktSyncBackward c.pkt c.base)
    let s ← EM.get
    let pos := s.pd.pos.getD 0
    if sync ≤ pos then evtSyncBackInner c sync n else return pos

/-- libipt/src/pt_event_decoder.c:1515-1519: `errcode = pt_evt_start(decoder);` without returning. -/
def tryStart (c : EvtCfg) : EM (Res Unit) := fun s =>
  match evtStart c s with
  | (s', .ub) => (s', .ub)
  | (s', r) => (s', .ok r)

/-- libipt/src/pt_event_decoder.c:1500-1520: the outer loop of `pt_evt_sync_backward`. -/
def evtSyncBackLoop (c : EvtCfg) (start : Nat) : Nat → Nat → EM Unit
  | 0, _ => EM.undef
  | n + 1, sync => do
    EM.modify evtReset
    let sync ← evtSyncBackInner c sync c.fuel
    let r ← tryStart c
    let s ← EM.get
    if s.pd.pos.getD 0 < start then EM.lift r else evtSyncBackLoop c start n sync

/-- libipt/src/pt_event_decoder.c:1484-1521 `pt_evt_sync_backward`. -/
def evtSyncBackward (c : EvtCfg) : EM Unit := do
  let s ← EM.get
  let start := s.pd.pos.getD c.pkt.mem.length
  evtSyncBackLoop c start c.fuel start

/-- libipt/src/pt_event_decoder.c:1523-1539 `pt_evt_sync_set`. -/
def evtSyncSet (c : EvtCfg) (offset : Nat) : EM Unit := do
  EM.modify evtReset
  onPkt fun d => pktSyncSet c.pkt d offset
  evtStart c

/-- libipt/src/pt_event_decoder.c:1541-1556 `pt_evt_get_offset`, on `uint64_t`. -/
def evtGetOffset (s : Evd) : Res Nat :=
  match pktGetOffset s.pd with
  | .ok off => .ok ((off + 2 ^ 64 - s.size) % 2 ^ 64)
  | .err e => .err e
  | .ub => .ub

/-- The common part of the decode functions below: `decoder->event = ev;` and a `switch` on the type of
the event. -/
def publish (i : Nat) (f : Event → EM Bool) : EM Bool := do
  setEvent (some (.slot i))
  let s ← EM.get
  f (s.q.get i)

/-- libipt/src/pt_event_decoder.c:1590-1635: the `switch` in `pt_evt_decode_psbend`. -/
def psbendEvent (i : Nat) (e : Event) : EM Bool :=
  match e.data with
  | .enabled .. | .execMode .. | .iflags .. | .tsx .. | .asyncPaging .. | .asyncVmcs .. => ipTimeEv (.slot i)
  | .disabled .. | .cbr .. | .mnt .. => timeEv (.slot i)
  | _ => EM.fail .badContext

/-- libipt/src/pt_event_decoder.c:1576-1636 `pt_evt_decode_psbend`. -/
def decodePsbend : EM Bool := do
  match ← deq evbPsbend with
  | none => return true
  | some i => publish i (psbendEvent i)

/-- libipt/src/pt_event_decoder.c:1652-1658: a FUP with bound events is bound. -/
def fupPending : EM Unit := fun s =>
  match s.q.pending evbFupBound with
  | .ok true => ({ s with bound := true }, .ok ())
  | .ok false => (s, .ok ())
  | .err e => (s, .err e)
  | .ub => (s, .ub)

/-- libipt/src/pt_event_decoder.c:1661-1687: a FUP without events. -/
def fupUnbound : EM Bool := do
  let s ← EM.get
  if s.bound = true then return true
  else do
    let from_ ← EM.lift s.ip.query
    enqMore evbTip { data := .asyncBranch from_ 0 }

/-- libipt/src/pt_event_decoder.c:1691-1881: the `switch` in `pt_evt_decode_fup`. -/
def fupEvent (i : Nat) (again : EM Bool) (e : Event) : EM Bool :=
  match e.data with
  | .overflow .. => do
    updEv (.slot i) fun s e => e.withIp s.ip
    EM.modify fun s => { s with enabled := true }
    return false
  | .tsx .. | .exstop .. | .mwait .. | .ptwrite .. | .execMode .. | .iflags .. | .interrupt .. | .iret ..
  | .smi .. | .init .. | .vmentry .. | .vmexit .. | .shutdown .. | .uintr .. | .uiret .. | .trig .. =>
    ipTimeEv (.slot i)
  | .rsm | .sipi .. => do
    let _ ← timeEv (.slot i)
    if e.ipSuppressed = true then return false else EM.fail .internal
  | .tick .. => do
    setEvent none
    again
  | _ => EM.fail .badContext

/-- libipt/src/pt_event_decoder.c:1638-1882 `pt_evt_decode_fup`; the recursion drops one event each. -/
def decodeFup (ipc ip : Nat) : Nat → EM Bool
  | 0 => EM.undef
  | n + 1 => do
    updIp ipc ip
    fupPending
    match ← deq (evbFup ||| evbFupBound) with
    | none => fupUnbound
    | some i => publish i (fupEvent i (decodeFup ipc ip n))

/-- libipt/src/pt_event_decoder.c:1890-1955 `pt_evt_find_ovf_fup`, on a copy of the packet decoder.  The
result is zero for a non-PacketEn packet.  The sum is of type `int`: reaching 2^31 is undefined, and the
check in 1912 can never succeed. -/
def findOvfFup (c : EvtCfg) : Nat → PktDec → Nat → Res Nat
  | 0, _, _ => .ub
  | n + 1, d, offset =>
    match pktDecNext c.pkt d with
    | (_, .err e) => .err e
    | (_, .ub) => .ub
    | (d, .ok (p, size)) =>
      if size = 0 then .err .badPacket
      else if 2 ^ 31 ≤ offset + size then .ub
      else
        match p with
        | .fup .. => .ok (offset + size)
        | .unknown | .pad | .mnt .. | .cbr .. | .tsc .. | .tma .. | .mtc .. | .cyc .. | .invalid =>
          findOvfFup c n d (offset + size)
        | .psbend | .tip .. | .tipPgd .. | .tnt8 .. | .tnt64 .. => .err .badContext
        | _ => .ok 0

/-- libipt/src/pt_event_decoder.c:1957-1995 `pt_evt_recover_ovf_at_ip`. -/
def recoverOvfAtIp (d : PktDec) (p : Packet) (size ipc ip : Nat) (tm : Timing) : EM Bool := do
  updIp ipc ip
  alone { data := .overflow 0 }
  let _ ← timeEv .alone
  EM.modify fun s => { s with pd := d, packet := p, size := size, tm := tm, enabled := true }
  updEv .alone fun s e => e.withIp s.ip
  return false

/-- libipt/src/pt_event_decoder.c:1997-2027 `pt_evt_recover_ovf_disabled`, followed by
`pt_evt_fetch_packet` as at both of its uses. -/
def recoverOvfDisabled (c : EvtCfg) (d : PktDec) (p : Packet) (size : Nat) (tm : Timing) : EM Bool := do
  alone { data := .overflow 0, ipSuppressed := true }
  let _ ← timeEv .alone
  EM.modify fun s => { s with pd := d, packet := p, size := size, tm := tm }
  fetchDone c

/-- The timing packets outside PSB+. -/
def Packet.timing : Packet → Option TimePkt
  | .tsc v => some (.tsc v)
  | .cbr r => some (.cbr r)
  | .tma ctc fc => some (.tma ctc fc)
  | .mtc ctc => some (.mtc ctc)
  | .cyc v => some (.cyc v)
  | _ => none

/-- libipt/src/pt_event_decoder.c:2040-2122: the loop of `pt_evt_recover_ovf_at_offset`.  (If
`pt_pkt_next` fails, `decoder->packet` is left unchanged here.) -/
def recoverAtOffsetLoop (c : EvtCfg) : Nat → Nat → EM Unit
  | 0, _ => EM.undef
  | n + 1, offset => fun s =>
    match pktDecNext c.pkt s.pd with
    | (_, .err e) => (s, .err e)
    | (_, .ub) => (s, .ub)
    | (d, .ok (p, size)) =>
      let s := { s with pd := d, packet := p, size := size }
      if offset < size then (s, .err .internal)
      else if offset = size then (s, .ok ())
      else
        match p.timing with
        | some t => (do applyTm c t; recoverAtOffsetLoop c n (offset - size)) s
        | none =>
          match p with
          | .modeExec .. | .modeTsx .. | .modeOther .. | .pip .. | .vmcs .. | .invalid | .unknown =>
            (s, .err .internal)
          | _ => recoverAtOffsetLoop c n (offset - size) s

/-- libipt/src/pt_event_decoder.c:2029-2136 `pt_evt_recover_ovf_at_offset`. -/
def recoverOvfAtOffset (c : EvtCfg) (offset : Nat) : EM Bool := do
  if offset = 0 then EM.fail .internal
  else do
    recoverAtOffsetLoop c c.fuel offset
    aloneDone c { data := .overflow 0, ipSuppressed := true }

/-- libipt/src/pt_event_decoder.c:2303-2330: a FUP in `pt_evt_handle_skd010`. -/
def skd010Fup (d : PktDec) (size ipc ip : Nat) (tm : Timing) (tsx : Option (Bool × Bool)) : EM Bool := do
  EM.modify fun s => { s with packet := .fup ipc ip, size := size }
  match tsx with
  | some (intx, abrt) => enq evbFupBound { data := .tsx intx abrt 0 }
  | none => pure ()
  recoverOvfAtIp d (.fup ipc ip) size ipc ip tm

/-- libipt/src/pt_event_decoder.c:2165-2487 `pt_evt_handle_skd010`.  `d`, `tm` and `tsx` are its local
variables. -/
def skd010Loop (c : EvtCfg) : Nat → PktDec → Timing → Option (Bool × Bool) → EM Bool
  | 0, _, _, _ => EM.undef
  | n + 1, d, tm, tsx =>
    match pktDecNext c.pkt d with
    | (_, .err .eos) => pure true
    | (_, .err e) => EM.fail e
    | (_, .ub) => EM.undef
    | (d, .ok (p, size)) =>
      match p.timing with
      | some t =>
        match tm.apply c.time t with
        | (tm, .ok ()) => skd010Loop c n d tm tsx
        | (_, .err e) => EM.fail e
        | (_, .ub) => EM.undef
      | none =>
        match p with
        | .tipPgd .. => recoverOvfDisabled c d p size tm
        | .modeTsx intx abrt =>
          if tsx.isSome = true then pure true else skd010Loop c n d tm (some (intx, abrt))
        | .fup ipc ip => skd010Fup d size ipc ip tm tsx
        | .tip ipc ip => do
          let _ ← recoverOvfAtIp d p size ipc ip tm
          fetchDone c
        | .psb =>
          match headerFupLoop c c.fuel d with
          | .err .eos => pure true
          | .err e => EM.fail e
          | .ub => EM.undef
          | .ok none => pure true
          | .ok (some (ipc, ip)) => recoverOvfAtIp d p size ipc ip tm
        | .psbend => EM.fail .badContext
        | .exstop ip => if ip = true then pure true else skd010Loop c n d tm tsx
        | .ptw _ _ ip => if ip = true then pure true else skd010Loop c n d tm tsx
        | .cfe _ _ ip => if ip = true then pure true else skd010Loop c n d tm tsx
        | .pip .. | .vmcs .. | .modeExec .. | .modeOther .. | .pad | .mnt .. | .pwre .. | .pwrx .. | .evd ..
        | .trig .. => skd010Loop c n d tm tsx
        | _ => pure true

/-- libipt/src/pt_event_decoder.c:2504-2625 `pt_evt_handle_apl11`. -/
def apl11Loop (c : EvtCfg) : Nat → PktDec → Timing → EM Bool
  | 0, _, _ => EM.undef
  | n + 1, d, tm =>
    match pktDecNext c.pkt d with
    | (_, .err e) => EM.fail e
    | (_, .ub) => EM.undef
    | (d, .ok (p, size)) =>
      match p.timing with
      | some t =>
        match tm.apply c.time t with
        | (tm, .ok ()) => apl11Loop c n d tm
        | (_, .err e) => EM.fail e
        | (_, .ub) => EM.undef
      | none =>
        match p with
        | .tipPgd .. => recoverOvfDisabled c d p size tm
        | .pad | .mnt .. | .cfe .. | .evd .. | .trig .. => apl11Loop c n d tm
        | _ => pure true

/-- libipt/src/pt_event_decoder.c:2662-2745: the loop of `pt_evt_handle_apl12`. -/
def apl12Loop (c : EvtCfg) (offset : Nat) : Nat → PktDec → EM Bool
  | 0, _ => EM.undef
  | n + 1, d =>
    match pktDecNext c.pkt d with
    | (_, .err .eos) => pure true
    | (_, .err e) => EM.fail e
    | (_, .ub) => EM.undef
    | (d, .ok (p, _)) =>
      match p with
      | .tnt8 .. | .tnt64 .. | .tip .. | .tipPgd .. => pure true
      | .psb =>
        match headerFupLoop c c.fuel d with
        | .err .eos => pure true
        | .err e => EM.fail e
        | .ub => EM.undef
        | .ok (some _) => pure true
        | .ok none => recoverOvfAtOffset c offset
      | .stop | .tipPge .. => recoverOvfAtOffset c offset
      | .psbend | .ovf | .unknown | .invalid => pure true
      | _ => apl12Loop c offset n d

/-- libipt/src/pt_event_decoder.c:2649-2746 `pt_evt_handle_apl12`. -/
def handleApl12 (c : EvtCfg) (offset : Nat) : EM Bool := do
  let s ← EM.get
  let pos := s.pd.pos.getD 0 + offset
  if c.pkt.mem.length < pos then EM.fail .internal
  else apl12Loop c offset c.fuel { s.pd with pos := some pos }

/-- `errcode = f(); if (errcode <= 0) return errcode; g` -/
def orElse (f g : EM Bool) : EM Bool := do
  if (← f) = true then g else return false

/-- libipt/src/pt_event_decoder.c:2772-2787: reset the decoder at an overflow, preserving time. -/
def ovfReset (c : EvtCfg) (s : Evd) : Evd :=
  { evtReset s with
    tm := ⟨s.tm.time, if c.keepTcalOnOvf = true then s.tm.tcal.updateOvf else {}⟩ }

/-- libipt/src/pt_event_decoder.c:2808-2853: an overflow without FUP. -/
def ovfNoFup (c : EvtCfg) (r : Res Nat) : EM Bool := do
  let s ← EM.get
  orElse (if c.pkt.errata.skd010 = true then skd010Loop c c.fuel s.pd s.tm none else pure true) do
  let s ← EM.get
  orElse (if c.pkt.errata.apl11 = true ∧ r = .err .badContext then apl11Loop c c.fuel s.pd s.tm else pure true) <|
  match r with
  | .ub => EM.undef
  | .err .eos | .ok _ => aloneDone c { data := .overflow 0, ipSuppressed := true }
  | .err e => EM.fail e

/-- libipt/src/pt_event_decoder.c:2866-2876: an overflow that binds to a FUP. -/
def ovfFup : EM Bool := do
  let i ← enqSlot evbFupBound
  updEv (.slot i) fun s _ => ({ data := .overflow 0 } : Event).timed s.tm.time
  return true

/-- libipt/src/pt_event_decoder.c:2759-2877: the overflow itself. -/
def ovfEvent (c : EvtCfg) : EM Bool := do
  EM.modify (ovfReset c)
  let s ← EM.get
  match findOvfFup c c.fuel s.pd 0 with
  | .ub => EM.undef
  | .ok (offset + 1) =>
    orElse (if c.pkt.errata.apl12 = true then handleApl12 c (offset + 1) else pure true) ovfFup
  | r => ovfNoFup c r

/-- libipt/src/pt_event_decoder.c:2748-2877 `pt_evt_decode_ovf`. -/
def decodeOvf (c : EvtCfg) : EM Bool := orElse decodePsbend (ovfEvent c)

/-- libipt/src/pt_event_decoder.c:2889-2915: a TIP that completes an asynchronous branch.  `j` is the
slot of the asynchronous branch event before the dequeue operation. -/
def tipAsync (j : Nat) : EM Bool := do
  match ← deq evbTip with
  | none => EM.fail .internal
  | some i => do
    if i = j then pure ()
    else EM.modify fun s => (s.setEv (.slot j) (s.q.get i)).setEv (.slot i) (s.q.get j)
    let s ← EM.get
    if (s.q.get i).isAsyncBranch = true then do
      setEvent (some (.slot i))
      ipTimeEv (.slot i)
    else EM.fail .internal

/-- libipt/src/pt_event_decoder.c:2879-2928 `pt_evt_decode_tip_event`. -/
def tipBranch : EM Bool := do
  EM.modify fun s => { s with bound := true }
  let s ← EM.get
  match s.q.find evbTip Event.isAsyncBranch with
  | some j => tipAsync j
  | none => do
    alone { data := .tip 0 }
    ipTimeEv .alone

/-- libipt/src/pt_event_decoder.c:2962-2999: the `switch` in `pt_evt_decode_tip`. -/
def tipEvent (i : Nat) (again : EM Bool) (e : Event) : EM Bool :=
  match e.data with
  | .asyncBranch .. => EM.fail .internal
  | .execMode .. | .asyncPaging .. | .asyncVmcs .. | .iflags .. => ipTimeEv (.slot i)
  | .tick .. => do
    setEvent none
    again
  | _ => EM.fail .badContext

/-- libipt/src/pt_event_decoder.c:2930-3000 `pt_evt_decode_tip`. -/
def decodeTip (ipc ip : Nat) : Nat → EM Bool
  | 0 => EM.undef
  | n + 1 => do
    let s ← EM.get
    if s.enabled = false then EM.fail .badContext
    else do
      updIp ipc ip
      if s.bound = false then tipBranch
      else do
        match ← deq evbTip with
        | none => return true
        | some i => publish i (tipEvent i (decodeTip ipc ip n))

/-- libipt/src/pt_event_decoder.c:3046-3070: the `switch` in `pt_evt_decode_tip_pge`. -/
def tipPgeEvent (i : Nat) (again : EM Bool) (e : Event) : EM Bool :=
  match e.data with
  | .execMode .. | .iflags .. => ipTimeEv (.slot i)
  | .tick .. => do
    setEvent none
    again
  | _ => EM.fail .badContext

/-- libipt/src/pt_event_decoder.c:3022-3038: the enabled event. -/
def tipPgeEnable : EM Bool := do
  alone { data := .enabled 0 }
  EM.modify fun s => { s with enabled := true, bound := true }
  ipTimeEv .alone

/-- libipt/src/pt_event_decoder.c:3002-3071 `pt_evt_decode_tip_pge`. -/
def decodeTipPge (ipc ip : Nat) : Nat → EM Bool
  | 0 => EM.undef
  | n + 1 => do
    updIp ipc ip
    let s ← EM.get
    if s.bound = false then tipPgeEnable
    else do
      match ← deq evbTip with
      | none => return true
      | some i => publish i (tipPgeEvent i (decodeTipPge ipc ip n))

/-- libipt/src/pt_event_decoder.c:3088-3110: TIP.PGD without pending events. -/
def tipPgdAlone (c : EvtCfg) : EM Bool := do
  let s ← EM.get
  if s.bound = true then return true
  else do
    alone { data := .disabled 0 }
    let _ ← ipTimeEv .alone
    EM.modify fun s => { s with enabled := false }
    fetchDone c

/-- libipt/src/pt_event_decoder.c:3114-3175: the `switch` in `pt_evt_decode_tip_pgd`. -/
def tipPgdEvent (i : Nat) (e : Event) : EM Bool := do
  let s ← EM.get
  let suppress : EM Bool := do
    updEv (.slot i) fun _ e => { e with ipSuppressed := true }
    timeEv (.slot i)
  match e.data with
  | .asyncBranch from_ _ => do
    updEv (.slot i) fun _ e => { e with data := .asyncDisabled from_ 0 }
    EM.modify fun s => { s with enabled := false, bound := true }
    ipTimeEv (.slot i)
  | .asyncPaging .. | .asyncVmcs .. => if s.bound = false then EM.fail .internal else suppress
  | .execMode .. => suppress
  | _ => EM.fail .badContext

/-- libipt/src/pt_event_decoder.c:3073-3176 `pt_evt_decode_tip_pgd`. -/
def decodeTipPgd (c : EvtCfg) (ipc ip : Nat) : EM Bool := do
  updIp ipc ip
  match ← deq evbTip with
  | none => tipPgdAlone c
  | some i => publish i (tipPgdEvent i)

/-- libipt/src/pt_event_decoder.c:3178-3203 `pt_evt_decode_tnt`. -/
def decodeTnt (c : EvtCfg) (bits size : Nat) : EM Bool := do
  let s ← EM.get
  if s.enabled = false then EM.fail .badContext
  else aloneDone c { data := .tnt bits size }

/-- The common flow of the control-flow events without event data in `pt_evt_decode_cfe`: bound to a FUP
if the IP bit is set, else bound to the FUP of an asynchronous branch if `follows` and tracing is
enabled, else standalone. -/
def cfeFresh (c : EvtCfg) (ip follows suppressed : Bool) (d : EvData) : EM Bool := do
  let s ← EM.get
  if ip = true then enqMore evbFupBound { data := d }
  else if follows = true ∧ s.enabled = true then enqMore evbFup { data := d, ipSuppressed := suppressed }
  else aloneDone c { data := d, ipSuppressed := true }

/-- libipt/src/pt_event_queue.c:174-188: `pt_evq_requeue` of the event `*p`, which is -pte_nomem if the
queue is full. -/
def requeueMore (p : EvPtr) (evb : Nat) : EM Bool := do
  let j ← enqSlot evb
  updEv (.slot j) fun s _ => s.ev p
  return true

/-- libipt/src/pt_event_decoder.c:3232-3255 and 3465-3488: the common flow of interrupts and VM exits,
whose event may already have been created by EVD packets. -/
def cfeQueued (c : EvtCfg) (ip : Bool) (p : EvPtr) : EM Bool := do
  let s ← EM.get
  if ip = true then requeueMore p evbFupBound
  else if s.enabled = true then requeueMore p evbFup
  else do
    let _ ← timeEv p
    updEv p fun _ e => { e with ipSuppressed := true }
    setEvent (some p)
    fetchDone c

/-- libipt/src/pt_event_decoder.c:3218-3230: an interrupt. -/
def cfeIntr (c : EvtCfg) (vector : Nat) (ip : Bool) (p : EvPtr) : EM Bool := do
  let s ← EM.get
  match (s.ev p).data with
  | .interrupt _ cr2 a => do
    updEv p fun _ e => { e with data := .interrupt vector cr2 a }
    cfeQueued c ip p
  | _ => EM.fail .badContext

/-- libipt/src/pt_event_decoder.c:3447-3463: a VM exit. -/
def cfeVmexit (c : EvtCfg) (intr : Bool) (vector : Nat) (ip : Bool) (p : EvPtr) : EM Bool := do
  let s ← EM.get
  match (s.ev p).data with
  | .vmexit v r q a => do
    updEv p fun _ e => { e with data := .vmexit (if intr = true then some vector else v) r q a }
    cfeQueued c ip p
  | _ => EM.fail .badContext

/-- `ev = pt_evq_standalone(&decoder->evq);` and filling in the event, if there is no event yet. -/
def orAlone (i : Option Nat) (e : Event) : EM EvPtr := do
  match i with
  | some i => return .slot i
  | none => do
    EM.modify fun s => { s with q := { s.q with standalone := e } }
    return .alone

/-- libipt/src/pt_event_decoder.c:3205-3605 `pt_evt_decode_cfe`; the numbers are
`enum pt_cfe_type`, libipt/include/intel-pt.h.in:895-908. -/
def decodeCfe (c : EvtCfg) (type vector : Nat) (ip : Bool) : EM Bool := do
  let ev ← deq evbCfe
  if type = 1 then do
    let p ← orAlone ev { data := .interrupt 0 none 0 }
    cfeIntr c vector ip p
  else if type = 8 ∨ type = 9 then do
    let p ← orAlone ev { data := .vmexit none none none 0 }
    cfeVmexit c (decide (type = 9)) vector ip p
  else if type = 0 ∨ type = 0xb ∨ 0xe ≤ type then
    if ev.isSome = true then EM.fail .internal
    else if ip = true then enqMore evbFupBound { data := .tick 0 }
    else return true
  else if ev.isSome = true then EM.fail .badContext
  else if type = 2 then cfeFresh c ip false false (.iret 0)
  else if type = 3 then cfeFresh c ip true false (.smi 0)
  else if type = 4 then if ip = true then EM.fail .badPacket else cfeFresh c ip true true .rsm
  else if type = 5 then if ip = true then EM.fail .badPacket else cfeFresh c ip true true (.sipi vector)
  else if type = 6 then cfeFresh c ip true false (.init 0)
  else if type = 7 then cfeFresh c ip false false (.vmentry 0)
  else if type = 0xa then cfeFresh c ip false false (.shutdown 0)
  else if type = 0xc then cfeFresh c ip true false (.uintr vector 0)
  else cfeFresh c ip false false (.uiret 0)

/-- `if (!ev) { ev = pt_evq_enqueue(&decoder->evq, evb_cfe); ... ev->type = ptev_vmexit; }` -/
def evdVmexit (i : Option Nat) : EM Nat := do
  match i with
  | some i => return i
  | none => do
    let i ← enqSlot evbCfe
    updEv (.slot i) fun _ _ => { data := .vmexit none none none 0 }
    return i

/-- libipt/src/pt_event_decoder.c:3607-3681 `pt_evt_decode_evd`; the numbers are
`enum pt_evd_type`, libipt/include/intel-pt.h.in:958-962. -/
def decodeEvd (type payload : Nat) : EM Bool := do
  let s ← EM.get
  let ev := s.q.peek evbCfe
  if type = 0 then
    if ev.isSome = true then EM.fail .badContext
    else enqMore evbCfe { data := .interrupt 0 (some payload) 0 }
  else if type = 1 ∨ type = 2 then do
    let i ← evdVmexit ev
    let s ← EM.get
    match (s.q.get i).data with
    | .vmexit v r q a =>
      if type = 1 then
        if q.isSome = true then EM.fail .badContext
        else do
          updEv (.slot i) fun _ e => { e with data := .vmexit v r (some payload) a }
          return true
      else
        if r.isSome = true then EM.fail .badContext
        else do
          updEv (.slot i) fun _ e => { e with data := .vmexit v (some payload) q a }
          return true
    | _ => EM.fail .badContext
  else return true

/-- libipt/src/pt_event_decoder.c:3716-3743: a standalone TRIG. -/
def trigAlone (c : EvtCfg) (trbv : Nat) (icnt : Option Nat) (mult : Bool) : EM Bool := do
  alone { data := .trig trbv 0 mult 0 }
  let s ← EM.get
  match icnt with
  | some n =>
    if n ≠ 0 ∧ s.enabled = false then EM.fail .badPacket
    else aloneDone c { data := .trig trbv n mult 0 }
  | none => aloneDone c { data := .trig trbv 0 mult 0, ipSuppressed := true }

/-- libipt/src/pt_event_decoder.c:3683-3744 `pt_evt_decode_trig`; `icnt = none` stands for
`icntv = 0`. -/
def decodeTrig (c : EvtCfg) (trbv : Nat) (icnt : Option Nat) (ip mult : Bool) : EM Bool :=
  if ip = true then
    match icnt with
    | some 0 => enqMore evbFupBound { data := .trig trbv 0 mult 0 }
    | _ => EM.fail .badPacket
  else trigAlone c trbv icnt mult

/-- libipt/src/pt_event_decoder.c:3851-3855: an invalid packet. -/
def decodeInvalid : EM Bool := fun s =>
  match s.status with
  | some e => (s, .err e)
  | none => (s, .ok true)

/-- The recursion of `pt_evt_decode_fup`, `pt_evt_decode_tip` and `pt_evt_decode_tip_pge` is bounded by
the size of the event queue. -/
def evqFuel : Nat := 17

/-- libipt/src/pt_event_decoder.c:3763-3863: `pt_evt_decode_packet` without PSB, including
`pt_evt_decode_mode` (850-867), `pt_evt_decode_mnt` (1034-1055), `pt_evt_decode_stop` (1057-1076),
`pt_evt_decode_pwre` (1174-1199), `pt_evt_decode_pwrx` (1201-1230) and `pt_evt_decode_unknown`
(3746-3753). -/
def decodeOther (c : EvtCfg) : EM Bool := fun s =>
  match s.packet with
  | .tnt8 size bits => decodeTnt c bits size s
  | .tnt64 size bits => decodeTnt c bits size s
  | .cyc v => decodeTiming c (.cyc v) s
  | .pad => (s, .ok true)
  | .fup ipc ip => decodeFup ipc ip evqFuel s
  | .tip ipc ip => decodeTip ipc ip evqFuel s
  | .mtc ctc => decodeTiming c (.mtc ctc) s
  | .tsc v => decodeTiming c (.tsc v) s
  | .cbr ratio => decodeCbr c ratio s
  | .tma ctc fc => decodeTiming c (.tma ctc fc) s
  | .modeExec csl csd iflag => decodeModeExec c csl csd iflag s
  | .modeTsx intx abrt => decodeModeTsx c intx abrt s
  | .modeOther _ => (s, .err .badOpc)
  | .pip cr3 nr => decodePip c cr3 nr s
  | .ptw payload plc ip => decodePtw c payload plc ip s
  | .psb => (s, .ub)
  | .psbend => decodePsbend s
  | .tipPge ipc ip => decodeTipPge ipc ip evqFuel s
  | .tipPgd ipc ip => decodeTipPgd c ipc ip s
  | .exstop ip => decodeExstop c ip s
  | .pwre state sub hw => aloneDone c { data := .pwre state sub hw } s
  | .pwrx last deepest i st a => aloneDone c { data := .pwrx last deepest i st a } s
  | .mwait hints ext => decodeMwait hints ext s
  | .vmcs base => decodeVmcs c base s
  | .ovf => decodeOvf c s
  | .stop => aloneDone c { data := .stop } s
  | .mnt payload => aloneDone c { data := .mnt payload } s
  | .cfe type vector ip => decodeCfe c type vector ip s
  | .evd type payload => decodeEvd type payload s
  | .trig trbv icnt ip mult => decodeTrig c trbv icnt ip mult s
  | .invalid => decodeInvalid s
  | .unknown => (s, .ok true)

/-- libipt/src/pt_event_decoder.c:3755-3863 `pt_evt_decode_packet`.  `pt_evt_decode_psb` ends at PSBEND
or OVF, so its recursion has depth one. -/
def decodePacket (c : EvtCfg) : EM Bool := fun s =>
  match s.packet with
  | .psb => (do decodePsb c; decodeOther c) s
  | _ => decodeOther c s

/-- libipt/src/pt_event_decoder.c:3896-3918: the loop of `pt_evt_fetch_event`. -/
def fetchEventLoop (c : EvtCfg) : Nat → EM Unit
  | 0 => EM.undef
  | n + 1 => do
    if (← decodePacket c) = true then do
      let s ← EM.get
      if s.event.isSome = true then EM.fail .internal
      else do
        EM.modify fun s => { s with bound := false }
        fetchPacket c
        fetchEventLoop c n
    else pure ()

/-- libipt/src/pt_event_decoder.c:3941-3958 `pt_evt_next`, without truncating the event to the size the
user asked for. -/
def evtNext (c : EvtCfg) : EM Event := do
  fetchEventLoop c c.fuel
  let s ← EM.get
  EM.modify fun s => { s with event := none }
  match s.event with
  | some p => return s.ev p
  | none => EM.fail .internal

/-- libipt/src/pt_event_decoder.c:73-99 `pt_evt_decoder_init`, on a valid configuration. -/
def evtInit : Evd := evtReset {}

end Ipt
