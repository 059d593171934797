import Verif.Event

/-!
# Specification: the events of a PSB+ header

The Intel SDM (Intel Processor Trace, PSB+) and libipt/include/intel-pt.h.in describe the packets between
PSB and PSBEND (or OVF) as status: they do not say that something happened, they repeat the current state.
-/

namespace Ipt.Spec

/-- `Reads c d ps d'`: from `d`, the packet decoder delivers the packets `ps` and is at `d'` then. -/
inductive Reads (c : PktCfg) : PktDec → List Packet → PktDec → Prop
  | nil (d : PktDec) : Reads c d [] d
  | cons (d d1 d' : PktDec) (p : Packet) (n : Nat) (ps : List Packet) (h : pktDecNext c d = (d1, .ok (p, n)))
      (hs : Reads c d1 ps d') : Reads c d (p :: ps) d'

/-- Tracing is enabled if there is a FUP with an IP (the last one, if there are several). -/
def headerEnabled (ps : List Packet) : Bool :=
  ps.foldl (fun b p => match p with
    | .fup ipc _ => decide (ipc ≠ 0)
    | _ => b) false

/-- The IP of the header: the last IP after its FUPs, none of which refers to an IP before the PSB. -/
def headerIp (ps : List Packet) : LastIp :=
  ps.foldl (fun l p => match p with
    | .fup ipc ip => if ipc = 0 then l else (l.update ipc ip).1
    | _ => l) {}

/-- The timing packets; TSC and CBR calibrate differently in a header. -/
def headerTiming : Packet → Option TimePkt
  | .tsc v => some (.hTsc v)
  | .cbr r => some (.hCbr r)
  | .tma ctc fc => some (.tma ctc fc)
  | .mtc ctc => some (.mtc ctc)
  | .cyc v => some (.cyc v)
  | _ => none

/-- The time at the end of the header, if it was `t` before. -/
def headerTime (c : TimeCfg) (t : Timing) (ps : List Packet) : Timing :=
  ps.foldl (fun t p => match headerTiming p with
    | some tp => (t.apply c tp).1
    | none => t) t

/-- The execution mode encoded by CS.L and CS.D: 16, 32 or 64 bit; 0 if unknown. -/
def modeOf : Bool → Bool → Nat
  | false, false => 1
  | false, true => 2
  | true, false => 3
  | true, true => 0

/-- The events of one packet, in an execution that has its IP (`none`: it is not known) and time `t`. -/
def statusEvents (iflags : Bool) (ip : Option Nat) (t : Time) : Packet → List Event :=
  let atIp (d : EvData) : Event :=
    { data := d, ipSuppressed := ip.isNone, statusUpdate := true, hasTsc := t.haveTsc, tsc := t.tsc,
      lostMtc := t.lostMtc, lostCyc := t.lostCyc }
  let noIp (d : EvData) (status : Bool) : Event :=
    { data := d, statusUpdate := status, hasTsc := t.haveTsc, tsc := t.tsc, lostMtc := t.lostMtc, lostCyc := t.lostCyc }
  fun
  | .modeExec csl csd iflag =>
    atIp (.execMode (modeOf csl csd) (ip.getD 0)) :: if iflags = true then [atIp (.iflags iflag (ip.getD 0))] else []
  | .modeTsx intx abrt => [atIp (.tsx intx abrt (ip.getD 0))]
  | .pip cr3 nr => [atIp (.asyncPaging cr3 nr (ip.getD 0))]
  | .vmcs base => [atIp (.asyncVmcs base (ip.getD 0))]
  | .cbr ratio => [noIp (.cbr ratio) true]
  | .mnt payload => [noIp (.mnt payload) false]
  | _ => []

/-- The first event: tracing is enabled at an IP, or disabled.  A header that ends with an overflow does not
say that tracing is disabled. -/
def firstEvents (enabled psbend : Bool) (ip : Option Nat) (t : Time) : List Event :=
  if enabled = true then
    [{ data := .enabled (ip.getD 0), ipSuppressed := ip.isNone, statusUpdate := true, hasTsc := t.haveTsc,
       tsc := t.tsc, lostMtc := t.lostMtc, lostCyc := t.lostCyc }]
  else if psbend = true then
    [{ data := .disabled 0, ipSuppressed := true, statusUpdate := true, hasTsc := t.haveTsc, tsc := t.tsc,
       lostMtc := t.lostMtc, lostCyc := t.lostCyc }]
  else []

/-- The IP to report. -/
def ipOf (l : LastIp) : Option Nat :=
  match l.query with
  | .ok ip => some ip
  | _ => none

/-- The events of the header `ps`, which ends with PSBEND or with OVF, if the time was `t` before. -/
def headerEvents (c : EvtCfg) (t : Timing) (ps : List Packet) (psbend : Bool) : List Event :=
  firstEvents (headerEnabled ps) psbend (ipOf (headerIp ps)) (headerTime c.time t ps).time ++
    ps.flatMap (statusEvents c.enableIflags (ipOf (headerIp ps)) (headerTime c.time t ps).time)

end Ipt.Spec
