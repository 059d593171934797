import Verif.Spec.Psb

/-!
# Specification: the events that a sequence of packets stands for

The Intel SDM (Intel Processor Trace, packet definitions) and libipt/include/intel-pt.h.in say which packets stand for an event
on their own, and which ones announce an event whose address is in a later FUP or TIP.  Here, packets are taken one after the
other; each stands for zero or more complete events, and may leave behind events that wait for a later packet.
-/

namespace Ipt.Spec

/-- What a pending event waits for. -/
inductive Waits
  /-- The TIP, TIP.PGE or TIP.PGD that ends an asynchronous branch. -/
  | tip
  /-- The next FUP, which may also start an asynchronous branch. -/
  | fup
  /-- The next FUP, which has no other purpose. -/
  | ownFup
  /-- MODE.EXEC: the next TIP, TIP.PGE or TIP.PGD, or an FUP that has no other purpose. -/
  | tipOrFup
  /-- MWAIT: the next EXSTOP. -/
  | exstop
  /-- EVD: the next CFE. -/
  | cfe
deriving DecidableEq, Repr

/-- Completed by TIP, TIP.PGE and TIP.PGD. -/
def Waits.atTip : Waits → Bool
  | .tip | .tipOrFup => true
  | _ => false

/-- Completed by FUP. -/
def Waits.atFup : Waits → Bool
  | .fup | .ownFup | .tipOrFup => true
  | _ => false

/-- Completed by an FUP that has no other purpose. -/
def Waits.owns : Waits → Bool
  | .ownFup | .tipOrFup => true
  | _ => false

/-- What the packets so far have told. -/
structure TraceView where
  /-- Tracing is enabled. -/
  on : Bool := false
  /-- The last IP. -/
  ip : LastIp := {}
  /-- The time. -/
  tm : Timing := {}
  /-- The execution mode: CS.L, CS.D, and the interrupt flag (`false` if the user did not ask for it). -/
  mode : Option (Bool × Bool × Bool) := none
  /-- The events that wait for a later packet. -/
  waiting : List (Event × Waits) := []
  /-- Between PSB and PSBEND: the status so far. -/
  header : Option (List Event) := none
  /-- There was an overflow. -/
  lost : Bool := false
  /-- The number of packets, from here on, that have been taken into account before. -/
  skip : Nat := 0

/-- The events that a packet completes, and what is known then; nothing if the packet must not occur here. -/
abbrev Outcome := List Event × Option TraceView

/-- The packet must not occur here. -/
def Outcome.bad : Outcome := ([], none)

/-- No events yet. -/
def Outcome.quiet (v : Option TraceView) : Outcome := ([], v)

/-- First the events `es`. -/
def Outcome.after (es : List Event) (o : Outcome) : Outcome := (es ++ o.1, o.2)

/-- The same event at the address `ip`: the address field of events that have one. -/
def EvData.place (ip : Nat) : EvData → EvData
  | .enabled _ => .enabled ip
  | .disabled _ => .disabled ip
  | .asyncDisabled src _ => .asyncDisabled src ip
  | .asyncBranch src _ => .asyncBranch src ip
  | .asyncPaging cr3 nr _ => .asyncPaging cr3 nr ip
  | .overflow _ => .overflow ip
  | .execMode m _ => .execMode m ip
  | .tsx speculative aborted _ => .tsx speculative aborted ip
  | .asyncVmcs base _ => .asyncVmcs base ip
  | .exstop _ => .exstop ip
  | .mwait hints ext _ => .mwait hints ext ip
  | .ptwrite size payload _ => .ptwrite size payload ip
  | .tip _ => .tip ip
  | .iflags i _ => .iflags i ip
  | .interrupt vector cr2 _ => .interrupt vector cr2 ip
  | .iret _ => .iret ip
  | .smi _ => .smi ip
  | .init _ => .init ip
  | .vmentry _ => .vmentry ip
  | .vmexit vector reason qualification _ => .vmexit vector reason qualification ip
  | .shutdown _ => .shutdown ip
  | .uintr vector _ => .uintr vector ip
  | .uiret _ => .uiret ip
  | .trig trbv icnt mult _ => .trig trbv icnt mult ip
  | d => d

namespace TraceView

/-- The event at the current time. -/
def now (v : TraceView) (e : Event) : Event :=
  { e with tsc := v.tm.time.tsc, lostMtc := v.tm.time.lostMtc, lostCyc := v.tm.time.lostCyc,
           hasTsc := v.tm.time.haveTsc || e.hasTsc }

/-- The event at the current IP, if there is one. -/
def located (v : TraceView) (e : Event) : Event :=
  match ipOf v.ip with
  | some ip => { e with data := EvData.place ip e.data }
  | none => { e with data := EvData.place 0 e.data, ipSuppressed := true }

/-- The event at the current IP and time. -/
def here (v : TraceView) (e : Event) : Event := v.now (v.located e)

/-- The packet stands for this event, now. -/
def says (v : TraceView) (e : Event) : Outcome := ([v.now e], some v)

/-- The event has to wait; at most 14 events can wait. -/
def wait (v : TraceView) (e : Event) (w : Waits) : Option TraceView :=
  if v.waiting.length < 14 then some { v with waiting := v.waiting ++ [(e, w)] } else none

/-- A timing packet. -/
def clock (c : EvtCfg) (v : TraceView) (t : TimePkt) : Option TraceView :=
  match v.tm.apply c.time t with
  | (tm, .ok _) => some { v with tm := tm }
  | _ => none

/-- A packet with an IP payload. -/
def goto (v : TraceView) (ipc ip : Nat) : Option TraceView :=
  match v.ip.update ipc ip with
  | (l, .ok _) => some { v with ip := l }
  | _ => none

/-- The events that TIP, TIP.PGE and TIP.PGD complete. -/
def forTip (v : TraceView) : List Event := (v.waiting.filter fun x => x.2.atTip).map (·.1)

/-- The others. -/
def dropTip (v : TraceView) : TraceView := { v with waiting := v.waiting.filter fun x => !x.2.atTip }

/-- `e` is an asynchronous branch. -/
def isBranch (e : Event) : Bool :=
  match e.data with
  | .asyncBranch .. => true
  | _ => false

/-- `e` is an asynchronous paging event. -/
def isPaging (e : Event) : Bool :=
  match e.data with
  | .asyncPaging .. => true
  | _ => false

/-- An asynchronous branch has started. -/
def branching (v : TraceView) : Bool := v.waiting.any fun x => isBranch x.1

/-- `x` waits for CFE. -/
def forCfe (x : Event × Waits) : Bool := decide (x.2 = .cfe)

/-- `x` waits for EXSTOP. -/
def forExstop (x : Event × Waits) : Bool := decide (x.2 = .exstop)

/-! ## FUP -/

/-- An event that FUP completes.  An overflow keeps its own time; RSM and SIPI have no address; a MODE.EXEC packet that did not
change anything is not an event. -/
def atFup (v : TraceView) (e : Event) : List Event :=
  match e.data with
  | .tick _ => []
  | .overflow _ => [v.located e]
  | .rsm | .sipi _ => [v.now e]
  | _ => [v.here e]

/-- FUP, at its IP.  It completes the events that wait for it; if none of them owns the FUP (`own`: one that was completed
before did), an asynchronous branch starts here. -/
def fup (v : TraceView) (own : Bool) : Outcome :=
  let mine := v.waiting.filter fun x => x.2.atFup
  let v' := { v with
    on := v.on || mine.any fun x => match x.1.data with | .overflow _ => true | _ => false
    waiting := v.waiting.filter fun x => !x.2.atFup }
  (mine.flatMap fun x => v.atFup x.1,
   if (own || mine.any fun x => x.2.owns) = true then some v'
   else match ipOf v.ip with
     | some src => v'.wait { data := .asyncBranch src 0 } .tip
     | none => none)

/-! ## TIP, TIP.PGE, TIP.PGD -/

/-- The events `es`, here, up to the first that does not fit. -/
def settle (v : TraceView) (fits : EvData → Bool) : List Event → List Event × Bool
  | [] => ([], true)
  | e :: es =>
    if fits e.data = true then
      ((match e.data with | .tick _ => [] | _ => [v.here e]) ++ (v.settle fits es).1, (v.settle fits es).2)
    else ([], false)

/-- TIP completes the events that wait for it. -/
def tipRest (v : TraceView) : Outcome :=
  match v.settle (fun d => match d with | .asyncBranch .. => false | _ => true) v.forTip with
  | (es, ok) => (es, if ok = true then some v.dropTip else none)

/-- TIP, at its IP: the target of an asynchronous branch, if there is one, else the target of an indirect branch.  (The
decoder rejects an asynchronous branch with something else pending before it.) -/
def tip (v : TraceView) : Outcome :=
  if v.branching = true then
    match v.waiting with
    | (e, _) :: l => if isBranch e = true then Outcome.after [v.here e] (tipRest { v with waiting := l }) else .bad
    | [] => .bad
  else Outcome.after [v.here { data := .tip 0 }] v.tipRest

/-- TIP.PGE completes MODE.EXEC. -/
def pgeRest (v : TraceView) : Outcome :=
  match v.settle (fun d => match d with | .execMode .. | .iflags .. | .tick _ => true | _ => false) v.forTip with
  | (es, ok) => (es, if ok = true then some v.dropTip else none)

/-- TIP.PGE, at its IP: tracing is enabled. -/
def pge (v : TraceView) : Outcome := Outcome.after [v.here { data := .enabled 0 }] (pgeRest { v with on := true })

/-- The events that TIP.PGD completes; it ends an asynchronous branch outside of the traced region.  The Boolean tells whether
there was one; changes of the address space can only follow it.  No events if one does not fit. -/
def pgdEvents (v : TraceView) : Bool → List Event → List Event × Option Bool
  | b, [] => ([], some b)
  | b, e :: es =>
    match e.data with
    | .asyncBranch src _ =>
      (v.here { e with data := .asyncDisabled src 0 } :: (v.pgdEvents true es).1, (v.pgdEvents true es).2)
    | .asyncPaging .. | .asyncVmcs .. =>
      if b = true then (v.now { e with ipSuppressed := true } :: (v.pgdEvents b es).1, (v.pgdEvents b es).2) else ([], none)
    | .execMode .. => (v.now { e with ipSuppressed := true } :: (v.pgdEvents b es).1, (v.pgdEvents b es).2)
    | _ => ([], none)

/-- TIP.PGD, at its IP: tracing is disabled, by an asynchronous branch (`b`: it has been completed before) or not. -/
def pgd (v : TraceView) (b : Bool) : Outcome :=
  match v.pgdEvents b v.forTip with
  | (es, none) => (es, none)
  | (es, some true) => (es, some { v.dropTip with on := false })
  | (es, some false) => (es ++ [v.here { data := .disabled 0 }], some { v.dropTip with on := false })

/-! ## MODE, PIP, VMCS -/

/-- The interrupt flag, if the user asked for it. -/
def ifBit (c : EvtCfg) (i : Bool) : Bool := c.enableIflags && i

/-- The execution mode changed, or was not known. -/
def modeChanged (v : TraceView) (csl csd : Bool) : Bool :=
  match v.mode with
  | some (l, d, _) => decide (l ≠ csl ∨ d ≠ csd)
  | none => true

/-- The interrupt flag changed, or was not known, and the user asked for it. -/
def flagChanged (c : EvtCfg) (v : TraceView) (i : Bool) : Bool :=
  c.enableIflags && match v.mode with
    | some (_, _, x) => decide (x ≠ i)
    | none => true

/-- MODE.EXEC: the execution mode or the interrupt flag changed; else, there is still its FUP. -/
def modeExec (c : EvtCfg) (v : TraceView) (csl csd i : Bool) : Outcome :=
  let mode := v.modeChanged csl csd
  let flag := v.flagChanged c i
  let v' := { v with mode := some (csl, csd, ifBit c i) }
  .quiet <| (if mode = true then v'.wait { data := .execMode (modeOf csl csd) 0 } .tipOrFup else some v').bind fun v' =>
    (if flag = true then v'.wait { data := .iflags i 0 } .tipOrFup else some v').bind fun v' =>
      if mode = false ∧ flag = false then v'.wait { data := .tick 0 } .tipOrFup else some v'

/-- MODE.TSX: the address is in an FUP, which is also the source of an asynchronous branch if the transaction is aborted. -/
def modeTsx (v : TraceView) (intx abrt : Bool) : Outcome :=
  if v.on = true then .quiet (v.wait { data := .tsx intx abrt 0 } (if abrt = true then .fup else .ownFup))
  else v.says { data := .tsx intx abrt 0, ipSuppressed := true }

/-- PIP: part of an asynchronous branch, or of an instruction that writes CR3. -/
def pip (v : TraceView) (cr3 : Nat) (nr : Bool) : Outcome :=
  if v.branching = true then .quiet (v.wait { data := .asyncPaging cr3 nr 0 } .tip) else v.says { data := .paging cr3 nr }

/-- VMCS: like PIP; it comes before the change of CR3. -/
def vmcs (v : TraceView) (base : Nat) : Outcome :=
  match v.waiting.findIdx? (fun x => isPaging x.1) with
  | some j =>
    match v.waiting[j]? with
    | some (e, w) => .quiet (wait { v with waiting := v.waiting.set j ({ e with data := .asyncVmcs base 0 }, w) } e .tip)
    | none => .bad
  | none =>
    if v.branching = true then .quiet (v.wait { data := .asyncVmcs base 0 } .tip) else v.says { data := .vmcs base }

/-! ## Power events, PTWRITE, TRIG -/

/-- An event whose packet tells (`ip`) that its address is in an FUP of its own. -/
def withFup (v : TraceView) (ip : Bool) (d : EvData) : Outcome :=
  if ip = true then .quiet (v.wait { data := d } .ownFup) else v.says { data := d, ipSuppressed := true }

/-- EXSTOP completes MWAIT; with an FUP, MWAIT has the same address. -/
def exstop (v : TraceView) (ip : Bool) : Outcome :=
  if ip = true then
    match v.waiting.find? forExstop with
    | some (e, _) =>
      match wait { v with waiting := v.waiting.eraseP forExstop } e .ownFup with
      | some v' => v'.withFup true (.exstop 0)
      | none => .bad
    | none => v.withFup true (.exstop 0)
  else
    Outcome.after ((v.waiting.filter forExstop).map fun x => v.now { x.1 with ipSuppressed := true })
      (withFup { v with waiting := v.waiting.filter fun x => !forExstop x } false (.exstop 0))

/-- PTW: a payload of four or eight bytes. -/
def ptw (v : TraceView) (payload plc : Nat) (ip : Bool) : Outcome :=
  if plc = 0 then v.withFup ip (.ptwrite 4 payload 0)
  else if plc = 1 then v.withFup ip (.ptwrite 8 payload 0)
  else .bad

/-- TRIG: the address is in an FUP, or `icnt` instructions further, or unknown. -/
def trig (v : TraceView) (trbv : Nat) (icnt : Option Nat) (ip mult : Bool) : Outcome :=
  match ip, icnt with
  | true, some 0 => .quiet (v.wait { data := .trig trbv 0 mult 0 } .ownFup)
  | true, _ => .bad
  | false, some n => if n ≠ 0 ∧ v.on = false then .bad else v.says { data := .trig trbv n mult 0 }
  | false, none => v.says { data := .trig trbv 0 mult 0, ipSuppressed := true }

/-! ## CFE and EVD -/

/-- A control-flow event: with an FUP of its own (`ip`), or with the FUP of an asynchronous branch if it is one (`branch`) and
tracing is enabled, or without an address. -/
def control (v : TraceView) (ip branch : Bool) (e : Event) : Outcome :=
  if ip = true then .quiet (v.wait e .ownFup)
  else if branch = true ∧ v.on = true then .quiet (v.wait e .fup)
  else v.says { e with ipSuppressed := true }

/-- The simple control-flow events: IRET, SMI, RSM, SIPI, INIT, VM entry, shutdown, UINTR and UIRET; is it an asynchronous
branch? -/
def simpleCfe (type vector : Nat) : Option (Event × Bool) :=
  match type with
  | 2 => some ({ data := .iret 0 }, false)
  | 3 => some ({ data := .smi 0 }, true)
  | 4 => some ({ data := .rsm, ipSuppressed := true }, true)
  | 5 => some ({ data := .sipi vector, ipSuppressed := true }, true)
  | 6 => some ({ data := .init 0 }, true)
  | 7 => some ({ data := .vmentry 0 }, false)
  | 10 => some ({ data := .shutdown 0 }, false)
  | 12 => some ({ data := .uintr vector 0 }, true)
  | 13 => some ({ data := .uiret 0 }, false)
  | _ => none

/-- CFE.  Interrupts (1) and VM exits (8; with a vector: 9) may have been announced by EVD packets. -/
def cfe (v : TraceView) (type vector : Nat) (ip : Bool) : Outcome :=
  let evd := (v.waiting.find? forCfe).map (·.1)
  let v' := { v with waiting := v.waiting.eraseP forCfe }
  if type = 1 then
    let e := evd.getD { data := .interrupt 0 none 0 }
    match e.data with
    | .interrupt _ cr2 a => v'.control ip true { e with data := .interrupt vector cr2 a }
    | _ => .bad
  else if type = 8 ∨ type = 9 then
    let e := evd.getD { data := .vmexit none none none 0 }
    match e.data with
    | .vmexit vec reason qualification a =>
      v'.control ip true { e with data := .vmexit (if type = 9 then some vector else vec) reason qualification a }
    | _ => .bad
  else if evd.isSome = true then .bad
  else
    match simpleCfe type vector with
    | some (e, branch) => if ip = true ∧ (type = 4 ∨ type = 5) then .bad else v.control ip branch e
    | none => if ip = true then .quiet (v.wait { data := .tick 0 } .ownFup) else .quiet (some v)

/-- EVD: CR2 (0) of a page fault; the qualification (1) and the reason (2) of a VM exit. -/
def evd (v : TraceView) (type payload : Nat) : Outcome :=
  match v.waiting.findIdx? forCfe with
  | none =>
    match type with
    | 0 => .quiet (v.wait { data := .interrupt 0 (some payload) 0 } .cfe)
    | 1 => .quiet (v.wait { data := .vmexit none none (some payload) 0 } .cfe)
    | 2 => .quiet (v.wait { data := .vmexit none (some payload) none 0 } .cfe)
    | _ => .quiet (some v)
  | some j =>
    match v.waiting[j]? with
    | none => .bad
    | some (e, w) =>
      let announce (d : EvData) : Outcome := .quiet (some { v with waiting := v.waiting.set j ({ e with data := d }, w) })
      match type, e.data with
      | 1, .vmexit vec r none a => announce (.vmexit vec r (some payload) a)
      | 2, .vmexit vec none q a => announce (.vmexit vec (some payload) q a)
      | 0, _ | 1, _ | 2, _ => .bad
      | _, _ => .quiet (some v)

/-! ## OVF -/

/-- Does tracing resume with an FUP, after packets that do not depend on it?  `fin` tells why the trace ends; an error if the
packets are not valid. -/
def resumes (fin : Err) : List Packet → Except Err Bool
  | [] => if fin = .eos then .ok false else .error fin
  | .fup .. :: _ => .ok true
  | .unknown :: ps | .pad :: ps | .mnt _ :: ps | .cbr _ :: ps | .tsc _ :: ps | .tma .. :: ps | .mtc _ :: ps | .cyc _ :: ps
  | .invalid :: ps => resumes fin ps
  | .psbend :: _ | .tip .. :: _ | .tipPgd .. :: _ | .tnt8 .. :: _ | .tnt64 .. :: _ => .error .badContext
  | _ :: _ => .ok false

/-- Timing packets. -/
def timeOf : Packet → Option TimePkt
  | .tsc v => some (.tsc v)
  | .cbr r => some (.cbr r)
  | .tma ctc fc => some (.tma ctc fc)
  | .mtc ctc => some (.mtc ctc)
  | .cyc v => some (.cyc v)
  | _ => none

/-- The overflow resolved with tracing enabled, at the address of a packet behind the next `k` packets; `tm` is the time
there. -/
def resumeAt (v : TraceView) (k : Nat) (tm : Timing) (ipc ip : Nat) : Outcome :=
  match v.goto ipc ip with
  | some v' => ([v'.here { data := .overflow 0 }], some { v' with on := true, tm := tm, skip := k })
  | none => .bad

/-- The overflow resolved with tracing disabled. -/
def resumeOff (v : TraceView) (k : Nat) (tm : Timing) : Outcome :=
  ([v.now { data := .overflow 0, ipSuppressed := true }], some { v with tm := tm, skip := k })

/-- The FUP in a PSB+ header; an error if the header is not complete. -/
def headerIp (fin : Err) : List Packet → Except Err (Option (Nat × Nat))
  | [] => .error fin
  | .fup ipc ip :: _ => .ok (some (ipc, ip))
  | .modeExec .. :: ps | .modeTsx .. :: ps | .modeOther _ :: ps | .pip .. :: ps | .vmcs _ :: ps | .mnt _ :: ps | .tsc _ :: ps
  | .cbr _ :: ps | .tma .. :: ps | .mtc _ :: ps | .cyc _ :: ps | .pad :: ps | .invalid :: ps => headerIp fin ps
  | .psbend :: _ | .ovf :: _ => .ok none
  | _ :: _ => .error .badContext

/-- SKD010: the FUP behind OVF may be missing.  The address of the next FUP, TIP, or PSB+ header is where tracing resumes; a
TIP.PGD tells that tracing was disabled.  A MODE.TSX before the FUP belongs to it.  `k` packets have been looked at; nothing
if the erratum does not apply. -/
def skd010 (c : EvtCfg) (fin : Err) (v : TraceView) : Nat → Timing → Option (Bool × Bool) → List Packet → Option Outcome
  | _, _, _, [] => if fin = .eos then none else some .bad
  | k, tm, tsx, p :: ps =>
    match timeOf p with
    | some t =>
      match tm.apply c.time t with
      | (tm, .ok _) => skd010 c fin v (k + 1) tm tsx ps
      | _ => some .bad
    | none =>
      match p with
      | .tipPgd .. => some (v.resumeOff (k + 1) tm)
      | .tip ipc ip => some (v.resumeAt (k + 1) tm ipc ip)
      | .fup ipc ip =>
        match tsx with
        | some (intx, abrt) =>
          some (resumeAt { v with waiting := [({ data := .tsx intx abrt 0 }, .ownFup)] } k tm ipc ip)
        | none => some (v.resumeAt k tm ipc ip)
      | .psb =>
        match headerIp fin ps with
        | .ok (some (ipc, ip)) => some (v.resumeAt k tm ipc ip)
        | .ok none => none
        | .error e => if e = .eos then none else some .bad
      | .modeTsx intx abrt => if tsx = none then skd010 c fin v (k + 1) tm (some (intx, abrt)) ps else none
      | .psbend => some .bad
      | .exstop ip | .ptw _ _ ip | .cfe _ _ ip => if ip = true then none else skd010 c fin v (k + 1) tm tsx ps
      | .pip .. | .vmcs _ | .modeExec .. | .modeOther _ | .pad | .mnt _ | .pwre .. | .pwrx .. | .evd .. | .trig .. =>
        skd010 c fin v (k + 1) tm tsx ps
      | _ => none

/-- APL11: an extra TIP.PGD behind OVF tells that tracing was disabled. -/
def apl11 (c : EvtCfg) (v : TraceView) : Nat → Timing → List Packet → Outcome
  | _, _, [] => .bad
  | k, tm, p :: ps =>
    match timeOf p with
    | some t =>
      match tm.apply c.time t with
      | (tm, .ok _) => apl11 c v (k + 1) tm ps
      | _ => .bad
    | none =>
      match p with
      | .tipPgd .. => v.resumeOff (k + 1) tm
      | .pad | .mnt _ | .cfe .. | .evd .. | .trig .. => apl11 c v (k + 1) tm ps
      | _ => .bad

/-- APL12: the FUP behind OVF does not count if tracing is enabled, or the trace stopped, before it could have been used.
Nothing if the packets behind the FUP are not valid. -/
def unused (fin : Err) : List Packet → Option Bool
  | [] => if fin = .eos then some false else none
  | .stop :: _ | .tipPge .. :: _ => some true
  | .psb :: ps =>
    match headerIp fin ps with
    | .ok ip => some ip.isNone
    | .error e => if e = .eos then some false else none
  | .tnt8 .. :: _ | .tnt64 .. :: _ | .tip .. :: _ | .tipPgd .. :: _ | .psbend :: _ | .ovf :: _ | .unknown :: _
  | .invalid :: _ => some false
  | _ :: ps => unused fin ps

/-- The packets behind the next FUP. -/
def behindFup : List Packet → List Packet
  | [] => []
  | .fup .. :: ps => ps
  | _ :: ps => behindFup ps

/-- APL12: the overflow resolved with tracing disabled; the FUP is skipped.  The decoder does not expect unknown and invalid
packets before the FUP. -/
def apl12 (c : EvtCfg) (v : TraceView) : Nat → Timing → List Packet → Outcome
  | _, _, [] => .bad
  | k, tm, p :: ps =>
    match timeOf p with
    | some t =>
      match tm.apply c.time t with
      | (tm, .ok _) => apl12 c v (k + 1) tm ps
      | _ => .bad
    | none =>
      match p with
      | .fup .. => resumeOff { v with tm := tm } (k + 1) tm
      | .unknown | .invalid => .bad
      | _ => apl12 c v (k + 1) tm ps

/-- OVF that resolved at the next FUP. -/
def ovfOn (c : EvtCfg) (fin : Err) (v : TraceView) (rest : List Packet) : Outcome :=
  match if c.pkt.errata.apl12 = true then unused fin (behindFup rest) else some false with
  | some true => v.apl12 c 0 v.tm rest
  | some false => .quiet (v.wait (v.now { data := .overflow 0 }) .ownFup)
  | none => .bad

/-- OVF that resolved with tracing disabled, according to `resumes`. -/
def ovfOff (c : EvtCfg) (v : TraceView) (r : Except Err Bool) (rest : List Packet) : Outcome :=
  match r with
  | .ok _ => v.says { data := .overflow 0, ipSuppressed := true }
  | .error e => if c.pkt.errata.apl11 = true ∧ e = .badContext then v.apl11 c 0 v.tm rest else .bad

/-- OVF: packets were lost.  What was known is not known any more, apart from the time. -/
def ovf (c : EvtCfg) (fin : Err) (v : TraceView) (rest : List Packet) : Outcome :=
  let v' : TraceView := { tm := ⟨v.tm.time, if c.keepTcalOnOvf = true then v.tm.tcal.updateOvf else {}⟩, lost := true }
  match resumes fin rest with
  | .ok true => v'.ovfOn c fin rest
  | r => ((if c.pkt.errata.skd010 = true then v'.skd010 c fin 0 v'.tm none rest else none)).getD (v'.ovfOff c r rest)

/-! ## PSB+ -/

/-- One more status event. -/
def status (v : TraceView) (st : List Event) (e : Event) : Option TraceView :=
  if st.length < 13 then some { v with header := some (st ++ [e]) } else none

/-- Do the packets enable tracing, after at most the rest of the header?  Nothing if they are not valid. -/
def reenables (fin : Err) : List Packet → Option Bool
  | [] => if fin = .eos then some false else none
  | .tipPge .. :: _ => some true
  | .pad :: ps | .tsc _ :: ps | .cbr _ :: ps | .psbend :: ps | .pip .. :: ps | .modeExec .. :: ps | .modeTsx .. :: ps
  | .modeOther _ :: ps | .vmcs _ :: ps | .tma .. :: ps | .mtc _ :: ps | .cyc _ :: ps | .mnt _ :: ps => reenables fin ps
  | _ :: _ => some false

/-- BDM70: an FUP in the header does not count if tracing is enabled behind the header. -/
def bdm70 (c : EvtCfg) (fin : Err) (rest : List Packet) : Option Bool :=
  if c.pkt.errata.bdm70 = true then reenables fin rest else some false

/-- A packet between PSB and PSBEND; `rest` are the packets after it. -/
def inHeader (c : EvtCfg) (fin : Err) (v : TraceView) (st : List Event) (p : Packet) (rest : List Packet) : Option TraceView :=
  match p with
  | .fup ipc ip =>
    (bdm70 c fin rest).bind fun hit =>
      if ipc = 0 ∨ hit = true then some { v with on := false } else goto { v with on := true } ipc ip
  | .modeExec csl csd i =>
    if v.mode = none ∨ v.mode = some (csl, csd, ifBit c i) then
      (status { v with mode := some (csl, csd, ifBit c i) } st
        { data := .execMode (modeOf csl csd) 0, statusUpdate := true }).bind fun v' =>
        if c.enableIflags = true then
          v'.status (st ++ [{ data := .execMode (modeOf csl csd) 0, statusUpdate := true }])
            { data := .iflags i 0, statusUpdate := true }
        else some v'
    else none
  | .modeTsx intx abrt => v.status st { data := .tsx intx abrt 0, statusUpdate := true }
  | .modeOther _ | .pad => some v
  | .pip cr3 nr => v.status st { data := .asyncPaging cr3 nr 0, statusUpdate := true }
  | .vmcs base => v.status st { data := .asyncVmcs base 0, statusUpdate := true }
  | .mnt payload => v.status st { data := .mnt payload }
  | .tsc t => v.clock c (.hTsc t)
  | .cbr ratio => (v.clock c (.hCbr ratio)).bind fun v' => v'.status st { data := .cbr ratio, statusUpdate := true }
  | .tma ctc fc => v.clock c (.tma ctc fc)
  | .mtc ctc => v.clock c (.mtc ctc)
  | .cyc t => v.clock c (.cyc t)
  | .invalid => if v.lost = true then none else some v
  | _ => none

/-- A status event at the end of PSB+. -/
def settled (v : TraceView) (e : Event) : Event :=
  match e.data with
  | .disabled _ | .cbr _ | .mnt _ => v.now e
  | _ => v.here e

/-- The status: whether tracing is enabled, and the other status events. -/
def allStatus (v : TraceView) (st : List Event) (psbend : Bool) : List Event :=
  (if v.on = true then { data := .enabled 0, statusUpdate := true } :: st
   else if psbend = true then { data := .disabled 0, ipSuppressed := true, statusUpdate := true } :: st
   else st).map v.settled

/-! ## Packets

SKZ84: an invalid packet stands for nothing.  (The decoder rejects it after an overflow.) -/

/-- A packet outside of PSB+; `rest` are the packets after it. -/
def plain (c : EvtCfg) (fin : Err) (v : TraceView) (p : Packet) (rest : List Packet) : Outcome :=
  match p with
  | .tnt8 size bits | .tnt64 size bits => if v.on = true then v.says { data := .tnt bits size } else .bad
  | .fup ipc ip => match v.goto ipc ip with | some v' => v'.fup false | none => .bad
  | .tip ipc ip => if v.on = true then (match v.goto ipc ip with | some v' => v'.tip | none => .bad) else .bad
  | .tipPge ipc ip => match v.goto ipc ip with | some v' => v'.pge | none => .bad
  | .tipPgd ipc ip => match v.goto ipc ip with | some v' => v'.pgd false | none => .bad
  | .cyc t => .quiet (v.clock c (.cyc t))
  | .mtc ctc => .quiet (v.clock c (.mtc ctc))
  | .tsc t => .quiet (v.clock c (.tsc t))
  | .tma ctc fc => .quiet (v.clock c (.tma ctc fc))
  | .cbr ratio => match v.clock c (.cbr ratio) with | some v' => v'.says { data := .cbr ratio } | none => .bad
  | .modeExec csl csd i => v.modeExec c csl csd i
  | .modeTsx intx abrt => v.modeTsx intx abrt
  | .pip cr3 nr => v.pip cr3 nr
  | .vmcs base => v.vmcs base
  | .ptw payload plc ip => v.ptw payload plc ip
  | .exstop ip => v.exstop ip
  | .mwait hints ext => .quiet (v.wait { data := .mwait hints ext 0 } .exstop)
  | .pwre state sub hw => v.says { data := .pwre state sub hw }
  | .pwrx last deepest i st a => v.says { data := .pwrx last deepest i st a }
  | .stop => v.says { data := .stop }
  | .mnt payload => v.says { data := .mnt payload }
  | .cfe type vector ip => v.cfe type vector ip
  | .evd type payload => v.evd type payload
  | .trig trbv icnt ip mult => v.trig trbv icnt ip mult
  | .ovf => v.ovf c fin rest
  | .psb =>
    if v.waiting = [] then .quiet (some { v with on := false, ip := {}, header := some [] }) else .bad
  | .pad | .unknown | .psbend => .quiet (some v)
  | .invalid => if v.lost = true then .bad else .quiet (some v)
  | .modeOther _ => .bad

/-- A packet. -/
def fresh (c : EvtCfg) (fin : Err) (v : TraceView) (p : Packet) (rest : List Packet) : Outcome :=
  match v.header, p with
  | none, _ => v.plain c fin p rest
  | some st, .psbend => (v.allStatus st true, some { v with header := none })
  | some st, .ovf => Outcome.after (v.allStatus st false) (ovf c fin { v with header := none } rest)
  | some st, _ => .quiet (v.inHeader c fin st p rest)

/-- A packet, which may have been taken into account before. -/
def packet (c : EvtCfg) (fin : Err) (v : TraceView) (p : Packet) (rest : List Packet) : Outcome :=
  match v.skip with
  | k + 1 => .quiet (some { v with skip := k })
  | 0 => v.fresh c fin p rest

end TraceView

/-- The events that the packets stand for, up to the first packet that must not occur; and is there no such packet? -/
def trace (c : EvtCfg) (fin : Err) : TraceView → List Packet → List Event × Bool
  | _, [] => ([], true)
  | v, p :: ps =>
    match v.packet c fin p ps with
    | (es, some v') => (es ++ (trace c fin v' ps).1, (trace c fin v' ps).2)
    | (es, none) => (es, false)

/-- From the offset `off` on, the trace buffer contains the packets `ps`, and then something that is not a packet: the packet
decoder says `fin`. -/
def PacketsFrom (c : PktCfg) (off : Nat) (ps : List Packet) (fin : Err) : Prop :=
  ∃ d d', Reads c ⟨some off, some off⟩ ps d ∧ pktDecNext c d = (d', .err fin)

/-- The events and the verdict on the packets `ps`, from the first one on. -/
def traceOf (c : EvtCfg) (fin : Err) (ps : List Packet) : List Event × Bool := trace c fin {} ps

end Ipt.Spec
