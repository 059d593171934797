import Verif.QueryDecoder
import Verif.RetStack
import Verif.MsecCache
import Verif.Insn
import Verif.Config

/-!
# The instruction flow decoder: libipt/src/pt_insn_decoder.c

Not modelled: NULL arguments, allocation, the functions that only forward to the query decoder (offset, time, core bus
ratio), and the truncation of instructions and events to the size the user asked for.
-/

namespace Ipt

open Ild

/-- The configuration of an instruction flow decoder: that of the query decoder, with the errata in `evt.pkt.errata`;
the address filter; the flag `enable_tick_events`; the contents of the sections and the user's callback for reading
memory. -/
structure InsnCfg where
  evt : EvtCfg
  filter : AddrFilter := ⟨0, List.replicate 16 0⟩
  tick : Bool := false
  env : SecEnv
  cb : ReadCb := none

/-- `struct pt_insn_decoder`, libipt/internal/include/pt_insn_decoder.h:42-140.  `event` is `none` if it was never
written (the decoder is allocated with `malloc`).  `insn` is `none` if `process_insn` is not set; it stands for `insn`
and `iext`.  `sc` is the cached section, the address space and the image.  `maps` are the results of mapping and
unmapping sections to come; when there are no more, it succeeds. -/
structure Idec where
  q : Qdec := {}
  sc : ScSt := { img := ⟨[], fun _ => 0⟩ }
  maps : List (Res Unit) := []
  event : Option Event := none
  retstack : RetStack := {}
  insn : Option Insn := none
  ip : Nat := 0
  icnt : Nat := 0
  mode : Mode := .unknown
  status : Flags := {}
  enabled : Bool := false
  processEvent : Bool := false
  speculative : Bool := false
  hasIcnt : Bool := false
  boundPaging : Bool := false
  boundVmcs : Bool := false
  boundPtwrite : Bool := false
  boundIret : Bool := false
  boundVmentry : Bool := false
  boundUiret : Bool := false

/-- Computations on the state of an instruction flow decoder.  The state is kept when a function fails. -/
def IM (α : Type) := Idec → Idec × Res α

namespace IM

/-- Sequencing: `errcode = f(); if (errcode < 0) return errcode; ...`. -/
def bind {α β : Type} (m : IM α) (f : α → IM β) : IM β := fun s =>
  match m s with
  | (s', .ok a) => f a s'
  | (s', .err e) => (s', .err e)
  | (s', .ub) => (s', .ub)

instance : Monad IM where
  pure a := fun s => (s, .ok a)
  bind := IM.bind

/-- `return -pte_...;` -/
def fail {α : Type} (e : Err) : IM α := fun s => (s, .err e)

/-- Undefined behaviour. -/
def undef {α : Type} : IM α := fun s => (s, .ub)

/-- The decoder state. -/
def get : IM Idec := fun s => (s, .ok s)

/-- Update the decoder state. -/
def modify (f : Idec → Idec) : IM Unit := fun s => (f s, .ok ())

/-- The result of a function that does not change the state. -/
def lift {α : Type} (r : Res α) : IM α := fun s => (s, r)

/-- A function of the query decoder. -/
def query {α : Type} (f : QM α) : IM α := fun s => ({ s with q := (f s.q).1 }, (f s.q).2)

/-- Reading the image. -/
def image {α : Type} (f : Img × List (Res Unit) → (Img × List (Res Unit)) × Res α) : IM α := fun s =>
  let r := f (s.sc.img, s.maps)
  ({ s with sc := { s.sc with img := r.1.1 }, maps := r.1.2 }, r.2)

/-- The next result of mapping or unmapping a section. -/
def mapped : IM (Res Unit) := fun s => ({ s with maps := s.maps.tail }, .ok (s.maps.headD (.ok ())))

/-- A function of the section cache. -/
def cache {α : Type} (f : ScSt → ScSt × Res α) : IM α := fun s => ({ s with sc := (f s.sc).1 }, (f s.sc).2)

/-- Try something and look at the result: `status = f(); if (status < 0) ...`. -/
def try_ {α : Type} (m : IM α) : IM (Option α × Option Err) := fun s =>
  match m s with
  | (s', .ok a) => (s', .ok (some a, none))
  | (s', .err e) => (s', .ok (none, some e))
  | (s', .ub) => (s', .ub)

/-- `if (b) { errcode = m(); if (errcode < 0) return errcode; }` -/
def when (b : Bool) (m : IM Unit) : IM Unit := if b = true then m else pure ()

end IM

/-- The memory of the current image in the current address space. -/
def InsnCfg.reader (c : InsnCfg) (s : Idec) : MemReader (Img × List (Res Unit)) := imgReader c.env c.cb s.sc.asid

/-- The execution mode for a number, `enum pt_exec_mode`, libipt/include/intel-pt.h.in:451-458. -/
def modeOf : Nat → Mode
  | 1 => .b16
  | 2 => .b32
  | 3 => .b64
  | _ => .unknown

/-- libipt/src/pt_insn_decoder.c:47-69 `pt_insn_reset`. -/
def insnReset (s : Idec) : Idec :=
  { s with
    mode := .unknown, ip := 0, status := {}, enabled := false, processEvent := false, speculative := false
    hasIcnt := false, insn := none, boundPaging := false, boundVmcs := false, boundPtwrite := false
    boundIret := false, boundVmentry := false, boundUiret := false
    retstack := s.retstack.init, sc := scReset s.sc }

/-- libipt/src/pt_insn_decoder.c:71-96 `pt_insn_status`; `pending` stands for the flag `pts_event_pending`. -/
def insnStatus (pending : Bool) : IM Flags := do
  let s ← IM.get
  pure { eventPending := pending, ipSuppressed := !s.enabled, eos := s.status.eos && !s.processEvent }

/-- This event provides a TRIG anchor IP, for example libipt/src/pt_insn_decoder.c:1760-1762. -/
def anchor (s : Idec) : Idec := { s with hasIcnt := true, icnt := 0 }

/-- libipt/src/pt_insn_decoder.c:198-255 `pt_insn_tick`.  `pt_qry_time` provides the time also if it is relative. -/
def insnTick (ip : Nat) : IM Unit := do
  let s ← IM.get
  if s.enabled = false then IM.fail .internal
  else if s.processEvent = true then pure ()
  else
    let t := s.q.lastTime
    match s.event with
    | none => IM.undef
    | some ev =>
      if t.tsc = ev.tsc then pure ()
      else IM.modify fun s =>
        { s with
          event := some { data := .tick ip, hasTsc := t.haveTsc, tsc := t.tsc, lostMtc := t.lostMtc
                          lostCyc := t.lostCyc }
          processEvent := true }

/-- libipt/src/pt_insn_decoder.c:261-283 `pt_insn_indirect_branch`, called with `ip = &decoder->ip`. -/
def insnIndirect (c : InsnCfg) : IM Flags := do
  let s ← IM.get
  let evip := s.ip
  let (ip, f) ← IM.query (indirectBranch c.evt)
  IM.modify fun s => { s with ip := ip.getD s.ip }
  IM.when c.tick (insnTick evip)
  pure f

/-- libipt/src/pt_insn_decoder.c:289-307 `pt_insn_cond_branch`. -/
def insnCond (c : InsnCfg) : IM (Bool × Flags) := do
  let r ← IM.query (condBranch c.evt)
  let s ← IM.get
  IM.when c.tick (insnTick s.ip)
  pure r

/-- libipt/src/pt_insn_decoder.c:447-469 `event_pending`.  The result is the event, if there is one. -/
def eventPending (c : InsnCfg) : IM (Option Event) := do
  let s ← IM.get
  if s.processEvent = true then
    match s.event with
    | some e => pure (some e)
    | none => IM.undef
  else if s.status.eventPending = false then pure none
  else do
    let (e, f) ← IM.query (qryEvent c.evt)
    IM.modify fun s => { s with event := some e, processEvent := true, status := f }
    pure (some e)

/-- libipt/src/pt_insn_decoder.c:471-495 `check_erratum_skd022`. -/
def checkSkd022 (c : InsnCfg) : IM Bool := do
  let s ← IM.get
  let (i, _) ← IM.try_ (IM.image fun m => insnDecode (c.reader s) m { ip := s.ip, mode := s.mode })
  match i with
  | none => pure false
  | some i => pure (i.ext.inst == .vmlaunch || i.ext.inst == .vmresume)

/-- libipt/src/pt_insn_decoder.c:530-569 `pt_insn_update_trig`.  `icnt` is an `uint32_t`. -/
def updateTrig (ip : Nat) : IM Unit := do
  let s ← IM.get
  if s.hasIcnt = false then pure ()
  else if s.enabled = false then IM.fail .internal
  else
    let icnt := (s.icnt + 1) % 2 ^ 32
    if icnt = 0 then IM.fail .overflow
    else do
      IM.modify fun s => { s with icnt := icnt }
      if s.processEvent = true then
        match s.event with
        | none => IM.undef
        | some ev =>
          match ev.data with
          | .trig trbv n mult evip =>
            if evip = ip then
              if n = 0 then IM.fail .internal
              else IM.modify fun s => { s with event := some { ev with data := .trig trbv (n - 1) mult s.ip } }
            else pure ()
          | _ => pure ()
      else pure ()

/-- libipt/src/pt_retstack.c via `decoder->retstack`. -/
def pushRet (ip : Nat) : IM Unit := fun s =>
  ({ s with retstack := (s.retstack.push ip).1 }, (s.retstack.push ip).2)

@[inherit_doc pushRet] def popRet : IM Nat := fun s =>
  ({ s with retstack := s.retstack.pop.1 }, s.retstack.pop.2)

/-- libipt/src/pt_insn_decoder.c:669-693: the end of `pt_insn_proceed`, for all kinds of branches.  JMPABS is direct but
behaves like indirect. -/
def proceedBranch (c : InsnCfg) (i : Insn) : IM Unit :=
  if i.ext.isDirect = true ∧ i.ext.inst ≠ .jmpabs then do
    IM.modify fun s => { s with ip := addDisp s.ip i.ext.displacement }
    updateTrig i.ip
  else do
    let f ← insnIndirect c
    IM.modify fun s => { s with status := f }
    if f.ipSuppressed = true then IM.fail .noip
    else IM.modify anchor

/-- libipt/src/pt_insn_decoder.c:571-694 `pt_insn_proceed`. -/
def proceed (c : InsnCfg) (i : Insn) : IM Unit := do
  IM.modify fun s => { s with ip := (s.ip + i.size) % 2 ^ 64 }
  match i.ext.cls with
  | .ptwrite | .other => updateTrig i.ip
  | .condJump => do
    let (taken, f) ← insnCond c
    IM.modify fun s => { s with status := f }
    IM.when taken (IM.modify fun s => { s with ip := addDisp s.ip i.ext.displacement })
    IM.modify anchor
  | .call => do
    let s ← IM.get
    IM.when (i.ext.displacement ≠ 0 ∨ i.ext.isDirect = false) (pushRet s.ip)
    proceedBranch c i
  | .return => do
    match ← IM.try_ (insnCond c) with
    | (some (taken, f), _) => do
      IM.modify fun s => { s with status := f }
      if taken = false then IM.fail .badRetcomp
      else do
        let ip ← popRet
        IM.modify fun s => anchor { s with ip := ip }
    | (none, _) => proceedBranch c i
  | .jump | .farCall | .farReturn | .farJump | .indirect => proceedBranch c i
  | .unknown => IM.fail .badInsn

/-- libipt/src/pt_insn_decoder.c:696-740 `pt_insn_at_skl014`.  Its caller takes an error for a positive answer. -/
def atSkl014 (c : InsnCfg) (ev : Event) (i : Insn) : Res Bool :=
  if ev.ipSuppressed = false then .ok false
  else
    match i.ext.cls with
    | .call | .jump =>
      if i.ext.isDirect = false ∨ i.ext.inst = .jmpabs then .ok false
      else
        match c.filter.check (addDisp ((i.ip + i.size) % 2 ^ 64) i.ext.displacement) with
        | .ok true => .ok false
        | .ok false => .ok true
        | .err _ => .ok true
        | .ub => .ub
    | _ => .ok false

/-- libipt/src/pt_insn_decoder.c:742-806 `pt_insn_at_disabled_event`; `ip` is `ev->variant.disabled.ip`. -/
def atDisabled (c : InsnCfg) (ev : Event) (ip : Nat) (i : Insn) : Res Bool :=
  if ev.ipSuppressed = true then
    if isFarBranch i.ext = true ∨ changesCpl i.ext = true ∨ changesCr3 i.ext = true then .ok true
    else if c.filter.cfg ≠ 0 ∧ c.evt.pkt.errata.skl014 = true then atSkl014 c ev i
    else .ok false
  else
    match i.ext.cls with
    | .ptwrite | .other => .ok false
    | .call | .jump =>
      if i.ext.isDirect = true ∧ i.ext.inst ≠ .jmpabs then
        .ok (addDisp ((i.ip + i.size) % 2 ^ 64) i.ext.displacement == ip)
      else .ok true
    | .return | .farCall | .farReturn | .farJump | .indirect | .condJump => .ok true
    | .unknown => .err .badInsn

/-- libipt/src/pt_insn_decoder.c:816-830 `pt_insn_postpone`. -/
def postpone (i : Insn) : IM (Option Flags) := do
  IM.modify fun s => { s with insn := some (s.insn.getD i) }
  let f ← insnStatus true
  pure (some f)

/-- libipt/src/pt_insn_decoder.c:836-850 `pt_insn_clear_postponed`. -/
def clearPostponed (s : Idec) : Idec :=
  { s with
    insn := none, boundPaging := false, boundVmcs := false, boundPtwrite := false, boundIret := false
    boundVmentry := false, boundUiret := false }

/-- libipt/src/pt_insn_decoder.c:856-875 `pt_insn_proceed_postponed`. -/
def proceedPostponed (c : InsnCfg) : IM Unit := do
  let s ← IM.get
  match s.insn with
  | none => IM.fail .internal
  | some i =>
    if s.enabled = false then IM.modify clearPostponed
    else do
      proceed c i
      IM.modify clearPostponed

/-- libipt/src/pt_insn_decoder.c:958-978: the IP at which we expect tracing to resume after it was disabled at an
instruction. -/
def resumeIp (i : Insn) : IM Unit :=
  match nextIp i with
  | .ok ip => IM.modify fun s => { s with ip := ip }
  | .ub => IM.undef
  | .err e => do
    IM.modify fun s => { s with ip := 0 }
    if e ≠ .badQuery then IM.fail e
    else
      match i.ext.cls with
      | .call | .farCall => IM.modify fun s => { s with ip := (i.ip + i.size) % 2 ^ 64 }
      | _ => pure ()

/-- An event that binds to one kind of instruction, by its class or by its IP, at most once: for example
libipt/src/pt_insn_decoder.c:1010-1036. -/
def bindOnce (bound : Bool) (ev : Event) (isKind : Bool) (evip : Nat) (mark : Idec → Idec) (i : Insn) :
    IM (Option Flags) := do
  if bound = true then pure none
  else do
    let s ← IM.get
    if ev.ipSuppressed = true ∧ isKind = false then pure none
    else if ev.ipSuppressed = false ∧ s.ip ≠ evip then pure none
    else do
      IM.modify mark
      postpone i

/-- libipt/src/pt_insn_decoder.c:892-1123 `pt_insn_check_insn_event`: `some` flags if an event is indicated, `none` for
the result zero. -/
def checkInsnEvent (c : InsnCfg) (i : Insn) : IM (Option Flags) := do
  match ← eventPending c with
  | none => pure none
  | some ev =>
    let s ← IM.get
    match ev.data with
    | .tip .. | .tnt .. => IM.fail .internal
    | .disabled ip =>
      if ev.statusUpdate = true then pure none
      else
        match ← IM.lift (atDisabled c ev ip i) with
        | false => pure none
        | true => do
          resumeIp i
          let f ← insnStatus true
          pure (some f)
    | .paging .. =>
      if s.boundPaging = true then pure none
      else if bindsToPip i.ext = false then pure none
      else do
        IM.modify fun s => { s with boundPaging := true }
        postpone i
    | .vmcs .. =>
      if s.boundVmcs = true then pure none
      else if bindsToVmcs i.ext = false then pure none
      else do
        IM.modify fun s => { s with boundVmcs := true }
        postpone i
    | .ptwrite _ _ ip =>
      bindOnce s.boundPtwrite ev (isPtwrite i.ext) ip (fun s => { s with boundPtwrite := true }) i
    | .iret ip => bindOnce s.boundIret ev (isIret i.ext) ip (fun s => { s with boundIret := true }) i
    | .vmentry ip => bindOnce s.boundVmentry ev (isVmentry i.ext) ip (fun s => { s with boundVmentry := true }) i
    | .uiret ip => bindOnce s.boundUiret ev (isUiret i.ext) ip (fun s => { s with boundUiret := true }) i
    | _ => pure none

/-- libipt/src/pt_insn_decoder.c:1141-1179 `handle_erratum_bdm64`, with `bdm64_max_steps` from 1125-1130. -/
def handleBdm64 (c : InsnCfg) (aborted : Bool) (evip : Nat) (i : Insn) : IM Unit := do
  if aborted = false then pure ()
  else if isBranch i.ext = false then pure ()
  else do
    let s ← IM.get
    match ← IM.try_ (IM.image fun m => rangeContiguous (c.reader s) evip 0x100 m { ip := s.ip, mode := s.mode }) with
    | (some true, _) => pure ()
    | _ => IM.modify fun s => { s with ip := evip }

/-- libipt/src/pt_insn_decoder.c:1189-1220 `pt_insn_postpone_tsx`. -/
def postponeTsx (c : InsnCfg) (ev : Event) (aborted : Bool) (evip : Nat) (i : Option Insn) : IM Bool := do
  if ev.ipSuppressed = true then pure false
  else do
    match i with
    | some i => IM.when c.evt.pkt.errata.bdm64 (handleBdm64 c aborted evip i)
    | none => pure ()
    let s ← IM.get
    pure (s.ip != evip)

/-- An event with an optional IP: while tracing is enabled it waits until we reach that IP, for example
libipt/src/pt_insn_decoder.c:1312-1317. -/
def waitFor (ev : Event) (evip : Nat) : IM Flags := do
  let s ← IM.get
  insnStatus (!(s.enabled && !ev.ipSuppressed && s.ip != evip))

/-- libipt/src/pt_insn_decoder.c:1500-1519: computing the location of a TRIG event. -/
def locateTrig (ev : Event) (trbv n : Nat) (mult : Bool) (evip : Nat) : IM (Nat × Nat) := do
  let s ← IM.get
  if evip = 0 then
    if s.hasIcnt = false then IM.fail .badPacket
    else if n < s.icnt then IM.fail .badPacket
    else do
      IM.modify fun s => { s with event := some { ev with data := .trig trbv (n - s.icnt) mult s.ip } }
      pure (n - s.icnt, s.ip)
  else pure (n, evip)

/-- libipt/src/pt_insn_decoder.c:1495-1537: TRIG in `pt_insn_check_ip_event`. -/
def checkTrig (ev : Event) (trbv n : Nat) (mult : Bool) (evip : Nat) : IM Flags := do
  if ev.ipSuppressed = true then insnStatus true
  else do
    let s ← IM.get
    let (n, evip) ← locateTrig ev trbv n mult evip
    if n ≠ 0 then insnStatus false
    else if s.enabled = true ∧ evip ≠ s.ip then insnStatus false
    else insnStatus true

/-- libipt/src/pt_insn_decoder.c:1230-1541 `pt_insn_check_ip_event`, with libipt/src/pt_insn_decoder.c:497-521
`handle_erratum_skd022`. -/
def checkIpEvent (c : InsnCfg) (i : Option Insn) : IM Flags := do
  match ← eventPending c with
  | none => insnStatus false
  | some ev =>
    let s ← IM.get
    match ev.data with
    | .disabled _ => insnStatus ev.statusUpdate
    | .enabled _ => insnStatus true
    | .asyncDisabled at_ ip =>
      if at_ ≠ s.ip then insnStatus false
      else if c.evt.pkt.errata.skd022 = true then do
        if ← checkSkd022 c then
          IM.modify fun s => { s with event := some { ev with data := .disabled ip } }
          insnStatus false
        else insnStatus true
      else insnStatus true
    | .tsx _ aborted ip => do
      let p ← postponeTsx c ev aborted ip i
      insnStatus (!p)
    | .asyncBranch from_ _ => insnStatus (from_ == s.ip)
    | .overflow _ => insnStatus true
    | .execMode _ ip => waitFor ev ip
    | .paging .. | .vmcs .. | .ptwrite .. | .iret .. | .vmentry .. | .uiret .. => insnStatus (!s.enabled)
    | .asyncPaging _ _ ip | .asyncVmcs _ ip => insnStatus (!(!ev.ipSuppressed && ip != s.ip))
    | .stop => insnStatus true
    | .exstop ip | .mwait _ _ ip => waitFor ev ip
    | .pwre .. | .pwrx .. | .tick .. | .cbr .. | .mnt .. => insnStatus true
    | .tip .. | .tnt .. => IM.fail .internal
    | .iflags _ ip | .interrupt _ _ ip | .smi ip | .init ip | .vmexit _ _ _ ip | .shutdown ip | .uintr _ ip =>
      waitFor ev ip
    | .rsm | .sipi _ => if ev.ipSuppressed = false then IM.fail .internal else insnStatus true
    | .trig trbv n mult ip => checkTrig ev trbv n mult ip

/-- libipt/src/pt_insn_decoder.c:309-333 `pt_insn_start`; `f` are the flags the query decoder returned. -/
def insnStart (c : InsnCfg) (f : Flags) : IM Flags := do
  IM.modify fun s => { s with status := f, enabled := s.enabled || !f.ipSuppressed }
  checkIpEvent c none

/-- libipt/src/pt_insn_decoder.c:335-347 `pt_insn_sync_forward`. -/
def insnSyncForward (c : InsnCfg) : IM Flags := do
  IM.modify insnReset
  let (f, ip) ← IM.query (qrySyncForward c.evt)
  IM.modify fun s => { s with ip := ip.getD s.ip }
  insnStart c f

/-- libipt/src/pt_insn_decoder.c:349-361 `pt_insn_sync_backward`. -/
def insnSyncBackward (c : InsnCfg) : IM Flags := do
  IM.modify insnReset
  let (f, ip) ← IM.query (qrySyncBackward c.evt)
  IM.modify fun s => { s with ip := ip.getD s.ip }
  insnStart c f

/-- libipt/src/pt_insn_decoder.c:363-375 `pt_insn_sync_set`. -/
def insnSyncSet (c : InsnCfg) (offset : Nat) : IM Flags := do
  IM.modify insnReset
  let (f, ip) ← IM.query (qrySyncSet c.evt offset)
  IM.modify fun s => { s with ip := ip.getD s.ip }
  insnStart c f

/-- libipt/src/pt_insn_decoder.c:1660-1701: reading and decoding the current instruction in `pt_insn_next`, through the
cached section (libipt/src/pt_insn_decoder.c:1565-1637 `pt_insn_decode_cached`, `pt_insn_msec_lookup`). -/
def fetchInsn (c : InsnCfg) : IM Insn := do
  let u ← IM.mapped
  let m ← IM.mapped
  let s ← IM.get
  let i : Insn := { ip := s.ip, mode := s.mode }
  match ← IM.try_ (IM.cache fun sc => msecLookup sc u m s.ip) with
  | (some msec, _) =>
    IM.image fun im => insnDecodeCached c.env (c.reader s) (some msec) im { i with isid := msec.isid }
  | (none, some e) =>
    if e ≠ .nomap then IM.fail e else IM.image fun im => insnDecodeCached c.env (c.reader s) none im i
  | (none, none) => IM.undef

/-- What `pt_insn_next` provides: the instruction, whether it was executed speculatively, and the status flags. -/
structure NextOut where
  insn : Insn
  speculative : Bool
  flags : Flags
deriving DecidableEq, Repr

/-- libipt/src/pt_insn_decoder.c:1639-1730 `pt_insn_next`. -/
def insnNext (c : InsnCfg) : IM NextOut := do
  let s ← IM.get
  if s.enabled = false then
    if s.status.eos = true then IM.fail .eos else IM.fail .noEnable
  else do
    let i ← fetchInsn c
    match ← checkInsnEvent c i with
    | some f => pure ⟨i, s.speculative, f⟩
    | none => do
      proceed c i
      let f ← checkIpEvent c (some i)
      pure ⟨i, s.speculative, f⟩

/-- libipt/src/pt_insn_decoder.c:1732-1765 `pt_insn_process_enabled`. -/
def processEnabled (ev : Event) (ip : Nat) : IM Unit := do
  let s ← IM.get
  if ev.statusUpdate = true then
    if s.enabled = false then IM.fail .badStatusUpdate else pure ()
  else if ev.ipSuppressed = true then IM.fail .noip
  else if s.enabled = true then IM.fail .badContext
  else IM.modify fun s => anchor { s with ip := ip, enabled := true }

/-- libipt/src/pt_insn_decoder.c:1767-1801 `pt_insn_process_disabled`. -/
def processDisabled (ev : Event) : IM Unit := do
  let s ← IM.get
  if ev.statusUpdate = true then
    if s.enabled = true then IM.fail .badStatusUpdate else pure ()
  else if s.enabled = false then IM.fail .badContext
  else IM.modify fun s => { s with enabled := false, hasIcnt := false }

/-- libipt/src/pt_insn_decoder.c:1803-1827 `pt_insn_process_async_branch`. -/
def processAsyncBranch (ev : Event) (to : Nat) : IM Unit := do
  let s ← IM.get
  if ev.statusUpdate = true then IM.fail .badContext
  else if s.enabled = false then IM.fail .badContext
  else IM.modify fun s => anchor { s with ip := to }

/-- libipt/src/pt_insn_decoder.c:1829-1847 `pt_insn_process_paging`. -/
def processPaging (cr3 : Nat) : IM Unit := do
  let u ← IM.mapped
  IM.cache fun sc => setCr3 sc u cr3

/-- libipt/src/pt_insn_decoder.c:1849-1902 `pt_insn_process_overflow`. -/
def processOverflow (ev : Event) (ip : Nat) : IM Unit := do
  if ev.statusUpdate = true then IM.fail .badContext
  else do
    IM.modify fun s =>
      if ev.ipSuppressed = true then { s with enabled := false, ip := 0, hasIcnt := false }
      else anchor { s with ip := ip, enabled := true }
    IM.modify fun s => { s with speculative := false }

/-- libipt/src/pt_insn_decoder.c:1904-1927 `pt_insn_process_exec_mode`. -/
def processExecMode (ev : Event) (mode : Mode) : IM Unit := do
  let s ← IM.get
  if ev.statusUpdate = true ∧ s.enabled = true ∧ s.mode ≠ .unknown ∧ s.mode ≠ mode then IM.fail .badStatusUpdate
  else IM.modify fun s => anchor { s with mode := mode }

/-- libipt/src/pt_insn_decoder.c:1929-1941 `pt_insn_process_tsx`. -/
def processTsx (spec : Bool) : IM Unit := IM.modify fun s => anchor { s with speculative := spec }

/-- libipt/src/pt_insn_decoder.c:1943-1961 `pt_insn_process_stop`. -/
def processStop (ev : Event) : IM Unit := do
  let s ← IM.get
  if ev.statusUpdate = true then IM.fail .badContext
  else if s.enabled = true then IM.fail .badContext
  else pure ()

/-- libipt/src/pt_insn_decoder.c:1963-1987 `pt_insn_process_vmcs`. -/
def processVmcs (ev : Event) (base : Nat) : IM Unit := do
  let u ← IM.mapped
  IM.cache fun sc => setVmcs sc u base
  IM.when (!ev.ipSuppressed) (IM.modify anchor)

/-- An event with an optional IP: while tracing is enabled we must be at that IP, for example
libipt/src/pt_insn_decoder.c:2113-2124. -/
def mustBeAt (ev : Event) (evip : Nat) : IM Unit := do
  let s ← IM.get
  if ev.ipSuppressed = false then
    if s.enabled = true ∧ s.ip ≠ evip then IM.fail .badQuery
    else IM.modify anchor
  else pure ()

/-- libipt/src/pt_insn_decoder.c:2004-2273: processing the event in `pt_insn_event`, by its type. -/
def processEvent (ev : Event) : IM Unit := do
  let s ← IM.get
  match ev.data with
  | .enabled ip => processEnabled ev ip
  | .asyncDisabled at_ _ =>
    if ev.ipSuppressed = false ∧ s.ip ≠ at_ then IM.fail .badQuery else processDisabled ev
  | .disabled _ => processDisabled ev
  | .asyncBranch from_ to => if s.ip ≠ from_ then IM.fail .badQuery else processAsyncBranch ev to
  | .asyncPaging cr3 _ ip => if ev.ipSuppressed = false ∧ s.ip ≠ ip then IM.fail .badQuery else processPaging cr3
  | .paging cr3 _ => processPaging cr3
  | .asyncVmcs base ip => if ev.ipSuppressed = false ∧ s.ip ≠ ip then IM.fail .badQuery else processVmcs ev base
  | .vmcs base => processVmcs ev base
  | .overflow ip => processOverflow ev ip
  | .execMode mode _ => processExecMode ev (modeOf mode)
  | .tsx spec _ _ => processTsx spec
  | .stop => processStop ev
  | .mwait _ _ ip =>
    if ev.ipSuppressed = false ∧ s.enabled = true ∧ s.ip ≠ ip then IM.fail .badQuery else pure ()
  | .pwre .. | .pwrx .. | .ptwrite .. | .tick .. | .cbr .. | .mnt .. | .iret .. | .vmentry .. | .uiret .. => pure ()
  | .tip .. | .tnt .. => IM.fail .internal
  | .exstop ip | .iflags _ ip | .interrupt _ _ ip | .smi ip | .init ip | .vmexit _ _ _ ip | .shutdown ip
  | .uintr _ ip => mustBeAt ev ip
  | .rsm | .sipi _ => if ev.ipSuppressed = false then IM.fail .internal else pure ()
  | .trig _ n _ ip =>
    if ev.ipSuppressed = true then pure ()
    else if s.enabled = true ∧ ip ≠ s.ip then IM.fail .badQuery
    else if n ≠ 0 then IM.fail .internal
    else IM.modify anchor

/-- What `pt_insn_event` provides: the event, its flag `enabled.resumed`, and the status flags. -/
structure EventOut where
  event : Event
  resumed : Bool
  flags : Flags
deriving DecidableEq, Repr

/-- libipt/src/pt_insn_decoder.c:2006-2013: the flag `enabled.resumed`. -/
def resumed (s : Idec) (ev : Event) : Bool :=
  match ev.data with
  | .enabled ip => s.ip == ip
  | _ => false

/-- libipt/src/pt_insn_decoder.c:1989-2310 `pt_insn_event`. -/
def insnEvent (c : InsnCfg) : IM EventOut := do
  let s ← IM.get
  if s.processEvent = false then IM.fail .badQuery
  else
    match s.event with
    | none => IM.undef
    | some ev => do
      processEvent ev
      IM.modify fun s => { s with processEvent := false }
      let done f := pure (f := IM) (⟨ev, resumed s ev, f⟩ : EventOut)
      match s.insn with
      | none => checkIpEvent c none >>= done
      | some i =>
        match ← checkInsnEvent c i with
        | some f => done f
        | none => do
          proceedPostponed c
          checkIpEvent c none >>= done

end Ipt
