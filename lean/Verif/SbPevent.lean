import Verif.SbContext
import Verif.Sideband
import Verif.Pevent

/-!
# The perf event sideband decoder: sideband/src/pt_sb_pevent.c

The file is a list of bytes, and pointers into it are offsets.  Strings are lists of bytes without zero.

Simplifications: what is printed is not modelled, but only what is read for printing; `pev_read` leaves the current record
unchanged if it fails, which does not matter since the record is not used then; the event is given by libipt, so that an RSM
event never has an IP.
-/

namespace Ipt

/-- `enum pt_sb_pevent_loc`, sideband/internal/include/pt_sb_pevent.h:36-51. -/
inductive SbLoc
  | unknown | kernel | user | likelyKernel | likelyUser
deriving DecidableEq, Repr

/-- `struct pt_sb_pevent_priv`, sideband/internal/include/pt_sb_pevent.h:54-147. -/
structure PevPriv where
  buf : List UInt8
  current : Option Nat := none
  next : Nat := 0
  pev : PevConfig := {}
  event : PevEvent := { type := 0, misc := 0 }
  context : Option Nat := none
  nextContext : Option Nat := none
  kernelStart : Nat := 0
  tscOffset : Nat := 0
  location : SbLoc := .unknown
  sysroot : Option (List UInt8) := none
  vdsoX64 : Option (List UInt8) := none
  vdsoX32 : Option (List UInt8) := none
  vdsoIa32 : Option (List UInt8) := none

/-- The functions of the decoder work on the session's contexts and on its private data. -/
structure SbBoth (ι κ : Type) where
  world : SbWorld ι κ
  priv : PevPriv

variable {ι κ : Type} (env : SbEnv ι κ)

/-- Functions on contexts do not change the private data. -/
def onWorld {α : Type} (m : SbM (SbWorld ι κ) α) : SbM (SbBoth ι κ) α := fun s =>
  ({ s with world := (m s.world).1 }, (m s.world).2)

/-- The memory from the current record on. -/
def PevPriv.mem (p : PevPriv) : List UInt8 := p.buf.drop (p.current.getD p.next)

/-- sideband/src/pt_sb_pevent.c:137-162 `pt_sb_pevent_error`. -/
def pevError (note : SbNote) : SbM (SbBoth ι κ) Unit := do
  let s ← .get
  onWorld (sbError env note (s.priv.current.getD s.priv.next))

/-- sideband/src/pt_sb_pevent.c:164-190 `pt_sb_pevent_track_abi`. -/
def pevTrackAbi (i : Nat) (file : List UInt8) : SbM (SbBoth ι κ) Unit := do
  let c ← onWorld (sbDeref i)
  if c.abi ≠ .unknown then return ()
  else do
    let s ← .get
    match env.abi s.world.ext file with
    | none => return ()
    | some abi => onWorld (sbStore i { c with abi })

/-- sideband/src/pt_sb_pevent.c:192-226 `pt_sb_pevent_find_vdso`. -/
def pevFindVdso (p : PevPriv) (abi : SbAbi) : Res (List UInt8) :=
  let vdso := match abi with
    | .unknown => none
    | .x64 => p.vdsoX64
    | .x32 => p.vdsoX32
    | .ia32 => p.vdsoIa32
  match vdso with
  | none => .err .badConfig
  | some v => .ok v

/-- sideband/src/pt_sb_pevent.c:228-252 `pt_sb_pevent_dtor`: the contexts.  Errors are ignored. -/
def pevDtor (p : PevPriv) : SbM (SbWorld ι κ) Unit := do
  let put (o : Option Nat) : SbM (SbWorld ι κ) (Option Err) :=
    match o with
    | none => return none
    | some i => (sbCtxPut i).attempt
  let _ ← put p.nextContext
  let _ ← put p.context
  return ()

/-- sideband/src/pt_sb_pevent.c:396-418: the time of a record, `offset` before its time stamp. -/
def pevAdjust (offset tsc : Nat) : Nat :=
  if offset ≤ tsc then tsc - offset
  else if offset < 2 ^ 63 then 0
  else if tsc ≤ offset then (tsc + (2 ^ 64 - offset)) % 2 ^ 64
  else 2 ^ 64 - 1

/-- sideband/src/pt_sb_pevent.c:362-428 `pt_sb_pevent_fetch`. -/
def pevFetch (p : PevPriv) : PevPriv × Res Nat :=
  match pevRead p.pev (p.buf.drop p.next) with
  | .ok (e, n) =>
    if e.sample.time = none then ({ p with current := some p.next, event := e, next := p.next + n }, .ok 0)
    else
      let tsc := pevAdjust p.tscOffset e.sample.tsc
      ({ p with current := some p.next, event := { e with sample := { e.sample with tsc } }, next := p.next + n }, .ok tsc)
  | .err e => ({ p with current := some p.next }, .err e)
  | .ub => (p, .ub)

/-- Reading a string: the bytes before the first zero. -/
def pevString (mem : List UInt8) : Res (List UInt8) :=
  if 0 ∈ mem then .ok (mem.takeWhile (· ≠ 0)) else .ub

/-- A pointer to `n` bytes may be used. -/
def pevTouch (mem : List UInt8) (o : Option Nat) (n : Nat) : Res Unit :=
  match o with
  | none => .ok ()
  | some p => if mem.length < p + n then .ub else .ok ()

/-- sideband/src/pt_sb_pevent.c:430-750 `pt_sb_pevent_print_event`: the record is printed with its string. -/
def pevPrintEvent (p : PevPriv) : Res Unit :=
  match pevRecord p.event.type with
  | none => .ok ()
  | some (0, _) => .ok ()
  | some (n, str) =>
    match p.event.record with
    | none => .err .badPacket
    | some r => do
      pevTouch p.mem (some r) n
      if str = true then do
        let _ ← pevString (p.mem.drop (r + n))
        .ok ()
      else .ok ()

/-- sideband/src/pt_sb_pevent.c:752-833: the samples. -/
def pevPrintSamples (p : PevPriv) : Res Unit := do
  pevTouch p.mem p.event.sample.pid 4
  pevTouch p.mem p.event.sample.tid 4
  pevTouch p.mem p.event.sample.time 8
  pevTouch p.mem p.event.sample.id 8
  pevTouch p.mem p.event.sample.cpu 4
  pevTouch p.mem p.event.sample.streamId 8
  pevTouch p.mem p.event.sample.identifier 8

/-- sideband/src/pt_sb_pevent.c:835-896 `pt_sb_pevent_print`. -/
def pevPrint (p : PevPriv) : Res Unit :=
  match p.current with
  | none => .err .internal
  | some _ => do
    pevPrintEvent p
    pevPrintSamples p

/-- sideband/src/pt_sb_pevent.c:898-921 `pt_sb_pevent_switch_contexts`. -/
def pevSwitchContexts (image : Bool) : SbM (SbBoth ι κ) Unit := do
  if image = false then .fail .internal
  else do
    let s ← .get
    match s.priv.nextContext with
    | none => .fail .internal
    | some n => do
      onWorld (sbSwitchTo env n)
      .modify fun s => { s with priv := { s.priv with nextContext := none, context := some n } }
      match s.priv.context with
      | none => return ()
      | some i => onWorld (sbCtxPut i)

/-- sideband/src/pt_sb_pevent.c:923-937 `pt_sb_pevent_cancel_context_switch`. -/
def pevCancelSwitch : SbM (SbBoth ι κ) Unit := do
  let s ← .get
  match s.priv.nextContext with
  | none => return ()
  | some i => do
    .modify fun s => { s with priv := { s.priv with nextContext := none } }
    onWorld (sbCtxPut i)

/-- sideband/src/pt_sb_pevent.c:939-981 `pt_sb_pevent_prepare_context_switch`. -/
def pevPrepareSwitch (i : Nat) : SbM (SbBoth ι κ) Unit := do
  let s ← .get
  if s.priv.nextContext = some i then return ()
  else do
    pevCancelSwitch
    if s.priv.context = some i then return ()
    else do
      onWorld (sbCtxGet i)
      .modify fun s => { s with priv := { s.priv with nextContext := some i } }

/-- sideband/src/pt_sb_pevent.c:983-996 `pt_sb_pevent_prepare_switch_to_pid`. -/
def pevPrepareSwitchToPid (pid : Nat) : SbM (SbBoth ι κ) Unit := do
  let i ← onWorld (sbGetContext env pid)
  pevPrepareSwitch i

/-- sideband/src/pt_sb_pevent.c:998-1013 `pt_sb_pevent_remove_context_for_pid`. -/
def pevRemoveContextForPid (pid : Nat) : SbM (SbWorld ι κ) Unit := do
  match ← sbFindContext pid with
  | none => return ()
  | some i => sbRemoveContext i

/-- A 32 bit field at an offset in the record. -/
def pevField (p : PevPriv) (off size : Nat) : Res Nat :=
  match p.event.record with
  | none => .err .internal
  | some r => rdLE p.mem (r + off) size

/-- sideband/src/pt_sb_pevent.c:1015-1041 `pt_sb_pevent_itrace_start`. -/
def pevItraceStart (image : Bool) : SbM (SbBoth ι κ) Unit := do
  let s ← .get
  let pid ← .lift (pevField s.priv 0 4)
  pevPrepareSwitchToPid env pid
  let s ← .get
  if s.priv.nextContext = none then return ()
  else pevSwitchContexts env image

/-- sideband/src/pt_sb_pevent.c:1055-1103: the end of `pt_sb_pevent_fork`, for a new process. -/
def pevForkProcess (pid ppid : Nat) : SbM (SbWorld ι κ) Unit := do
  pevRemoveContextForPid pid
  let i ← sbGetContext env pid
  match ← sbFindContext ppid with
  | none => return ()
  | some parent => do
    let c ← sbDeref parent
    sbCopyImage env i c.image

/-- sideband/src/pt_sb_pevent.c:1043-1104 `pt_sb_pevent_fork`. -/
def pevFork : SbM (SbBoth ι κ) Unit := do
  let s ← .get
  let ppid ← .lift (pevField s.priv 4 4)
  let pid ← .lift (pevField s.priv 0 4)
  if ppid = pid then return ()
  else do
    let tid ← .lift (pevField s.priv 8 4)
    if pid ≠ tid then .fail .internal else onWorld (pevForkProcess env pid ppid)

/-- sideband/src/pt_sb_pevent.c:1106-1154 `pt_sb_pevent_exec`. -/
def pevExec (image : Bool) : SbM (SbBoth ι κ) Unit := do
  let s ← .get
  let pid ← .lift (pevField s.priv 0 4)
  onWorld (pevRemoveContextForPid pid)
  let i ← onWorld (sbGetContext env pid)
  if image = false then return () else pevPrepareSwitch i

/-- sideband/src/pt_sb_pevent.c:1156-1164 `pt_sb_pevent_switch`. -/
def pevSwitch : SbM (SbBoth ι κ) Unit := do
  let s ← .get
  match s.priv.event.sample.pid with
  | none => .fail .badConfig
  | some off => do
    let pid ← .lift (rdLE s.priv.mem off 4)
    pevPrepareSwitchToPid env pid

/-- sideband/src/pt_sb_pevent.c:1166-1176 `pt_sb_pevent_switch_cpu`. -/
def pevSwitchCpu : SbM (SbBoth ι κ) Unit := do
  let s ← .get
  let pid ← .lift (pevField s.priv 0 4)
  pevPrepareSwitchToPid env pid

/-- The strings in sideband/src/pt_sb_pevent.c:1209-1231: `[vdso]`, `//anon` and ` (deleted)`. -/
def strVdso : List UInt8 := [0x5b, 0x76, 0x64, 0x73, 0x6f, 0x5d]
@[inherit_doc strVdso] def strAnon : List UInt8 := [0x2f, 0x2f, 0x61, 0x6e, 0x6f, 0x6e]
@[inherit_doc strVdso] def strDeleted : List UInt8 := [0x20, 0x28, 0x64, 0x65, 0x6c, 0x65, 0x74, 0x65, 0x64, 0x29]

/-- `strstr`: whether a string is part of another one. -/
def strContains (part : List UInt8) : List UInt8 → Bool
  | [] => part.isEmpty
  | b :: l => part.isPrefixOf (b :: l) || strContains part l

/-- sideband/src/pt_sb_pevent.c:1205-1246: the file to use for a file name in a mapping, or a note that it is ignored.
`FILENAME_MAX` is 4096; the name is cut if it does not fit. -/
def pevFile (p : PevPriv) (abi : SbAbi) (file : List UInt8) : Except SbNote (List UInt8) :=
  if file.head? = some 0x5b then
    if file = strVdso then
      match pevFindVdso p abi with
      | .ok f => .ok f
      | .err e => .error (.error e)
      | .ub => .error .sectionLost
    else .error .sectionLost
  else if file = strAnon then .error .sectionLost
  else if strContains strDeleted file = true then .error .sectionLost
  else
    match p.sysroot with
    | some r => .ok ((r ++ file).take 4095)
    | none => .ok file

/-- sideband/src/pt_sb_pevent.c:1178-1253 `pt_sb_pevent_map`. -/
def pevMap (pid : Nat) (file : List UInt8) (offset size vaddr : Nat) : SbM (SbBoth ι κ) Unit := do
  let i ← onWorld (sbGetContext env pid)
  let s ← .get
  let c ← onWorld (sbDeref i)
  match pevFile s.priv c.abi file with
  | .error note => pevError env note
  | .ok file => do
    pevTrackAbi env i file
    onWorld (sbCtxMmap env i file offset size vaddr)

/-- sideband/src/pt_sb_pevent.c:1255-1275 `pt_sb_pevent_mmap` and `pt_sb_pevent_mmap2`: `n` is the size of the structure. -/
def pevMmap (n : Nat) : SbM (SbBoth ι κ) Unit := do
  let s ← .get
  let pid ← .lift (pevField s.priv 0 4)
  let vaddr ← .lift (pevField s.priv 8 8)
  let size ← .lift (pevField s.priv 16 8)
  let offset ← .lift (pevField s.priv 24 8)
  let file ← .lift (pevString (s.priv.mem.drop (s.priv.event.record.getD 0 + n)))
  pevMap env pid file offset size vaddr

/-- sideband/src/pt_sb_pevent.c:1277-1288 `pt_sb_pevent_aux`. -/
def pevAux : SbM (SbBoth ι κ) Unit := do
  let s ← .get
  let flags ← .lift (pevField s.priv 16 8)
  if flags.testBit 0 = true then pevError env .traceLost else return ()

/-- sideband/src/pt_sb_pevent.c:1290-1408 `pt_sb_pevent_ignore_mmap` and `pt_sb_pevent_apply_event_record`.  Bit 13 of `misc` is
`PERF_RECORD_MISC_COMM_EXEC` and `PERF_RECORD_MISC_SWITCH_OUT`. -/
def pevApplyRecord (image : Bool) : SbM (SbBoth ι κ) Unit := do
  let s ← .get
  let e := s.priv.event
  if e.type = 12 then
    if image = false then return () else pevItraceStart env image
  else if e.type = 7 then pevFork env
  else if e.type = 3 then
    if e.misc.testBit 13 = false then return () else pevExec env image
  else if e.type = 14 then
    if image = false then return ()
    else if e.misc.testBit 13 = true then return ()
    else pevSwitch env
  else if e.type = 15 then
    if image = false then return ()
    else if e.misc.testBit 13 = false then
      if e.sample.pid = none then return () else pevSwitch env
    else pevSwitchCpu env
  else if e.type = 1 then
    if e.misc % 8 = 1 then return () else pevMmap env 32
  else if e.type = 10 then
    if e.misc % 8 = 1 then return () else pevMmap env 64
  else if e.type = 2 then pevError env .lost
  else if e.type = 11 then
    if image = false then return () else pevAux env
  else return ()

/-- sideband/src/pt_sb_pevent.c:1410-1419 `ploc_from_ip`. -/
def plocFromIp (kernelStart ip : Nat) : SbLoc := if ip < kernelStart then .user else .kernel

/-- sideband/src/pt_sb_pevent.c:1421-1444 `ploc_from_suppressed_ip`. -/
def plocFromSuppressedIp : SbLoc → SbLoc
  | .likelyKernel | .kernel => .likelyUser
  | .likelyUser | .user => .likelyKernel
  | .unknown => .unknown

/-- sideband/src/pt_sb_pevent.c:1446-1630 `ploc_from_event`. -/
def plocFromEvent (kernelStart : Nat) (location : SbLoc) (ev : Event) : SbLoc :=
  let plain (ip : Nat) : SbLoc := if ev.ipSuppressed = false then plocFromIp kernelStart ip else .unknown
  match ev.data with
  | .enabled ip => plocFromIp kernelStart ip
  | .disabled ip => if ev.ipSuppressed = false then plocFromIp kernelStart ip else plocFromSuppressedIp location
  | .asyncDisabled at_ ip =>
    if ev.ipSuppressed = false then plocFromIp kernelStart ip else plocFromSuppressedIp (plocFromIp kernelStart at_)
  | .asyncBranch _ dest => plocFromIp kernelStart dest
  | .asyncPaging _ _ ip => if ev.ipSuppressed = false then plocFromIp kernelStart ip else .likelyKernel
  | .paging _ _ => .likelyKernel
  | .overflow ip => plain ip
  | .execMode _ ip => plain ip
  | .tsx _ _ ip => plain ip
  | .exstop ip => plain ip
  | .mwait _ _ ip => plain ip
  | .ptwrite _ _ ip => plain ip
  | .tick ip => plain ip
  | .tip ip => plocFromIp kernelStart ip
  | .iflags _ ip => plain ip
  | .interrupt _ _ ip => plain ip
  | .iret ip => plain ip
  | .smi ip => plain ip
  | .init ip => plain ip
  | .vmentry ip => plain ip
  | .vmexit _ _ _ ip => plain ip
  | .shutdown ip => plain ip
  | .uintr _ ip => plain ip
  | .uiret ip => plain ip
  | .rsm | .stop | .vmcs _ | .asyncVmcs _ _ | .pwre _ _ _ | .pwrx _ _ _ _ _ | .cbr _ | .mnt _ | .tnt _ _ | .sipi _
  | .trig _ _ _ _ => .unknown

/-- The locations at which contexts may be switched, sideband/src/pt_sb_pevent.c:1705-1718. -/
def SbLoc.canSwitch : SbLoc → Bool
  | .likelyKernel | .kernel | .unknown => true
  | .likelyUser | .user => false

/-- sideband/src/pt_sb_pevent.c:1632-1727 `pt_sb_pevent_apply`. -/
def pevApply (image : Bool) (ev : Event) : SbM (SbBoth ι κ) Unit := do
  let s ← .get
  let p := s.priv
  if p.current ≠ some p.next ∧ (p.event.sample.time = none ∨ p.event.sample.tsc ≤ ev.tsc) then pevApplyRecord env image
  else do
    let loc := plocFromEvent p.kernelStart p.location ev
    .modify fun s => { s with priv := { s.priv with location := loc } }
    if p.nextContext = none then
      if p.current = some p.next then .fail .eos else return ()
    else if p.location.canSwitch = true then pevSwitchContexts env image
    else if loc.canSwitch = true then pevSwitchContexts env image
    else return ()

/-- sideband/src/pt_sb_pevent.c:1729-1769: the callbacks. -/
def pevCallbacks : SbCallbacks (SbWorld ι κ) PevPriv where
  fetch w p :=
    match pevFetch p with
    | (p, .ok t) => (w, p, .ok t)
    | (p, .err .eos) => (w, p, .err .eos)
    | (p, .err e) =>
      let r := pevError env (.error e) { world := w, priv := p }
      (r.1.world, r.1.priv, .err e)
    | (p, .ub) => (w, p, .ub)
  print w p :=
    match pevPrint p with
    | .ok () => (w, p, .ok ())
    | .err e =>
      let r := pevError env (.error e) { world := w, priv := p }
      (r.1.world, r.1.priv, r.2)
    | .ub => (w, p, .ub)
  apply image ev w p :=
    match pevApply env image ev { world := w, priv := p } with
    | (s, .ok ()) => (s.world, s.priv, .ok ())
    | (s, .err .eos) => (s.world, s.priv, .err .eos)
    | (s, .err e) =>
      let r := pevError env (.error e) s
      (r.1.world, r.1.priv, r.2)
    | (s, .ub) => (s.world, s.priv, .ub)

/-- `struct pt_sb_pevent_config`, sideband/include/libipt-sb.h.in:475-548, with the contents of the file between `begin` and
`end`, or the error of `pt_sb_file_load`.  `name` is the length of the file's name. -/
structure SbPevConf where
  size : Nat := 120
  name : Option Nat := some 8
  file : Except Err (List UInt8)
  pev : PevConfig := {}
  kernelStart : Nat := 0
  tscOffset : Nat := 0
  sysroot : Option (List UInt8) := none
  vdsoX64 : Option (List UInt8) := none
  vdsoX32 : Option (List UInt8) := none
  vdsoIa32 : Option (List UInt8) := none
  primary : Bool := true

/-- sideband/src/pt_sb_pevent.c:254-281 `pt_sb_pevent_init_path`: whether a path is too long. -/
def pevPathTooLong (p : Option (List UInt8)) : Bool := p.any fun p => decide (4096 ≤ p.length)

/-- sideband/src/pt_sb_pevent.c:283-360 `pt_sb_pevent_init`.  The flag says whether the private data is still allocated: it is
freed, by `pt_sb_pevent_dtor`, if a path is too long. -/
def pevInit (c : SbPevConf) : Bool × Except Err PevPriv :=
  if c.size < 120 then (true, .error .invalid)
  else
    match c.name, c.file with
    | none, _ => (true, .error .invalid)
    | _, .error e => (true, .error e)
    | some n, .ok buf =>
      if 4096 ≤ n ∨ pevPathTooLong c.sysroot = true ∨ pevPathTooLong c.vdsoX64 = true ∨ pevPathTooLong c.vdsoX32 = true ∨
          pevPathTooLong c.vdsoIa32 = true then (false, .error .invalid)
      else (true, .ok { buf, pev := c.pev, kernelStart := c.kernelStart, tscOffset := c.tscOffset, sysroot := c.sysroot
                        vdsoX64 := c.vdsoX64, vdsoX32 := c.vdsoX32, vdsoIa32 := c.vdsoIa32 })

/-- sideband/src/pt_sb_pevent.c:1771-1804 `pt_sb_alloc_pevent_decoder`.  Freeing memory twice is undefined. -/
def sbAllocPevent (s : SbSession (SbWorld ι κ) PevPriv) (id : Nat) (c : SbPevConf) : SbSession (SbWorld ι κ) PevPriv × Res Unit :=
  match pevInit c with
  | (true, .ok p) => (sbAllocDecoder s id c.primary p, .ok ())
  | (true, .error e) => (s, .err e)
  | (false, _) => (s, .ub)

/-- sideband/src/pt_sb_session.c:80-90 `pt_sb_free_decoder_list`. -/
def sbFreeDecoders : List (SbDecoder PevPriv) → SbM (SbWorld ι κ) Unit
  | [] => return ()
  | d :: l => do
    pevDtor d.priv
    sbFreeDecoders l

/-- sideband/src/pt_sb_session.c:92-117 `pt_sb_free`. -/
def sbFree (s : SbSession (SbWorld ι κ) PevPriv) : SbWorld ι κ × Res Unit :=
  (do
    sbFreeDecoders s.decoders
    sbFreeDecoders s.waiting
    sbFreeDecoders s.retired
    sbFreeDecoders s.removed
    let w ← .get
    sbFreeContexts w.contexts : SbM (SbWorld ι κ) Unit) s.shared

end Ipt
