import Verif.BlockCache
import Verif.InsnDecoder

/-!
# The block decoder: libipt/src/pt_block_decoder.c

Not modelled: NULL arguments, allocation, and the truncation of blocks and events to the size the user asked for.
-/

namespace Ipt

open Ild

/-- The configuration of a block decoder: as for an instruction flow decoder, and the flags `end_on_call` and
`end_on_jump`. -/
structure BlkCfg extends InsnCfg where
  endOnCall : Bool := false
  endOnJump : Bool := false

/-- `struct pt_block`, libipt/include/intel-pt.h.in:2819-2881.  The default is the zeroed structure. -/
structure Block where
  ip : Nat := 0
  endIp : Nat := 0
  isid : Nat := 0
  mode : Mode := .unknown
  iclass : Iclass := .unknown
  ninsn : Nat := 0
  raw : List UInt8 := List.replicate 15 0
  size : Nat := 0
  speculative : Bool := false
  truncated : Bool := false
deriving DecidableEq, Repr

/-- `struct pt_block_decoder`, libipt/internal/include/pt_block_decoder.h:45-170.

* `event` is `none` if `event` was overwritten with 0xff.
* `insn` is `none` if `process_insn` is not set; it stands for `insn` and `iext`.
* `status` is `none` if `status` is not negative.
* `sc` is the cached section, the address space and the image.  `maps` are the results of mapping and unmapping sections
  to come; when there are no more, it succeeds.
* `bc` are the block caches of all sections.  `reqs` are the results of requesting a block cache to come, and `avail`
  says whether the section has one; `others` are the entries other decoders write before each of this decoder's reads.

The last two fields are local variables: the user's block, and the instruction `insn`, `iext` that functions provide to
their caller, `none` if it was not initialized. -/
structure Bdec where
  ev : Evd := {}
  sc : ScSt := { img := ⟨[], fun _ => 0⟩ }
  maps : List (Res Unit) := []
  bc : Bcache := fun _ _ => {}
  reqs : List (Res Unit) := []
  avail : List Bool := []
  others : List (List BceWrite) := []
  event : Option Event := none
  retstack : RetStack := {}
  insn : Option Insn := none
  ip : Nat := 0
  tsc : Nat := 0
  hasTsc : Bool := false
  lostMtc : Nat := 0
  lostCyc : Nat := 0
  cbr : Nat := 0
  icnt : Nat := 0
  mode : Mode := .unknown
  status : Option Err := some .nosync
  enabled : Bool := false
  speculative : Bool := false
  hasIcnt : Bool := false
  boundPaging : Bool := false
  boundVmcs : Bool := false
  boundPtwrite : Bool := false
  boundIret : Bool := false
  boundVmentry : Bool := false
  boundUiret : Bool := false
  blk : Block := {}
  out : Option Insn := none

/-- Computations on the state of a block decoder.  The state is kept when a function fails. -/
def BM (α : Type) := Bdec → Bdec × Res α

namespace BM

/-- Sequencing: `errcode = f(); if (errcode < 0) return errcode; ...`. -/
def bind {α β : Type} (m : BM α) (f : α → BM β) : BM β := fun s =>
  match m s with
  | (s', .ok a) => f a s'
  | (s', .err e) => (s', .err e)
  | (s', .ub) => (s', .ub)

instance : Monad BM where
  pure a := fun s => (s, .ok a)
  bind := BM.bind

/-- `return -pte_...;` -/
def fail {α : Type} (e : Err) : BM α := fun s => (s, .err e)

/-- Undefined behaviour. -/
def undef {α : Type} : BM α := fun s => (s, .ub)

/-- The decoder state. -/
def get : BM Bdec := fun s => (s, .ok s)

/-- Update the decoder state. -/
def modify (f : Bdec → Bdec) : BM Unit := fun s => (f s, .ok ())

/-- The result of a function that does not change the state. -/
def lift {α : Type} (r : Res α) : BM α := fun s => (s, r)

/-- A function of the event decoder. -/
def evt {α : Type} (f : EM α) : BM α := fun s => ({ s with ev := (f s.ev).1 }, (f s.ev).2)

/-- Reading the image. -/
def image {α : Type} (f : Img × List (Res Unit) → (Img × List (Res Unit)) × Res α) : BM α := fun s =>
  let r := f (s.sc.img, s.maps)
  ({ s with sc := { s.sc with img := r.1.1 }, maps := r.1.2 }, r.2)

/-- The next result of mapping or unmapping a section. -/
def mapped : BM (Res Unit) := fun s => ({ s with maps := s.maps.tail }, .ok (s.maps.headD (.ok ())))

/-- The next result of requesting a block cache. -/
def request : BM Unit := fun s => ({ s with reqs := s.reqs.tail }, s.reqs.headD (.ok ()))

/-- Whether the section has a block cache. -/
def available : BM Bool := fun s => ({ s with avail := s.avail.tail }, .ok (s.avail.headD true))

/-- A function of the section cache. -/
def cache {α : Type} (f : ScSt → ScSt × Res α) : BM α := fun s => ({ s with sc := (f s.sc).1 }, (f s.sc).2)

/-- Update the user's block. -/
def block (f : Block → Block) : BM Unit := modify fun s => { s with blk := f s.blk }

/-- Try something and look at the result: `status = f(); if (status < 0) ...`. -/
def try_ {α : Type} (m : BM α) : BM (Option α × Option Err) := fun s =>
  match m s with
  | (s', .ok a) => (s', .ok (some a, none))
  | (s', .err e) => (s', .ok (none, some e))
  | (s', .ub) => (s', .ub)

/-- `status = m(); if (status < 0) { if (status != -pte_bad_query) return status; return f(); }` -/
def orQuery {α : Type} (m : BM α) (f : BM α) : BM α := fun s =>
  match m s with
  | (s', .err .badQuery) => f s'
  | r => r

/-- `if (b) { errcode = m(); if (errcode < 0) return errcode; }` -/
def when (b : Bool) (m : BM Unit) : BM Unit := if b = true then m else pure ()

end BM

/-- The memory of the current image in the current address space. -/
def BlkCfg.reader (c : BlkCfg) (s : Bdec) : MemReader (Img × List (Res Unit)) := imgReader c.env c.cb s.sc.asid

/-- `pt_insn_decode(&insn, &iext, decoder->image, &decoder->asid)`, as in libipt/src/pt_block_decoder.c:901. -/
def decodeAt (c : BlkCfg) (ip : Nat) (mode : Mode) : BM Insn := do
  let s ← BM.get
  BM.image fun m => insnDecode (c.reader s) m { ip := ip, mode := mode }

/-- libipt/src/pt_block_decoder.c:48-57 `pt_blk_set_trig_anchor`. -/
def setTrigAnchor (s : Bdec) : Bdec := { s with hasIcnt := true, icnt := 0 }

/-- libipt/src/pt_block_decoder.c:59-68 `pt_blk_clear_trig_anchor`. -/
def clearTrigAnchor (s : Bdec) : Bdec := { s with hasIcnt := false, icnt := 0 }

/-- libipt/src/pt_block_decoder.c:73-133 `pt_blk_find_trig_anchor`. -/
def findTrigAnchor (ev : Event) : BM Unit :=
  match ev.data with
  | .paging .. | .sipi .. | .cbr .. | .mnt .. | .stop | .vmcs .. | .mwait .. | .pwre .. | .pwrx .. => pure ()
  | .execMode .. | .tsx .. | .asyncPaging .. | .asyncVmcs .. | .exstop .. | .ptwrite .. | .tick .. | .iflags ..
  | .interrupt .. | .iret .. | .smi .. | .rsm | .init .. | .vmentry .. | .vmexit .. | .shutdown .. | .uintr ..
  | .uiret .. | .trig .. => if ev.ipSuppressed = true then pure () else BM.modify setTrigAnchor
  | .enabled .. | .asyncBranch .. | .tip .. | .tnt .. =>
    if ev.ipSuppressed = true then BM.fail .internal else BM.modify setTrigAnchor
  | .disabled .. | .asyncDisabled .. => BM.modify clearTrigAnchor
  | .overflow .. => BM.modify (if ev.ipSuppressed = true then clearTrigAnchor else setTrigAnchor)

/-- libipt/src/pt_block_decoder.c:135-164 `pt_blk_fetch_event`.  It is not called if the event was overwritten with 0xff;
in that case, the time it would copy is not modelled. -/
def fetchEvent (c : BlkCfg) : BM Unit := do
  let s ← BM.get
  match s.event with
  | none => BM.fail .internal
  | some ev => do
    BM.modify fun s => { s with tsc := ev.tsc, hasTsc := ev.hasTsc, lostMtc := ev.lostMtc, lostCyc := ev.lostCyc }
    findTrigAnchor ev
    match ← BM.try_ (BM.evt (evtNext c.evt)) with
    | (some e, _) => BM.modify fun s => { s with event := some e }
    | (none, e) => BM.modify fun s => { s with status := e, event := none }

/-- libipt/src/pt_block_decoder.c:166-178 `pt_blk_status`; `pending` stands for the flag `pts_event_pending`. -/
def blkStatus (pending : Bool) : BM Flags := do
  let s ← BM.get
  pure { eventPending := pending, ipSuppressed := !s.enabled, eos := s.status == some .eos }

/-- libipt/src/pt_block_decoder.c:180-212 `pt_blk_reset`. -/
def blkReset (s : Bdec) : Bdec :=
  { s with
    tsc := 0, lostMtc := 0, lostCyc := 0, cbr := 0, icnt := 0, mode := .unknown, ip := 0, status := some .nosync
    enabled := false, speculative := false, hasTsc := false, hasIcnt := false, insn := none, boundPaging := false
    boundVmcs := false, boundPtwrite := false, boundIret := false, boundVmentry := false, boundUiret := false
    event := none, retstack := s.retstack.init, sc := scReset s.sc }

/-- libipt/src/pt_block_decoder.c:309-328 `pt_blk_tick`. -/
def blkTick (c : BlkCfg) (ip : Nat) : BM Unit := do
  let s ← BM.get
  match s.event with
  | none => fetchEvent c
  | some ev =>
    if c.tick = true ∧ ev.tsc ≠ s.tsc then BM.modify fun s => { s with event := some { ev with data := .tick ip } }
    else fetchEvent c

/-- libipt/src/pt_block_decoder.c:334-393 `pt_blk_proceed_indirect`. -/
def proceedIndirect (c : BlkCfg) : BM Unit := do
  let s ← BM.get
  match s.event with
  | none => BM.fail .badQuery
  | some ev =>
    match ev.data with
    | .tip ip =>
      if ev.ipSuppressed = true then BM.fail .badPacket
      else do
        BM.modify fun s => { s with ip := ip }
        blkTick c s.ip
    | .tnt .. => do
      match ← BM.try_ (BM.evt (evtNext c.evt)) with
      | (some e, _) =>
        match e.data with
        | .tip ip => BM.modify fun s => { s with ip := ip }
        | _ => do
          BM.modify fun t => { t with ev := s.ev }
          BM.fail .badQuery
      | (none, _) => do
        BM.modify fun t => { t with ev := s.ev }
        BM.fail .badQuery
    | _ => BM.fail .badQuery

/-- libipt/src/pt_block_decoder.c:400-423 `pt_blk_cond_branch`: whether the branch was taken. -/
def blkCond : BM Bool := do
  let s ← BM.get
  match s.event with
  | none => BM.fail .badQuery
  | some ev =>
    match ev.data with
    | .tnt bits size =>
      if size = 0 then BM.fail .internal
      else do
        BM.modify fun s => { s with event := some { ev with data := .tnt bits (size - 1) } }
        pure (bits / 2 ^ (size - 1) % 2 == 1)
    | _ => BM.fail .badQuery

/-- `pt_retstack_push(&decoder->retstack, ip)` -/
def blkPush (ip : Nat) : BM Unit := fun s => ({ s with retstack := (s.retstack.push ip).1 }, (s.retstack.push ip).2)

/-- `pt_retstack_pop(&decoder->retstack, &decoder->ip)` -/
def blkPop : BM Unit := do
  let ip ← (fun s => ({ s with retstack := s.retstack.pop.1 }, s.retstack.pop.2) : BM Nat)
  BM.modify fun s => { s with ip := ip }

/-- libipt/src/pt_block_decoder.c:739-768, 2861-2884: is a return compressed?  If it is, proceed to the return address,
otherwise do something else. -/
def compressedReturn (indirect : BM Unit) : BM Unit := do
  match ← BM.try_ blkCond with
  | (some true, _) => blkPop
  | (some false, _) => BM.fail .badRetcomp
  | (none, some .badQuery) => indirect
  | (none, some e) => BM.fail e
  | (none, none) => BM.undef

/-- libipt/src/pt_block_decoder.c:715-803 `pt_blk_proceed_with_trace`. -/
def proceedWithTrace (c : BlkCfg) (i : Insn) : BM Unit :=
  match i.ext.cls with
  | .condJump => do
    let ip := (i.ip + i.size) % 2 ^ 64
    let taken ← blkCond
    BM.modify fun s => { s with ip := if taken = true then addDisp ip i.ext.displacement else ip }
  | .return => compressedReturn (proceedIndirect c)
  | .jump =>
    if i.ext.inst = .jmpabs then proceedIndirect c
    else if i.ext.isDirect = true then BM.fail .internal
    else proceedIndirect c
  | .call => if i.ext.isDirect = true then BM.fail .internal else proceedIndirect c
  | .farCall | .farReturn | .farJump | .indirect => proceedIndirect c
  | .ptwrite | .other => BM.fail .internal
  | .unknown => BM.fail .badInsn

/-- `proceedWithTrace` on the instruction provided by the last function. -/
def proceedOut (c : BlkCfg) : BM Unit := do
  let s ← BM.get
  match s.out with
  | some i => proceedWithTrace c i
  | none => BM.undef

/-- libipt/src/pt_block_decoder.c:810-834 `pt_blk_decode_in_section`. -/
def decodeInSection (env : SecEnv) (m : Msec) (ip : Nat) (mode : Mode) : Res Insn := do
  let bs ← m.read env 15 ip
  let raw ← store (List.replicate 15 0) 0 bs
  match ildDecode raw bs.length mode with
  | (n, .ok x) => .ok { ip := ip, mode := mode, raw := raw, size := n, ext := x }
  | (_, .err e) => .err e
  | (_, .ub) => .ub

/-- libipt/src/pt_block_decoder.c:839-859 `pt_blk_log_call`. -/
def logCall (i : Insn) : BM Unit :=
  if i.ext.cls ≠ .call then pure ()
  else if i.ext.isDirect = true ∧ i.ext.displacement = 0 then pure ()
  else blkPush ((i.ip + i.size) % 2 ^ 64)

/-- libipt/src/pt_block_decoder.c:933-943, 2673-2684: count `n` instructions from the last anchor IP. -/
def countInsn (n : Nat) : BM Unit := do
  let s ← BM.get
  if s.hasIcnt = false then pure ()
  else if 2 ^ 32 ≤ s.icnt + n then BM.fail .overflow
  else BM.modify fun s => { s with icnt := s.icnt + n }

/-- libipt/src/pt_block_decoder.c:916-943: add an instruction to the block. -/
def addInsn (i : Insn) : BM Unit := do
  BM.when i.truncated (BM.block fun b =>
    { b with raw := i.raw.take i.size ++ b.raw.drop i.size, size := i.size, truncated := true })
  logCall i
  BM.block fun b => { b with iclass := i.ext.cls, endIp := i.ip, ninsn := b.ninsn + 1 }
  countInsn 1
  BM.modify fun s => { s with out := some i }

/-- libipt/src/pt_block_decoder.c:875-950 `pt_blk_proceed_one_insn`: whether the instruction was added. -/
def oneInsn (c : BlkCfg) : BM Bool := do
  let s ← BM.get
  if (s.blk.ninsn + 1) % 2 ^ 16 = 0 then pure false
  else if s.blk.truncated = true then pure false
  else do
    let i ← decodeAt c s.ip s.mode
    if i.isid ≠ s.blk.isid ∧ s.blk.ninsn ≠ 0 then pure false
    else do
      BM.block fun b => { b with isid := i.isid }
      addInsn i
      pure true

/-- `errcode = pt_insn_next_ip(&decoder->ip, insn, iext)` -/
def nextInsn (i : Insn) : BM Unit := do
  let ip ← BM.lift (nextIp i)
  BM.modify fun s => { s with ip := ip }

/-- Does the user want the block to end at this direct near branch?  For example
libipt/src/pt_block_decoder.c:1013-1016. -/
def BlkCfg.endsBlock (c : BlkCfg) (i : Insn) : Bool :=
  (c.endOnCall && i.ext.cls == .call) || (c.endOnJump && i.ext.cls == .jump)

/-- The number of iterations of the loops over instructions, which is bounded by the number of instructions in a
block. -/
def blkFuel : Nat := 2 ^ 16

/-- The instruction provided by the last function. -/
def BM.insn : BM Insn := do
  let s ← BM.get
  match s.out with
  | some i => pure i
  | none => BM.undef

/-- libipt/src/pt_block_decoder.c:985-1019: the loop of `pt_blk_proceed_to_insn`. -/
def toInsnLoop (c : BlkCfg) (p : Iext → Bool) : Nat → BM Bool
  | 0 => BM.undef
  | n + 1 => do
    if ← oneInsn c then
      let i ← BM.insn
      if p i.ext = true then pure true
      else do
        nextInsn i
        if c.endsBlock i = true then pure false else toInsnLoop c p n
    else pure false

/-- libipt/src/pt_block_decoder.c:972-1020 `pt_blk_proceed_to_insn`: whether a suitable instruction was reached. -/
def toInsn (c : BlkCfg) (p : Iext → Bool) : BM Bool := toInsnLoop c p blkFuel

/-- libipt/src/pt_block_decoder.c:1041-1074: the loop of `pt_blk_proceed_to_ip`. -/
def toIpLoop (c : BlkCfg) (ip : Nat) : Nat → BM Bool
  | 0 => BM.undef
  | n + 1 => do
    let s ← BM.get
    if s.ip = ip then pure true
    else
      if ← oneInsn c then
        let i ← BM.insn
        nextInsn i
        if c.endsBlock i = true then
          let s ← BM.get
          pure (s.ip == ip)
        else toIpLoop c ip n
      else pure false

/-- libipt/src/pt_block_decoder.c:1034-1075 `pt_blk_proceed_to_ip`: whether the IP was reached. -/
def toIp (c : BlkCfg) (ip : Nat) : BM Bool := toIpLoop c ip (blkFuel + 1)

/-- libipt/src/pt_block_decoder.c:1077-1101 `pt_insn_skl014`. -/
def isSkl014 (x : Iext) : Bool :=
  match x.cls with
  | .jump => if x.inst = .jmpabs then false else x.isDirect
  | .call => x.isDirect
  | .other => changesCr3 x
  | _ => false

/-- libipt/src/pt_block_decoder.c:1121-1168: the loop of `pt_blk_proceed_skl014`. -/
def skl014Loop (c : BlkCfg) : Nat → BM Bool
  | 0 => BM.undef
  | n + 1 => do
    if ← toInsn c isSkl014 then
      let i ← BM.insn
      if changesCr3 i.ext = true then pure true
      else do
        let ip ← BM.lift (nextIp i)
        if ← BM.lift (c.filter.check ip) then
          BM.modify fun s => { s with ip := ip }
          if c.endsBlock i = true then pure true else skl014Loop c n
        else pure true
    else pure false

/-- libipt/src/pt_block_decoder.c:1183-1222 `pt_blk_proceed_to_disabled`. -/
def toDisabled (c : BlkCfg) (ev : Event) (ip : Nat) : BM Bool :=
  if ev.ipSuppressed = true then
    if c.filter.cfg ≠ 0 ∧ c.evt.pkt.errata.skl014 = true then skl014Loop c blkFuel else toInsn c changesCr3
  else toIp c ip

/-- libipt/src/pt_block_decoder.c:1234-1254 `pt_blk_set_disable_resume_ip`. -/
def setDisableResumeIp (i : Insn) (s : Bdec) : Bdec :=
  match i.ext.cls with
  | .call | .farCall => { s with ip := (i.ip + i.size) % 2 ^ 64 }
  | _ => { s with ip := 0 }

/-- libipt/src/pt_block_decoder.c:1271-1475 `pt_blk_proceed_to_ptwrite`, `pt_blk_proceed_to_iret`,
`pt_blk_proceed_to_vmentry`, `pt_blk_proceed_to_uiret`. -/
def toKind (c : BlkCfg) (ev : Event) (p : Iext → Bool) (ip : Nat) : BM Bool := do
  if ev.ipSuppressed = true then toInsn c p
  else
    if ← toIp c ip then oneInsn c else pure false

/-- libipt/src/pt_block_decoder.c:1481-1510 `pt_blk_provide_trig_anchor`, for a TRIG event with an IP. -/
def provideTrigAnchor (ev : Event) (trbv n : Nat) (mult : Bool) (ip : Nat) : BM (Nat × Nat) := do
  let s ← BM.get
  if ip ≠ 0 then pure (n, ip)
  else if s.hasIcnt = false then BM.fail .badPacket
  else if n < s.icnt then BM.fail .badPacket
  else do
    BM.modify fun s => { s with event := some { ev with data := .trig trbv (n - s.icnt) mult s.ip } }
    pure (n - s.icnt, s.ip)

/-- libipt/src/pt_block_decoder.c:1569-1582: proceed `n` instructions from the anchor of a TRIG event. -/
def trigLoop (c : BlkCfg) (ev : Event) (trbv : Nat) (mult : Bool) : Nat → BM Bool
  | 0 => pure true
  | n + 1 => do
    if ← oneInsn c then
      let i ← BM.insn
      nextInsn i
      BM.modify fun s => { s with event := some { ev with data := .trig trbv n mult s.ip } }
      trigLoop c ev trbv mult n
    else pure false

/-- libipt/src/pt_block_decoder.c:1521-1585 `pt_blk_proceed_to_trig`. -/
def toTrig (c : BlkCfg) (ev : Event) (trbv n : Nat) (mult : Bool) (ip : Nat) : BM Bool := do
  if ev.ipSuppressed = true then pure true
  else do
    let (n, ip) ← provideTrigAnchor ev trbv n mult ip
    let s ← BM.get
    if s.enabled = false then
      if n = 0 then BM.fail .internal else pure true
    else
      if ← toIp c ip then trigLoop c ev trbv mult n else pure false

/-- libipt/src/pt_block_decoder.c:1596-1634 `pt_blk_handle_erratum_skd022`: does the erratum apply? -/
def blkSkd022 (c : BlkCfg) (at_ : Nat) : BM Bool := do
  let s ← BM.get
  match ← BM.try_ (decodeAt c at_ s.mode) with
  | (some i, _) => pure (i.ext.inst == .vmlaunch || i.ext.inst == .vmresume)
  | (none, _) => pure false

/-- libipt/src/pt_block_decoder.c:1644-1661 `pt_blk_postpone_insn`. -/
def postponeInsn : BM Flags := do
  let i ← BM.insn
  let s ← BM.get
  if s.insn.isSome = true then BM.fail .internal
  else do
    BM.modify fun s => { s with insn := some i }
    blkStatus true

/-- libipt/src/pt_block_decoder.c:1667-1682 `pt_blk_clear_postponed_insn`. -/
def clearPostponedInsn (s : Bdec) : Bdec :=
  { s with
    insn := none, boundPaging := false, boundVmcs := false, boundPtwrite := false, boundIret := false
    boundVmentry := false, boundUiret := false }

/-- libipt/src/pt_block_decoder.c:1690-1717 `pt_blk_proceed_postponed_insn`. -/
def proceedPostponedInsn (c : BlkCfg) : BM Unit := do
  let s ← BM.get
  match s.insn with
  | none => pure ()
  | some i =>
    if s.enabled = false then BM.modify clearPostponedInsn
    else do
      BM.orQuery (nextInsn i) (proceedWithTrace c i)
      BM.modify clearPostponedInsn

/-- Proceed to an IP and indicate the event, for example libipt/src/pt_block_decoder.c:1796-1800. -/
def reachIp (c : BlkCfg) (ip : Nat) : BM Flags := do
  if ← toIp c ip then blkStatus true else pure {}

/-- Proceed to an instruction the event binds to and postpone it, for example
libipt/src/pt_block_decoder.c:1807-1818. -/
def reachInsn (to : BM Bool) (mark : Bdec → Bdec) : BM Flags := do
  if ← to then
    BM.modify mark
    postponeInsn
  else pure {}

/-- libipt/src/pt_block_decoder.c:1752-1773: a disabled event in `pt_blk_proceed_event`. -/
def reachDisabled (c : BlkCfg) (ev : Event) (ip : Nat) : BM Flags := do
  if ev.statusUpdate = true then blkStatus true
  else
    match ← BM.try_ (toDisabled c ev ip) with
    | (some true, _) => blkStatus true
    | (some false, _) => pure {}
    | (none, some .badQuery) => do
      let i ← BM.insn
      BM.modify (setDisableResumeIp i)
      blkStatus true
    | (none, some e) => BM.fail e
    | (none, none) => BM.undef

/-- libipt/src/pt_block_decoder.c:1736-2101 `pt_blk_proceed_event`.  Its local variables `insn`, `iext` are not
initialized. -/
def proceedEvent (c : BlkCfg) : BM Flags := do
  BM.modify fun s => { s with out := none }
  let s ← BM.get
  match s.event with
  | none => blkStatus true
  | some ev =>
    match ev.data with
    | .enabled .. | .overflow .. | .stop | .pwre .. | .pwrx .. | .tick .. | .cbr .. | .mnt .. | .rsm | .sipi .. =>
      blkStatus true
    | .disabled ip => reachDisabled c ev ip
    | .asyncDisabled at_ ip => do
      if ← toIp c at_ then
        if c.evt.pkt.errata.skd022 = true then
          if ← blkSkd022 c at_ then
            BM.modify fun s => { s with out := none, event := some { ev with data := .disabled ip } }
            reachDisabled c { ev with data := .disabled ip } ip
          else blkStatus true
        else blkStatus true
      else pure {}
    | .asyncBranch from_ _ => reachIp c from_
    | .paging .. =>
      if s.enabled = false then blkStatus true
      else reachInsn (toInsn c bindsToPip) fun s => { s with boundPaging := true }
    | .vmcs .. =>
      if s.enabled = false then blkStatus true
      else reachInsn (toInsn c bindsToVmcs) fun s => { s with boundVmcs := true }
    | .asyncPaging _ _ ip | .asyncVmcs _ ip | .execMode _ ip | .tsx _ _ ip | .iflags _ ip | .interrupt _ _ ip
    | .smi ip | .init ip | .vmexit _ _ _ ip | .shutdown ip | .uintr _ ip =>
      if ev.ipSuppressed = true then blkStatus true else reachIp c ip
    | .exstop ip | .mwait _ _ ip =>
      if s.enabled = false ∨ ev.ipSuppressed = true then blkStatus true else reachIp c ip
    | .ptwrite _ _ ip =>
      if s.enabled = false then blkStatus true
      else reachInsn (toKind c ev isPtwrite ip) fun s => { s with boundPtwrite := true }
    | .iret ip =>
      if s.enabled = false then blkStatus true
      else reachInsn (toKind c ev isIret ip) fun s => { s with boundIret := true }
    | .vmentry ip =>
      if s.enabled = false then blkStatus true
      else reachInsn (toKind c ev isVmentry ip) fun s => { s with boundVmentry := true }
    | .uiret ip =>
      if s.enabled = false then blkStatus true
      else reachInsn (toKind c ev isUiret ip) fun s => { s with boundUiret := true }
    | .tip .. | .tnt .. => BM.fail .internal
    | .trig trbv n mult ip => do
      if ← toTrig c ev trbv n mult ip then blkStatus true else pure {}

/-- libipt/src/pt_block_decoder.c:2117-2143 `pt_blk_proceed_no_event_uncached`. -/
def noEventUncached (c : BlkCfg) : BM Unit := do
  BM.modify fun s => { s with out := some { ip := 0, mode := .unknown, ext := { cls := .unknown } } }
  BM.orQuery (do let _ ← toInsn c fun _ => false) (proceedOut c)

/-- libipt/src/pt_block_decoder.c:2150-2159 `pt_blk_is_in_section`. -/
def Msec.isIn (m : Msec) (ip : Nat) : Bool := decide (m.vaddr ≤ ip ∧ ip < m.end_)

/-- Storing a block cache entry. -/
def bcAdd (c : BlkCfg) (m : Msec) (index : Nat) (e : Bce) : BM Unit := fun s =>
  ({ s with bc := (s.bc.add c.env m.sec index e).1 }, (s.bc.add c.env m.sec index e).2)

/-- Reading a block cache entry, after other decoders wrote some. -/
def bcLookup (c : BlkCfg) (m : Msec) (index : Nat) : BM Bce := fun s =>
  let b := s.bc.writes (s.others.headD [])
  ({ s with bc := b, others := s.others.tail }, b.lookup c.env m.sec index)

/-- The entry libipt/src/pt_block_decoder.c:2206-2218 `pt_blk_add_decode` adds. -/
def decodeBce (mode : Mode) : Bce := { ninsn := 1, mode := mode, qualifier := .decode }

/-- libipt/src/pt_block_decoder.c:2170-2198 `pt_blk_add_trampoline`: the entry it adds. -/
def trampolineBce (ip nip : Nat) (mode : Mode) : Bce :=
  if toDisp (sdiff nip ip) ≠ sdiff nip ip then decodeBce mode
  else { displacement := toDisp (sdiff nip ip), ninsn := 1, mode := mode, qualifier := .again }

/-- libipt/src/pt_block_decoder.c:2277-2341: the entry for an instruction that needs trace. -/
def traceBce (b : Block) (i : Insn) : Res Bce :=
  let e : Bce := { ninsn := 1, mode := i.mode, isize := if toIsize i.size ≠ i.size then 0 else toIsize i.size }
  let q : Res Qual :=
    match i.ext.cls with
    | .ptwrite | .unknown | .other => .err .internal
    | .jump => if i.ext.isDirect = true ∧ i.ext.inst ≠ .jmpabs then .err .internal else .ok .indirect
    | .call => if i.ext.isDirect = true then .err .internal else .ok .indCall
    | .return => .ok .return
    | .condJump => .ok .cond
    | .farCall | .farReturn | .farJump | .indirect => .ok .indirect
  match q with
  | .ok q => .ok { e with qualifier := if b.truncated = true then .decode else q }
  | .err e => .err e
  | .ub => .ub

/-- libipt/src/pt_block_decoder.c:2398-2421: do we have to stop at an instruction although we can proceed without
trace? -/
def stopsAt (c : BlkCfg) (m : Msec) (b : Block) (i : Insn) (nip : Nat) : Res Bool :=
  match i.ext.cls with
  | .call => .ok true
  | .jump =>
    if i.ext.isDirect = false ∨ i.ext.inst = .jmpabs then .err .internal
    else if i.ext.displacement < 0 ∨ c.endOnJump = true then .ok true
    else .ok (!m.isIn nip || b.truncated)
  | _ => .ok (!m.isIn nip || b.truncated)

/-- libipt/src/pt_block_decoder.c:2463-2514: the end of `pt_blk_proceed_no_event_fill_cache`, add an entry for the
instruction `i` based on the entry `e` for the next instruction. -/
def extendEntry (c : BlkCfg) (m : Msec) (i : Insn) (nip : Nat) (e : Bce) : BM Unit :=
  if e.mode ≠ i.mode then BM.fail .internal
  else
    let dip := addDisp nip e.displacement
    let disp := sdiff dip i.ip
    if m.isIn dip = false then pure ()
    else if toNinsn (e.ninsn + 1) = 0 ∨ toDisp disp ≠ disp then
      bcAdd c m (m.unmap i.ip) (trampolineBce (m.unmap i.ip) (m.unmap nip) i.mode)
    else bcAdd c m (m.unmap i.ip) { e with ninsn := toNinsn (e.ninsn + 1), displacement := toDisp disp }

/-- libipt/src/pt_block_decoder.c:2240-2515 `pt_blk_proceed_no_event_fill_cache`. -/
def fillCache (c : BlkCfg) (m : Msec) : Nat → BM Unit
  | 0 => BM.fail .internal
  | steps + 1 => do
    if ← oneInsn c then
      let i ← BM.insn
      match ← BM.try_ (nextInsn i) with
      | (none, some .badQuery) => do
        let s ← BM.get
        let e ← BM.lift (traceBce s.blk i)
        bcAdd c m (m.unmap i.ip) e
        proceedWithTrace c i
      | (none, some e) => BM.fail e
      | (none, none) => BM.undef
      | (some (), _) => do
        let s ← BM.get
        if ← BM.lift (stopsAt c m s.blk i s.ip) then bcAdd c m (m.unmap i.ip) (decodeBce i.mode)
        else do
          let e ← bcLookup c m (m.unmap s.ip)
          if e.isValid = true then extendEntry c m i s.ip e
          else if steps = 0 then
            bcAdd c m (m.unmap i.ip) (trampolineBce (m.unmap i.ip) (m.unmap s.ip) i.mode)
          else do
            fillCache c m steps
            let e ← bcLookup c m (m.unmap s.ip)
            if e.isValid = true then extendEntry c m i s.ip e else pure ()
    else pure ()

/-- libipt/src/pt_block_decoder.c:2532-2578 `pt_blk_proceed_truncated`. -/
def proceedTruncated (c : BlkCfg) : BM Unit := do
  let s ← BM.get
  let i ← decodeAt c s.ip s.mode
  if i.truncated = false then BM.fail .internal
  else do
    BM.block fun b =>
      { b with raw := i.raw.take i.size ++ b.raw.drop i.size, iclass := i.ext.cls, size := i.size, truncated := true }
    logCall i
    BM.orQuery (nextInsn i) (proceedWithTrace c i)

/-- libipt/src/pt_block_decoder.c:2725-2768: a conditional branch of a known size. -/
def condCached (c : BlkCfg) (m : Msec) (e : Bce) : BM Unit := do
  let s ← BM.get
  if ← blkCond then
    let i ← BM.lift (decodeInSection c.env m s.ip e.mode)
    BM.modify fun t => { t with ip := addDisp s.ip (i.ext.displacement + e.isize) }
  else BM.modify fun t => { t with ip := (s.ip + e.isize) % 2 ^ 64 }

/-- libipt/src/pt_block_decoder.c:2814-2855: a near indirect call. -/
def indCallCached (c : BlkCfg) (m : Msec) (e : Bce) : BM Unit := do
  let s ← BM.get
  if e.isize ≠ 0 then do
    blkPush ((s.ip + e.isize) % 2 ^ 64)
    proceedIndirect c
  else do
    let i ← BM.lift (decodeInSection c.env m s.ip e.mode)
    blkPush ((s.ip + i.size) % 2 ^ 64)
    proceedIndirect c

/-- libipt/src/pt_block_decoder.c:2773-2831: decode the instruction and decide what to do based on that.  `again` is the
recursive call. -/
def decodeCached (c : BlkCfg) (m : Msec) (mode : Mode) (again : BM Unit) : BM Unit := do
  let s ← BM.get
  match decodeInSection c.env m s.ip mode with
  | .err .badInsn => proceedTruncated c
  | .err e => BM.fail e
  | .ub => BM.undef
  | .ok i => do
    BM.block fun b => { b with iclass := i.ext.cls }
    logCall i
    match ← BM.try_ (nextInsn i) with
    | (none, some .badQuery) => proceedWithTrace c i
    | (none, some e) => BM.fail e
    | (none, none) => BM.undef
    | (some (), _) => do
      let s ← BM.get
      if c.endsBlock i = true then pure ()
      else if m.isIn s.ip = false then pure ()
      else again

/-- libipt/src/pt_block_decoder.c:2597-2917 `pt_blk_proceed_no_event_cached`. -/
def noEventCached (c : BlkCfg) (m : Msec) : Nat → BM Unit
  | 0 => BM.undef
  | n + 1 => do
    let s ← BM.get
    let e ← bcLookup c m (m.unmap s.ip)
    if e.isValid = false then fillCache c m 0x400
    else
      let nip := addDisp s.ip e.displacement
      if m.isIn nip = false then noEventUncached c
      else if (s.blk.ninsn + e.ninsn) % 2 ^ 16 < s.blk.ninsn then pure ()
      else do
        countInsn e.ninsn
        BM.modify fun s => { s with ip := nip }
        BM.block fun b => { b with endIp := nip, ninsn := (b.ninsn + e.ninsn) % 2 ^ 16, mode := e.mode }
        match e.qualifier with
        | .again => do
          BM.block fun b => { b with iclass := .unknown }
          noEventCached c m n
        | .cond => do
          BM.block fun b => { b with iclass := .condJump }
          if e.isize ≠ 0 then condCached c m e else decodeCached c m e.mode (noEventCached c m n)
        | .decode => decodeCached c m e.mode (noEventCached c m n)
        | .indCall => do
          BM.block fun b => { b with iclass := .call }
          indCallCached c m e
        | .return => do
          BM.block fun b => { b with iclass := .return }
          compressedReturn (proceedIndirect c)
        | .indirect => do
          BM.block fun b => { b with iclass := .indirect }
          proceedIndirect c

/-- libipt/src/pt_block_decoder.c:2919-2966 `pt_blk_msec_fill`, `pt_blk_msec_lookup`. -/
def blkLookup : BM Msec := do
  let u ← BM.mapped
  let m ← BM.mapped
  let s ← BM.get
  let msec ← BM.cache fun sc => msecLookup sc u m s.ip
  BM.when (!imageValidate s.sc.img s.sc.cache s.ip) BM.request
  pure msec

/-- libipt/src/pt_block_decoder.c:2980-3019 `pt_blk_proceed_no_event`. -/
def noEvent (c : BlkCfg) : BM Unit := do
  match ← BM.try_ blkLookup with
  | (none, some .nomap) => noEventUncached c
  | (none, some e) => BM.fail e
  | (none, none) => BM.undef
  | (some m, _) => do
    let s ← BM.get
    if m.isid ≠ s.blk.isid ∧ s.blk.ninsn ≠ 0 then pure ()
    else do
      BM.block fun b => { b with isid := m.isid }
      if ← BM.available then noEventCached c m blkFuel else noEventUncached c

/-- libipt/src/pt_block_decoder.c:3098-3149 `pt_blk_handle_erratum_bdm64`, with `bdm64_max_steps` from 3082-3087. -/
def blkBdm64 (c : BlkCfg) (aborted : Bool) (evip : Nat) : BM Unit := do
  let s ← BM.get
  if aborted = false then pure ()
  else if s.blk.ninsn = 0 then pure ()
  else
    match ← BM.try_ (decodeAt c s.blk.endIp s.blk.mode) with
    | (none, _) => pure ()
    | (some i, _) =>
      if isBranch i.ext = false then pure ()
      else do
        let s ← BM.get
        match ← BM.try_ (BM.image fun m => rangeContiguous (c.reader s) evip 0x100 m { ip := s.ip, mode := s.mode }) with
        | (some true, _) => pure ()
        | _ => BM.modify fun s => { s with ip := evip }

/-- libipt/src/pt_block_decoder.c:3159-3193 `pt_blk_postpone_trailing_tsx`; `blk` says whether there is a block. -/
def postponeTrailingTsx (c : BlkCfg) (blk : Bool) (ev : Event) (aborted : Bool) (evip : Nat) : BM Bool := do
  if ev.ipSuppressed = true then pure false
  else do
    BM.when (blk && c.evt.pkt.errata.bdm64) (blkBdm64 c aborted evip)
    let s ← BM.get
    pure (s.ip != evip)

/-- libipt/src/pt_block_decoder.c:3824-3830: no further events. -/
def noTrailing (c : BlkCfg) : BM Flags := do
  proceedPostponedInsn c
  blkStatus false

/-- An event that does not bind to an instruction, for example libipt/src/pt_block_decoder.c:3354-3363. -/
def trailingAt (c : BlkCfg) (p : Bdec → Bool) : BM Flags := do
  proceedPostponedInsn c
  let s ← BM.get
  if p s = true then blkStatus true else noTrailing c

/-- An event that may bind to the postponed instruction, for example libipt/src/pt_block_decoder.c:3365-3394. -/
def trailingBind (c : BlkCfg) (bound : Bdec → Bool) (p : Iext → Bool) (mark : Bdec → Bdec) : BM Flags := do
  let s ← BM.get
  if s.enabled = false then blkStatus true
  else
    match s.insn with
    | none => noTrailing c
    | some i =>
      if bound s = true then noTrailing c
      else if p i.ext = false then noTrailing c
      else do
        BM.modify mark
        blkStatus true

/-- libipt/src/pt_block_decoder.c:3285-3328: a disabled event in `pt_blk_proceed_trailing_event`. -/
def trailingDisabled (c : BlkCfg) (ev : Event) (ip : Nat) : BM Flags := do
  let s ← BM.get
  match s.insn with
  | none => noTrailing c
  | some i =>
    if ev.ipSuppressed = true ∧ changesCr3 i.ext = true then blkStatus true
    else
      match ← BM.try_ (nextInsn i) with
      | (none, some .badQuery) => do
        BM.modify (setDisableResumeIp i)
        blkStatus true
      | (none, some e) => BM.fail e
      | (none, none) => BM.undef
      | (some (), _) => do
        BM.modify clearPostponedInsn
        let s ← BM.get
        if ev.ipSuppressed = false ∧ s.ip = ip then blkStatus true else noTrailing c

/-- libipt/src/pt_block_decoder.c:3338-3371: an asynchronous disabled event in `pt_blk_proceed_trailing_event`. -/
def trailingAsyncDisabled (c : BlkCfg) (ev : Event) (at_ ip : Nat) : BM Flags := do
  proceedPostponedInsn c
  let s ← BM.get
  if s.ip ≠ at_ then noTrailing c
  else if c.evt.pkt.errata.skd022 = true then
    if ← blkSkd022 c at_ then
      BM.modify fun s => { s with event := some { ev with data := .disabled ip } }
      noTrailing c
    else blkStatus true
  else blkStatus true

/-- libipt/src/pt_block_decoder.c:3790-3820: a TRIG event in `pt_blk_proceed_trailing_event`. -/
def trailingTrig (c : BlkCfg) (ev : Event) (trbv n : Nat) (mult : Bool) (ip : Nat) : BM Flags := do
  proceedPostponedInsn c
  let s ← BM.get
  if s.enabled = false ∨ ev.ipSuppressed = true then blkStatus true
  else do
    let (n, ip) ← provideTrigAnchor ev trbv n mult ip
    if n ≠ 0 then noTrailing c
    else if ip ≠ s.ip then BM.fail .badPacket
    else blkStatus true

/-- libipt/src/pt_block_decoder.c:3246-3271: may we generate a tick event for a TNT event? -/
def tickTnt (c : BlkCfg) (blk : Bool) (s : Bdec) (ev : Event) : Bool :=
  c.tick && blk && ev.hasTsc && ev.tsc != s.tsc

/-- libipt/src/pt_block_decoder.c:3210-3830 `pt_blk_proceed_trailing_event`; `blk` says whether there is a block.  The
recursion goes past used-up TNT events. -/
def trailingEvent (c : BlkCfg) (blk : Bool) : Nat → BM Flags
  | 0 => BM.undef
  | fuel + 1 => do
    let s ← BM.get
    match s.status with
    | some e => do
      proceedPostponedInsn c
      blkStatus (e != .eos)
    | none =>
      match s.event with
      | none => noTrailing c
      | some ev =>
        match ev.data with
        | .tnt _ size =>
          if tickTnt c blk s ev = false then
            if size ≠ 0 then noTrailing c
            else do
              fetchEvent c
              trailingEvent c blk fuel
          else if s.blk.iclass ≠ .condJump ∧ s.blk.iclass ≠ .return then noTrailing c
          else blkStatus true
        | .tip .. => noTrailing c
        | .tick .. | .enabled .. | .overflow .. | .stop | .pwre .. | .pwrx .. | .cbr .. | .mnt .. =>
          trailingAt c fun _ => true
        | .disabled ip => trailingDisabled c ev ip
        | .asyncDisabled at_ ip => trailingAsyncDisabled c ev at_ ip
        | .asyncBranch from_ _ => trailingAt c fun s => s.ip == from_
        | .paging .. => trailingBind c (·.boundPaging) bindsToPip fun s => { s with boundPaging := true }
        | .vmcs .. => trailingBind c (·.boundVmcs) bindsToVmcs fun s => { s with boundVmcs := true }
        | .ptwrite .. =>
          trailingBind c (·.boundPtwrite) (fun x => ev.ipSuppressed && isPtwrite x) fun s => { s with boundPtwrite := true }
        | .iret .. =>
          trailingBind c (·.boundIret) (fun x => ev.ipSuppressed && isIret x) fun s => { s with boundIret := true }
        | .vmentry .. =>
          trailingBind c (·.boundVmentry) (fun x => ev.ipSuppressed && isVmentry x) fun s => { s with boundVmentry := true }
        | .uiret .. =>
          trailingBind c (·.boundUiret) (fun x => ev.ipSuppressed && isUiret x) fun s => { s with boundUiret := true }
        | .asyncPaging _ _ ip | .asyncVmcs _ ip => trailingAt c fun s => ev.ipSuppressed || s.ip == ip
        | .execMode _ ip | .exstop ip | .mwait _ _ ip | .iflags _ ip | .interrupt _ _ ip | .smi ip | .init ip
        | .vmexit _ _ _ ip | .shutdown ip | .uintr _ ip =>
          trailingAt c fun s => !s.enabled || ev.ipSuppressed || s.ip == ip
        | .tsx _ aborted ip => do
          proceedPostponedInsn c
          if ← postponeTrailingTsx c blk ev aborted ip then noTrailing c else blkStatus true
        | .rsm | .sipi .. => do
          proceedPostponedInsn c
          if ev.ipSuppressed = false then BM.fail .internal else blkStatus true
        | .trig trbv n mult ip => trailingTrig c ev trbv n mult ip

/-- libipt/src/pt_block_decoder.c:3026-3079 `pt_blk_proceed`. -/
def blkProceed (c : BlkCfg) : BM Flags := do
  let s ← BM.get
  match s.status with
  | some e =>
    if e ≠ .eos then BM.fail e
    else if s.enabled = false then BM.fail .eos
    else do
      noEvent c
      pure { eos := true }
  | none =>
    match s.event with
    | some { data := .tnt .., .. } | some { data := .tip .., .. } =>
      if s.enabled = false then BM.fail .noEnable
      else do
        noEvent c
        trailingEvent c true c.evt.fuel
    | _ => proceedEvent c

/-- libipt/src/pt_block_decoder.c:3850-3859: what `pt_blk_next` fills in from the current state. -/
def newBlock (s : Bdec) : Bdec := { s with blk := { ip := s.ip, mode := s.mode, speculative := s.speculative } }

/-- libipt/src/pt_block_decoder.c:3832-3866 `pt_blk_next`.  The block is provided also if there is an error. -/
def blkNext (c : BlkCfg) : BM Flags := do
  BM.modify newBlock
  blkProceed c

/-- libipt/src/pt_block_decoder.c:425-485 `pt_blk_start`. -/
def blkStart (c : BlkCfg) : BM Flags := do
  let s ← BM.get
  let ip ← BM.lift (startLoop c.evt s.ev.pd.pos evqFuel s.ev)
  BM.modify fun s => match ip with
    | some ip => { s with enabled := true, ip := ip }
    | none => s
  match ← BM.try_ (BM.evt (evtNext c.evt)) with
  | (some e, _) => BM.modify fun s => { s with status := none, event := some e }
  | (none, e) => BM.modify fun s => { s with status := e }
  trailingEvent c false c.evt.fuel

/-- libipt/src/pt_block_decoder.c:487-502 `pt_blk_sync_forward`. -/
def blkSyncForward (c : BlkCfg) : BM Flags := do
  BM.modify blkReset
  BM.evt (evtSyncForward c.evt)
  blkStart c

/-- libipt/src/pt_block_decoder.c:530-536: the inner loop of `pt_blk_sync_backward`. -/
def blkSyncBackInner (c : BlkCfg) (sync : Nat) : Nat → BM Nat
  | 0 => BM.undef
  | n + 1 => do
    BM.evt (evtSyncBackward c.evt)
    let s ← BM.get
    if sync ≤ s.ev.pd.pos.getD 0 then blkSyncBackInner c sync n else pure (s.ev.pd.pos.getD 0)

/-- libipt/src/pt_block_decoder.c:525-557: the outer loop of `pt_blk_sync_backward`.  It returns zero, not the status
flags. -/
def blkSyncBackLoop (c : BlkCfg) (start : Nat) : Nat → Nat → BM Flags
  | 0, _ => BM.undef
  | n + 1, sync => do
    BM.modify blkReset
    let sync ← blkSyncBackInner c sync c.evt.fuel
    match ← BM.try_ (blkStart c) with
    | (none, some .eos) => blkSyncBackLoop c start n sync
    | (none, some e) => BM.fail e
    | (none, none) => BM.undef
    | (some _, _) => do
      let s ← BM.get
      if s.ev.pd.pos.getD 0 < start then pure {} else blkSyncBackLoop c start n sync

/-- libipt/src/pt_block_decoder.c:504-560 `pt_blk_sync_backward`. -/
def blkSyncBackward (c : BlkCfg) : BM Flags := do
  let s ← BM.get
  let start := s.ev.pd.pos.getD c.evt.pkt.mem.length
  blkSyncBackLoop c start c.evt.fuel start

/-- libipt/src/pt_block_decoder.c:562-577 `pt_blk_sync_set`. -/
def blkSyncSet (c : BlkCfg) (offset : Nat) : BM Flags := do
  BM.modify blkReset
  BM.evt (evtSyncSet c.evt offset)
  blkStart c

/-- libipt/src/pt_block_decoder.c:626-638 `pt_blk_time`: the time and the number of lost MTC and CYC packets. -/
def blkTime (s : Bdec) : Res (Nat × Nat × Nat) := .ok (s.tsc, s.lostMtc, s.lostCyc)

/-- libipt/src/pt_block_decoder.c:640-649 `pt_blk_core_bus_ratio`. -/
def blkCbr (s : Bdec) : Res Nat := .ok s.cbr

/-- libipt/src/pt_block_decoder.c:3872-3897 `pt_blk_process_enabled`. -/
def blkProcessEnabled (ev : Event) (ip : Nat) : BM Unit := do
  let s ← BM.get
  if ev.statusUpdate = true then
    if s.enabled = false then BM.fail .badStatusUpdate else pure ()
  else if ev.ipSuppressed = true then BM.fail .noip
  else if s.enabled = true then BM.fail .badContext
  else BM.modify fun s => { s with ip := ip, enabled := true }

/-- libipt/src/pt_block_decoder.c:3903-3939 `pt_blk_process_disabled`. -/
def blkProcessDisabled (ev : Event) : BM Unit := do
  let s ← BM.get
  if ev.statusUpdate = true then
    if s.enabled = true then BM.fail .badStatusUpdate else pure ()
  else if s.enabled = false then BM.fail .badContext
  else BM.modify fun s => { s with enabled := false, icnt := 0 }

/-- libipt/src/pt_block_decoder.c:3945-3965 `pt_blk_process_async_branch`. -/
def blkProcessAsyncBranch (ev : Event) (to : Nat) : BM Unit := do
  let s ← BM.get
  if ev.statusUpdate = true then BM.fail .badContext
  else if s.enabled = false then BM.fail .badContext
  else BM.modify fun s => { s with ip := to }

/-- libipt/src/pt_block_decoder.c:3971-3990 `pt_blk_process_paging`. -/
def blkProcessPaging (cr3 : Nat) : BM Unit := do
  let u ← BM.mapped
  BM.cache fun sc => setCr3 sc u cr3

/-- libipt/src/pt_block_decoder.c:3996-4015 `pt_blk_process_vmcs`. -/
def blkProcessVmcs (base : Nat) : BM Unit := do
  let u ← BM.mapped
  BM.cache fun sc => setVmcs sc u base

/-- libipt/src/pt_block_decoder.c:4021-4059 `pt_blk_process_overflow`. -/
def blkProcessOverflow (ev : Event) (ip : Nat) : BM Unit :=
  if ev.statusUpdate = true then BM.fail .badContext
  else BM.modify fun s =>
    if ev.ipSuppressed = true then { s with enabled := false, ip := 0, speculative := false }
    else { s with enabled := true, ip := ip, speculative := false }

/-- libipt/src/pt_block_decoder.c:4065-4082 `pt_blk_process_exec_mode`. -/
def blkProcessExecMode (ev : Event) (mode : Mode) : BM Unit := do
  let s ← BM.get
  if ev.statusUpdate = true ∧ s.enabled = true ∧ s.mode ≠ .unknown ∧ s.mode ≠ mode then BM.fail .badStatusUpdate
  else BM.modify fun s => { s with mode := mode }

/-- libipt/src/pt_block_decoder.c:4104-4119 `pt_blk_process_stop`. -/
def blkProcessStop (ev : Event) : BM Unit := do
  let s ← BM.get
  if ev.statusUpdate = true then BM.fail .badContext
  else if s.enabled = true then BM.fail .badContext
  else pure ()

/-- `if (!ev->ip_suppressed && ...) return -pte_bad_query;` in `pt_blk_event`, for example
libipt/src/pt_block_decoder.c:4236-4239. -/
def unlessAt (bad : Bool) (m : BM Unit) : BM Unit := if bad = true then BM.fail .badQuery else m

/-- libipt/src/pt_block_decoder.c:4178-4393: processing the event in `pt_blk_event`, by its type, other than TNT. -/
def blkProcessEvent (ev : Event) : BM Unit := do
  let s ← BM.get
  match ev.data with
  | .tnt .. | .tip .. => BM.fail .badQuery
  | .enabled ip => blkProcessEnabled ev ip
  | .asyncDisabled at_ _ => unlessAt (s.ip != at_) (blkProcessDisabled ev)
  | .disabled _ => blkProcessDisabled ev
  | .asyncBranch from_ to => unlessAt (s.ip != from_) (blkProcessAsyncBranch ev to)
  | .asyncPaging cr3 _ ip => unlessAt (!ev.ipSuppressed && s.ip != ip) (blkProcessPaging cr3)
  | .paging cr3 _ => blkProcessPaging cr3
  | .asyncVmcs base ip => unlessAt (!ev.ipSuppressed && s.ip != ip) (blkProcessVmcs base)
  | .vmcs base => blkProcessVmcs base
  | .overflow ip => blkProcessOverflow ev ip
  | .execMode mode ip =>
    unlessAt (s.enabled && !ev.ipSuppressed && s.ip != ip) (blkProcessExecMode ev (modeOf mode))
  | .tsx spec _ ip =>
    unlessAt (!ev.ipSuppressed && s.ip != ip) (BM.modify fun s => { s with speculative := spec })
  | .stop => blkProcessStop ev
  | .exstop ip | .mwait _ _ ip | .iflags _ ip | .interrupt _ _ ip | .smi ip | .init ip | .vmexit _ _ _ ip
  | .shutdown ip | .uintr _ ip | .trig _ _ _ ip =>
    unlessAt (s.enabled && !ev.ipSuppressed && s.ip != ip) (pure ())
  | .pwre .. | .pwrx .. | .ptwrite .. | .tick .. | .mnt .. | .iret .. | .vmentry .. | .uiret .. => pure ()
  | .cbr ratio => BM.modify fun s => { s with cbr := ratio }
  | .rsm | .sipi _ => if ev.ipSuppressed = false then BM.fail .internal else pure ()

/-- libipt/src/pt_block_decoder.c:4183-4188: the flag `enabled.resumed`. -/
def blkResumed (s : Bdec) (ev : Event) : Bool :=
  match ev.data with
  | .enabled ip => ip == s.ip
  | _ => false

/-- libipt/src/pt_block_decoder.c:4135-4176: a TNT event in `pt_blk_event`. -/
def blkTickEvent (c : BlkCfg) (ev : Event) (size : Nat) : BM EventOut := do
  let s ← BM.get
  if c.tick = false then BM.fail .badQuery
  else if ev.hasTsc = false ∨ ev.tsc = s.tsc then BM.fail .badQuery
  else do
    BM.modify fun s => { s with hasTsc := true, tsc := ev.tsc, lostMtc := ev.lostMtc, lostCyc := ev.lostCyc }
    BM.when (size == 0) (fetchEvent c)
    let f ← trailingEvent c false c.evt.fuel
    pure ⟨{ data := .tick s.ip, hasTsc := true, tsc := ev.tsc, lostMtc := ev.lostMtc, lostCyc := ev.lostCyc }, false, f⟩

/-- libipt/src/pt_block_decoder.c:4112-4412 `pt_blk_event`. -/
def blkEvent (c : BlkCfg) : BM EventOut := do
  let s ← BM.get
  match s.status with
  | some e => BM.fail e
  | none =>
    match s.event with
    | none => BM.fail .internal
    | some ev =>
      match ev.data with
      | .tnt _ size => blkTickEvent c ev size
      | _ => do
        blkProcessEvent ev
        fetchEvent c
        let f ← trailingEvent c false c.evt.fuel
        pure ⟨ev, blkResumed s ev, f⟩

end Ipt
