import Verif.BlockDecoder

/-!
# Structures of the user

Packets, events, instructions and blocks are provided in memory of the user, who says how much there is.  The user may
have been compiled for another version of the library, in which the structures are shorter or longer.
-/

namespace Ipt

/-- Memory the user provides: a pointer and the `size` argument of the functions below. -/
abbrev Buf := List UInt8

/-- Write bytes at an offset. -/
def Buf.store (b : Buf) (off : Nat) (data : List UInt8) : Res Buf :=
  if off + data.length ≤ b.length then .ok (b.take off ++ data ++ b.drop (off + data.length)) else .ub

/-- `memcpy(user, &st, size)` -/
def copyStruct (b : Buf) (st : List UInt8) (size : Nat) : Res Buf :=
  if size ≤ st.length then b.store 0 (st.take size) else .ub

/-- The representation of a structure as bytes, which is the compiler's business.  `put a old` are the bytes after
writing the fields for `a` to a structure that contains `old`. -/
structure Layout (α : Type) where
  size : Nat
  put : α → List UInt8 → List UInt8
  len : ∀ a old, old.length = size → (put a old).length = size

/-- A structure that was set to zero before. -/
def Layout.fresh {α : Type} (l : Layout α) (a : α) : List UInt8 := l.put a (List.replicate l.size 0)

/-- libipt/src/pt_packet_decoder.c:215-235 `pkt_to_user`, libipt/src/pt_insn_decoder.c:1543-1563 `insn_to_user`,
libipt/src/pt_block_decoder.c:671-691 `block_to_user`, and libipt/src/pt_event_decoder.c:3923-3939 `pt_evt_to_user`, if
the structure is not in the user's memory, already. -/
def toUser (b : Buf) (size : Nat) (st : List UInt8) : Res Buf :=
  if st.length < size then do
    let b ← b.store st.length (List.replicate (size - st.length) 0)
    copyStruct b st st.length
  else copyStruct b st size

/-- Copying events in libipt/src/pt_query_decoder.c:560-569, libipt/src/pt_insn_decoder.c:2270-2279, and
libipt/src/pt_block_decoder.c:4145-4152 with 4188 and 4403. -/
def cutToUser (b : Buf) (size : Nat) (st : List UInt8) : Res Buf :=
  copyStruct b st (if st.length < size then st.length else size)

/-- Computations on the state of a decoder and the memory of the user. -/
def UM (σ α : Type) := σ × Buf → (σ × Buf) × Res α

namespace UM

variable {σ α β : Type}

/-- Sequencing. -/
def bind (m : UM σ α) (f : α → UM σ β) : UM σ β := fun s =>
  match m s with
  | (s', .ok a) => f a s'
  | (s', .err e) => (s', .err e)
  | (s', .ub) => (s', .ub)

instance : Monad (UM σ) where
  pure a := fun s => (s, .ok a)
  bind := UM.bind

/-- `return -pte_...;` -/
def fail (e : Err) : UM σ α := fun s => (s, .err e)

/-- The decoder state. -/
def get : UM σ σ := fun s => (s, .ok s.1)

/-- A function of the decoder. -/
def call (m : σ → σ × Res α) : UM σ α := fun s => (((m s.1).1, s.2), (m s.1).2)

@[inherit_doc call] def evt (m : EM α) : UM Evd α := call m
@[inherit_doc call] def qry (m : QM α) : UM Qdec α := call m
@[inherit_doc call] def insn (m : IM α) : UM Idec α := call m
@[inherit_doc call] def blk (m : BM α) : UM Bdec α := call m

/-- Write to the memory of the user. -/
def write (f : Buf → Res Buf) : UM σ Unit := fun s =>
  match f s.2 with
  | .ok b => ((s.1, b), .ok ())
  | .err e => (s, .err e)
  | .ub => (s, .ub)

/-- Provide a structure: the user's memory is used for it right away if it has the size `n` of the structure. -/
def put (n size : Nat) (st : List UInt8) : UM σ Unit :=
  if size = n then write fun b => b.store 0 st else write fun b => toUser b size st

end UM

/-- libipt/src/pt_packet_decoder.c:963-986 `pt_pkt_next`.  The decoder's state is its position.  `junk` is what the local
structure contains, and `scrap` is what a failing decode function leaves in the structure. -/
def pktNextUser (l : Layout Packet) (c : PktCfg) (junk scrap : List UInt8) (size : Nat) : UM (Option Nat) Nat := do
  let pos ← UM.get
  match pktNext c pos with
  | .ub => UM.call fun s => (s, .ub)
  | .err e => do
    if size = l.size then UM.write fun b => b.store 0 scrap else pure ()
    UM.fail e
  | .ok (p, n, pos') => do
    if size = l.size then UM.write fun b => b.store 0 (l.put p (b.take l.size))
    else UM.write fun b => toUser b size (l.put p junk)
    UM.call fun _ => (some pos', .ok n)

/-- libipt/src/pt_event_decoder.c:3941-3958 `pt_evt_next`. -/
def evtNextUser (l : Layout Event) (c : EvtCfg) (size : Nat) : UM Evd Unit := do
  let e ← UM.evt (evtNext c)
  UM.write fun b => toUser b size (l.fresh e)

/-- libipt/src/pt_query_decoder.c:527-579 `pt_qry_event`.  `var` is `offsetof(struct pt_event, variant)`. -/
def qryEventUser (l : Layout Event) (var : Nat) (c : EvtCfg) (size : Nat) : UM Qdec Flags := do
  if size < var then UM.fail .invalid
  else do
    let s ← UM.get
    if s.tnt.isEmpty = false then UM.fail .badQuery
    else
      match s.status with
      | some e => UM.fail e
      | none =>
        match s.event.pending with
        | .ub => UM.qry fun s => (s, .ub)
        | .err e => UM.fail e
        | .ok false => UM.fail .badQuery
        | .ok true =>
          match s.event with
          | .ok e => do
            UM.write fun b => cutToUser b size (l.fresh e)
            UM.qry fun s => qryFetch c { s with lastTime := s.ev.tm.time }
            UM.qry fun s => (s, s.flags)
          | _ => UM.qry fun s => (s, .ub)

/-- libipt/src/pt_insn_decoder.c:1676-1700: finding the section and decoding the instruction in `pt_insn_next`.  An error
of the first is returned right away, an error of the second after providing the incomplete instruction. -/
def fetchUser (c : InsnCfg) (s : Idec) : UM Idec (Option Insn × Option Err) := do
  let i : Insn := { ip := s.ip, mode := s.mode }
  let u ← UM.insn IM.mapped
  let m ← UM.insn IM.mapped
  match ← UM.insn (IM.try_ (IM.cache fun sc => msecLookup sc u m s.ip)) with
  | (some msec, _) =>
    UM.insn (IM.try_ (IM.image fun im => insnDecodeCached c.env (c.reader s) (some msec) im { i with isid := msec.isid }))
  | (none, some e) =>
    if e ≠ .nomap then UM.fail e
    else UM.insn (IM.try_ (IM.image fun im => insnDecodeCached c.env (c.reader s) none im i))
  | (none, none) => UM.insn IM.undef

/-- libipt/src/pt_insn_decoder.c:1639-1730 `pt_insn_next`.  The bytes of an instruction that could not be decoded are
`part`. -/
def insnNextUser (l : Layout (Insn × Bool)) (part : Insn → List UInt8) (c : InsnCfg) (size : Nat) : UM Idec Flags := do
  let s ← UM.get
  if s.enabled = false then
    if s.status.eos = true then UM.fail .eos else UM.fail .noEnable
  else do
    let i : Insn := { ip := s.ip, mode := s.mode }
    UM.write fun b => if size = l.size then b.store 0 (l.fresh (i, s.speculative)) else .ok b
    match ← fetchUser c s with
    | (none, some e) => do
      UM.put l.size size (part i)
      UM.fail e
    | (none, none) => UM.insn IM.undef
    | (some i, _) => do
      UM.put l.size size (l.fresh (i, s.speculative))
      match ← UM.insn (checkInsnEvent c i) with
      | some f => pure f
      | none => do
        UM.insn (proceed c i)
        UM.insn (checkIpEvent c (some i))

/-- libipt/src/pt_insn_decoder.c:1989-2310 `pt_insn_event`.  The bytes are those of the event and its flag
`enabled.resumed`. -/
def insnEventUser (l : Layout (Event × Bool)) (c : InsnCfg) (size : Nat) : UM Idec Flags := do
  let s ← UM.get
  if s.processEvent = false then UM.fail .badQuery
  else
    match s.event with
    | none => UM.insn IM.undef
    | some ev => do
      UM.insn (processEvent ev)
      UM.write fun b => cutToUser b size (l.fresh (ev, resumed s ev))
      UM.insn (IM.modify fun s => { s with processEvent := false })
      match s.insn with
      | none => UM.insn (checkIpEvent c none)
      | some i =>
        match ← UM.insn (checkInsnEvent c i) with
        | some f => pure f
        | none => do
          UM.insn (proceedPostponed c)
          UM.insn (checkIpEvent c none)

/-- libipt/src/pt_block_decoder.c:3831-3866 `pt_blk_next`.  If it has the right size, the user's memory is used while the
block is built; here, it is written at the end. -/
def blkNextUser (l : Layout Block) (c : BlkCfg) (size : Nat) : UM Bdec Flags := do
  UM.blk (BM.modify newBlock)
  let r ← UM.blk (BM.try_ (blkProceed c))
  let s ← UM.get
  UM.put l.size size (l.fresh s.blk)
  match r with
  | (some f, _) => pure f
  | (none, some e) => UM.fail e
  | (none, none) => UM.blk BM.undef

/-- libipt/src/pt_block_decoder.c:4154-4199: a TNT event in `pt_blk_event`. -/
def blkTickUser (l : Layout (Event × Bool)) (c : BlkCfg) (size : Nat) (ev : Event) (n : Nat) : UM Bdec Flags := do
  let s ← UM.get
  if c.tick = false then UM.fail .badQuery
  else if ev.hasTsc = false ∨ ev.tsc = s.tsc then UM.fail .badQuery
  else do
    UM.blk (BM.modify fun s => { s with hasTsc := true, tsc := ev.tsc, lostMtc := ev.lostMtc, lostCyc := ev.lostCyc })
    UM.write fun b => cutToUser b size
      (l.fresh ({ data := .tick s.ip, hasTsc := true, tsc := ev.tsc, lostMtc := ev.lostMtc, lostCyc := ev.lostCyc }, false))
    UM.blk (BM.when (n == 0) (fetchEvent c))
    UM.blk (trailingEvent c false c.evt.fuel)

/-- libipt/src/pt_block_decoder.c:4135-4412 `pt_blk_event`. -/
def blkEventUser (l : Layout (Event × Bool)) (c : BlkCfg) (size : Nat) : UM Bdec Flags := do
  let s ← UM.get
  match s.status with
  | some e => UM.fail e
  | none =>
    match s.event with
    | none => UM.fail .internal
    | some ev =>
      match ev.data with
      | .tnt _ n => blkTickUser l c size ev n
      | _ => do
        UM.blk (blkProcessEvent ev)
        UM.write fun b => cutToUser b size (l.fresh (ev, blkResumed s ev))
        UM.blk (fetchEvent c)
        UM.blk (trailingEvent c false c.evt.fuel)

end Ipt
