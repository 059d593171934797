import Verif.Asid

/-!
# Perf event records: pevent/src/pevent.c

The memory between `begin` and `end` is a list of bytes, and pointers into it are offsets.  Simplifications: pointers are not
`NULL`; 16, 32 and 64 bit fields are read at any alignment; computing, but not using, a pointer behind the end is no error.
-/

namespace Ipt

/-- `struct pev_config`, pevent/include/pevent.h:43-64, with `struct pev_sample_config` and `struct pev_sample_type`,
sideband/include/libipt-sb.h.in:448-470, as a list of identifiers and sample types. -/
structure PevConfig where
  size : Nat := 40
  sampleType : Nat := 0
  timeShift : Nat := 0
  timeMult : Nat := 0
  timeZero : Nat := 0
  sampleConfig : Option (List (Nat × Nat)) := none

/-- pevent/src/pevent.c:33-74 `pev_time_to_tsc`.  A shift by 64 or more is undefined. -/
def pevTimeToTsc (c : PevConfig) (time : Nat) : Res Nat :=
  if time = 0 then .ok 0
  else if c.size < 32 then .err .badConfig
  else if c.timeMult = 0 then .err .badConfig
  else if 64 ≤ c.timeShift then .ub
  else
    let time := (time + (2 ^ 64 - c.timeZero)) % 2 ^ 64
    let quot := (time / c.timeMult * 2 ^ c.timeShift) % 2 ^ 64
    let rem := (time % c.timeMult * 2 ^ c.timeShift) % 2 ^ 64 / c.timeMult
    .ok ((quot + rem) % 2 ^ 64)

/-- pevent/src/pevent.c:76-106 `pev_time_from_tsc`. -/
def pevTimeFromTsc (c : PevConfig) (tsc : Nat) : Res Nat :=
  if c.size < 32 then .err .badConfig
  else if c.timeMult = 0 then .err .badConfig
  else if 64 ≤ c.timeShift then .ub
  else
    let quot := (tsc / 2 ^ c.timeShift * c.timeMult) % 2 ^ 64
    let rem := (tsc % 2 ^ c.timeShift * c.timeMult) % 2 ^ 64 / 2 ^ c.timeShift
    .ok ((c.timeZero + quot + rem) % 2 ^ 64)

/-- pevent/src/pevent.c:108-125 `pev_strlen`: the loop, from offset `pos` for `n` bytes. -/
def pevStrlenLoop (mem : List UInt8) (pos : Nat) : Nat → Res Nat
  | 0 => .err .badPacket
  | n + 1 => do
    let b ← rd mem pos
    if b = 0 then .ok 1
    else do
      let k ← pevStrlenLoop mem (pos + 1) n
      .ok (k + 1)

/-- pevent/src/pevent.c:108-125 `pev_strlen`. -/
def pevStrlen (mem : List UInt8) (begin_ end_ : Nat) : Res Nat :=
  if end_ < begin_ then .err .internal else pevStrlenLoop mem begin_ (end_ - begin_)

/-- pevent/src/pevent.c:127-170 `pev_sample_type`.  The identifier is read when it is needed. -/
def pevSampleType (c : PevConfig) (ident : Option (Res Nat)) : Res Nat :=
  if c.size < 16 then .err .badConfig
  else if c.size < 40 then .ok c.sampleType
  else
    match c.sampleConfig, ident with
    | some l, some ident => do
      let ident ← ident
      match l.find? (·.1 = ident) with
      | some (_, t) => if t.testBit 16 = false then .err .badConfig else .ok t
      | none => .ok c.sampleType
    | _, _ => .ok c.sampleType

/-- `sample` in `struct pev_event`, pevent/include/pevent.h:199-222: offsets of the samples. -/
structure PevSamples where
  pid : Option Nat := none
  tid : Option Nat := none
  time : Option Nat := none
  tsc : Nat := 0
  id : Option Nat := none
  streamId : Option Nat := none
  cpu : Option Nat := none
  identifier : Option Nat := none
deriving DecidableEq, Repr

/-- A sample at `pos` if its bit is set, and the offset behind it.  For example, pevent/src/pevent.c:217-220. -/
def pevTake (t bit pos : Nat) : Option Nat × Nat := if t.testBit bit = true then (some pos, pos + 8) else (none, pos)

/-- pevent/src/pevent.c:172-238 `pev_read_samples`: the samples and the offset behind them. -/
def pevReadSamples (c : PevConfig) (mem : List UInt8) (begin_ end_ : Nat) : Res (PevSamples × Nat) := do
  let t ← pevSampleType c (if begin_ + 8 ≤ end_ then some (rdLE mem (end_ - 8) 8) else none)
  let (tid, pos) := pevTake t 1 begin_
  let (time, pos) := pevTake t 2 pos
  let tsc ← match time with
    | none => .ok 0
    | some p =>
      if end_ < pos then .err .nosync
      else do
        let v ← rdLE mem p 8
        pevTimeToTsc c v
  let (id, pos) := pevTake t 6 pos
  let (streamId, pos) := pevTake t 9 pos
  let (cpu, pos) := pevTake t 7 pos
  let (identifier, pos) := pevTake t 16 pos
  .ok ({ pid := tid, tid := tid.map (· + 4), time, tsc, id, streamId, cpu, identifier }, pos)

/-- The size of the record and whether a string follows, by type, from the cases in pevent/src/pevent.c:271-375 and the
structures in pevent/include/pevent.h:78-153.  The types are from `enum perf_event_type` in linux/perf_event.h. -/
def pevRecord : Nat → Option (Nat × Bool)
  | 1 => some (32, true)
  | 2 => some (16, false)
  | 3 => some (8, true)
  | 4 => some (24, false)
  | 5 => some (24, false)
  | 6 => some (24, false)
  | 7 => some (24, false)
  | 10 => some (64, true)
  | 11 => some (24, false)
  | 12 => some (8, false)
  | 13 => some (8, false)
  | 14 => some (0, false)
  | 15 => some (8, false)
  | _ => none

/-- `struct pev_event`, pevent/include/pevent.h:156-223, with the offset of the record. -/
structure PevEvent where
  type : Nat
  misc : Nat
  record : Option Nat := none
  sample : PevSamples := {}
deriving DecidableEq, Repr

/-- The offset behind the record and its string, for example pevent/src/pevent.c:280-295. -/
def pevSkip (mem : List UInt8) (n : Nat) (str : Bool) (end_ : Nat) : Res Nat :=
  if str = true then do
    let slen ← pevStrlen mem (8 + n) end_
    .ok (8 + n + (slen + 7) / 8 * 8)
  else .ok (8 + n)

/-- pevent/src/pevent.c:240-390 `pev_read`.  The header is `struct perf_event_header` in linux/perf_event.h: 32 bits type,
16 bits misc, 16 bits size. -/
def pevRead (c : PevConfig) (mem : List UInt8) : Res (PevEvent × Nat) :=
  if mem.length < 8 then .err .eos
  else do
    let type ← rdLE mem 0 4
    let misc ← rdLE mem 4 2
    let size ← rdLE mem 6 2
    if size < 8 then .err .nosync
    else if type = 0 ∨ mem.length < size then .err .eos
    else
      match pevRecord type with
      | none => .ok ({ type, misc }, size)
      | some (n, str) => do
        let pos ← pevSkip mem n str size
        let (sample, pos) ← pevReadSamples c mem pos size
        if pos % 2 ^ 16 ≠ size then .err .nosync
        else .ok ({ type, misc, record := if n = 0 then none else some 8, sample }, pos)

/-- What the user gives to `pev_write`: `struct pev_event`, with the memory its pointers point to.  `record` has the bytes of
the record's structure, `string` those of the string behind it without the terminating zero. -/
structure PevData where
  type : Nat
  misc : Nat
  record : List UInt8 := []
  string : List UInt8 := []
  pid : Option Nat := none
  tid : Option Nat := none
  time : Option Nat := none
  id : Option Nat := none
  streamId : Option Nat := none
  cpu : Option Nat := none
  identifier : Option Nat := none
deriving DecidableEq, Repr

/-- pevent/src/pevent.c:392-440 `pev_sample_config`: the size of the samples and their type. -/
def pevSampleConfig (e : PevData) : Nat × Nat :=
  let f (o : Option Nat) (bit : Nat) : Nat × Nat := if o.isSome = true then (8, 2 ^ bit) else (0, 0)
  let l := [f e.tid 1, f e.time 2, f e.id 6, f e.streamId 9, f e.cpu 7, f e.identifier 16]
  ((l.map (·.1)).sum, (l.map (·.2)).sum)

/-- pevent/src/pevent.c:442-452 `write` and `clear`: writing bytes to a buffer.  Outside the buffer: undefined. -/
def pevPut (b : List UInt8 × Nat) (l : List UInt8) : Res (List UInt8 × Nat) :=
  if b.1.length < b.2 + l.length then .ub
  else .ok (b.1.take b.2 ++ l ++ b.1.drop (b.2 + l.length), b.2 + l.length)

/-- A sample in `write_samples`, for example pevent/src/pevent.c:480-487. -/
def pevPutSample (b : List UInt8 × Nat) (t bit : Nat) (o : Option Nat) (size : Nat) : Res (List UInt8 × Nat) :=
  if t.testBit bit = false then .ok b
  else
    match o with
    | none => .err .badPacket
    | some v => do
      let (m, pos) ← pevPut b (toLE size v)
      .ok (m, pos + (8 - size))

/-- pevent/src/pevent.c:470-478: the process and thread in `write_samples`. -/
def pevPutTid (e : PevData) (t : Nat) (b : List UInt8 × Nat) : Res (List UInt8 × Nat) :=
  if t.testBit 1 = false then .ok b
  else
    match e.pid, e.tid with
    | some pid, some tid => do
      let b ← pevPut b (toLE 4 pid)
      pevPut b (toLE 4 tid)
    | _, _ => .err .badPacket

/-- pevent/src/pevent.c:454-532 `write_samples`. -/
def pevWriteSamples (c : PevConfig) (e : PevData) (t : Nat) (b : List UInt8 × Nat) : Res (List UInt8 × Nat) := do
  let ct ← pevSampleType c (e.identifier.map .ok)
  if ct ≠ t then .err .badConfig
  else do
    let b ← pevPutTid e t b
    let b ← pevPutSample b t 2 e.time 8
    let b ← pevPutSample b t 6 e.id 8
    let b ← pevPutSample b t 9 e.streamId 8
    let b ← pevPutSample b t 7 e.cpu 4
    let b ← pevPutSample b t 16 e.identifier 8
    if t ≠ t % 2 ^ 17 ∨ [0, 3, 4, 5, 8, 10, 11, 12, 13, 14, 15].any t.testBit = true then .err .badPacket
    else .ok b

/-- pevent/src/pevent.c:534-760 `pev_write`: the buffer after writing to it, and the size of what was written.  The contents
of the buffer after an error are not modelled. -/
def pevWrite (c : PevConfig) (e : PevData) (buf : List UInt8) : Res (List UInt8 × Nat) :=
  let (ssize, t) := pevSampleConfig e
  match pevRecord e.type with
  | none => .err .badOpc
  | some (n, str) =>
    if str = true ∧ 65535 ≤ e.string.length then .err .eos
    else
      let slen := e.string.length + 1
      let gap := (slen + 7) / 8 * 8 - slen
      let size := 8 + ssize + n + if str = true then slen + gap else 0
      if 65535 < size then .err .badPacket
      else if buf.length < size then .err .eos
      else do
        let b ← pevPut (buf, 0) (toLE 4 e.type ++ toLE 2 e.misc ++ toLE 2 size)
        let b ← pevPut b e.record
        let b ← if str = true then do
            let b ← pevPut b (e.string ++ [0])
            pevPut b (List.replicate gap 0)
          else .ok b
        pevWriteSamples c e t b

end Ipt
