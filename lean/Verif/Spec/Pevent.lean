import Verif.Pevent

/-!
# Specification: perf event records

See perf_event_open(2).  A record is a header, a structure that depends on the type of the record, for some types a string,
and samples.
-/

namespace Ipt.Spec

/-- The value of little-endian bytes. -/
def leValue (l : List UInt8) : Nat := l.foldr (fun b v => b.toNat + 256 * v) 0

/-- `n` bytes at an offset. -/
def sliceAt (mem : List UInt8) (pos n : Nat) : List UInt8 := (mem.drop pos).take n

/-- The sample type to use for a record that has this identifier, if any: that of the first matching entry of the
configuration, which must say that there is an identifier, or else the default. -/
def TypeFor (c : PevConfig) (ident : Option Nat) (t : Nat) : Prop :=
  16 ≤ c.size ∧
  match ident with
  | some i =>
    match (if 40 ≤ c.size then c.sampleConfig.getD [] else []).find? (·.1 = i) with
    | some x => x.2 = t ∧ t.testBit 16 = true
    | none => t = c.sampleType
  | none => t = c.sampleType

/-- Samples of type `t`: process and thread, time, identifier of the event, of its stream, processor, identifier.  There are
four unused bytes behind the processor. -/
def sampleBytes (t : Nat) (e : PevData) (unused : List UInt8) : List UInt8 :=
  let opt (bit : Nat) (l : List UInt8) := if t.testBit bit = true then l else []
  opt 1 (toLE 4 (e.pid.getD 0) ++ toLE 4 (e.tid.getD 0)) ++ opt 2 (toLE 8 (e.time.getD 0)) ++ opt 6 (toLE 8 (e.id.getD 0)) ++
    opt 9 (toLE 8 (e.streamId.getD 0)) ++ opt 7 (toLE 4 (e.cpu.getD 0) ++ unused) ++ opt 16 (toLE 8 (e.identifier.getD 0))

/-- The event has the samples of type `t`. -/
structure HasSamples (t : Nat) (e : PevData) : Prop where
  pid : e.pid.isSome = t.testBit 1
  tid : e.tid.isSome = t.testBit 1
  time : e.time.isSome = t.testBit 2
  id : e.id.isSome = t.testBit 6
  streamId : e.streamId.isSome = t.testBit 9
  cpu : e.cpu.isSome = t.testBit 7
  identifier : e.identifier.isSome = t.testBit 16

/-- What fits into the fields. -/
structure Fits (e : PevData) : Prop where
  type : 0 < e.type ∧ e.type < 2 ^ 32
  misc : e.misc < 2 ^ 16
  pid : ∀ v, e.pid = some v → v < 2 ^ 32
  tid : ∀ v, e.tid = some v → v < 2 ^ 32
  time : ∀ v, e.time = some v → v < 2 ^ 64
  id : ∀ v, e.id = some v → v < 2 ^ 64
  streamId : ∀ v, e.streamId = some v → v < 2 ^ 64
  cpu : ∀ v, e.cpu = some v → v < 2 ^ 32
  identifier : ∀ v, e.identifier = some v → v < 2 ^ 64

/-- The string, terminated by zero and padded to a multiple of eight bytes, for the types that have one. -/
def IsString (str : Bool) (s l : List UInt8) : Prop :=
  if str = true then 0 ∉ s ∧ ∃ pad, l = s ++ 0 :: pad ∧ pad.length < 8 ∧ l.length % 8 = 0 else s = [] ∧ l = []

/-- The sizes of the fields of the structure, and whether there is a string, by record type: MMAP, LOST, COMM, EXIT, THROTTLE,
UNTHROTTLE, FORK, MMAP2, AUX, ITRACE_START, LOST_SAMPLES, SWITCH, SWITCH_CPU_WIDE. -/
def recordFields : Nat → Option (List Nat × Bool)
  | 1 => some ([4, 4, 8, 8, 8], true)
  | 2 => some ([8, 8], false)
  | 3 => some ([4, 4], true)
  | 4 => some ([4, 4, 4, 4, 8], false)
  | 5 => some ([8, 8, 8], false)
  | 6 => some ([8, 8, 8], false)
  | 7 => some ([4, 4, 4, 4, 8], false)
  | 10 => some ([4, 4, 8, 8, 8, 4, 4, 8, 8, 4, 4], true)
  | 11 => some ([8, 8, 8], false)
  | 12 => some ([4, 4], false)
  | 13 => some ([8], false)
  | 14 => some ([], false)
  | 15 => some ([4, 4], false)
  | _ => none

/-- The record for an event with samples of type `t`. -/
def Encodes (t : Nat) (e : PevData) (l : List UInt8) : Prop :=
  ∃ fields str string unused, recordFields e.type = some (fields, str) ∧ e.record.length = fields.sum ∧ IsString str e.string string ∧
    unused.length = 4 ∧ l.length < 2 ^ 16 ∧ HasSamples t e ∧ Fits e ∧
    l = toLE 4 e.type ++ toLE 2 e.misc ++ toLE 2 l.length ++ e.record ++ string ++ sampleBytes t e unused

/-- The last eight bytes of a record, if it has samples. -/
def lastWord (t : Nat) (l : List UInt8) : Option Nat :=
  if [1, 2, 6, 7, 9, 16].any t.testBit = true then some (leValue (l.drop (l.length - 8))) else none

/-- Events that can be written: the structure and the string fit the type, and there is no process without a thread. -/
def Proper (e : PevData) : Prop :=
  (e.tid = none → e.pid = none) ∧ ∀ fields str, recordFields e.type = some (fields, str) →
    e.record.length = fields.sum ∧ 0 ∉ e.string ∧ (str = false → e.string = [])

/-- The sample type only has samples that records other than SAMPLE records can have. -/
def KnownSamples (t : Nat) : Prop := ∀ bit, t.testBit bit = true → bit ∈ [1, 2, 6, 7, 9, 16]

/-- What the user sees of an event that was read from `mem`. -/
def dataOf (mem : List UInt8) (e : PevEvent) : PevData :=
  let n := ((recordFields e.type).getD ([], false)).1.sum
  let str := ((recordFields e.type).getD ([], false)).2
  { type := e.type, misc := e.misc
    record := match e.record with
      | some p => sliceAt mem p n
      | none => []
    string := if str = true then (mem.drop ((e.record.getD 0) + n)).takeWhile (· ≠ 0) else []
    pid := e.sample.pid.map fun p => leValue (sliceAt mem p 4)
    tid := e.sample.tid.map fun p => leValue (sliceAt mem p 4)
    time := e.sample.time.map fun p => leValue (sliceAt mem p 8)
    id := e.sample.id.map fun p => leValue (sliceAt mem p 8)
    streamId := e.sample.streamId.map fun p => leValue (sliceAt mem p 8)
    cpu := e.sample.cpu.map fun p => leValue (sliceAt mem p 4)
    identifier := e.sample.identifier.map fun p => leValue (sliceAt mem p 8) }

/-- Time conversion, see `cap_user_time_zero` in perf_event_open(2): TSC ticks in the given nanoseconds. -/
def ticks (c : PevConfig) (ns : Nat) : Nat := ns * 2 ^ c.timeShift / c.timeMult

/-- Nanoseconds in the given TSC ticks. -/
def nanoseconds (c : PevConfig) (tsc : Nat) : Nat := tsc * c.timeMult / 2 ^ c.timeShift

/-- The configuration has parameters for time conversion, as the kernel computes them. -/
structure TimeConfig (c : PevConfig) : Prop where
  size : 32 ≤ c.size
  shift : c.timeShift ≤ 32
  mult : 0 < c.timeMult ∧ c.timeMult < 2 ^ 32
  zero : c.timeZero < 2 ^ 64

end Ipt.Spec
