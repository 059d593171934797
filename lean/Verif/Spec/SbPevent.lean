import Verif.Spec.Pevent
import Verif.SbPevent

/-!
# Specification: what perf event records say about processes

See perf_event_open(2) for the records.
-/

namespace Ipt.Spec.Processes

/-- A number in a record. -/
def field (d : PevData) (pos size : Nat) : Nat := leValue (sliceAt d.record pos size)

/-- What a record says. -/
inductive Says
  /-- tracing starts in a process -/
  | start (pid : Nat)
  /-- a process, or a thread of it, is created by another process or by itself -/
  | fork (pid parent tid : Nat)
  /-- a process has called exec -/
  | exec (pid : Nat)
  /-- a process is scheduled on the processor; it is not known which one if process identifiers are not sampled -/
  | switch (pid : Option Nat)
  /-- a part of a file is mapped into a process -/
  | map (pid addr size offset : Nat) (file : List UInt8)
  /-- records were lost -/
  | lost
  /-- trace was lost -/
  | traceLost
  | nothing
deriving DecidableEq, Repr

/-- What a record says: ITRACE_START, FORK, COMM with the flag COMM_EXEC, SWITCH without the flag SWITCH_OUT, SWITCH_CPU_WIDE,
for which a switch-out record has the process that is switched to, MMAP and MMAP2 other than in kernel mode, LOST, and AUX with
the flag TRUNCATED. -/
def says (d : PevData) : Says :=
  match d.type with
  | 12 => .start (field d 0 4)
  | 7 => .fork (field d 0 4) (field d 4 4) (field d 8 4)
  | 3 => if d.misc.testBit 13 = true then .exec (field d 0 4) else .nothing
  | 14 => if d.misc.testBit 13 = true then .nothing else .switch d.pid
  | 15 =>
    if d.misc.testBit 13 = true then .switch (some (field d 0 4))
    else if d.pid = none then .nothing else .switch d.pid
  | 1 => if d.misc % 8 = 1 then .nothing else .map (field d 0 4) (field d 8 8) (field d 16 8) (field d 24 8) d.string
  | 10 => if d.misc % 8 = 1 then .nothing else .map (field d 0 4) (field d 8 8) (field d 16 8) (field d 24 8) d.string
  | 2 => .lost
  | 11 => if (field d 16 8).testBit 0 = true then .traceLost else .nothing
  | _ => .nothing

/-- The image and the ABI of each known process. -/
abbrev Table (ι : Type) := Nat → Option (ι × SbAbi)

/-- The table with an entry changed. -/
def Table.set {ι : Type} (t : Table ι) (pid : Nat) (x : ι × SbAbi) : Table ι := fun p => if p = pid then some x else t p

variable {ι κ : Type}

/-- The process's entry, which is a new one if the process is not known. -/
def Table.get {ι : Type} (t : Table ι) (fresh : ι) (pid : Nat) : ι × SbAbi := (t pid).getD (fresh, .unknown)

/-- The bytes of a string. -/
def ascii (s : String) : List UInt8 := s.toList.map fun c => c.toNat.toUInt8

/-- The file for a name in a MMAP record: the user has to give a file for `[vdso]`, depending on the ABI; other names in
brackets, anonymous memory and deleted files are ignored; all other names are relative to `sysroot`. -/
def fileFor (sysroot : Option (List UInt8)) (vdso : SbAbi → Option (List UInt8)) (abi : SbAbi) (name : List UInt8) :
    Option (List UInt8) :=
  if name = ascii "[vdso]" then vdso abi
  else if ascii "[" <+: name ∨ name = ascii "//anon" ∨ ascii " (deleted)" <:+: name then none
  else some (sysroot.getD [] ++ name)

/-- What a record does to the table of processes.  `fresh` is the image of a new process: the kernel's image.  Records that
are about the processor are ignored if the channel is not for the traced processor.  `file` gives the files for names, see
`fileFor`, and `ext` is the file system. -/
def Says.effect (env : SbEnv ι κ) (ext : κ) (fresh : ι) (file : SbAbi → List UInt8 → Option (List UInt8)) (primary : Bool)
    (t : Table ι) : Says → Table ι
  | .start pid => if primary = true then t.set pid (t.get fresh pid) else t
  | .switch (some pid) => if primary = true then t.set pid (t.get fresh pid) else t
  | .switch none => t
  | .fork pid parent _ =>
    if pid = parent then t
    else match t parent with
      | none => t.set pid (fresh, .unknown)
      | some (image, _) => t.set pid ((env.copy fresh image).1, .unknown)
  | .exec pid => t.set pid (fresh, .unknown)
  | .map pid addr size offset name =>
    let entry := t.get fresh pid
    match file entry.2 name with
    | none => t.set pid entry
    | some f => t.set pid ((env.mmap ext entry.1 f offset size addr).2.1,
        if entry.2 = .unknown then (env.abi ext f).getD .unknown else entry.2)
  | .lost | .traceLost | .nothing => t

/-- The offsets of the records in a file: the size of a record is in its header. -/
inductive RecordAt (file : List UInt8) : Nat → Prop
  | first : RecordAt file 0
  | next {pos : Nat} (h : RecordAt file pos) : RecordAt file (pos + leValue (sliceAt file (pos + 6) 2))

/-- The value of a 64 bit number as signed number. -/
def signed (v : Nat) : Int := if v < 2 ^ 63 then (v : Int) else (v : Int) - 2 ^ 64

/-- The address at which execution goes on after an event, if the event has it. -/
def leadsTo (ev : Event) : Option Nat :=
  let known (ip : Nat) : Option Nat := if ev.ipSuppressed = true then none else some ip
  match ev.data with
  | .enabled ip | .asyncBranch _ ip | .tip ip => some ip
  | .disabled ip | .asyncDisabled _ ip | .asyncPaging _ _ ip | .overflow ip | .execMode _ ip | .tsx _ _ ip | .exstop ip
  | .mwait _ _ ip | .ptwrite _ _ ip | .tick ip | .iflags _ ip | .interrupt _ _ ip | .iret ip | .smi ip | .init ip | .vmentry ip
  | .vmexit _ _ _ ip | .shutdown ip | .uintr _ ip | .uiret ip => known ip
  | _ => none

/-- Where code is executed. -/
inductive Place
  | user | kernel | unknown
deriving DecidableEq, Repr

/-- The place for an address. -/
def placeOf (kernelStart ip : Nat) : Place := if ip < kernelStart then .user else .kernel

/-- Tracing stops at the border. -/
def Place.across : Place → Place
  | .user => .kernel
  | .kernel => .user
  | .unknown => .unknown

/-- The place after an event: that of the address, if there is one.  If not, tracing that stops without an address goes to the
other side, and page tables are changed in the kernel. -/
def placeAfter (kernelStart : Nat) (was : Place) (ev : Event) : Place :=
  match leadsTo ev with
  | some ip => placeOf kernelStart ip
  | none =>
    match ev.data with
    | .disabled _ => was.across
    | .asyncDisabled at_ _ => (placeOf kernelStart at_).across
    | .asyncPaging _ _ _ | .paging _ _ => .kernel
    | _ => .unknown

end Ipt.Spec.Processes
