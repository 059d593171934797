import Verif.InsnDecoder
import Verif.Spec.Query
import Verif.Spec.Memory
import Verif.ImageLemmas

/-!
# Specification: following a program along its trace

An abstract machine that executes the instructions of a program, and takes the outcomes of branches and the events from
the items of a trace.  It knows nothing about how a decoder works: no status flags, no caches, no postponed work.  A
step of the machine takes items from the trace and may show an instruction or an event to the user.
-/

namespace Ipt.Spec

open Ild

/-- `t` is the 64-bit address `v` wraps around to. -/
def Addr (t : Nat) (v : Int) : Prop := t < 2 ^ 64 ∧ ∃ k : Int, (t : Int) = v + k * 2 ^ 64

/-- The events that belong to an instruction.  An instruction has at most one of each kind. -/
inductive Kind
  | paging | vmcs | ptwrite | iret | vmentry | uiret
deriving DecidableEq, Repr

/-- The kind of an event, and its location if the event has one. -/
def Kind.of : EvData → Option (Kind × Option Nat)
  | .paging .. => some (.paging, none)
  | .vmcs .. => some (.vmcs, none)
  | .ptwrite _ _ ip => some (.ptwrite, some ip)
  | .iret ip => some (.iret, some ip)
  | .vmentry ip => some (.vmentry, some ip)
  | .uiret ip => some (.uiret, some ip)
  | _ => none

/-- The machine. -/
structure Flow where
  /-- Tracing is enabled. -/
  enabled : Bool
  /-- The address of the next instruction.  If tracing is disabled, where it is expected to resume. -/
  ip : Nat
  /-- The execution mode. -/
  mode : Mode
  /-- In a transaction. -/
  speculative : Bool
  /-- The address space. -/
  asid : Asid
  /-- The sections in the image. -/
  sections : Msec → Prop
  /-- The return addresses of the calls, newest first, at most 64. -/
  calls : List Nat
  /-- The instruction the user has been shown, while it is not executed yet. -/
  cur : Option Insn
  /-- The kinds of events the user has been shown for this instruction. -/
  bound : List Kind
  /-- The event that was taken from the trace, while it is not shown yet. -/
  pend : Option Event
  /-- The number of instructions since the trace told the address, if it did. -/
  count : Option Nat
  /-- Only for the block decoder: items were taken since the last event, see `Flow.Passes`. -/
  late : Bool := false

/-- There is a byte at an address: in a section of the image that is visible in the address space, or provided by the
user's callback. -/
def Flow.Byte (c : InsnCfg) (f : Flow) (x : Nat) (b : UInt8) : Prop :=
  (∃ m, f.sections m ∧ m.vaddr ≤ x ∧ x < m.vaddr + m.size ∧ SameSpace m.asid f.asid ∧
    b = c.env.byte m.sec (m.offset + (x - m.vaddr))) ∨
  (∃ g n a bs k, c.cb = some g ∧ g n f.asid a = .ok bs ∧ x = (a + k) % 2 ^ 64 ∧ bs[k]? = some b)

/-- The instruction at the machine's address: its bytes are in memory, and the length decoder takes them for this
instruction in the current mode. -/
structure Flow.At (c : InsnCfg) (f : Flow) (i : Insn) : Prop where
  ip : i.ip = f.ip
  mode : i.mode = f.mode
  size : 1 ≤ i.size ∧ i.size ≤ 15
  bytes : ∀ k, k < i.size → ∃ b, i.raw[k]? = some b ∧ f.Byte c ((i.ip + k) % 2 ^ 64) b
  decodes : ildDecode i.raw i.size i.mode = (i.size, .ok i.ext)

/-- The instruction is a branch to a fixed distance, unless its target is in the trace nevertheless. -/
def Direct (i : Insn) : Prop := i.ext.isDirect = true ∧ i.ext.inst ≠ .jmpabs

/-- The return addresses after a branch: calls add one, except for calls of the next instruction. -/
def calling (i : Insn) (calls : List Nat) (next : Nat) : List Nat :=
  if i.ext.cls = .call ∧ ¬ (i.ext.isDirect = true ∧ i.ext.displacement = 0) then (next :: calls).take 64 else calls

/-- Executing instruction `i` takes the items from the trace and continues at address `t`. -/
inductive Exec (i : Insn) (calls : List Nat) : List Item → Nat → List Nat → Prop
  /-- No branch. -/
  | fall (t) : i.ext.cls = .other ∨ i.ext.cls = .ptwrite → Addr t (i.ip + i.size) → Exec i calls [] t calls
  /-- A direct call or jump. -/
  | direct (t n) : i.ext.cls ∉ [.other, .ptwrite, .unknown, .condJump] → Direct i →
    Addr t (i.ip + i.size + i.ext.displacement) → Addr n (i.ip + i.size) →
    Exec i calls [] t (calling i calls n)
  /-- A conditional branch takes one outcome. -/
  | cond (b t) : i.ext.cls = .condJump →
    Addr t (i.ip + i.size + (if b = true then i.ext.displacement else 0)) → Exec i calls [.bit b] t calls
  /-- A compressed return takes a taken branch, and goes back to the newest call. -/
  | ret (t rest) : i.ext.cls = .return → calls = t :: rest → Exec i calls [.bit true] t rest
  /-- Any other branch takes its target. -/
  | target (t n) : i.ext.cls ∉ [.other, .ptwrite, .unknown, .condJump] → ¬ Direct i →
    Addr n (i.ip + i.size) → Exec i calls [.target (some t)] t (calling i calls n)

/-- The trace told the address. -/
def Flow.anchored (f : Flow) : Flow := { f with count := some 0 }

/-- A TRIG event is located a number of instructions behind an address.  When that instruction is executed, it is one less
behind the next address. -/
def nearer (x t : Nat) (e : Event) : Event :=
  match e.data with
  | .trig a n m y => if y = x then { e with data := .trig a (n - 1) m t } else e
  | _ => e

/-- Counting instructions: nothing but the instruction itself told the next address. -/
def Flow.counted (f : Flow) (x t : Nat) : Flow :=
  match f.count with
  | none => f
  | some n => { f with count := some (n + 1), pend := f.pend.map (nearer x t) }

/-- Tracing can be disabled by this instruction, see `ev->variant.disabled`.  Without an IP, by far branches and changes
of the privilege level or the address space; with erratum SKL014, also by direct branches that leave the configured
address ranges.  With an IP, by all branches, by direct ones only if they go there. -/
def Disables (c : InsnCfg) (e : Event) (ip : Nat) (i : Insn) : Prop :=
  if e.ipSuppressed = true then
    isFarBranch i.ext = true ∨ changesCpl i.ext = true ∨ changesCr3 i.ext = true ∨
      (c.evt.pkt.errata.skl014 = true ∧ c.filter.cfg ≠ 0 ∧ (i.ext.cls = .call ∨ i.ext.cls = .jump) ∧ Direct i ∧
        ∃ t, Addr t (i.ip + i.size + i.ext.displacement) ∧ c.filter.check t ≠ .ok true)
  else
    Ipt.isBranch i.ext = true ∧
      ((i.ext.cls = .call ∨ i.ext.cls = .jump) → Direct i → Addr ip (i.ip + i.size + i.ext.displacement))

/-- The instruction can have an event of this kind. -/
def Kind.fits : Kind → Iext → Bool
  | .paging, x => bindsToPip x
  | .vmcs, x => bindsToVmcs x
  | .ptwrite, x => isPtwrite x
  | .iret, x => isIret x
  | .vmentry, x => isVmentry x
  | .uiret, x => isUiret x

/-- The event belongs to the instruction: an event of this kind that has a location is at the instruction's
address, an event without one fits the instruction. -/
def Belongs (e : Event) (k : Kind) (loc : Option Nat) (i : Insn) : Prop :=
  match loc with
  | some ip => if e.ipSuppressed = true then k.fits i.ext = true else i.ip = ip
  | none => k.fits i.ext = true

/-- Where tracing is expected to resume after it was disabled at an instruction: at the next instruction if it is known,
behind a call otherwise, or nowhere (zero). -/
def Resume (i : Insn) (t : Nat) : Prop :=
  match i.ext.cls with
  | .other | .ptwrite => Addr t (i.ip + i.size)
  | .call => if i.ext.isDirect = true then Addr t (i.ip + i.size + i.ext.displacement) else Addr t (i.ip + i.size)
  | .farCall => Addr t (i.ip + i.size)
  | .jump => if i.ext.isDirect = true ∧ i.ext.inst ≠ .jmpabs then Addr t (i.ip + i.size + i.ext.displacement) else t = 0
  | _ => t = 0

/-- The location of an event between two instructions, if it has one. -/
def location (e : Event) : Option Nat :=
  match e.data with
  | .asyncDisabled at_ _ => some at_
  | .asyncBranch from_ _ => some from_
  | .asyncPaging _ _ ip | .asyncVmcs _ ip | .execMode _ ip | .tsx _ _ ip | .exstop ip | .mwait _ _ ip | .iflags _ ip
  | .interrupt _ _ ip | .smi ip | .init ip | .vmexit _ _ _ ip | .shutdown ip | .uintr _ ip | .trig _ _ _ ip =>
    if e.ipSuppressed = true then none else some ip
  | _ => none

/-- The event is one between two instructions. -/
def Between (e : Event) : Prop :=
  match e.data with
  | .disabled _ => e.statusUpdate = true
  | .tip .. | .tnt .. => False
  | d => Kind.of d = none

/-- The location of an event with a location is reached.  The location does not matter while tracing is disabled, except
that asynchronous paging events and transaction events wait for it even so. -/
def Flow.Reached (f : Flow) (e : Event) : Prop :=
  ∀ x, location e = some x → f.ip = x ∨
    (f.enabled = false ∧
      match e.data with
      | .asyncDisabled .. | .asyncBranch .. | .asyncPaging .. | .asyncVmcs .. | .tsx .. => False
      | _ => True)

/-- The instructions to go to a TRIG event. -/
def countdown (e : Event) : Nat :=
  match e.data with
  | .trig _ n _ _ => if e.ipSuppressed = true then 0 else n
  | _ => 0

/-- What the user sees, and does: changing the image to other sections. -/
inductive Seen
  | insn (i : Insn) (speculative : Bool)
  | event (e : Event) (resumed : Bool)
  | image (l : List Msec)
deriving DecidableEq, Repr

/-- The execution mode for a number, `enum pt_exec_mode`. -/
def modeNumbered (n : Nat) : Mode :=
  if n = 1 then .b16 else if n = 2 then .b32 else if n = 3 then .b64 else .unknown

/-- What an event does to the machine. -/
def Flow.apply (f : Flow) (e : Event) : Flow :=
  match e.data with
  | .enabled ip => if e.statusUpdate = true then f else { f with enabled := true, ip := ip, count := some 0 }
  | .disabled _ | .asyncDisabled .. => if e.statusUpdate = true then f else { f with enabled := false, count := none }
  | .asyncBranch _ to => { f with ip := to, count := some 0 }
  | .paging cr3 _ | .asyncPaging cr3 _ _ => { f with asid := { f.asid with cr3 := cr3 } }
  | .vmcs base | .asyncVmcs base _ =>
    { f with asid := { f.asid with vmcs := base }, count := if e.ipSuppressed = true then f.count else some 0 }
  | .overflow ip =>
    if e.ipSuppressed = true then { f with enabled := false, ip := 0, speculative := false, count := none }
    else { f with enabled := true, ip := ip, speculative := false, count := some 0 }
  | .execMode mode _ => { f with mode := modeNumbered mode, count := some 0 }
  | .tsx spec _ _ => { f with speculative := spec, count := some 0 }
  | .exstop _ | .iflags .. | .interrupt .. | .smi _ | .init _ | .vmexit .. | .shutdown _ | .uintr .. | .trig .. =>
    { f with count := if e.ipSuppressed = true then f.count else some 0 }
  | _ => f

/-- The state of tracing an event requires. -/
def Flow.Allows (f : Flow) (e : Event) : Prop :=
  match e.data with
  | .enabled _ => if e.statusUpdate = true then f.enabled = true else f.enabled = false ∧ e.ipSuppressed = false
  | .disabled _ | .asyncDisabled .. => if e.statusUpdate = true then f.enabled = false else f.enabled = true
  | .asyncBranch .. => e.statusUpdate = false ∧ f.enabled = true
  | .overflow _ => e.statusUpdate = false
  | .stop => e.statusUpdate = false ∧ f.enabled = false
  | .execMode mode _ =>
    e.statusUpdate = true → f.enabled = true → f.mode = .unknown ∨ f.mode = modeNumbered mode
  | .rsm | .sipi _ => e.ipSuppressed = true
  | _ => True

/-- The flag `enabled.resumed`: tracing is enabled where it was expected to resume. -/
def Flow.resumes (f : Flow) (e : Event) : Bool :=
  match e.data with
  | .enabled ip => f.ip == ip
  | _ => false

/-- The event comes now. -/
inductive Flow.Due (c : InsnCfg) (f : Flow) (e : Event) : Prop
  /-- Between two instructions. -/
  | between : f.cur = none → Between e → f.Reached e → countdown e = 0 → Due c f e
  /-- Events that belong to an instruction, while tracing is disabled. -/
  | later (k l) : f.cur = none → Kind.of e.data = some (k, l) → f.enabled = false → Due c f e
  /-- An event that belongs to the current instruction. -/
  | belongs (k l i) : f.cur = some i → Kind.of e.data = some (k, l) → (f.enabled = true → Belongs e k l i) →
    k ∉ f.bound → Due c f e
  /-- The current instruction disables tracing. -/
  | disable (ip i) : f.cur = some i → e.data = .disabled ip → e.statusUpdate = false → Disables c e ip i → Due c f e

/-- The next item is an event. -/
def startsWithEvent : List Item → Prop
  | .event _ :: _ => True
  | _ => False

/-- A step of the machine: the items that will be taken from the trace later, a state, the items taken now, what the user
sees, and the next state. -/
inductive Flow.Step (c : InsnCfg) (rest : List Item) : Flow → List Item → List Seen → Flow → Prop
  /-- Show the next instruction.  Events between instructions that have reached their location come first.  (Events that
  were changed for erratum SKD022 come behind the instruction.) -/
  | fetch (f : Flow) (i : Insn) : f.enabled = true → f.cur = none → f.At c i →
    (f.pend = none → ¬ startsWithEvent rest) →
    (∀ e, f.pend = some e → Between e → f.Reached e → countdown e = 0 →
      c.evt.pkt.errata.skd022 = true ∧ ∃ ip, e.data = .disabled ip) →
    Step c rest f [] [.insn i f.speculative] { f with cur := some i, bound := [] }
  /-- Execute the instruction, if the trace tells how.  Events that belong to it come first. -/
  | told (f : Flow) (i : Insn) (it : Item) (t : Nat) (calls : List Nat) :
    f.enabled = true → f.cur = some i → Exec i f.calls [it] t calls → (∀ e, f.pend = some e → ¬ f.Due c e) →
    Step c rest f [it] [] { f with ip := t, calls := calls, cur := none, count := some 0 }
  /-- Execute the instruction, if the instruction itself tells how. -/
  | exec (f : Flow) (i : Insn) (t : Nat) (calls : List Nat) :
    f.enabled = true → f.cur = some i → Exec i f.calls [] t calls → (∀ e, f.pend = some e → ¬ f.Due c e) →
    (f.pend = none → ¬ startsWithEvent rest) →
    Step c rest f [] [] { f.counted i.ip t with ip := t, calls := calls, cur := none }
  /-- The instruction disabled tracing. -/
  | drop (f : Flow) : f.enabled = false → Step c rest f [] [] { f with cur := none }
  /-- Take an event from the trace. -/
  | take (f : Flow) (e : Event) : f.pend = none → Step c rest f [.event e] [] { f with pend := some e }
  /-- Time has changed.  Only if the user wants to know. -/
  | tick (f : Flow) (e : Event) (ip : Nat) : c.tick = true → f.enabled = true → f.pend = none → e.data = .tick ip →
    e.ipSuppressed = false → Step c rest f [] [] { f with pend := some e }
  /-- Find the location of a TRIG event.  The trace counts from the last address it told. -/
  | locate (f : Flow) (e : Event) (a n m k) : f.pend = some e → e.data = .trig a n m 0 → e.ipSuppressed = false →
    f.count = some k → k ≤ n →
    Step c rest f [] [] { f with pend := some { e with data := .trig a (n - k) m f.ip } }
  /-- Erratum SKD022: VM entries disable tracing synchronously. -/
  | skd022 (f : Flow) (e : Event) (at_ ip : Nat) (i : Insn) : c.evt.pkt.errata.skd022 = true → f.pend = some e →
    e.data = .asyncDisabled at_ ip → f.ip = at_ → f.At c i → i.ext.inst = .vmlaunch ∨ i.ext.inst = .vmresume →
    Step c rest f [] [] { f with pend := some { e with data := .disabled ip } }
  /-- Erratum BDM64: the branch before a transaction abort may have been traced wrong. -/
  | bdm64 (f : Flow) (e : Event) (spec : Bool) (ip : Nat) : c.evt.pkt.errata.bdm64 = true → f.pend = some e →
    f.cur = none → e.data = .tsx spec true ip → e.ipSuppressed = false → Step c rest f [] [] { f with ip := ip }
  /-- Show an event. -/
  | event (f : Flow) (e : Event) : f.pend = some e → f.cur = none → f.Due c e → f.Allows e →
    Step c rest f [] [.event e (f.resumes e)] { f.apply e with pend := none }
  /-- Show an event that belongs to the instruction. -/
  | belongs (f : Flow) (e : Event) (k : Kind) (l : Option Nat) (i : Insn) : f.pend = some e → f.cur = some i →
    Kind.of e.data = some (k, l) → f.Due c e →
    Step c rest f [] [.event e false] { f.apply e with pend := none, bound := k :: f.bound }
  /-- Show that the instruction disabled tracing. -/
  | disable (f : Flow) (e : Event) (ip t : Nat) (i : Insn) : f.pend = some e → f.enabled = true → f.cur = some i →
    e.data = .disabled ip → f.Due c e → Resume i t →
    Step c rest f [] [.event e false] { f.apply e with pend := none, ip := t }
  /-- The user changes the image. -/
  | image (f : Flow) (l : List Msec) : Step c rest f [] [.image l] { f with sections := fun m => m ∈ l }

/-- A number of steps.  They take the items `its`; `rest` are the items taken later. -/
inductive Flow.Run (c : InsnCfg) (rest : List Item) : Flow → List Item → List Seen → Flow → Prop
  | nil (f : Flow) : Run c rest f [] [] f
  | cons {f g h : Flow} {its its' : List Item} {out out' : List Seen} :
    Step c (its' ++ rest) f its out g → Run c rest g its' out' h → Run c rest f (its ++ its') (out ++ out') h

/-- The machine after synchronizing: where tracing is enabled is all that is known. -/
def Flow.start (ip : Option Nat) (l : List Msec) : Flow where
  enabled := ip.isSome
  ip := ip.getD 0
  mode := .unknown
  speculative := false
  asid := {}
  sections := fun m => m ∈ l
  calls := []
  cur := none
  bound := []
  pend := none
  count := none

/-- Synchronize an instruction flow decoder. -/
def SyncCall.insn (c : InsnCfg) : SyncCall → IM Flags
  | .forward => insnSyncForward c
  | .backward => insnSyncBackward c
  | .set o => insnSyncSet c o

/-- The values of the decoder's variables fit their types: `uint32_t icnt` and `uint64_t stack[65]`. -/
def Typed (s : Idec) : Prop := s.icnt < 2 ^ 32 ∧ s.retstack.stack.length = 65

/-- A user of an instruction flow decoder: as long as the flags say that an event is pending, they call `pt_insn_event`,
otherwise `pt_insn_next`.  In between they may change the image.  The calls succeed. -/
inductive Follows (c : InsnCfg) : Idec → Flags → List Seen → Idec → Flags → Prop
  | done (s fl) : Follows c s fl [] s fl
  | next {s fl s1 o out s' fl'} : fl.eventPending = false → insnNext c s = (s1, .ok o) →
    Follows c s1 o.flags out s' fl' → Follows c s fl (.insn o.insn o.speculative :: out) s' fl'
  | event {s fl s1 o out s' fl'} : fl.eventPending = true → insnEvent c s = (s1, .ok o) →
    Follows c s1 o.flags out s' fl' → Follows c s fl (.event o.event o.resumed :: out) s' fl'
  | image {s fl img out s' fl'} : (∀ m ∈ img.secs, m.WF c.env) →
    Follows c { s with sc := scSetImage s.sc img } fl out s' fl' → Follows c s fl (.image img.secs :: out) s' fl'

end Ipt.Spec
