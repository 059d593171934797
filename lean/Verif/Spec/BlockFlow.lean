import Verif.Spec.Block

/-!
# Specification: following a program along its trace, block by block

The machine of `Verif/Spec/Flow.lean`, with steps that show blocks of instructions instead of single ones.
-/

namespace Ipt.Spec

open Ild

/-- What the user of a block decoder sees, and does: changing the image to other sections. -/
inductive BlkSeen
  | block (b : Block)
  | event (e : Event) (resumed : Bool)
  | image (l : List Msec)
deriving DecidableEq, Repr

/-- The items in an event.  As `items`, but the block decoder takes the target of a branch also if it is suppressed, see
`C65_suppressed_target`. -/
def blkItems (e : Event) : List Item :=
  match e.data with
  | .tip ip => [.target (some ip)]
  | _ => items e

/-- An item is the target of a branch. -/
def Item.isTarget : Item → Bool
  | .target _ => true
  | _ => false

/-- Two sequences with the same items.  They are in the same order, except that targets may be ahead of outcomes. -/
def SameItems (l l' : List Item) : Prop :=
  l.filter (fun x => !x.isTarget) = l'.filter (fun x => !x.isTarget) ∧
  l.filter (fun x => !x.isBit) = l'.filter (fun x => !x.isBit)

/-! ### Events and instructions -/

/-- The instruction can only be executed with the help of the trace. -/
def Asking (i : Insn) : Prop := i.ext.cls ∉ [.other, .ptwrite, .unknown] ∧ (i.ext.cls = .condJump ∨ ¬ Direct i)

/-- Erratum SKL014: the instruction is a direct branch that leaves the configured address ranges. -/
def Outside (c : BlkCfg) (i : Insn) : Prop :=
  c.evt.pkt.errata.skl014 = true ∧ c.filter.cfg ≠ 0 ∧ (i.ext.cls = .call ∨ i.ext.cls = .jump) ∧ Direct i ∧
    ∃ t, Addr t (i.ip + i.size + i.ext.displacement) ∧ c.filter.check t = .ok false

/-- The event comes before the next instruction: it has no location, or its location is reached. -/
def Flow.IsAt (f : Flow) (e : Event) : Prop :=
  match e.data with
  | .disabled ip => e.statusUpdate = true ∨ (e.ipSuppressed = false ∧ f.ip = ip)
  | .tip .. | .tnt .. => False
  | d => Kind.of d = none ∧ (∀ x, location e = some x → f.ip = x) ∧ countdown e = 0

/-- The event comes with this instruction. -/
def IsOn (c : BlkCfg) (e : Event) (i : Insn) : Prop :=
  match e.data with
  | .disabled _ => e.ipSuppressed = true ∧ (i.ext.cls = .other ∧ changesCr3 i.ext = true ∨ Outside c i)
  | d => ∃ k l, Kind.of d = some (k, l) ∧ Belongs e k l i

/-- Executing instructions while an event waits: none of them is one the event belongs to.  The event may change: a TRIG event
is located a number of instructions behind an address, and asynchronous events may be synchronous ones with erratum SKD022. -/
inductive Flow.Waits (c : BlkCfg) (isid : Nat) : Flow → Event → List Insn → Flow → Event → Prop
  | nil (f : Flow) (e : Event) : Waits c isid f e [] f e
  /-- Execute an instruction. -/
  | cons {f g : Flow} {e e' : Event} {i : Insn} {is : List Insn} {t : Nat} {calls : List Nat} : ¬ f.IsAt e → ¬ IsOn c e i →
    f.Known c.toInsnCfg isid i → Exec i f.calls [] t calls →
    Waits c isid { f with ip := t, calls := calls } (nearer f.ip t e) is g e' → Waits c isid f e (i :: is) g e'
  /-- Find the location of a TRIG event: it is `n` instructions behind an address that was reached `k` instructions ago. -/
  | locate {f g : Flow} {e e' : Event} {is : List Insn} (a n m k) : e.data = .trig a n m 0 → e.ipSuppressed = false → k ≤ n →
    Waits c isid f { e with data := .trig a (n - k) m f.ip } is g e' → Waits c isid f e is g e'
  /-- Erratum SKD022: VM entries disable tracing synchronously. -/
  | skd022 {f g : Flow} {e e' : Event} {is : List Insn} (at_ ip : Nat) (i : Insn) : c.evt.pkt.errata.skd022 = true →
    e.data = .asyncDisabled at_ ip → f.ip = at_ → f.At c.toInsnCfg i → i.ext.inst = .vmlaunch ∨ i.ext.inst = .vmresume →
    Waits c isid f { e with data := .disabled ip } is g e' → Waits c isid f e is g e'

/-- An instruction disables tracing, and the decoder expects it to resume at address `t`.  Branches do that, if they are not
followed without the trace.  Without an IP, also writing CR3, and with erratum SKL014, direct branches; the decoder then says
that it resumes at the instruction itself. -/
def Leaves (c : BlkCfg) (e : Event) (i : Insn) (t : Nat) : Prop :=
  (Asking i ∧ Resume i t) ∨ (e.ipSuppressed = true ∧ (changesCr3 i.ext = true ∨ Outside c i) ∧ t = i.ip)

/-- The event comes now. -/
def Flow.Comes (f : Flow) (e : Event) : Prop :=
  match e.data with
  | .disabled ip => e.statusUpdate = true ∨ (e.ipSuppressed = false ∧ f.ip = ip)
  | .tip .. | .tnt .. => False
  | d => (Kind.of d ≠ none → f.enabled = false) ∧ f.Reached e ∧ (countdown e = 0 ∨ f.enabled = false)

/-! ### The machine -/

/-- What a block says about its instructions, which start at `f`. -/
structure Describes (b : Block) (f : Flow) (is : List Insn) : Prop where
  ip : b.ip = f.ip
  mode : b.mode = f.mode
  speculative : b.speculative = f.speculative
  count : b.ninsn = is.length

/-- Instructions are executed while no event waits.  They do not take anything from the trace only if the next item is not an
event.  (Unless items were taken since the last event: for an instruction that an event belonged to, or if the user
wants to know when time has changed.) -/
def Flow.Passes (f : Flow) (its rest : List Item) : Prop :=
  f.pend = none → its = [] → f.late = false → ¬ startsWithEvent rest

/-- A step of the machine: the items that will be taken from the trace later, a state, the items taken now, what the user
sees, and the next state. -/
inductive Flow.BlkStep (c : BlkCfg) (rest : List Item) : Flow → List Item → List BlkSeen → Flow → Prop
  /-- A block of instructions.  Only the last one may be executed with the help of the trace. -/
  | told (f g : Flow) (is : List Insn) (i : Insn) (its : List Item) (t : Nat) (calls : List Nat) (b : Block) :
    f.enabled = true → f.cur = none → f.pend = none → f.Passes its rest →
    f.Walk (Flow.Known c.toInsnCfg b.isid) is [] g → g.Known c.toInsnCfg b.isid i → Exec i g.calls its t calls →
    Describes b f (is ++ [i]) → Ends b (is ++ [i]) t →
    BlkStep c rest f its [.block b] { g with ip := t, calls := calls, late := c.tick && (f.late || !its.isEmpty) }
  /-- A block of instructions that are executed while an event waits, maybe none. -/
  | wait (f g : Flow) (is : List Insn) (b : Block) (e e' : Event) : f.cur = none → f.pend = some e →
    f.Waits c b.isid e is g e' → Describes b f is → Ends b is g.ip →
    BlkStep c rest f [] [.block b] { g with pend := some e' }
  /-- A block up to an instruction that the event belongs to.  The instruction is part of the block but is not executed. -/
  | hold (f g : Flow) (is : List Insn) (i : Insn) (b : Block) (e : Event) (k : Kind) (l : Option Nat) : f.enabled = true →
    f.cur = none → f.pend = some e → f.Waits c b.isid e is g e → g.Known c.toInsnCfg b.isid i →
    Kind.of e.data = some (k, l) → Belongs e k l i → Describes b f (is ++ [i]) → EndsAt b i →
    BlkStep c rest f [] [.block b] { g with cur := some i, bound := [] }
  /-- A block up to an instruction that disables tracing. -/
  | leave (f g : Flow) (is : List Insn) (i : Insn) (b : Block) (e e' : Event) (ip t : Nat) : f.cur = none → f.pend = some e →
    f.Waits c b.isid e is g e' → g.Known c.toInsnCfg b.isid i → e'.data = .disabled ip → e'.statusUpdate = false →
    Leaves c e' i t → Describes b f (is ++ [i]) → EndsAt b i →
    BlkStep c rest f [] [.block b] { g with pend := some e', cur := some i, bound := [] }
  /-- Execute the instruction at the end of the block.  The next event does not belong to it. -/
  | exec (f : Flow) (i : Insn) (its : List Item) (t : Nat) (calls : List Nat) : f.enabled = true → f.cur = some i →
    Exec i f.calls its t calls →
    (∀ e k l, f.pend = some e → Kind.of e.data = some (k, l) → k ∈ f.bound ∨ k.fits i.ext = false ∨
      (l ≠ none ∧ e.ipSuppressed = false)) → f.Passes its rest →
    BlkStep c rest f its [] { f with ip := t, calls := calls, cur := none, bound := [], late := f.late || !its.isEmpty }
  /-- Tracing is disabled: the instruction at the end of the block is forgotten. -/
  | drop (f : Flow) (i : Insn) : f.enabled = false → f.cur = some i →
    BlkStep c rest f [] [] { f with calls := calling i f.calls ((i.ip + i.size) % 2 ^ 64), cur := none, bound := [] }
  /-- Tracing is disabled: the instruction at the end of the block tells where it is expected to resume. -/
  | resume (f : Flow) (i : Insn) (t : Nat) : f.enabled = false → f.cur = some i → Resume i t →
    BlkStep c rest f [] [] { f with ip := t }
  /-- Take an event from the trace. -/
  | take (f : Flow) (e : Event) : f.pend = none → BlkStep c rest f [.event e] [] { f with pend := some e, late := false }
  /-- Time has changed.  Only if the user wants to know. -/
  | tick (f : Flow) (e : Event) (ip : Nat) : c.tick = true → f.pend = none → e.data = .tick ip →
    BlkStep c rest f [] [] { f with pend := some e }
  /-- The event changes. -/
  | note (f : Flow) (e e' : Event) : f.pend = some e → f.Waits c 0 e [] f e' → BlkStep c rest f [] [] { f with pend := some e' }
  /-- Erratum BDM64: the branch before a transaction abort may have been traced wrong. -/
  | bdm64 (f : Flow) (e : Event) (spec : Bool) (ip : Nat) : c.evt.pkt.errata.bdm64 = true → f.pend = some e →
    f.cur = none → e.data = .tsx spec true ip → e.ipSuppressed = false → BlkStep c rest f [] [] { f with ip := ip }
  /-- Show an event. -/
  | event (f : Flow) (e : Event) : f.pend = some e → f.cur = none ∨ f.enabled = false → f.Comes e → f.Allows e →
    BlkStep c rest f [] [.event e (f.resumes e)] { f.apply e with pend := none }
  /-- Show an event that belongs to the instruction at the end of the block. -/
  | belongs (f : Flow) (e : Event) (k : Kind) (l : Option Nat) (i : Insn) : f.enabled = true → f.pend = some e →
    f.cur = some i → Kind.of e.data = some (k, l) → Belongs e k l i → k ∉ f.bound →
    BlkStep c rest f [] [.event e false] { f.apply e with pend := none, bound := k :: f.bound }
  /-- Show that the instruction at the end of the block disabled tracing. -/
  | disable (f : Flow) (e : Event) (ip t : Nat) (i : Insn) : f.enabled = true → f.pend = some e → f.cur = some i →
    e.data = .disabled ip → e.statusUpdate = false → Leaves c e i t →
    BlkStep c rest f [] [.event e false] { f.apply e with pend := none, ip := t }
  /-- The user changes the image. -/
  | image (f : Flow) (l : List Msec) : BlkStep c rest f [] [.image l] { f with sections := fun m => m ∈ l }

/-- A number of steps.  They take the items `its`; `rest` are the items taken later. -/
inductive Flow.BlkSteps (c : BlkCfg) (rest : List Item) : Flow → List Item → List BlkSeen → Flow → Prop
  | nil (f : Flow) : BlkSteps c rest f [] [] f
  | cons {f g h : Flow} {its its' : List Item} {out out' : List BlkSeen} : Flow.BlkStep c (its' ++ rest) f its out g →
    BlkSteps c rest g its' out' h → BlkSteps c rest f (its ++ its') (out ++ out') h

/-! ### Users -/

/-- Synchronize a block decoder. -/
def SyncCall.blk (c : BlkCfg) : SyncCall → BM Flags
  | .forward => blkSyncForward c
  | .backward => blkSyncBackward c
  | .set o => blkSyncSet c o

/-- The code at the decoder's address is code for the current execution mode: `M` says which mode each file's code is for. -/
def InMode (M : Nat → Mode) (s : Bdec) : Prop :=
  ∀ m ∈ s.sc.img.secs, SameSpace m.asid s.sc.asid → m.Covers s.ip → M m.sec = s.mode

/-- A user of a block decoder: as long as the flags say that an event is pending, they call `pt_blk_event`, otherwise
`pt_blk_next`.  In between they may change the image.  The calls succeed.  Code is executed in the mode it is for, and mapping a
section does not fail with `-pte_bad_query`. -/
inductive BlkFollows (c : BlkCfg) (M : Nat → Mode) : Bdec → Flags → List BlkSeen → Bdec → Flags → Prop
  | done (s fl) : BlkFollows c M s fl [] s fl
  | next {s fl s1 fl1 out s' fl'} : fl.eventPending = false → InMode M s → (∀ r ∈ s.maps, r ≠ .err .badQuery) →
    blkNext c s = (s1, .ok fl1) → BlkFollows c M s1 fl1 out s' fl' → BlkFollows c M s fl (.block s1.blk :: out) s' fl'
  | event {s fl s1 o out s' fl'} : fl.eventPending = true → blkEvent c s = (s1, .ok o) →
    BlkFollows c M s1 o.flags out s' fl' → BlkFollows c M s fl (.event o.event o.resumed :: out) s' fl'
  | image {s fl img out s' fl'} : (∀ m ∈ img.secs, m.WF c.env) →
    BlkFollows c M { s with sc := scSetImage s.sc img } fl out s' fl' → BlkFollows c M s fl (.image img.secs :: out) s' fl'

end Ipt.Spec
