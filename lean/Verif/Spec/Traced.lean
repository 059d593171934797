import Verif.Spec.Flow

/-!
# Specification: programs and their traces

What a program does, in the order in which it happens, and the trace that tells about it.  `Traced c f out l` says: from
state `f` on, the user of an ideal decoder would be shown `out`, and the trace of this is `l`.  The trace tells
everything in the order in which it happens: outcomes of branches and events that belong to an instruction come when the
instruction is executed, and events between two instructions come when their location is reached.
-/

namespace Ipt.Spec

open Ild

/-- The same instruction, up to the identifier of the section it comes from, and what is behind it in memory. -/
structure SameInsn (i j : Insn) : Prop where
  ip : j.ip = i.ip
  mode : j.mode = i.mode
  size : j.size = i.size
  ext : j.ext = i.ext
  raw : j.raw.take i.size = i.raw.take i.size

/-- The user sees the same. -/
inductive Like : Seen → Seen → Prop
  | insn (i j : Insn) (b : Bool) : SameInsn i j → Like (.insn i b) (.insn j b)
  | event (e : Event) (b : Bool) : Like (.event e b) (.event e b)

/-- Lists of the same length in which each element is related to its counterpart. -/
inductive Each {α β : Type} (r : α → β → Prop) : List α → List β → Prop
  | nil : Each r [] []
  | cons {a b l l'} : r a b → Each r l l' → Each r (a :: l) (b :: l')

/-- The user sees the same.  If tick events are enabled, there may be tick events between the rest. -/
inductive Alike (tick : Bool) : List Seen → List Seen → Prop
  | nil : Alike tick [] []
  | cons {a b l l'} : Like a b → Alike tick l l' → Alike tick (a :: l) (b :: l')
  | tick {l l'} (e : Event) (ip : Nat) : tick = true → e.data = .tick ip → Alike tick l l' →
    Alike tick l (.event e false :: l')

/-- A TRIG event that is located by the number of instructions since the trace told an address. -/
def Unlocated (e : Event) : Prop := e.ipSuppressed = false ∧ ∃ a n m, e.data = .trig a n m 0

/-- The next item is not an event that comes now, or that must be located first. -/
def Flow.Quiet (c : InsnCfg) (f : Flow) (l : List Item) : Prop :=
  ∀ e l', l = .event e :: l' → ¬ f.Due c e ∧ (f.cur = none → ¬ Unlocated e)

/-- The next instruction is a VM entry. -/
def Flow.AtVmEntry (c : InsnCfg) (f : Flow) : Prop :=
  f.ip < 2 ^ 64 ∧ ∃ i, f.At c i ∧ (i.ext.inst = .vmlaunch ∨ i.ext.inst = .vmresume)

/-- The next instruction is not a VM entry, or there is nothing in memory. -/
def Flow.NotAtVmEntry (c : InsnCfg) (f : Flow) : Prop :=
  f.ip < 2 ^ 64 ∧ ((∃ i, f.At c i ∧ i.ext.inst ≠ .vmlaunch ∧ i.ext.inst ≠ .vmresume) ∨ ∀ b, ¬ f.Byte c f.ip b)

/-- After an instruction that takes the items `its`: the number of instructions since the trace told the address. -/
def counting (its : List Item) (n : Option Nat) : Option Nat := if its = [] then n.map (· + 1) else some 0

/-- After an instruction at address `x` that takes the items `its` and goes to `t`: if the next event is a TRIG event a
number of instructions behind `x`, it is one less behind `t`. -/
def ahead (its : List Item) (n : Option Nat) (x t : Nat) : List Item → List Item
  | .event e :: l => if its = [] ∧ n ≠ none then .event (nearer x t e) :: l else .event e :: l
  | l => l

/-- What is shown and its trace, from a state on.  (`f.pend` is not used.) -/
inductive Traced (c : InsnCfg) : Flow → List Seen → List Item → Prop
  /-- This is the end of the trace. -/
  | done (f : Flow) : f.cur = none → Traced c f [] []
  /-- Show the next instruction.  Events at its address come first. -/
  | insn (f : Flow) (i : Insn) (out l) : f.enabled = true → f.cur = none → f.ip < 2 ^ 64 → f.At c i → f.Quiet c l →
    Traced c { f with cur := some i, bound := [] } out l → Traced c f (.insn i f.speculative :: out) l
  /-- An event that belongs to the instruction. -/
  | belongs (f : Flow) (i : Insn) (e : Event) (k : Kind) (loc : Option Nat) (out l) : f.enabled = true → f.cur = some i →
    Kind.of e.data = some (k, loc) → f.Due c e →
    Traced c { f.apply e with bound := k :: f.bound } out l → Traced c f (.event e false :: out) (.event e :: l)
  /-- Execute the instruction.  All events that belong to it were before, and so were TRIG events at its address.  There
  are less than 2^32 instructions the trace tells nothing about. -/
  | exec (f : Flow) (i : Insn) (its : List Item) (t : Nat) (calls : List Nat) (out l) : f.enabled = true →
    f.cur = some i → Exec i f.calls its t calls → f.Quiet c (its ++ l) →
    (∀ n, counting its f.count = some n → n < 2 ^ 32) →
    (∀ e l' a n m, its ++ l = .event e :: l' → f.count ≠ none → e.data = .trig a n m i.ip → n ≠ 0 ∧ i.ip ≠ 0) →
    Traced c { f with ip := t, calls := calls, cur := none, count := counting its f.count } out (ahead its f.count i.ip t l) →
    Traced c f out (its ++ l)
  /-- Executing the instruction disables tracing. -/
  | disable (f : Flow) (i : Insn) (e : Event) (ip t : Nat) (out l) : f.enabled = true → f.cur = some i →
    e.data = .disabled ip → f.Due c e → Resume i t →
    Traced c { f.apply e with ip := t, cur := none } out l → Traced c f (.event e false :: out) (.event e :: l)
  /-- An event between two instructions, or while tracing is disabled.  On processors with erratum SKD022, tracing is
  disabled this way only if the next instruction is not a VM entry. -/
  | event (f : Flow) (e : Event) (out l) : f.cur = none → f.Due c e → f.Allows e → ¬ Unlocated e →
    (c.evt.pkt.errata.skd022 = true → ∀ at_ ip, e.data = .asyncDisabled at_ ip → f.NotAtVmEntry c) →
    Traced c (f.apply e) out l → Traced c f (.event e (f.resumes e) :: out) (.event e :: l)
  /-- Erratum SKD022: when a VM entry disables tracing, the trace tells that tracing was disabled before it. -/
  | skd022 (f : Flow) (e : Event) (at_ ip : Nat) (out l) : c.evt.pkt.errata.skd022 = true → f.cur = none →
    e.data = .asyncDisabled at_ ip → e.statusUpdate = false → f.ip = at_ → f.AtVmEntry c →
    Traced c f out (.event { e with data := .disabled ip } :: l) → Traced c f out (.event e :: l)
  /-- A TRIG event that is `n` instructions behind the address the trace told last, and `n - k` instructions behind the
  current one.  (Not address zero: the decoder takes it for an event that is not located.) -/
  | locate (f : Flow) (e : Event) (a n : Nat) (m : Bool) (k : Nat) (out l) : f.cur = none → e.data = .trig a n m 0 →
    e.ipSuppressed = false → f.count = some k → k ≤ n → f.ip ≠ 0 →
    Traced c f out (.event { e with data := .trig a (n - k) m f.ip } :: l) → Traced c f out (.event e :: l)

/-- No section reaches the end of the address space. -/
def Placed (secs : List Msec) : Prop := ∀ m ∈ secs, m.vaddr + m.size < 2 ^ 64

/-- The user's callback provides this memory: at most as many bytes as asked for, at least one if there is one, and it
returns -pte_nomap otherwise. -/
structure Serves (g : Nat → Asid → Nat → Res (List UInt8)) (mem : Asid → Mem) : Prop where
  bytes : ∀ n a x bs, g n a x = .ok bs → bs.length ≤ n ∧ ∀ k b, bs[k]? = some b → mem a ((x + k) % 2 ^ 64) = some b
  some : ∀ n a x b, 1 ≤ n → x < 2 ^ 64 → mem a x = some b → ∃ bs, g n a x = .ok bs ∧ 1 ≤ bs.length
  none : ∀ n a x, x < 2 ^ 64 → mem a x = none → g n a x = .err .nomap
  safe : ∀ n a x, g n a x ≠ .ub

/-- The memory provided by the callback, if there is one. -/
def CbMem : ReadCb → (Asid → Mem) → Prop
  | none, mem => ∀ a x, mem a x = none
  | some g, mem => Serves g mem

/-- Where a memory and a section overlap, they show the same. -/
def AgreesWith (env : SecEnv) (mem : Asid → Mem) (secs : List Msec) : Prop :=
  ∀ m ∈ secs, ∀ a x b, m.vaddr ≤ x → x < m.vaddr + m.size → SameSpace m.asid a → mem a x = some b →
    b = env.byte m.sec (m.offset + (x - m.vaddr))

/-- The callback, if there is one, provides some memory that agrees with the sections.  Trivially true without a
callback. -/
def Agrees (c : InsnCfg) (secs : List Msec) : Prop := ∃ mem, CbMem c.cb mem ∧ AgreesWith c.env mem secs

end Ipt.Spec
