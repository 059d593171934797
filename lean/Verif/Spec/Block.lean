import Verif.Spec.Flow
import Verif.BlockDecoder
import Verif.Props.RetStack

/-!
# Specification: blocks of instructions, and the entries of a block cache
-/

namespace Ipt.Spec

open Ild

/-! ### Block cache entries

They are about the bytes of one section, in one execution mode, and know nothing about decoders. -/

/-- There is an instruction at an offset in a section: `n` bytes that the length decoder takes for `x`. -/
structure Within (env : SecEnv) (sec : Nat) (mode : Mode) (off n : Nat) (x : Iext) : Prop where
  size : 1 ≤ n ∧ n ≤ 15
  inside : off + n ≤ env.size sec
  decodes : ildDecode ((List.range n).map fun k => env.byte sec (off + k)) n mode = (n, .ok x)

/-- `k` instructions lead from one offset to another: each one is followed by the next instruction, or it is a direct
jump forward. -/
inductive Straight (env : SecEnv) (sec : Nat) (mode : Mode) : Nat → Nat → Nat → Prop
  | nil (off) : Straight env sec mode off 0 off
  | fall {off n x k off'} : Within env sec mode off n x → x.cls = .other ∨ x.cls = .ptwrite →
    Straight env sec mode (off + n) k off' → Straight env sec mode off (k + 1) off'
  | jump {off n x k off'} (d : Nat) : Within env sec mode off n x → x.cls = .jump → x.isDirect = true →
    x.inst ≠ .jmpabs → x.displacement = d → Straight env sec mode (off + n + d) k off' →
    Straight env sec mode off (k + 1) off'

/-- What a qualifier says about an instruction. -/
def Asks (q : Qual) (x : Iext) : Prop :=
  match q with
  | .cond => x.cls = .condJump
  | .indCall => x.cls = .call ∧ x.isDirect = false
  | .return => x.cls = .return
  | .indirect => x.cls ∈ [.jump, .farCall, .farReturn, .farJump, .indirect] ∧ (x.isDirect = true → x.inst = .jmpabs)
  | .again | .decode => True

/-- A correct entry.  It says how many instructions there are up to the next one that is not followed by a known
instruction, which is included, how far that one is away, what it is, and optionally how long it is.  The numbers fit into
the fields they are stored in. -/
def EntryOk (env : SecEnv) (sec off : Nat) (e : Bce) : Prop :=
  e.isValid = true → e.ninsn < 2 ^ 8 ∧ e.displacement < 2 ^ 15 ∧ ∃ k off', Straight env sec e.mode off k off' ∧ (off' : Int) = off + e.displacement ∧
    match e.qualifier with
    | .again => e.ninsn = k ∧ 0 < k
    | .decode => e.ninsn = k + 1
    | q => e.ninsn = k + 1 ∧ ∃ n x, Within env sec e.mode off' n x ∧ Asks q x ∧ (e.isize = 0 ∨ e.isize = n)

/-- A correct entry for an allowed execution mode.  `allowed` says which execution modes a section's entries may be for. -/
def EntryFor (env : SecEnv) (allowed : Nat → Mode → Prop) (sec off : Nat) (e : Bce) : Prop :=
  EntryOk env sec off e ∧ (e.isValid = true → allowed sec e.mode)

/-- All entries of all block caches are correct. -/
def CacheOk (env : SecEnv) (allowed : Nat → Mode → Prop) (b : Bcache) : Prop :=
  ∀ sec off, EntryFor env allowed sec off (b sec off)

/-- All entries other decoders write are correct. -/
def WritesOk (env : SecEnv) (allowed : Nat → Mode → Prop) (l : List (List BceWrite)) : Prop :=
  ∀ ws ∈ l, ∀ w ∈ ws, EntryFor env allowed w.sec w.index w.entry

/-! ### Blocks -/

/-- Executing instructions, one after the other.  They take items from the trace. -/
inductive Flow.Walk (known : Flow → Insn → Prop) : Flow → List Insn → List Item → Flow → Prop
  | nil (f : Flow) : Walk known f [] [] f
  | cons {f g : Flow} {i : Insn} {is : List Insn} {its its' : List Item} {t : Nat} {calls : List Nat} : known f i →
    Exec i f.calls its t calls → Walk known { f with ip := t, calls := calls } is its' g →
    Walk known f (i :: is) (its ++ its') g

/-- The next instruction is a branch that needs trace, it starts in a section of the image but ends behind it, and its
bytes are those in the file the section is from. -/
def Flow.Cut (c : InsnCfg) (f : Flow) (i : Insn) : Prop :=
  i.ip = f.ip ∧ i.mode = f.mode ∧ i.ext.cls ∉ [.other, .ptwrite, .unknown] ∧ (i.ext.cls = .condJump ∨ ¬ Direct i) ∧
  ∃ m, f.sections m ∧ SameSpace m.asid f.asid ∧ m.vaddr ≤ f.ip ∧ f.ip < m.vaddr + m.size ∧
    m.vaddr + m.size < f.ip + i.size ∧ Within c.env m.sec f.mode (m.offset + (f.ip - m.vaddr)) i.size i.ext

/-- The next instruction starts in a section with this identifier, or in memory read by the user's callback. -/
def Flow.From (c : InsnCfg) (f : Flow) (isid : Nat) : Prop :=
  (∃ m, f.sections m ∧ SameSpace m.asid f.asid ∧ m.vaddr ≤ f.ip ∧ f.ip < m.vaddr + m.size ∧ m.isid = isid) ∨
  (isid = 0 ∧ c.cb.isSome = true)

/-- An instruction in a block. -/
def Flow.Known (c : InsnCfg) (isid : Nat) (f : Flow) (i : Insn) : Prop := (f.At c i ∨ f.Cut c i) ∧ f.From c isid

/-- The block decoder is where the machine is. -/
structure Stands (s : Bdec) (f : Flow) : Prop where
  ip : f.ip = s.ip
  mode : f.mode = s.mode
  asid : f.asid = s.sc.asid
  sections : ∀ m, m ∈ s.sc.img.secs ↔ f.sections m
  calls : s.retstack.Holds f.calls

/-- What a block says about its last instruction.  Some branches are reported as indirect branches. -/
def EndsAt (b : Block) (i : Insn) : Prop :=
  b.endIp = i.ip ∧
  (b.iclass = i.ext.cls ∨
    (b.iclass = .indirect ∧ i.ext.cls ∈ [.jump, .farCall, .farReturn, .farJump] ∧ ¬ Direct i)) ∧
  (b.truncated = true → b.size = i.size ∧ b.raw.take i.size = i.raw.take i.size)

/-- What a block says about its last instruction, or else the instruction's class is unknown and the block gives the
address of the next instruction as the last one's. -/
def Ends (b : Block) (is : List Insn) (next : Nat) : Prop :=
  ∀ i, is.getLast? = some i → EndsAt b i ∨ (b.iclass = .unknown ∧ b.endIp = next ∧ b.truncated = false)

/-- Taking items from the decoder's current event and from the event decoder.  The state is the event decoder, the current
event and the error the event decoder reported. -/
inductive Takes (c : BlkCfg) : Evd × Option Event × Option Err → List Item → Evd × Option Event × Option Err → Prop
  | nothing (d) : Takes c d [] d
  /-- The next outcome in the current event. -/
  | bit (d e e' b x) : items e = .bit b :: items e' → Takes c (d, some e, x) [.bit b] (d, some e', x)
  /-- The target in the current event, which is then replaced by the next one. -/
  | target (d e ip d' e' x) : items e = [.target (some ip)] → evtNext c.evt d = (d', .ok e') →
    Takes c (d, some e, x) [.target (some ip)] (d', some e', x)
  | last (d e ip d' x y) : items e = [.target (some ip)] → evtNext c.evt d = (d', .err y) →
    Takes c (d, some e, x) [.target (some ip)] (d', none, some y)
  /-- The target in the current event, which is then replaced by a tick event. -/
  | tick (d e ip a x) : c.tick = true → items e = [.target (some ip)] →
    Takes c (d, some e, x) [.target (some ip)] (d, some { e with data := .tick a }, x)
  /-- The target in the next event, while there are outcomes in the current one. -/
  | deferred (d e d' e' bits n ip x) : e.data = .tnt bits n → evtNext c.evt d = (d', .ok e') → e'.data = .tip ip →
    Takes c (d, some e, x) [.target (some ip)] (d', some e, x)

/-- The decoder's part in `Takes`. -/
def _root_.Ipt.Bdec.trace (s : Bdec) : Evd × Option Event × Option Err := (s.ev, s.event, s.status)

/-! ### Users -/

/-- What happens to a block decoder: calls of `pt_blk_next`, `pt_blk_event` and the synchronization functions, changes of its
image, and losing the block cache of a section because all decoders unmapped it. -/
inductive BlkCall
  | next | event | sync (o : SyncCall) | image (img : Img) | forget (sec : Nat)

/-- The decoder after a call, whatever it returns, unless its behaviour is undefined. -/
def BlkCall.run (c : BlkCfg) (s : Bdec) : BlkCall → Option Bdec
  | .next => after (blkNext c s)
  | .event => after (blkEvent c s)
  | .sync .forward => after (blkSyncForward c s)
  | .sync .backward => after (blkSyncBackward c s)
  | .sync (.set o) => after (blkSyncSet c o s)
  | .image img => some { s with sc := { s.sc with img := img } }
  | .forget sec => some { s with bc := fun t i => if t = sec then {} else s.bc t i }
where
  after {α : Type} (r : Bdec × Res α) : Option Bdec :=
    match r.2 with
    | .ub => none
    | _ => some r.1

/-- The decoder after several calls. -/
def blkRun (c : BlkCfg) : Bdec → List BlkCall → Option Bdec
  | s, [] => some s
  | s, o :: l => (o.run c s).bind fun s => blkRun c s l

/-- The next instruction is in a section from this file. -/
def Flow.InUse (f : Flow) (sec : Nat) : Prop :=
  ∃ m, f.sections m ∧ SameSpace m.asid f.asid ∧ m.Covers f.ip ∧ m.sec = sec

end Ipt.Spec
