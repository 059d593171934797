import Verif.QueryDecoder
import Verif.Props.Psb
import Verif.Props.TntCache

/-!
# Specification: what the query decoder hands out

The query decoder splits the events of the event decoder into what a user can ask for.
-/

namespace Ipt.Spec

/-- What a user of the query decoder can ask for. -/
inductive Query
  /-- `pt_qry_cond_branch` -/
  | cond
  /-- `pt_qry_indirect_branch` -/
  | indirect
  /-- `pt_qry_event` -/
  | event
deriving DecidableEq, Repr

/-- What the query decoder hands out: the outcome of a conditional branch, the target of an indirect branch (none if it
is suppressed), or an event. -/
inductive Item
  | bit (taken : Bool)
  | target (ip : Option Nat)
  | event (e : Event)
deriving DecidableEq, Repr

/-- The query for an item. -/
def Item.query : Item → Query
  | .bit _ => .cond
  | .target _ => .indirect
  | .event _ => .event

/-- The item is a branch outcome. -/
def Item.isBit : Item → Bool
  | .bit _ => true
  | _ => false

/-- The items in an event of the event decoder, in trace order. -/
def items (e : Event) : List Item :=
  match e.data with
  | .tnt bits size => (tntBits bits size).map .bit
  | .tip ip => [.target (if e.ipSuppressed = true then none else some ip)]
  | _ => [.event e]

/-- Run a query. -/
def Query.run (c : EvtCfg) : Query → Qdec → Qdec × Res (Item × Flags)
  | .cond, s => match condBranch c s with | (s', r) => (s', r.bind fun (b, f) => .ok (.bit b, f))
  | .indirect, s => match indirectBranch c s with | (s', r) => (s', r.bind fun (ip, f) => .ok (.target ip, f))
  | .event, s => match qryEvent c s with | (s', r) => (s', r.bind fun (e, f) => .ok (.event e, f))

/-- The answers to a sequence of queries. -/
def answers (c : EvtCfg) : List Query → Qdec → List (Res (Item × Flags))
  | [], _ => []
  | q :: qs, s => (q.run c s).2 :: answers c qs (q.run c s).1

/-- The decoder after a sequence of queries. -/
def afterQueries (c : EvtCfg) : List Query → Qdec → Qdec
  | [], s => s
  | q :: qs, s => afterQueries c qs (q.run c s).1

/-- The item in an answer. -/
def itemOf : Res (Item × Flags) → Option Item
  | .ok (x, _) => some x
  | _ => none

/-- The items handed out by a sequence of queries. -/
def handed (c : EvtCfg) (qs : List Query) (s : Qdec) : List Item := (answers c qs s).filterMap itemOf

/-- The ways to synchronize. -/
inductive SyncCall
  | forward | backward | set (offset : Nat)
deriving DecidableEq, Repr

/-- Synchronize a query decoder. -/
def SyncCall.run (c : EvtCfg) : SyncCall → Qdec → Qdec × Res (Flags × Option Nat)
  | .forward, s => qrySyncForward c s
  | .backward, s => qrySyncBackward c s
  | .set o, s => qrySyncSet c o s

/-- Synchronize an event decoder. -/
def SyncCall.evt : SyncCall → EvtCall
  | .forward => .syncForward
  | .backward => .syncBackward
  | .set o => .syncSet o

/-- The query decoder `s` is one event or error ahead of the event decoder `d`, and has nothing else in store. -/
def Ahead (c : EvtCfg) (d : Evd) (s : Qdec) : Prop :=
  s.tnt = {} ∧
  match evtNext c d with
  | (ev, .ok e) => s.ev = ev ∧ s.event = .ok e ∧ s.status = none
  | (ev, .err x) => s.ev = ev ∧ s.event = .bad ∧ s.status = some x
  | (_, .ub) => False

/-- The query decoder `s` has just been synchronized, and `d` is an event decoder that has been synchronized in the same
way.  (For backward synchronization, the query decoder may synchronize its event decoder repeatedly; `d0` is the event
decoder before the last time.)  See `C37_synchronized`: there is such a `d` after every successful synchronization. -/
def Synchronized (c : EvtCfg) (d : Evd) (s : Qdec) : Prop :=
  ∃ s0 o f ip, SyncCall.run c o s0 = (s, .ok (f, ip)) ∧
    (∃ d0, (o.evt.run c d0) = (d, .ok none) ∧ (o ≠ .backward → d0 = s0.ev)) ∧ Ahead c d s

/-- The event decoder `d` first delivers the events `es`. -/
def Delivers (c : EvtCfg) (d : Evd) (es : List Event) : Prop :=
  evtResults c (nexts es.length) d = es.map fun e => .ok (some e)

/-- The event decoder `d` first delivers the events `es` and then the error `x`. -/
def Fails (c : EvtCfg) (d : Evd) (es : List Event) (x : Err) : Prop :=
  evtResults c (nexts (es.length + 1)) d = (es.map fun e => .ok (some e)) ++ [.err x]

/-- The user does not ask for the target of an indirect branch when the next item in the trace is the outcome of a
conditional branch. -/
def Orderly (c : EvtCfg) (d : Evd) (s : Qdec) (qs : List Query) : Prop :=
  ∀ p r, qs = p ++ .indirect :: r → ∀ es b, Delivers c d es → ¬ (handed c p s ++ [.bit b]) <+: es.flatMap items

/-- Assumptions on the configuration: the MTC frequency is one that the processor supports, `cpuid_0x15.ebx` is a 32-bit
value, the user's callback for unknown packets does not return zero, and the buffer is smaller than 2 GB. -/
structure Usable (c : EvtCfg) : Prop where
  mtcFreq : c.time.mtcFreq < 16
  ebx : c.time.ebx < 2 ^ 32
  cb : ∀ f, c.pkt.cb = some f → ∀ pos, f pos ≠ 0
  len : c.pkt.mem.length + 1 < 2 ^ 31

end Ipt.Spec
