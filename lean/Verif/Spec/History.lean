import Verif.Spec.Query
import Verif.Spec.Flow
import Verif.MsecCache

/-!
# Specification: what a user sees of a decoder after synchronizing it
-/

namespace Ipt.Spec

/-- What the user of an event decoder sees in a sequence of calls: for each call, the result, and the offset of the
decoder after the call.  The user may go on after an error. -/
def evtSeen (c : EvtCfg) : List EvtCall → Evd → List (Res (Option Event) × Res Nat)
  | [], _ => []
  | o :: os, s => ((o.run c s).2, evtGetOffset (o.run c s).1) :: evtSeen c os (o.run c s).1

/-- What the user of a query decoder sees in a sequence of queries: for each query, the answer with the status flags,
and, after the query, the time, the core:bus ratio and the offset. -/
def qrySeen (c : EvtCfg) : List Query → Qdec → List (Res (Item × Flags) × Res (Nat × Nat × Nat) × Res Nat × Res Nat)
  | [], _ => []
  | q :: qs, s =>
    ((q.run c s).2, (q.run c s).1.lastTime.queryTsc, (q.run c s).1.lastTime.queryCbr, (q.run c s).1.getOffset) ::
      qrySeen c qs (q.run c s).1

/-- A call of `pt_insn_next` or `pt_insn_event`. -/
inductive FlowCall
  | next | event

/-- The result of a call: an instruction with its flags, or an event with its flags. -/
def FlowCall.run (c : InsnCfg) (s : Idec) : FlowCall → Idec × Res (NextOut ⊕ EventOut)
  | .next => ((insnNext c s).1, (insnNext c s).2.bind fun x => .ok (.inl x))
  | .event => ((insnEvent c s).1, (insnEvent c s).2.bind fun x => .ok (.inr x))

/-- What the user of an instruction flow decoder sees in a sequence of calls: for each call, the result, and, after the
call, the time, the core:bus ratio, the offset and the address space.  The user may go on after an error. -/
def insnSeen (c : InsnCfg) :
    List FlowCall → Idec → List (Res (NextOut ⊕ EventOut) × Res (Nat × Nat × Nat) × Res Nat × Res Nat × Asid)
  | [], _ => []
  | o :: os, s =>
    let s' := (o.run c s).1
    ((o.run c s).2, s'.q.lastTime.queryTsc, s'.q.lastTime.queryCbr, s'.q.getOffset, s'.sc.asid) :: insnSeen c os s'

/-- No address is covered by two different sections, whatever their address spaces. -/
def Unambiguous (secs : List Msec) : Prop :=
  ∀ m ∈ secs, ∀ n ∈ secs, ∀ x, m.vaddr ≤ x ∧ x < m.end_ → n.vaddr ≤ x ∧ x < n.end_ → m = n

/-- There is room for one more reference to each section, in addition to the one held for the cached section. -/
def Room (s : ScSt) : Prop :=
  ∀ sec, s.img.uc sec < 65535 + (match s.cache with | some m => (if m.sec = sec then 1 else 0) | none => 0)

/-- The cached section belongs to the current address space; see `C46` for why this holds. -/
def CacheFits (s : ScSt) : Prop := ∀ m, s.cache = some m → SameSpace m.asid s.asid

end Ipt.Spec
