import Verif.Spec.Flow

/-!
# Specification: tick events (C79)
-/

namespace Ipt.Spec

/-- The event that was shown last; `e` is the one before. -/
def lastEvent : Option Event → List Seen → Option Event
  | e, [] => e
  | _, .event e _ :: l => lastEvent (some e) l
  | e, _ :: l => lastEvent e l

/-- The instruction that was shown last; `i` is the one before. -/
def lastInsn : Option Insn → List Seen → Option Insn
  | i, [] => i
  | _, .insn i _ :: l => lastInsn (some i) l
  | i, _ :: l => lastInsn i l

/-- The trace tells where to go after the instruction: conditional branches, and branches whose target is not in the
instruction. -/
def ByTrace (i : Insn) : Prop :=
  i.ext.cls = .condJump ∨
    (i.ext.cls ≠ .other ∧ i.ext.cls ≠ .ptwrite ∧ i.ext.cls ≠ .unknown ∧ (i.ext.isDirect = false ∨ i.ext.inst = .jmpabs))

/-- The event has the time that the decoder provides (`pt_insn_time`): whether it is absolute, the value, and the numbers of
lost packets. -/
def TimedBy (e : Event) (t : Time) : Prop :=
  e.hasTsc = t.haveTsc ∧ e.tsc = t.tsc ∧ e.lostMtc = t.lostMtc ∧ e.lostCyc = t.lostCyc

end Ipt.Spec
