import Verif.Spec.Sync

/-!
# Segments of a trace

Decoding can start at the PSBs of a trace.  They divide the trace into segments.
-/

namespace Ipt.Spec

/-- Decoding can start at offset `q`.  If PSBs follow one another, this is the last one. -/
def SegmentStart (m : List UInt8) (q : Nat) : Prop := IsPsb m q ∧ ¬ PsbPair m (q + 16)

instance (m : List UInt8) (q : Nat) : Decidable (SegmentStart m q) := by unfold SegmentStart; infer_instance

/-- The bytes from `b` up to `e` are one segment of the trace: it reaches from a PSB, or the beginning of the trace, to
the next PSB, or the end of the trace. -/
structure Segment (m : List UInt8) (b e : Nat) : Prop where
  starts : b = 0 ∨ SegmentStart m b
  ends : e = m.length ∨ SegmentStart m e
  between : ∀ q, b < q → q < e → ¬ SegmentStart m q

/-- The offset is inside a PSB. -/
def InsidePsb (m : List UInt8) (o : Nat) : Prop := ∃ q, q ≤ o ∧ o < q + 16 ∧ IsPsb m q

end Ipt.Spec
