/-!
# Specification of PSB synchronization points
-/

namespace Ipt.Spec

/-- The two-byte PSB pattern 0x02 0x82 at offset `i`. -/
def PsbPair (m : List UInt8) (i : Nat) : Prop := m[i]? = some 0x02 ∧ m[i + 1]? = some 0x82

instance (m : List UInt8) (i : Nat) : Decidable (PsbPair m i) := by unfold PsbPair; infer_instance

/-- A complete PSB packet - the pattern eight times, 16 bytes - at offset `q`. -/
def IsPsb (m : List UInt8) (q : Nat) : Prop := ∀ j, j < 8 → PsbPair m (q + 2 * j)

instance (m : List UInt8) (q : Nat) : Decidable (IsPsb m q) := by unfold IsPsb; infer_instance

/-- The bytes from `a` up to `b` consist of nothing but repetitions of the PSB pattern. -/
def PsbRun (m : List UInt8) (a b : Nat) : Prop :=
  ∃ k, b = a + 2 * k ∧ ∀ j, j < k → PsbPair m (a + 2 * j)

end Ipt.Spec
