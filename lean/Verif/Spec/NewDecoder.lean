import Verif.DecoderInit

/-!
# What a new decoder should look like (C77, C78)
-/

namespace Ipt.Spec

/-- The bytes `u` are a `struct pt_config` of the user: `size` is its size, as declared in its first field, and it has
that many bytes; `b` and `e` are the begin and end pointers, provided that they are there. -/
structure UserConfig (u : List UInt8) (size b e : Nat) : Prop where
  declared : rdLE u 0 8 = .ok size
  len : size ≤ u.length
  ptrs : 24 ≤ size → rdLE u 8 8 = .ok b ∧ rdLE u 16 8 = .ok e

/-- The mandatory fields are there and say where the trace buffer is. -/
def Acceptable (size b e : Nat) : Prop := 24 ≤ size ∧ b ≠ 0 ∧ e ≠ 0 ∧ b ≤ e

/-- Byte `i` of the user's configuration: what is beyond the size that the user declares counts as zero. -/
def given (u : List UInt8) (size i : Nat) : Nat := if i < size then byteAt u i else 0

/-- Flag number `k` of the user's configuration: the flags are at offset 124, in the order in which they are declared
for each kind of decoder in libipt/include/intel-pt.h.in:366-443. -/
def flag (u : List UInt8) (size k : Nat) : Bool := (given u size 124).testBit k

/-- A byte of bit-fields, the first declared one in the lowest bit. -/
def bitFields : List Bool → Nat
  | [] => 0
  | b :: t => b.toNat + 2 * bitFields t

end Ipt.Spec
