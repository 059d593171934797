import Verif.UserStruct

/-!
# Specification: what the user finds in their memory
-/

namespace Ipt.Spec

/-- A structure in `size` bytes: the end is missing if there is not enough room, and unknown bytes are zero. -/
def fitted (size : Nat) (st : List UInt8) : List UInt8 := st.take size ++ List.replicate (size - st.length) 0

/-- A structure in memory that contained `old`: the end is missing if there is not enough room, and unknown bytes are left
as they were. -/
def overlaid (old st : List UInt8) : List UInt8 := st.take old.length ++ old.drop st.length

/-- A result without some of what was provided. -/
def only {α β : Type} (f : α → β) : Res α → Res β
  | .ok a => .ok (f a)
  | .err e => .err e
  | .ub => .ub

/-- A function `m` that provides a structure in `size` bytes of the user's memory does to the decoder the same as `n`,
writes nowhere else, and on success leaves `now` in the user's memory. -/
def Provides {σ α β : Type} (size : Nat) (m : UM σ β) (n : σ → σ × Res α) (f : α → β) (now : σ → Buf → α → Buf) : Prop :=
  ∀ s b, b.length = size → ∃ b', b'.length = size ∧ m (s, b) = (((n s).1, b'), only f (n s).2) ∧
    ∀ a, (n s).2 = .ok a → b' = now s b a

end Ipt.Spec
