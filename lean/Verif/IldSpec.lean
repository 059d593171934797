import Verif.Ild

/-!
# What a direct branch looks like

The vocabulary of the statements about instruction length decode.
-/

namespace Ipt

open Ild

namespace Spec

/-- The value of some bytes in little-endian order. -/
def leVal : List UInt8 → Nat
  | [] => 0
  | b :: l => b.toNat + 256 * leVal l

/-- `v` is the two's complement number stored in the bytes `d`. -/
def IsSigned (d : List UInt8) (v : Int) : Prop :=
  -(256 ^ d.length : Int) ≤ 2 * v ∧ 2 * v < 256 ^ d.length ∧
    ∃ k : Int, v = leVal d + k * 256 ^ d.length

/-- The bytes that may precede the opcode: segment overrides, operand size, address size, lock
and repeat prefixes and, in 64-bit mode, REX. -/
def IsPrefix (m : Mode) (b : UInt8) : Prop :=
  b ∈ [0x26, 0x2e, 0x36, 0x3e, 0x64, 0x65, 0x66, 0x67, 0xf0, 0xf2, 0xf3] ∨
    (m = .b64 ∧ b.toNat / 16 = 4)

/-- The opcodes of direct near branches: whether the displacement is near (as opposed to short)
and the kind of branch. -/
def directOp : List UInt8 → Option (Bool × Iclass)
  | [b] =>
    if b.toNat / 16 = 7 then some (false, .condJump)       -- jcc rel8
    else if b = 0xe0 ∨ b = 0xe1 ∨ b = 0xe2 ∨ b = 0xe3 then some (false, .condJump)  -- loop, jcxz
    else if b = 0xeb then some (false, .jump)              -- jmp rel8
    else if b = 0xe9 then some (true, .jump)               -- jmp rel16/rel32
    else if b = 0xe8 then some (true, .call)               -- call rel16/rel32
    else none
  | [a, b] => if a = 0x0f ∧ b.toNat / 16 = 8 then some (true, .condJump) else none  -- jcc rel16/32
  | _ => none

/-- The number of displacement bytes: one for short branches.  For near branches four in 64-bit
mode, else the operand size, which is that of the mode unless there is an operand size prefix. -/
def dispWidth (m : Mode) (near : Bool) (osz : Prop) [Decidable osz] : Nat :=
  if near then
    match m with
    | .b64 => 4
    | .b32 => if osz then 2 else 4
    | _ => if osz then 4 else 2
  else 1

/-- The bytes encode a direct branch of the given kind with the given displacement. -/
def DirectBranch (m : Mode) (bytes : List UInt8) (cls : Iclass) (disp : Int) : Prop :=
  ∃ P op d near, bytes = P ++ op ++ d ∧ (∀ b ∈ P, IsPrefix m b) ∧ directOp op = some (near, cls) ∧
    d.length = dispWidth m near (0x66 ∈ P) ∧ IsSigned d disp

/-- The bytes encode JMPABS with the given absolute target: prefixes other than operand and
address size, a REX2 prefix that selects the first opcode map and does not set W, the opcode and
eight bytes. -/
def JmpAbs (m : Mode) (bytes : List UInt8) (target : Int) : Prop :=
  ∃ P p d, bytes = P ++ [0xd5, p, 0xa1] ++ d ∧ m = .b64 ∧ (∀ b ∈ P, IsPrefix m b) ∧ 0x66 ∉ P ∧
    0x67 ∉ P ∧ p.toNat / 128 = 0 ∧ p.toNat / 8 % 2 = 0 ∧ d.length = 8 ∧ IsSigned d target

end Spec

end Ipt
