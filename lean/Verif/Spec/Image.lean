import Verif.Asid

/-!
# What an image is: for every address, the sections mapped there

The abstract image assigns to every 64-bit address a list of *cells*, at most one per address
space: which byte of which section is visible there, and under which identifier.
-/

namespace Ipt.Spec

/-- Two address-space identifiers denote overlapping address spaces: each of cr3 and vmcs agrees
or is unknown on one side. -/
def SameSpace (a b : Asid) : Prop :=
  (a.cr3 = b.cr3 ∨ a.cr3 = asidNone ∨ b.cr3 = asidNone) ∧
  (a.vmcs = b.vmcs ∨ a.vmcs = asidNone ∨ b.vmcs = asidNone)

instance (a b : Asid) : Decidable (SameSpace a b) := by unfold SameSpace; infer_instance

/-- An address space is concrete if both identifiers are known. -/
def Concrete (a : Asid) : Prop := a.cr3 ≠ asidNone ∧ a.vmcs ≠ asidNone

/-- One byte of one section, visible in address space `asid`. -/
structure Cell where
  asid : Asid
  sec : Nat
  off : Nat
  isid : Nat
deriving DecidableEq, Repr

/-- The abstract image. -/
abbrev Map := Nat → List Cell

/-- The operations that change an image. -/
inductive Op
  | add (sec : Nat) (asid : Asid) (vaddr isid : Nat)
  | removeAsid (asid : Asid)
  | removeFile (name : String) (asid : Asid)
deriving Repr

/-- The effect of a successful operation.  Adding a section of `size sec` bytes at `vaddr` makes
its bytes visible at `vaddr`, `vaddr + 1`, ... and hides what was visible there in any
overlapping address space.  A section that reaches or wraps around the end of the 64-bit address
space has no effect.  Removal hides everything that was added for an overlapping address space
(and from this file). -/
def Map.step (size : Nat → Nat) (filename : Nat → String) (m : Map) : Op → Map
  | .add sec asid vaddr isid => fun x =>
    if vaddr ≤ x ∧ x < vaddr + size sec ∧ vaddr + size sec < 2 ^ 64 then
      ⟨asid, sec, x - vaddr, isid⟩ :: (m x).filter fun c => ¬ SameSpace c.asid asid
    else m x
  | .removeAsid asid => fun x => (m x).filter fun c => ¬ SameSpace c.asid asid
  | .removeFile name asid => fun x =>
    (m x).filter fun c => ¬ (SameSpace c.asid asid ∧ filename c.sec = name)

/-- The abstract image after a history, starting from nothing. -/
def Map.run (size : Nat → Nat) (filename : Nat → String) (h : List Op) : Map :=
  h.foldl (Map.step size filename) fun _ => []

end Ipt.Spec
