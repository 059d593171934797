import Verif.Basic

/-!
# Address-space identifiers: libipt/src/pt_asid.c

`struct pt_asid` (libipt/include/intel-pt.h.in:2256-2265) is three 64-bit fields: size, cr3,
vmcs.  Import and export are modelled on the bytes of the structure (little-endian, 64-bit
`size_t`), because callers may have been compiled against a smaller or bigger structure.
Matching is modelled on the two values.
-/

namespace Ipt

/-- The little-endian bytes of `v` (low `n` bytes). -/
def toLE : Nat → Nat → List UInt8
  | 0, _ => []
  | n + 1, v => UInt8.ofNat (v % 256) :: toLE n (v / 256)

/-- `memcpy (dst + off, src, n)` between two objects. -/
def memcpy (dst : List UInt8) (off : Nat) (src : List UInt8) (n : Nat) : Res (List UInt8) :=
  if n ≤ src.length ∧ off + n ≤ dst.length
  then .ok (dst.take off ++ src.take n ++ dst.drop (off + n))
  else .ub

/-- The value of an unset cr3 or vmcs, libipt/include/intel-pt.h.in:2267-2271 `pt_asid_no_cr3`,
`pt_asid_no_vmcs`. -/
def asidNone : Nat := 2 ^ 64 - 1

/-- The address-space identity carried by `struct pt_asid`. -/
structure Asid where
  cr3 : Nat := asidNone
  vmcs : Nat := asidNone
deriving DecidableEq, Repr, Inhabited

/-- `sizeof (struct pt_asid)`. -/
def sizeofAsid : Nat := 24

/-- `pt_asid_init`, libipt/include/intel-pt.h.in:2274-2279: the size, then two unset identifiers. -/
def asidInit : List UInt8 := toLE 8 sizeofAsid ++ toLE 8 asidNone ++ toLE 8 asidNone

/-- libipt/src/pt_asid.c:37-61 `pt_asid_from_user`.  `user` is the memory at the user's
pointer, or `none` for a null pointer. -/
def asidFromUser (user : Option (List UInt8)) : Res (List UInt8) :=
  match user with
  | none => .ok asidInit
  | some u =>
    rdLE u 0 8 >>= fun size =>
    let size := if sizeofAsid < size then sizeofAsid else size
    memcpy asidInit 0 u size >>= fun a =>
    memcpy a 0 (toLE 8 sizeofAsid) 8

/-- libipt/src/pt_asid.c:63-84 `pt_asid_to_user`.  `user` is the memory at the user's
pointer. -/
def asidToUser (user : List UInt8) (asid : List UInt8) (size : Nat) : Res (List UInt8) :=
  if size < 8 then .err .invalid
  else
    let size := if sizeofAsid < size then sizeofAsid else size
    memcpy user 0 asid size >>= fun u =>
    memcpy u 0 (toLE 8 size) 8

/-- libipt/src/pt_asid.c:86-107 `pt_asid_match`. -/
def asidMatch (l r : Asid) : Bool :=
  if l.cr3 ≠ r.cr3 ∧ l.cr3 ≠ asidNone ∧ r.cr3 ≠ asidNone then false
  else if l.vmcs ≠ r.vmcs ∧ l.vmcs ≠ asidNone ∧ r.vmcs ≠ asidNone then false
  else true

end Ipt
