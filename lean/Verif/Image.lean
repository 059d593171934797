import Verif.Asid

/-!
# The traced memory image: libipt/src/pt_image.c and pt_mapped_section.h

A section object is a number (its address).  What never changes about a section - its size,
file name and bytes - is given by an environment `SecEnv`; its use count is part of the
state.  `malloc` and lock failures are given by an oracle: a list of Booleans, one per
allocation, `true` meaning failure; an exhausted list means success.
-/

namespace Ipt

/-- The immutable part of `struct pt_section`, libipt/internal/include/pt_section.h:56-150:
size in bytes, file name, and the bytes at each offset. -/
structure SecEnv where
  size : Nat → Nat
  filename : Nat → String
  byte : Nat → Nat → UInt8

/-- `struct pt_section_list`, libipt/internal/include/pt_image.h:45-54, with its
`struct pt_mapped_section`, libipt/internal/include/pt_mapped_section.h:40-62. -/
structure Msec where
  sec : Nat
  asid : Asid
  vaddr : Nat
  offset : Nat
  size : Nat
  isid : Nat
deriving DecidableEq, Repr

/-- libipt/internal/include/pt_mapped_section.h:103-109 `pt_msec_end`, on `uint64_t`. -/
def Msec.end_ (m : Msec) : Nat := (m.vaddr + m.size) % 2 ^ 64

/-- libipt/internal/include/pt_mapped_section.h:154-158 `pt_msec_unmap`: virtual address to
section offset, on `uint64_t` (used for addresses not below `vaddr` only). -/
def Msec.unmap (m : Msec) (x : Nat) : Nat := (x - m.vaddr + m.offset) % 2 ^ 64

/-- The image's section list and the use counts of all section objects
(`struct pt_image`, libipt/internal/include/pt_image.h:56-76). -/
structure Img where
  secs : List Msec := []
  uc : Nat → Nat

/-- Adding one to the use count of section `s`. -/
def ucInc (uc : Nat → Nat) (s : Nat) : Nat → Nat := fun t => if t = s then uc t + 1 else uc t

/-- libipt/src/pt_section.c:203-231 `pt_section_put` on the use count: 1 becomes 0 (the section
is freed), 0 stays (internal error). -/
def ucDec (uc : Nat → Nat) (s : Nat) : Nat → Nat := fun t => if t = s then uc t - 1 else uc t

/-- The local variables of the loop in `pt_image_add`, libipt/src/pt_image.c:139-229.  `done` is
the part of the section list before `*list`. -/
structure AddSt where
  done : List Msec := []
  next : List Msec := []
  removed : List Msec := []
  uc : Nat → Nat
  ora : List Bool

/-- libipt/src/pt_image.c:39-66 `pt_mk_section_list`, pushing the new element on `next`.  Fails
if the oracle says so or if the use count would overflow `uint16_t`
(libipt/src/pt_section.c:180-201 `pt_section_get`). -/
def AddSt.mk' (s : AddSt) (m : Msec) : AddSt × Bool :=
  let s' := { s with ora := s.ora.tail }
  if s.ora.headD false = true then (s', false)
  else if 65535 < s.uc m.sec + 1 then (s', false)
  else ({ s' with uc := ucInc s.uc m.sec, next := m :: s.next }, true)

/-- libipt/src/pt_image.c:201-213: the part of `cur` in front of the new section. -/
def AddSt.front (s : AddSt) (cur : Msec) (b : Nat) : AddSt × Bool :=
  if cur.vaddr < b then
    s.mk' { cur with size := b - cur.vaddr }
  else (s, true)

/-- libipt/src/pt_image.c:215-228: the part of `cur` behind the new section. -/
def AddSt.back (s : AddSt) (cur : Msec) (e : Nat) : AddSt × Bool :=
  if e < cur.end_ then
    s.mk' { cur with vaddr := e, offset := (cur.offset + (e - cur.vaddr)) % 2 ^ 64, size := cur.end_ - e }
  else (s, true)

/-- libipt/src/pt_image.c:158-229: the loop of `pt_image_add`.  Returns the local variables, the
unprocessed rest of the section list and whether an allocation failed. -/
def addLoop (asid : Asid) (b e : Nat) : List Msec → AddSt → AddSt × List Msec × Bool
  | [], s => (s, [], true)
  | cur :: rest, s =>
    if asidMatch cur.asid asid = false then addLoop asid b e rest { s with done := s.done ++ [cur] }
    else if e ≤ cur.vaddr ∨ cur.end_ ≤ b then
      addLoop asid b e rest { s with done := s.done ++ [cur] }
    else
      match ({ s with removed := cur :: s.removed }).front cur b with
      | (s, false) => (s, rest, false)
      | (s, true) =>
        match s.back cur e with
        | (s, false) => (s, rest, false)
        | (s, true) => addLoop asid b e rest s

/-- libipt/src/pt_image.c:68-88 `pt_section_list_free`, `pt_section_list_free_tail`: drop the references. -/
def freeTail (uc : Nat → Nat) (l : List Msec) : Nat → Nat := l.foldl (fun u m => ucDec u m.sec) uc

/-- libipt/src/pt_image.c:136-246 `pt_image_add`. -/
def imageAdd (env : SecEnv) (ora : List Bool) (i : Img) (sec : Nat) (asid : Asid) (vaddr isid : Nat) :
    Img × Res Unit :=
  let size := env.size sec
  let e := (vaddr + size) % 2 ^ 64
  match ({ uc := i.uc, ora := ora } : AddSt).mk' ⟨sec, asid, vaddr, 0, size, isid⟩ with
  | (_, false) => (i, .err .nomem)
  | (s, true) =>
    match addLoop asid vaddr e i.secs s with
    | (s, rest, false) => (⟨s.done ++ rest ++ s.removed, freeTail s.uc s.next⟩, .err .nomem)
    | (s, _, true) => (⟨s.done ++ s.next, freeTail s.uc s.removed⟩, .ok ())

/-- Unlink the elements that satisfy `p` and drop their references: the loops of
libipt/src/pt_image.c:367-400 and 415-442.  Returns the remaining list, the use counts and the
number of removed elements. -/
def removeLoop (p : Msec → Bool) : List Msec → (Nat → Nat) → List Msec × (Nat → Nat) × Nat
  | [], uc => ([], uc, 0)
  | m :: l, uc =>
    if p m = true then
      let r := removeLoop p l (ucDec uc m.sec)
      (r.1, r.2.1, r.2.2 + 1)
    else
      let r := removeLoop p l uc
      (m :: r.1, r.2.1, r.2.2)

/-- libipt/src/pt_image.c:353-401 `pt_image_remove_by_filename`. -/
def imageRemoveByFilename (env : SecEnv) (i : Img) (name : String) (asid : Asid) : Img × Nat :=
  let r := removeLoop (fun m => asidMatch m.asid asid && (env.filename m.sec == name)) i.secs i.uc
  (⟨r.1, r.2.1⟩, r.2.2)

/-- libipt/src/pt_image.c:403-443 `pt_image_remove_by_asid`. -/
def imageRemoveByAsid (i : Img) (asid : Asid) : Img × Nat :=
  let r := removeLoop (fun m => asidMatch m.asid asid) i.secs i.uc
  (⟨r.1, r.2.1⟩, r.2.2)

/-- libipt/src/pt_image.c:248-286 `pt_image_remove`. -/
def removeFirst (sec : Nat) (asid : Asid) (vaddr : Nat) : List Msec → Option (Msec × List Msec)
  | [] => none
  | m :: l =>
    if asidMatch m.asid asid = true ∧ m.sec = sec ∧ m.vaddr = vaddr then some (m, l)
    else match removeFirst sec asid vaddr l with
      | none => none
      | some (x, l') => some (x, m :: l')

/-- libipt/src/pt_image.c:248-286 `pt_image_remove`. -/
def imageRemove (i : Img) (sec : Nat) (asid : Asid) (vaddr : Nat) : Img × Res Unit :=
  match removeFirst sec asid vaddr i.secs with
  | none => (i, .err .badImage)
  | some (m, l) => (⟨l, ucDec i.uc m.sec⟩, .ok ())

/-- libipt/src/pt_image.c:481-507 `pt_image_check_msec`: does the mapped section contain the
address in this address space? -/
def Msec.check (m : Msec) (asid : Asid) (x : Nat) : Bool :=
  if x < m.vaddr ∨ m.end_ ≤ x then false else asidMatch m.asid asid

/-- Unlink the first element that satisfies `p`. -/
def takeFirst (p : Msec → Bool) : List Msec → Option (Msec × List Msec)
  | [] => none
  | m :: l =>
    if p m = true then some (m, l)
    else match takeFirst p l with
      | none => none
      | some (x, l') => some (x, m :: l')

/-- libipt/src/pt_image.c:516-553 `pt_image_fetch_section`: the found section is moved to the
front. -/
def imageFetch (i : Img) (asid : Asid) (x : Nat) : Img × Res Msec :=
  match takeFirst (fun m => m.check asid x) i.secs with
  | none => (i, .err .nomap)
  | some (m, l) => ({ i with secs := m :: l }, .ok m)

/-- libipt/src/pt_section.c:704-725 `pt_section_read` of a mapped section: `size` bytes from
offset `off`, truncated at the end of the section.  The mapping's read function
(libipt/src/posix/pt_section_posix.c:289-314) copies the bytes. -/
def sectionRead (env : SecEnv) (sec off size : Nat) : Res (List UInt8) :=
  if env.size sec ≤ off then .err .nomap
  else
    let space := env.size sec - off
    let size := if space < size then space else size
    .ok ((List.range size).map fun k => env.byte sec (off + k))

/-- libipt/internal/include/pt_mapped_section.h:168-198 `pt_msec_read`. -/
def Msec.read (env : SecEnv) (m : Msec) (size x : Nat) : Res (List UInt8) :=
  let e := if (x + size) % 2 ^ 64 < x then 2 ^ 64 - 1 else (x + size) % 2 ^ 64
  if x < m.vaddr ∨ m.end_ ≤ x then .err .nomap
  else
    let e := if m.end_ < e then m.end_ else e
    sectionRead env m.sec (m.unmap x) ((e - x) % 2 ^ 16)

/-- The user's read-memory callback: `none` if there is none, otherwise its result (a byte list
or an error) for a size, address space and address. -/
abbrev ReadCb := Option (Nat → Asid → Nat → Res (List UInt8))

/-- libipt/src/pt_image.c:457-474 `pt_image_read_callback`. -/
def readCallback (cb : ReadCb) (size : Nat) (asid : Asid) (x : Nat) : Res (Nat × List UInt8) :=
  match cb with
  | none => .err .nomap
  | some f => f size asid x >>= fun bs => .ok (0, bs)

/-- libipt/src/pt_image.c:555-603 `pt_image_read`: the isid and the bytes read.  `mapErr` is the
result of mapping the section; unmapping succeeds. -/
def imageRead (env : SecEnv) (cb : ReadCb) (mapErr : Res Unit) (i : Img) (size : Nat) (asid : Asid)
    (x : Nat) : Img × Res (Nat × List UInt8) :=
  match imageFetch i asid x with
  | (i, .err .nomap) => (i, readCallback cb size asid x)
  | (i, .err e) => (i, .err e)
  | (i, .ub) => (i, .ub)
  | (i, .ok m) =>
    match mapErr with
    | .err e => (i, .err e)
    | .ub => (i, .ub)
    | .ok () =>
      match m.read env size x with
      | .ok bs => (i, .ok (m.isid, bs))
      | .err .nomap => (i, readCallback cb size asid x)
      | .err e => (i, .err e)
      | .ub => (i, .ub)

/-- libipt/src/pt_image.c:322-351 `pt_image_copy` from a different image: the number of sections
that could not be added. `oras` are the oracles of the individual adds. -/
def imageCopyLoop (env : SecEnv) : List (List Bool) → List Msec → Img → Img × Nat
  | _, [], i => (i, 0)
  | oras, m :: l, i =>
    match imageAdd env (oras.headD []) i m.sec m.asid m.vaddr m.isid with
    | (i, .ok ()) => imageCopyLoop env oras.tail l i
    | (i, _) =>
      let r := imageCopyLoop env oras.tail l i
      (r.1, r.2 + 1)

/-- libipt/src/pt_image.c:322-351 `pt_image_copy`. -/
def imageCopy (env : SecEnv) (oras : List (List Bool)) (i : Img) (src : List Msec) : Img × Nat :=
  imageCopyLoop env oras src i

end Ipt
