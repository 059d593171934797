import Verif.Basic

/-!
# File sections: libipt/src/pt_section.c, pt_section_file.c, posix/pt_section_posix.c

A file is a list of bytes that does not change while sections refer to it (the code checks size
and modification time when mapping, posix/pt_section_posix.c:74-98).  Each operation below is one
critical section of the code, executed under the section lock; 16-bit counters are natural
numbers with the code's wrap checks.
-/

namespace Ipt

/-- A mapping: `mmap`ed (posix/pt_section_posix.c:140-148: file offset of the base, adjustment,
mapped size) or file based (pt_section_file.c:153-156: begin and end). -/
inductive Mapping
  | posix (base adj size : Nat)
  | file (begin_ end_ : Nat)
deriving DecidableEq, Repr

/-- `struct pt_section`, libipt/internal/include/pt_section.h:56-150.  `freed` says that the
object no longer exists. -/
structure Sect where
  offset : Nat
  size : Nat
  ucount : Nat := 1
  acount : Nat := 0
  mcount : Nat := 0
  iscache : Option Nat := none
  mapping : Option Mapping := none
  freed : Bool := false
deriving DecidableEq, Repr

/-- libipt/src/pt_section.c:40-124 `pt_mk_section` for a file of size `fsize` (allocation, lock and
`stat` failures, which create nothing, are not modelled). -/
def mkSection (fsize offset size : Nat) : Res Sect :=
  if fsize ≤ offset then .err .invalid
  else .ok { offset := offset, size := if fsize - offset < size then fsize - offset else size }

/-- libipt/src/pt_section.c:180-201 `pt_section_get`. -/
def Sect.get (s : Sect) : Sect × Res Unit :=
  if (s.ucount + 1) % 2 ^ 16 = 0 then (s, .err .overflow)
  else ({ s with ucount := s.ucount + 1 }, .ok ())

/-- libipt/src/pt_section.c:203-231 `pt_section_put`.  When the last reference is dropped the
section is freed. -/
def Sect.put (s : Sect) : Sect × Res Unit :=
  if 1 < s.ucount then ({ s with ucount := s.ucount - 1 }, .ok ())
  else if s.ucount = 0 ∨ s.mcount ≠ 0 then (s, .err .internal)
  else ({ s with ucount := 0, freed := true }, .ok ())

/-- libipt/src/pt_section.c:269-341 `pt_section_attach`. -/
def Sect.attach (s : Sect) (c : Nat) : Sect × Res Unit :=
  if s.acount = 0 then
    if s.iscache.isSome then (s, .err .internal)
    else if s.ucount = 0 then (s, .err .internal)
    else ({ s with iscache := some c, acount := 1 }, .ok ())
  else if (s.acount + 1) % 2 ^ 16 = 0 then (s, .err .overflow)
  else if s.iscache ≠ some c then (s, .err .internal)
  else if s.ucount < s.acount + 1 then (s, .err .internal)
  else ({ s with acount := s.acount + 1 }, .ok ())

/-- libipt/src/pt_section.c:343-390 `pt_section_detach`. -/
def Sect.detach (s : Sect) (c : Nat) : Sect × Res Unit :=
  if s.iscache ≠ some c then (s, .err .internal)
  else if s.acount = 0 then (s, .err .internal)
  else if s.ucount < s.acount - 1 then (s, .err .internal)
  else
    ({ s with acount := s.acount - 1, iscache := if s.acount - 1 = 0 then none else s.iscache }, .ok ())

/-- libipt/src/posix/pt_section_posix.c:163-197 `pt_sec_posix_map_success`, the part under the
section lock.  The notification that follows (`pt_section_on_map`) runs without it; if it fails,
the mapping is released by `Sect.unmap`. -/
def Sect.mapSuccess (s : Sect) : Sect × Res Unit :=
  if (s.mcount + 1) % 2 ^ 16 = 0 then (s, .err .overflow)
  else ({ s with mcount := s.mcount + 1 }, .ok ())

/-- libipt/src/posix/pt_section_posix.c:199-264 `pt_section_map`, the part under the section lock.
`fresh` is the outcome of opening and mapping the file. -/
def Sect.map (s : Sect) (fresh : Res Mapping) : Sect × Res Unit :=
  if s.mcount ≠ 0 then s.mapSuccess
  else if s.mapping.isSome then (s, .ok ())
  else match fresh with
    | .ok m => { s with mapping := some m }.mapSuccess
    | .err e => (s, .err e)
    | .ub => (s, .ub)

/-- libipt/src/pt_section.c:632-659 `pt_section_map_share`. -/
def Sect.mapShare (s : Sect) : Sect × Res Unit :=
  if s.mcount = 0 then (s, .err .internal)
  else if (s.mcount + 1) % 2 ^ 16 = 0 then (s, .err .overflow)
  else ({ s with mcount := s.mcount + 1 }, .ok ())

/-- libipt/src/pt_section.c:661-702 `pt_section_unmap` with `pt_sec_posix_unmap`,
`pt_sec_file_unmap`. -/
def Sect.unmap (s : Sect) : Sect × Res Unit :=
  if s.mcount = 0 then (s, .err .nomap)
  else if s.mcount - 1 ≠ 0 then ({ s with mcount := s.mcount - 1 }, .ok ())
  else if s.mapping.isNone then ({ s with mcount := 0 }, .err .internal)
  else ({ s with mcount := 0, mapping := none }, .ok ())

/-- libipt/src/posix/pt_section_posix.c:100-161 `pt_sec_posix_map`; `ok` says whether `mmap` and
`malloc` succeed. -/
def posixMap (page : Nat) (ok : Bool) (s : Sect) : Res Mapping :=
  let adj := s.offset % page
  let offset := s.offset - adj
  let size := (s.size + adj) % 2 ^ 64
  if size < s.size then .err .internal
  else if 2 ^ 31 - 1 < offset then .err .nomem
  else if ok = false then .err .nomem
  else .ok (.posix offset adj size)

/-- libipt/src/pt_section_file.c:109-173 `pt_sec_file_map`.  `long` has 64 bits; values that do not
fit give undefined behaviour here (the conversion is implementation-defined, the addition
undefined). -/
def fileMap (fsize : Nat) (ok : Bool) (s : Sect) : Res Mapping :=
  if 2 ^ 63 ≤ s.offset ∨ 2 ^ 63 ≤ s.size ∨ 2 ^ 63 ≤ s.offset + s.size then .ub
  else if fsize < s.offset + s.size then .err .badImage
  else if ok = false then .err .nomem
  else .ok (.file s.offset (s.offset + s.size))

/-- libipt/src/posix/pt_section_posix.c:222-257: `mmap` the section and fall back to a file based
mapping.  `opened` is the outcome of opening the file and checking its status, `ok1` and `ok2`
say whether the system calls of the two methods succeed. -/
def freshMap (fsize page : Nat) (opened : Res Unit) (ok1 ok2 : Bool) (s : Sect) : Res Mapping :=
  opened >>= fun _ =>
  match posixMap page ok1 s with
  | .ok m => .ok m
  | .ub => .ub
  | .err _ => fileMap fsize ok2 s

/-- libipt/src/posix/pt_section_posix.c:289-311 `pt_sec_posix_read`: `memcpy` from the mapped
memory; libipt/src/pt_section_file.c:198-243 `pt_sec_file_read`: `fseek` and `fread`.  Accesses
outside the mapping or the file are undefined. -/
def Mapping.read (f : List UInt8) (m : Mapping) (size off : Nat) : Res (List UInt8) :=
  match m with
  | .posix base adj msize =>
    if adj + off + size ≤ msize ∧ base + adj + off + size ≤ f.length then
      .ok ((f.drop (base + adj + off)).take size)
    else .ub
  | .file b _ => .ok ((f.drop (b + off)).take size)

/-- libipt/src/pt_section.c:704-725 `pt_section_read`. -/
def Sect.read (f : List UInt8) (s : Sect) (size off : Nat) : Res (List UInt8) :=
  match s.mapping with
  | none => .err .nomap
  | some m =>
    if s.size ≤ off then .err .nomap
    else
      let space := s.size - off
      let size := if space < size then space % 2 ^ 16 else size
      m.read f size off

end Ipt
