import Verif.Basic

/-!
# Loading a part of a file

The tools `ptxed`, `ptdump` and `ptseg` each have the same function `load_file`; ptxed/src/ptxed.c is cited.  The sideband
library has `pt_sb_file_load`.

A file is a list of bytes; it can be opened, read and measured, and does not change.  `long` and `size_t` have 64 bits.  An
argument `alloc` says which allocations succeed.
-/

namespace Ipt

/-- What follows the file name on the command line, after ptxed/src/ptxed.c:352-374 `parse_range`: nothing (or no numbers),
a file offset, or a range.  Strings are not modelled. -/
inductive FileArg
  | whole
  | from_ (b : Nat)
  | range (b e : Nat)
deriving DecidableEq, Repr

/-- The value of a `uint64_t` as `long`. -/
def toLong (n : Nat) : Int := if n < 2 ^ 63 then n else (n : Int) - 2 ^ 64

/-- The value of a `long` as `uint64_t` or `size_t`. -/
def ofLong (i : Int) : Nat := (i % 2 ^ 64).toNat

/-- ptxed/src/ptxed.c:388-442 `preprocess_filename`: the offset and size; the size is zero if there is no end. -/
def preprocessFilename : FileArg → Res (Nat × Nat)
  | .whole => .ok (0, 0)
  | .from_ b => .ok (b, 0)
  | .range b e => if e ≤ b then .err .invalid else .ok (b, e - b)

/-- `fseek (file, pos, SEEK_SET)` and reading `n` bytes, or less at the end of the file. -/
def readAt (f : List UInt8) (pos : Int) (n : Nat) : Option (List UInt8) :=
  if pos < 0 then none else some ((f.drop pos.toNat).take n)

/-- ptxed/src/ptxed.c:444-539 `load_file`: the contents, or `none` for an error.  Signed overflow is undefined. -/
def loadFile (alloc : Nat → Bool) (f : List UInt8) (offset size : Nat) : Res (Option (List UInt8)) :=
  let fsize : Int := f.length
  let begin_ := toLong offset
  if ofLong begin_ ≠ offset ∨ fsize ≤ begin_ then .ok none
  else
    let rangeEnd := (offset + size) % 2 ^ 64
    if size ≠ 0 ∧ f.length < rangeEnd then .ok none
    else
      let end_ := if size ≠ 0 then toLong rangeEnd else fsize
      let fsize := end_ - begin_
      if 2 ^ 63 ≤ fsize then .ub
      else if alloc (ofLong fsize) = false then .ok none
      else
        match readAt f begin_ (ofLong fsize) with
        | none => .ok none
        | some bs => if bs.length < ofLong fsize then .ok none else .ok (some bs)

/-- ptxed/src/ptxed.c:541-563 `load_pt`, up to the configuration. -/
def loadPt (alloc : Nat → Bool) (f : List UInt8) (arg : FileArg) : Res (Option (List UInt8)) :=
  match preprocessFilename arg with
  | .ok (offset, size) => loadFile alloc f offset size
  | .err _ => .ok none
  | .ub => .ub

/-- sideband/src/pt_sb_file.c:40-100 `pt_sb_file_load`. -/
def sbFileLoad (alloc : Nat → Bool) (f : List UInt8) (begin_ end_ : Nat) : Res (List UInt8) :=
  if end_ ≠ 0 ∧ end_ ≤ begin_ then .err .invalid
  else if 2 ^ 63 - 1 < begin_ ∨ 2 ^ 63 - 1 < end_ then .err .invalid
  else
    let fsize : Int := f.length
    let fend : Int := if end_ = 0 then fsize else if fsize < toLong end_ then fsize else toLong end_
    let size := ofLong (fend - toLong begin_)
    if alloc size = false then .err .nomem
    else
      match readAt f (toLong begin_) size with
      | none => .err .badFile
      | some bs => .ok bs

end Ipt
