import Verif.Ild
import Verif.Image

/-!
# The block cache: libipt/src/pt_block_cache.c and pt_block_cache.h

A section has at most one block cache, with one entry per byte of the section.  Several decoders may use it at the same
time.  Entries are read and written atomically.
-/

namespace Ipt

open Ild

/-- `enum pt_bcache_qualifier`, libipt/internal/include/pt_block_cache.h:50-112. -/
inductive Qual
  | again | cond | indCall | return | indirect | decode
deriving DecidableEq, Repr

/-- `struct pt_bcache_entry`, libipt/internal/include/pt_block_cache.h:126-167.  The default is the zeroed entry, which is
not valid. -/
structure Bce where
  displacement : Int := 0
  ninsn : Nat := 0
  mode : Mode := .unknown
  qualifier : Qual := .again
  isize : Nat := 0
deriving DecidableEq, Repr

/-- libipt/internal/include/pt_block_cache.h:183-186 `pt_bce_is_valid`. -/
def Bce.isValid (e : Bce) : Bool := e.mode != .unknown

/-- Storing to the field `int32_t displacement:16`. -/
def toDisp (d : Int) : Int := (d + 2 ^ 15) % 2 ^ 16 - 2 ^ 15

/-- Storing to the field `uint32_t ninsn:8`. -/
def toNinsn (n : Nat) : Nat := n % 2 ^ 8

/-- Storing to the field `uint32_t isize:3`. -/
def toIsize (n : Nat) : Nat := n % 2 ^ 3

/-- The difference of two `uint64_t` as `int64_t`. -/
def sdiff (a b : Nat) : Int := ((a : Int) - b + 2 ^ 63) % 2 ^ 64 - 2 ^ 63

/-- The block caches of all sections: section, index, entry.  A section that has no block cache yet, and one whose block
cache was freed because the section was unmapped (libipt/src/pt_section.c:690-691), has invalid entries. -/
abbrev Bcache := Nat → Nat → Bce

/-- libipt/src/pt_block_cache.c:63-79 `pt_bcache_add`.  The number of entries is the size of the section,
libipt/src/pt_section.c:507-589 `pt_section_alloc_bcache`. -/
def Bcache.add (env : SecEnv) (b : Bcache) (sec index : Nat) (e : Bce) : Bcache × Res Unit :=
  if env.size sec ≤ index then (b, .err .internal)
  else (fun s i => if s = sec ∧ i = index then e else b s i, .ok ())

/-- libipt/src/pt_block_cache.c:81-96 `pt_bcache_lookup`. -/
def Bcache.lookup (env : SecEnv) (b : Bcache) (sec index : Nat) : Res Bce :=
  if env.size sec ≤ index then .err .internal else .ok (b sec index)

/-- An entry another decoder wrote. -/
structure BceWrite where
  sec : Nat
  index : Nat
  entry : Bce

/-- The block caches after other decoders wrote entries. -/
def Bcache.writes (b : Bcache) (l : List BceWrite) : Bcache :=
  l.foldl (fun b w => fun s i => if s = w.sec ∧ i = w.index then w.entry else b s i) b

end Ipt
