import Verif.Basic

/-!
# The TNT cache: libipt/src/pt_tnt_cache.c
-/

namespace Ipt

/-- `struct pt_tnt_cache`, libipt/internal/include/pt_tnt_cache.h:36-47: `tnt` is the payload,
`index` has (at most) one bit set, the next one to be consumed. -/
structure TntCache where
  tnt : Nat := 0
  index : Nat := 0
deriving DecidableEq, Repr

/-- libipt/src/pt_tnt_cache.c:44-50 `pt_tnt_cache_is_empty`. -/
def TntCache.isEmpty (c : TntCache) : Bool := c.index == 0

/-- libipt/src/pt_tnt_cache.c:52-66 `pt_tnt_cache_query`. -/
def TntCache.query (c : TntCache) : TntCache × Res Bool :=
  if c.index = 0 then (c, .err .badQuery)
  else ({ c with index := c.index / 2 }, .ok (c.tnt &&& c.index ≠ 0))

/-- libipt/src/pt_tnt_cache.c:68-92 `pt_tnt_cache_add`.  Shifting a 64-bit value by 64 or more
is undefined. -/
def TntCache.add (c : TntCache) (tnt size : Nat) : TntCache × Res Unit :=
  if size = 0 then (c, .ok ())
  else if 64 ≤ size then (c, .ub)
  else
    let index := if c.index ≠ 0 then c.index * 2 ^ size % 2 ^ 64 else 2 ^ (size - 1)
    if index = 0 then (c, .err .overflow)
    else ({ tnt := c.tnt * 2 ^ size % 2 ^ 64 + tnt % 2 ^ size, index := index }, .ok ())

end Ipt
