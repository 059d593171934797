import Verif.Basic

/-!
# The image section cache: libipt/src/pt_image_section_cache.c

Section objects are numbers.  `rng s` is the immutable file range of section `s`.  The state has
the cache's entry array and the use and attach counts of all sections.  The LRU list of mapped
sections is modelled separately (`Lru`).
-/

namespace Ipt

/-- What identifies the contents of a section: file name, offset and (truncated) size. -/
structure Range where
  file : String
  offset : Nat
  size : Nat
deriving DecidableEq, Repr

/-- `struct pt_iscache_entry`, libipt/internal/include/pt_image_section_cache.h:45-51. -/
structure IEntry where
  sec : Nat
  laddr : Nat
deriving DecidableEq, Repr

/-- `struct pt_image_section_cache`, libipt/internal/include/pt_image_section_cache.h:68-110, without
the LRU list; `uc` and `ac` are the use and attach counts of all section objects. -/
structure Isc where
  entries : List IEntry := []
  capacity : Nat := 0
  uc : Nat → Nat
  ac : Nat → Nat

/-- Add one to / subtract one from a section's count. -/
def cInc (f : Nat → Nat) (s : Nat) : Nat → Nat := fun t => if t = s then f t + 1 else f t
/-- See `cInc`. -/
def cDec (f : Nat → Nat) (s : Nat) : Nat → Nat := fun t => if t = s then f t - 1 else f t

/-- The loop of libipt/src/pt_image_section_cache.c:443-503 `pt_iscache_find_section_locked`; `i` is
the current index, `s` the section found so far, `m` its index.  `none` stands for the array's
size (no match). -/
def findLoop (rng : Nat → Range) (r : Range) (laddr : Nat) : List IEntry → Nat → Option Nat → Option Nat → Option Nat
  | [], _, _, m => m
  | e :: l, i, s, m =>
    if s = some e.sec then
      if laddr = e.laddr then some i else findLoop rng r laddr l (i + 1) s m
    else if s.isSome then findLoop rng r laddr l (i + 1) s m
    else if rng e.sec ≠ r then findLoop rng r laddr l (i + 1) s m
    else if laddr = e.laddr then some i
    else findLoop rng r laddr l (i + 1) (some e.sec) (some i)

/-- libipt/src/pt_image_section_cache.c:443-503 `pt_iscache_find_section_locked`. -/
def findSection (rng : Nat → Range) (c : Isc) (r : Range) (laddr : Nat) : Option Nat :=
  findLoop rng r laddr c.entries 0 none none

/-- libipt/src/pt_image_section_cache.c:120-142 `pt_iscache_expand`; `ok` says whether `realloc`
succeeds. -/
def iscExpand (c : Isc) (ok : Bool) : Isc × Res Unit :=
  let target := (c.capacity + 8) % 2 ^ 16
  if target < c.capacity then (c, .err .nomem)
  else if ok = false then (c, .err .nomem)
  else ({ c with capacity := target }, .ok ())

/-- The outcomes of one turn of the loop in `pt_iscache_add`. -/
inductive AddTurn
  /-- The entry exists already. -/
  | found (i : Nat)
  /-- The entry was added. -/
  | inserted (i : Nat)
  /-- An equal section is already cached: continue with that one. -/
  | swap (sec : Nat)
  | fail (e : Err)
deriving DecidableEq, Repr

/-- One critical section of `pt_iscache_add`: from locking the cache to unlocking it,
libipt/src/pt_image_section_cache.c:572-613 (one turn of the loop) and 677-714 (insertion). -/
def addLocked (rng : Nat → Range) (c : Isc) (sec laddr : Nat) (ok : Bool) : Isc × AddTurn :=
  let insert :=
    match (if c.capacity ≤ c.entries.length then
        if c.capacity < c.entries.length then (c, .err .internal)
        else
          match iscExpand c ok with
          | (c, .ok ()) => if c.capacity ≤ c.entries.length then (c, .err .internal) else (c, .ok ())
          | r => r
      else (c, (.ok () : Res Unit))) with
    | (c, .ok ()) => ({ c with entries := c.entries ++ [⟨sec, laddr⟩] }, AddTurn.inserted c.entries.length)
    | (c, .err e) => (c, .fail e)
    | (c, .ub) => (c, .fail .internal)
  match findSection rng c (rng sec) laddr with
  | none => insert
  | some i =>
    match c.entries[i]? with
    | none => (c, .fail .internal)
    | some e =>
      if e.sec = sec then
        if e.laddr = laddr then (c, .found i) else insert
      else
        -- `pt_section_get (sec)`, still under the lock
        if 65535 < c.uc e.sec + 1 then (c, .fail .overflow)
        else ({ c with uc := cInc c.uc e.sec }, .swap e.sec)

/-- The loop of `pt_iscache_add`, libipt/src/pt_image_section_cache.c:568-733, run by one thread
without interference.  The thread holds a reference and an attachment to `sec`. -/
def addLoopIsc (rng : Nat → Range) (ok : Bool) : Nat → Isc → Nat → Nat → Isc × Res Nat
  | 0, c, _, _ => (c, .ub)
  | n + 1, c, sec, laddr =>
    match addLocked rng c sec laddr ok with
    | (c, .found i) => ({ c with ac := cDec c.ac sec, uc := cDec c.uc sec }, .ok (i + 1))
    | (c, .inserted i) => (c, .ok (i + 1))
    | (c, .fail e) => ({ c with ac := cDec c.ac sec, uc := cDec c.uc sec }, .err e)
    | (c, .swap s') =>
      -- detach from `sec`, attach to `s'`, drop the reference to `sec`
      addLoopIsc rng ok n { c with ac := cInc (cDec c.ac sec) s', uc := cDec c.uc sec } s' laddr

/-- libipt/src/pt_image_section_cache.c:505-733 `pt_iscache_add`.  Attaching fails if the attach count
overflows, libipt/src/pt_section.c:269-341. -/
def iscAdd (rng : Nat → Range) (ok : Bool) (c : Isc) (sec laddr : Nat) : Isc × Res Nat :=
  if 65535 < c.uc sec + 1 then (c, .err .overflow)
  else if 65535 < c.ac sec + 1 then (c, .err .overflow)
  else addLoopIsc rng ok 3 { c with uc := cInc c.uc sec, ac := cInc c.ac sec } sec laddr

/-- libipt/src/pt_image_section_cache.c:905-981 `pt_iscache_add_file`.  `r` is the requested range,
`mk` the outcome of `pt_mk_section`: a new section object whose size is truncated to the file. -/
def iscAddFile (rng : Nat → Range) (ok : Bool) (c : Isc) (r : Range) (mk : Res Nat) (laddr : Nat) : Isc × Res Nat :=
  match findSection rng c r laddr with
  | some i =>
    match c.entries[i]? with
    | none => (c, .err .internal)
    | some e =>
      if e.laddr = laddr then (c, .ok (i + 1))
      else if 65535 < c.uc e.sec + 1 then (c, .err .overflow)
      else
        let q := iscAdd rng ok { c with uc := cInc c.uc e.sec } e.sec laddr
        ({ q.1 with uc := cDec q.1.uc e.sec }, q.2)
  | none =>
    match mk with
    | .err e => (c, .err e)
    | .ub => (c, .ub)
    | .ok s =>
      let q := iscAdd rng ok { c with uc := cInc c.uc s } s laddr
      ({ q.1 with uc := cDec q.1.uc s }, q.2)

/-- libipt/src/pt_image_section_cache.c:756-795 `pt_iscache_lookup`: takes a reference. -/
def iscLookup (c : Isc) (isid : Int) : Isc × Res IEntry :=
  if isid ≤ 0 then (c, .err .badImage)
  else if 65535 < isid - 1 then (c, .err .internal)
  else
    match c.entries[(isid - 1).toNat]? with
    | none => (c, .err .badImage)
    | some e =>
      if 65535 < c.uc e.sec + 1 then (c, .err .overflow)
      else ({ c with uc := cInc c.uc e.sec }, .ok e)

/-- The loop of libipt/src/pt_image_section_cache.c:144-190 `pt_iscache_find_locked`. -/
def findIsid (rng : Nat → Range) (r : Range) (laddr : Nat) : List IEntry → Nat → Nat
  | [], _ => 0
  | e :: l, i =>
    if e.laddr ≠ laddr then findIsid rng r laddr l (i + 1)
    else if (rng e.sec).offset ≠ r.offset then findIsid rng r laddr l (i + 1)
    else if (rng e.sec).size ≠ r.size then findIsid rng r laddr l (i + 1)
    else if (rng e.sec).file ≠ r.file then findIsid rng r laddr l (i + 1)
    else i + 1

/-- libipt/src/pt_image_section_cache.c:797-848 `pt_iscache_clear`: every entry gives back its
attachment and its reference. -/
def iscClear (c : Isc) : Isc :=
  { entries := [], capacity := 0,
    uc := c.entries.foldl (fun u e => cDec u e.sec) c.uc,
    ac := c.entries.foldl (fun u e => cDec u e.sec) c.ac }

/-! ## The LRU list of mapped sections -/

/-- `struct pt_iscache_lru_entry`, libipt/internal/include/pt_image_section_cache.h:53-66, and the LRU
part of the cache: the most recently used section first. -/
structure Lru where
  lru : List (Nat × Nat) := []
  used : Nat := 0
  limit : Nat := 2 ^ 64 - 1
deriving DecidableEq, Repr

/-- The loop of libipt/src/pt_image_section_cache.c:211-239 `pt_iscache_lru_prune`: the amount used and
the kept and removed entries; `none` if nothing needs to be removed. -/
def pruneLoop (limit : Nat) : List (Nat × Nat) → Nat → Option (Nat × List (Nat × Nat) × List (Nat × Nat))
  | [], _ => none
  | e :: l, used =>
    let used' := (used + e.2) % 2 ^ 64
    if used' ≤ limit then
      match pruneLoop limit l used' with
      | none => none
      | some (u, kept, tail) => some (u, e :: kept, tail)
    else some ((used' + 2 ^ 64 - e.2) % 2 ^ 64, [], e :: l)

/-- libipt/src/pt_image_section_cache.c:211-239 `pt_iscache_lru_prune`; returns the removed entries,
which are then unmapped and freed (192-209 `pt_iscache_lru_free`). -/
def lruPrune (c : Lru) : Lru × Res (List (Nat × Nat)) :=
  match pruneLoop c.limit c.lru 0 with
  | none => (c, .err .internal)
  | some (u, kept, tail) => ({ c with lru := kept, used := u }, .ok tail)

/-- libipt/src/pt_image_section_cache.c:248-292 `pt_isache_lru_new`; `memsize` is the section's
memory size, `share` the outcome of sharing its mapping and allocating the list element.  The
result says whether to prune. -/
def lruNew (c : Lru) (sec memsize : Nat) (share : Res Unit) : Lru × Res Bool :=
  if c.limit < memsize then (c, .ok false)
  else match share with
    | .err e => (c, .err e)
    | .ub => (c, .ub)
    | .ok () =>
      let c' := { c with lru := (sec, memsize) :: c.lru }
      let total := (c.used + memsize) % 2 ^ 64
      if total < c.used ∨ total < memsize then (c', .err .overflow)
      else ({ c' with used := total }, .ok (decide (c.limit < total)))

/-- The first element for `sec` and the list without it. -/
def takeSec (sec : Nat) : List (Nat × Nat) → Option ((Nat × Nat) × List (Nat × Nat))
  | [] => none
  | e :: l =>
    if e.1 = sec then some (e, l)
    else match takeSec sec l with
      | none => none
      | some (x, l') => some (x, e :: l')

/-- libipt/src/pt_image_section_cache.c:301-325 `pt_iscache_lru_add`. -/
def lruAdd (c : Lru) (sec memsize : Nat) (share : Res Unit) : Lru × Res Bool :=
  match takeSec sec c.lru with
  | some (e, l) => ({ c with lru := e :: l }, .ok false)
  | none => lruNew c sec memsize share

/-- libipt/src/pt_image_section_cache.c:362-407 `pt_iscache_lru_resize`.  The caller has computed
`memsize` just before; it is also the size `pt_isache_lru_new` sees. -/
def lruResize (c : Lru) (sec memsize : Nat) (share : Res Unit) : Lru × Res Bool :=
  match lruAdd c sec memsize share with
  | (c, .err e) => (c, .err e)
  | (c, .ub) => (c, .ub)
  | (c, .ok status) =>
    match c.lru with
    | [] => if status then (c, .err .internal) else (c, .ok false)
    | e :: l =>
      if e.1 ≠ sec then
        if c.limit < memsize then (c, .ok false) else (c, .err .internal)
      else
        let c := { c with lru := (e.1, memsize) :: l }
        if status then (c, .ok true)
        else
          let used := (c.used + 2 ^ 64 - e.2 + memsize) % 2 ^ 64
          ({ c with used := used }, .ok (decide (c.limit < used)))

/-- Prune if needed: the common end of the notification functions. -/
def lruFinish (r : Lru × Res Bool) : Lru × Res (List (Nat × Nat)) :=
  match r with
  | (c, .ok true) => lruPrune c
  | (c, .ok false) => (c, .ok [])
  | (c, .err e) => (c, .err e)
  | (c, .ub) => (c, .ub)

/-- libipt/src/pt_image_section_cache.c:1031-1053 `pt_iscache_notify_map`; the result lists the
sections that are unmapped. -/
def lruNotifyMap (c : Lru) (sec memsize : Nat) (share : Res Unit) : Lru × Res (List (Nat × Nat)) :=
  lruFinish (lruAdd c sec memsize share)

/-- libipt/src/pt_image_section_cache.c:1055-1077 `pt_iscache_notify_resize`. -/
def lruNotifyResize (c : Lru) (sec memsize : Nat) (share : Res Unit) : Lru × Res (List (Nat × Nat)) :=
  lruFinish (lruResize c sec memsize share)

/-- libipt/src/pt_image_section_cache.c:870-894 `pt_iscache_set_limit`. -/
def lruSetLimit (c : Lru) (limit : Nat) : Lru × Res (List (Nat × Nat)) :=
  let c := { c with limit := limit }
  if limit < c.used then lruPrune c else (c, .ok [])

/-- libipt/src/pt_image_section_cache.c:416-434 `pt_iscache_lru_clear`, and the LRU part of
`pt_iscache_clear`, 797-848. -/
def lruClear (c : Lru) : Lru × Res (List (Nat × Nat)) := ({ c with lru := [], used := 0 }, .ok c.lru)

/-- libipt/src/pt_image_section_cache.c:332-354 `pt_iscache_lru_remove`, used when `pt_iscache_add`
replaces a section by an equal one: the amount used is not updated. -/
def lruRemove (c : Lru) (sec : Nat) : Lru × Res (List (Nat × Nat)) :=
  match takeSec sec c.lru with
  | some (e, l) => ({ c with lru := l }, .ok [e])
  | none => (c, .ok [])

end Ipt
