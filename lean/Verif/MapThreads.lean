import Mathlib.Algebra.BigOperators.Group.Finset.Basic
import Mathlib.Data.Fintype.BigOperators
import Verif.Basic

/-!
# Threads that map, read and unmap the same sections

`Verif/Locks.lean` has the locks only.  Here is what the functions of libipt/src/pt_section.c,
posix/pt_section_posix.c, pt_section_file.c, pt_image_section_cache.c, pt_msec_cache.c and their users do to the map
count, the mapping and the block cache of sections, one access at a time, for any number of threads.

The mapping and the block cache are objects that are allocated and freed; an object has a number that is not used
again.  Functions that need the lock of a section wait until it is free.  The list of mapped sections of the image
section caches is a multiset of sections (`pool`); that it is only accessed with the cache locked is C52.  Whether files
can be mapped and memory can be allocated, whether a section is attached to a cache and which sections a cache drops is
arbitrary.

`own` counts, for each thread, the mappings it is responsible for.  It is not part of the program and does not influence
what threads do.
-/

namespace Ipt.Maps

/-- The two objects: `pt_section.mapping` and `pt_section.bcache` (internal/include/pt_section.h:90-152). -/
inductive Kind
  | mapping | bcache
deriving DecidableEq, Repr

/-- Where a thread is that holds the lock of a section. -/
inductive Micro
  | mapTest | mapSet | mapCount | shareTest | unmapTest | unmapFree | bcacheFree | allocTest | allocSet
  | leave (ok : Bool)
deriving DecidableEq, Repr

/-- What a thread does.  `enter s m` locks section `s` and goes to `m`; `load` reads a pointer to an object and `use`
dereferences it, both without lock; `give` and `take` add a section to and remove it from the sections mapped by the
image section cache; `done` returns. -/
inductive Prog
  | skip
  | enter (s : Nat) (m : Micro)
  | load (k : Kind) (s : Nat)
  | use (k : Kind) (s : Nat)
  | give (s : Nat)
  | take (s : Nat)
  | done (ok : Bool)
  | seq (p q : Prog)
  | alt (p q : Prog)
  | ifOk (p q : Prog)
  | any (f : List Nat → Prog)
  | star (p : Prog)

open Prog

infixr:60 " ;; " => Prog.seq

/-! ## The functions -/

/-- pt_section.c:661-702 `pt_section_unmap`. -/
def unmap (s : Nat) : Prog := enter s .unmapTest

/-- pt_section.c:632-659 `pt_section_map_share`. -/
def mapShare (s : Nat) : Prog := enter s .shareTest

/-- pt_image_section_cache.c:192-209 `pt_iscache_lru_free`. -/
def lruFree : List Nat → Prog
  | [] => done true
  | s :: l => unmap s ;; ifOk (lruFree l) skip

/-- Removing sections from the list: pt_image_section_cache.c:211-240 `pt_iscache_lru_prune`, and 332-352, 416-434 and
797-848. -/
def takeAll : List Nat → Prog
  | [] => skip
  | s :: l => take s ;; takeAll l

/-- Removing any sections from the list and, after unlocking the cache, unmapping them:
pt_image_section_cache.c:332-352 `pt_iscache_lru_remove`, 416-434 `pt_iscache_lru_clear`, 870-895
`pt_iscache_set_limit`, and 797-848 `pt_iscache_clear`. -/
def lruDrop : Prog := any fun l => takeAll l ;; lruFree l

/-- pt_image_section_cache.c:242-324 `pt_isache_lru_new`, `pt_iscache_lru_add`: the section is in the list or too big, its
size is not available, or it is added. -/
def lruAdd (s : Nat) : Prog :=
  alt (done true) (alt (done false)
    (mapShare s ;; ifOk (alt (unmap s ;; done false) (give s ;; alt (done true) (done false))) skip))

/-- pt_image_section_cache.c:1031-1077 `pt_iscache_notify_map`, `pt_iscache_notify_resize`. -/
def notify (s : Nat) : Prog :=
  lruAdd s ;; ifOk (alt skip (alt (done false) lruDrop)) skip

/-- internal/include/pt_section.h:350-356, pt_section.c:600-630 `pt_section_on_map`, and what posix/pt_section_posix.c:179-196
does with the result. -/
def onMap (s : Nat) : Prog :=
  alt skip (notify s ;; ifOk skip (unmap s ;; done false))

/-- posix/pt_section_posix.c:199-264 `pt_section_map`. -/
def map (s : Nat) : Prog := enter s .mapTest ;; ifOk (onMap s) skip

/-- pt_section.c:704-726 `pt_section_read` with posix/pt_section_posix.c:288-312 and pt_section_file.c:198-243. -/
def read (s : Nat) : Prog := load .mapping s ;; use .mapping s

/-- pt_section.c:507-598 `pt_section_alloc_bcache`. -/
def allocBcache (s : Nat) : Prog := enter s .allocTest ;; ifOk (alt skip (notify s)) skip

/-- internal/include/pt_section.h:309-322 `pt_section_request_bcache`. -/
def requestBcache (s : Nat) : Prog := load .bcache s ;; alt (done true) (allocBcache s)

/-- pt_image.c:555-600 `pt_image_read`, pt_image_section_cache.c:983-1029 `pt_iscache_read`. -/
def readOnce (s : Nat) : Prog := map s ;; ifOk (read s ;; unmap s) skip

/-- What a decoder does between pt_msec_cache.c:100-135 `pt_msec_cache_fill` and pt_msec_cache.c:56-75
`pt_msec_cache_invalidate`: it reads instructions from the section (pt_insn_decoder.c:1565-1640), requests and uses a block
cache (pt_block_decoder.c:2915-3018; filling the cache, pt_block_decoder.c:2241-2520, reads from the section), and
reads from other sections (pt_insn.c:289-405). -/
def cached (s : Nat) : Prog :=
  star (alt (read s) (alt (requestBcache s) (alt (load .bcache s ;; star (alt (use .bcache s) (read s)))
    (any fun l => readOnce (l.headD 0)))))

/-- pt_msec_cache.c:100-135 `pt_msec_cache_fill` with a section, and what follows until the section is unmapped. -/
def session (s : Nat) : Prog := map s ;; ifOk (cached s ;; unmap s) skip

/-- A call, or a sequence of calls of a decoder: any number of sections one after the other. -/
def decode : Prog := star (any fun l => session (l.headD 0))

/-- The functions that use shared sections. -/
inductive Call
  | iscacheRead (s : Nat)
  | iscacheDrop
  | decode
deriving Repr

def Call.prog : Call → Prog
  | .iscacheRead s => readOnce s
  | .iscacheDrop => lruDrop
  | .decode => Maps.decode

/-! ## Threads -/

/-- The part of a thread's state that its obligations depend on: the result of the last function, the mappings it is
responsible for, and the pointers it has loaded since. -/
structure View where
  res : Bool := true
  own : Nat → Nat := fun _ => 0
  valid : Kind → Nat → Bool := fun _ _ => false

/-- A thread.  `ptr` are the pointers it has loaded; `at_` says where it is if it holds the lock of a section. -/
structure Thread where
  code : List Prog
  at_ : Option (Nat × Micro) := none
  view : View := {}
  ptr : Kind → Nat → Option Nat := fun _ _ => none

/-- The shared state: `mcount`, the objects, the number of the next object, the mappings held by image section caches, and
the owners of the locks. -/
structure St (n : Nat) where
  thread : Fin n → Thread
  owner : Nat → Option (Fin n) := fun _ => none
  mcount : Nat → Nat := fun _ => 0
  obj : Kind → Nat → Option Nat := fun _ _ => none
  next : Nat := 0
  pool : Nat → Nat := fun _ => 0

/-- `f` changed at `a`. -/
def upd {α β : Type} [DecidableEq α] (f : α → β) (a : α) (b : β) : α → β :=
  fun x => if x = a then b else f x

/-- `f` changed at `k` and `s`. -/
def upd2 {β : Type} (f : Kind → Nat → β) (k : Kind) (s : Nat) (b : β) : Kind → Nat → β :=
  fun k' s' => if k' = k ∧ s' = s then b else f k' s'

/-- One more mapping. -/
def View.gain (v : View) (s : Nat) : View := { v with own := upd v.own s (v.own s + 1) }

/-- One mapping less.  With the last one, pointers become invalid. -/
def View.lose (v : View) (s : Nat) : View :=
  { v with
    own := upd v.own s (v.own s - 1)
    valid := fun k x => v.valid k x && !(x == s && v.own s - 1 == 0) }

def View.ret (v : View) (b : Bool) : View := { v with res := b }
def View.loaded (v : View) (k : Kind) (s : Nat) : View := { v with valid := upd2 v.valid k s true }

namespace St
variable {n : Nat} (σ : St n) (t : Fin n)

/-- Change thread `t`. -/
def thr (x : Thread) : St n := { σ with thread := upd σ.thread t x }

/-- Go to `m`, with the lock of `s`. -/
def goto (s : Nat) (m : Micro) : St n := σ.thr t { σ.thread t with at_ := some (s, m) }

/-- Change the view. -/
def look (f : View → View) : St n := σ.thr t { σ.thread t with view := f (σ.thread t).view }

/-- Change the code. -/
def run (k : List Prog) : St n := σ.thr t { σ.thread t with code := k }

def setCount (s c : Nat) : St n := { σ with mcount := upd σ.mcount s c }
def setObj (k : Kind) (s : Nat) (o : Option Nat) : St n := { σ with obj := upd2 σ.obj k s o }
def alloc (k : Kind) (s : Nat) : St n := { σ with obj := upd2 σ.obj k s (some σ.next), next := σ.next + 1 }
def setPool (s c : Nat) : St n := { σ with pool := upd σ.pool s c }
end St

/-- A thread that holds the lock of section `s` and is at `m` makes a step. -/
inductive Locked {n : Nat} (σ : St n) (t : Fin n) (s : Nat) : Micro → St n → Prop
  /-- posix/pt_section_posix.c:212-213: the section is already mapped. -/
  | mapAgain : σ.mcount s ≠ 0 → Locked σ t s .mapTest (σ.goto t s .mapCount)
  /-- posix/pt_section_posix.c:215-263: it cannot be mapped. -/
  | mapFail : σ.mcount s = 0 → Locked σ t s .mapTest (σ.goto t s (.leave false))
  /-- posix/pt_section_posix.c:215-255: it can. -/
  | mapOk : σ.mcount s = 0 → σ.obj .mapping s = none → Locked σ t s .mapTest (σ.goto t s .mapSet)
  /-- posix/pt_section_posix.c:150-153, pt_section_file.c:160-163. -/
  | mapSet : Locked σ t s .mapSet ((σ.alloc .mapping s).goto t s .mapCount)
  /-- posix/pt_section_posix.c:171-175, with a 16-bit count. -/
  | mapMany : σ.mcount s = 65535 → Locked σ t s .mapCount (σ.goto t s (.leave false))
  /-- posix/pt_section_posix.c:177. -/
  | mapCount : σ.mcount s ≠ 65535 →
      Locked σ t s .mapCount (((σ.setCount s (σ.mcount s + 1)).look t (·.gain s)).goto t s (.leave true))
  /-- pt_section.c:644-648. -/
  | shareNone : σ.mcount s = 0 → Locked σ t s .shareTest (σ.goto t s (.leave false))
  /-- pt_section.c:650-654. -/
  | shareMany : σ.mcount s = 65535 → Locked σ t s .shareTest (σ.goto t s (.leave false))
  /-- pt_section.c:656-658. -/
  | share : σ.mcount s ≠ 0 → σ.mcount s ≠ 65535 →
      Locked σ t s .shareTest (((σ.setCount s (σ.mcount s + 1)).look t (·.gain s)).goto t s (.leave true))
  /-- pt_section.c:674-678. -/
  | unmapNone : σ.mcount s = 0 → Locked σ t s .unmapTest (σ.goto t s (.leave false))
  /-- pt_section.c:680-682. -/
  | unmap : 1 < σ.mcount s →
      Locked σ t s .unmapTest (((σ.setCount s (σ.mcount s - 1)).look t (·.lose s)).goto t s (.leave true))
  /-- pt_section.c:680-686. -/
  | unmapLast : σ.mcount s = 1 →
      Locked σ t s .unmapTest (((σ.setCount s (σ.mcount s - 1)).look t (·.lose s)).goto t s .unmapFree)
  /-- pt_section.c:684-686: there is no unmap function. -/
  | unmapNull : σ.obj .mapping s = none → Locked σ t s .unmapFree (σ.goto t s (.leave false))
  /-- pt_section.c:688, posix/pt_section_posix.c:266-286, pt_section_file.c:175-196. -/
  | unmapFree : σ.obj .mapping s ≠ none →
      Locked σ t s .unmapFree ((σ.setObj .mapping s none).goto t s .bcacheFree)
  /-- pt_section.c:690-691. -/
  | bcacheFree : Locked σ t s .bcacheFree ((σ.setObj .bcache s none).goto t s (.leave true))
  /-- pt_section.c:543-546. -/
  | allocNone : σ.mcount s = 0 → Locked σ t s .allocTest (σ.goto t s (.leave false))
  /-- pt_section.c:548-552. -/
  | allocHave : σ.mcount s ≠ 0 → σ.obj .bcache s ≠ none → Locked σ t s .allocTest (σ.goto t s (.leave true))
  /-- pt_section.c:554-558. -/
  | allocFail : σ.mcount s ≠ 0 → Locked σ t s .allocTest (σ.goto t s (.leave false))
  | allocOk : σ.mcount s ≠ 0 → σ.obj .bcache s = none → Locked σ t s .allocTest (σ.goto t s .allocSet)
  /-- pt_section.c:566-580; the size may not be available. -/
  | allocSet (b : Bool) : Locked σ t s .allocSet ((σ.alloc .bcache s).goto t s (.leave b))
  /-- Unlock and return. -/
  | leave (b : Bool) : Locked σ t s (.leave b)
      { σ with
        owner := upd σ.owner s none
        thread := upd σ.thread t
          { σ.thread t with at_ := none, view := (σ.thread t).view.ret b } }

/-- Thread `t`, which does not hold a lock and has `p` to do and then `k`, makes a step. -/
inductive Free {n : Nat} (σ : St n) (t : Fin n) (k : List Prog) : Prog → St n → Prop
  | skip : Free σ t k .skip (σ.run t k)
  | enter {s m} : σ.owner s = none →
      Free σ t k (.enter s m)
        { σ with
          owner := upd σ.owner s (some t)
          thread := upd σ.thread t { σ.thread t with code := k, at_ := some (s, m) } }
  | load {o s} :
      Free σ t k (.load o s)
        (σ.thr t { σ.thread t with
          code := k
          ptr := upd2 (σ.thread t).ptr o s (σ.obj o s)
          view := (σ.thread t).view.loaded o s })
  | use {o s} : Free σ t k (.use o s) (σ.run t k)
  | give {s} : Free σ t k (.give s) (((σ.setPool s (σ.pool s + 1)).look t (·.lose s)).run t k)
  | take {s} : σ.pool s ≠ 0 → Free σ t k (.take s) (((σ.setPool s (σ.pool s - 1)).look t (·.gain s)).run t k)
  | done {b} : Free σ t k (.done b) ((σ.look t (·.ret b)).run t k)
  | seq {p q} : Free σ t k (.seq p q) (σ.run t (p :: q :: k))
  | altL {p q} : Free σ t k (.alt p q) (σ.run t (p :: k))
  | altR {p q} : Free σ t k (.alt p q) (σ.run t (q :: k))
  | ifOk {p q} : Free σ t k (.ifOk p q) (σ.run t ((if (σ.thread t).view.res = true then p else q) :: k))
  | any {f} (l : List Nat) : Free σ t k (.any f) (σ.run t (f l :: k))
  | stop {p} : Free σ t k (.star p) (σ.run t k)
  | more {p} : Free σ t k (.star p) (σ.run t (p :: .star p :: k))

/-- Thread `t` makes a step. -/
inductive Step {n : Nat} (σ : St n) (t : Fin n) (σ' : St n) : Prop
  | locked {s m} : (σ.thread t).at_ = some (s, m) → Locked σ t s m σ' → Step σ t σ'
  | free {p k} : (σ.thread t).at_ = none → (σ.thread t).code = p :: k → Free σ t k p σ' → Step σ t σ'

/-- Any number of steps of any threads. -/
inductive Steps {n : Nat} : St n → St n → Prop
  | refl (σ) : Steps σ σ
  | step {σ σ' σ'' t} (h : Steps σ σ') (hs : Step σ' t σ'') : Steps σ σ''

/-- The threads at the start: each of them has a list of calls to make. -/
def start {n : Nat} (calls : Fin n → List Call) : St n :=
  { thread := fun t => { code := (calls t).map Call.prog } }

end Ipt.Maps
