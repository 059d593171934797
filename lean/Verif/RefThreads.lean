import Mathlib.Algebra.BigOperators.Group.Finset.Basic
import Mathlib.Data.Fintype.BigOperators
import Verif.Basic

/-!
# Threads that share section objects

`Verif/MapThreads.lean` has mappings and block caches.  Here is what the functions of libipt/src/pt_section.c,
pt_image.c, pt_image_section_cache.c and pt_msec_cache.c do to the reference count, the map count and the attach count of
section objects, and when they free them, for any number of threads.

Functions that lock a section to change its counts do so in a single step: `Verif/Props/Locks.lean` shows that the counts
are only accessed with the lock held.  Freeing a section is a step of its own, because it is done after
unlocking.  A section object is a number.  The number may be used again when the object has been freed, like the
address of an object.

Images and decoders belong to a thread.  Each thread has one multiset of sections for all of its images, and one for all
of its decoders.  There is one image section cache, which is shared: `entry` is how often a section is in the cache, `pool`
how often it is in its list of recently used sections.  Whether files can be mapped and memory can be allocated, which
sections a search finds, and which ones a cache drops is arbitrary.

`Loc.own`, `ref`, `att`, `lost` and `known` say what the thread is responsible for and what it knows.  They are not part
of the program and do not influence what threads do.
-/

namespace Ipt.Refs

/-- A section object (internal/include/pt_section.h:42-152) and the places in shared objects that refer to it. -/
structure Cell where
  /-- The object exists. -/
  alive : Bool := false
  ucount : Nat := 0
  mcount : Nat := 0
  acount : Nat := 0
  /-- The number of entries in image section caches. -/
  entry : Nat := 0
  /-- The number of entries in their lists of recently used sections. -/
  pool : Nat := 0
deriving DecidableEq, Repr

/-- What a thread has to do with a section. -/
structure Loc where
  /-- The number of entries in the thread's images. -/
  img : Nat := 0
  /-- The number of its decoders that have the section in their cache. -/
  held : Nat := 0
  /-- The references it is responsible for, including those of its images and decoders. -/
  ref : Nat := 0
  /-- The mappings it is responsible for, including those of its decoders. -/
  own : Nat := 0
  /-- The attachments it is responsible for. -/
  att : Nat := 0
  /-- The references it has forgotten to drop. -/
  lost : Nat := 0
  /-- It knows that the section is in an image section cache. -/
  known : Bool := false
deriving DecidableEq, Repr

/-- What a thread does.  Each of those before `ifAtt` is a step that concerns one section. -/
inductive Prog
  | get (s : Nat)
  | put (s : Nat)
  | mk (s : Nat)
  | map (s : Nat)
  | unmap (s : Nat)
  | access (s : Nat)
  | attach (s : Nat)
  | detach (s : Nat)
  | insert (s : Nat)
  | remove (s : Nat)
  | find (s : Nat)
  | give (s : Nat)
  | take (s : Nat)
  | imgAdd (s : Nat)
  | imgDel (s : Nat)
  | imgFind (s : Nat)
  | hold (s : Nat)
  | unhold (s : Nat)
  | heldFind (s : Nat)
  | lose (s : Nat)
  | ifAtt (s : Nat) (p q : Prog)
  | skip
  | done (ok : Bool)
  | seq (p q : Prog)
  | alt (p q : Prog)
  | ifOk (p q : Prog)
  | any (f : Nat → Prog)
  | anyList (f : List Nat → Prog)
  | star (p : Prog)

open Prog

scoped infixr:60 " ;; " => Prog.seq

/-! ## The functions -/

/-- pt_image_section_cache.c:192-209 `pt_iscache_lru_free`. -/
def lruFree : List Nat → Prog
  | [] => done true
  | s :: l => unmap s ;; ifOk (lruFree l) skip

/-- Removing sections from the list: pt_image_section_cache.c:211-240 `pt_iscache_lru_prune`, and 416-434. -/
def takeAll : List Nat → Prog
  | [] => skip
  | s :: l => take s ;; takeAll l

/-- Removing any sections from the list and, after unlocking the cache, unmapping them: pt_image_section_cache.c:416-434
`pt_iscache_lru_clear`, 870-895 `pt_iscache_set_limit`. -/
def lruDrop : Prog := anyList fun l => takeAll l ;; lruFree l

/-- pt_image_section_cache.c:242-324 `pt_isache_lru_new`, `pt_iscache_lru_add`: the section is in the list or too big, its
size is not available, or it is added. -/
def lruAdd (s : Nat) : Prog :=
  alt (done true) (alt (done false)
    (map s ;; ifOk (alt (unmap s ;; done false) (give s ;; alt (done true) (done false))) skip))

/-- pt_image_section_cache.c:1031-1077 `pt_iscache_notify_map`, `pt_iscache_notify_resize`. -/
def notify (s : Nat) : Prog :=
  access s ;; lruAdd s ;; ifOk (alt skip (alt (done false) lruDrop)) skip

/-- posix/pt_section_posix.c:199-264 `pt_section_map`; pt_section.c:600-630 `pt_section_on_map`. -/
def mapSection (s : Nat) : Prog :=
  map s ;; ifOk (ifAtt s (notify s ;; ifOk skip (unmap s ;; done false)) skip) skip

/-- pt_section.c:507-598 `pt_section_alloc_bcache`. -/
def allocBcache (s : Nat) : Prog := access s ;; alt (done false) (alt (done true) (ifAtt s (notify s) (done true)))

/-- pt_image_section_cache.c:756-795 `pt_iscache_lookup`. -/
def lookup (s : Nat) : Prog := find s ;; get s

/-- pt_image_section_cache.c:983-1029 `pt_iscache_read`. -/
def iscacheRead : Prog := any fun s =>
  lookup s ;; ifOk (alt skip (mapSection s ;; ifOk (access s ;; unmap s) skip) ;; put s) skip

/-- pt_image_section_cache.c:569-714: the loop of `pt_iscache_add`, and what follows, with the section `s` attached.  The
list has the sections that are found in the cache and replace `s`, one after the other. -/
def addLoop : List Nat → Nat → Prog
  | [], s =>
    alt (insert s ;; done true) (alt (detach s ;; put s ;; done true) (detach s ;; lruDrop ;; put s ;; done false))
  | x :: l, s =>
    find x ;; get x ;; ifOk
      (detach s ;; attach x ;; ifOk (alt skip (take s ;; unmap s) ;; put s ;; addLoop l x)
        (put x ;; lruDrop ;; put s ;; done false))
      (detach s ;; lruDrop ;; put s ;; done false)

/-- pt_image_section_cache.c:505-732 `pt_iscache_add`. -/
def iscacheAdd (s : Nat) : Prog :=
  get s ;; ifOk (attach s ;; ifOk (anyList fun l => addLoop l s) (put s ;; done false)) skip

/-- pt_image_section_cache.c:905-980 `pt_iscache_add_file`: the section is in the cache at this address, it is in the cache at
another one, or it is not in the cache. -/
def iscacheAddFile : Prog :=
  alt (done true) (any fun s =>
    alt (lookup s ;; ifOk (iscacheAdd s ;; put s) skip)
      (mk s ;; iscacheAdd s ;; put s))

/-- pt_image.c:39-66 `pt_mk_section_list` and adding the new element to the image; pt_image.c:68-76
`pt_section_list_free` if adding fails. -/
def listAdd (s : Nat) : Prog := get s ;; ifOk (alt (imgAdd s) (put s ;; done false)) skip

/-- pt_image.c:136-245 `pt_image_add`: overlapping sections are split or removed. -/
def imageAdd (s : Nat) : Prog :=
  listAdd s ;; star (any fun s => alt (imgFind s ;; listAdd s) (imgDel s ;; put s))

/-- pt_image.c:287-320 `pt_image_add_file`. -/
def imageAddFile : Prog := any fun s => mk s ;; imageAdd s ;; put s

/-- pt_image.c:603-636 `pt_image_add_cached`.  The function returns without dropping the reference if the user's
address space identifier cannot be read. -/
def imageAddCached (asid : Bool) : Prog := any fun s =>
  lookup s ;; ifOk (if asid = true then imageAdd s ;; put s else lose s) skip

/-- pt_image.c:247-285, 353-440: removing sections, and freeing an image. -/
def imageRemove : Prog := star (any fun s => imgDel s ;; put s)

/-- pt_image.c:322-351 `pt_image_copy`. -/
def imageCopy : Prog := star (any fun s => imgFind s ;; imageAdd s)

/-- pt_image.c:555-601 `pt_image_read`. -/
def imageRead : Prog := any fun s =>
  imgFind s ;; mapSection s ;; ifOk (access s ;; unmap s) skip

/-- pt_msec_cache.c:100-135 `pt_msec_cache_fill`, after `pt_msec_cache_invalidate`, with pt_image.c:638-665
`pt_image_find`. -/
def decoderFill : Prog := any fun s =>
  imgFind s ;; get s ;; ifOk (mapSection s ;; ifOk (hold s) (put s)) skip

/-- What a decoder does with the section in its cache: reading from it, and getting a block cache for it (pt_block_decoder.c:
2917-2945 `pt_blk_msec_fill`). -/
def decoderUse : Prog := any fun s => heldFind s ;; alt (access s) (allocBcache s)

/-- pt_msec_cache.c:56-75 `pt_msec_cache_invalidate`. -/
def decoderForget : Prog := any fun s => unhold s ;; unmap s ;; put s

/-- pt_image_section_cache.c:797-848 `pt_iscache_clear`: removing the entries and, after unlocking the cache, dropping their
references. -/
def removeAll : List Nat → Prog
  | [] => skip
  | s :: l => remove s ;; removeAll l

/-- pt_image_section_cache.c:829-843: the loop in `pt_iscache_clear`. -/
def dropAll : List Nat → Prog
  | [] => skip
  | s :: l => detach s ;; ifOk (put s ;; ifOk (dropAll l) skip) skip

/-- pt_image_section_cache.c:861-868 `pt_iscache_free`.  `lru` are the sections in the list of recently used ones, `l` the
entries of the cache. -/
def iscacheFree (lru l : List Nat) : Prog :=
  takeAll lru ;; removeAll l ;; lruFree lru ;; ifOk (dropAll l) skip

/-- The functions that use shared sections.  Decoders call `pt_image_read` and the functions for their caches, any number of
times and in any order, and users call the others in between. -/
inductive Call
  | iscacheRead
  | iscacheAddFile
  | iscacheSetLimit
  | imageAddFile
  | imageAddCached (asid : Bool)
  | imageRemove
  | imageCopy
  | imageRead
  | decoderFill
  | decoderUse
  | decoderForget
  | iscacheFree (lru l : List Nat)
deriving DecidableEq, Repr

def Call.prog : Call → Prog
  | .iscacheRead => Refs.iscacheRead
  | .iscacheAddFile => Refs.iscacheAddFile
  | .iscacheSetLimit => lruDrop
  | .imageAddFile => Refs.imageAddFile
  | .imageAddCached asid => Refs.imageAddCached asid
  | .imageRemove => Refs.imageRemove
  | .imageCopy => Refs.imageCopy
  | .imageRead => Refs.imageRead
  | .decoderFill => Refs.decoderFill
  | .decoderUse => Refs.decoderUse
  | .decoderForget => Refs.decoderForget
  | .iscacheFree lru l => Refs.iscacheFree lru l

/-! ## Threads -/

/-- The result of the last function, and what the thread has to do with sections. -/
structure View where
  res : Bool := true
  loc : Nat → Loc := fun _ => {}

/-- A thread.  `freeing` is the section it is about to free. -/
structure Thread where
  code : List Prog
  freeing : Option Nat := none
  view : View := {}

structure St (n : Nat) where
  thread : Fin n → Thread
  cell : Nat → Cell := fun _ => {}

/-- `f` changed at `a`. -/
def upd {α β : Type} [DecidableEq α] (f : α → β) (a : α) (b : β) : α → β :=
  fun x => if x = a then b else f x

/-- The result is `r`. -/
def View.ret (v : View) (r : Bool) : View := { v with res := r }

/-- Something changes about section `s`. -/
def View.set (v : View) (s : Nat) (l : Loc) : View := { v with loc := upd v.loc s l }

namespace St
variable {n : Nat} (σ : St n) (t : Fin n)

/-- Thread `t` goes on with `k`. -/
def run (k : List Prog) (v : View) : St n :=
  { σ with thread := upd σ.thread t { σ.thread t with code := k, view := v } }

/-- Thread `t` changes section `s`. -/
def act (k : List Prog) (s : Nat) (c : Cell) (v : View) : St n :=
  { thread := upd σ.thread t { σ.thread t with code := k, view := v }, cell := upd σ.cell s c }
end St

/-- Thread `t` has `p` to do, and then `k`, and makes a step. -/
inductive Free {n : Nat} (σ : St n) (t : Fin n) (k : List Prog) : Prog → St n → Prop
  /-- pt_section.c:180-201 `pt_section_get`, with a 16-bit count. -/
  | get {s} : (σ.cell s).ucount ≠ 65535 →
      Free σ t k (.get s) (σ.act t k s { σ.cell s with ucount := (σ.cell s).ucount + 1 }
        (((σ.thread t).view.set s
          { (σ.thread t).view.loc s with ref := ((σ.thread t).view.loc s).ref + 1 }).ret true))
  | getMany {s} : (σ.cell s).ucount = 65535 → Free σ t k (.get s) (σ.run t k ((σ.thread t).view.ret false))
  /-- pt_section.c:203-232 `pt_section_put`. -/
  | put {s} : 1 < (σ.cell s).ucount →
      Free σ t k (.put s) (σ.act t k s { σ.cell s with ucount := (σ.cell s).ucount - 1 }
        (((σ.thread t).view.set s
          { (σ.thread t).view.loc s with ref := ((σ.thread t).view.loc s).ref - 1 }).ret true))
  | putLast {s} : (σ.cell s).ucount = 1 → (σ.cell s).mcount = 0 →
      Free σ t k (.put s)
        { σ with thread := upd σ.thread t ⟨k, some s, (σ.thread t).view.ret true⟩ }
  | putBad {s} : (σ.cell s).ucount = 0 ∨ ((σ.cell s).ucount = 1 ∧ (σ.cell s).mcount ≠ 0) →
      Free σ t k (.put s) (σ.run t k ((σ.thread t).view.ret false))
  /-- pt_section.c:41-149 `pt_mk_section`. -/
  | mk {s} : (σ.cell s).alive = false →
      Free σ t k (.mk s) (σ.act t k s { σ.cell s with alive := true, ucount := 1, mcount := 0, acount := 0 }
        ((σ.thread t).view.set s
          { (σ.thread t).view.loc s with ref := ((σ.thread t).view.loc s).ref + 1 }))
  /-- posix/pt_section_posix.c:199-264 `pt_section_map`, pt_section.c:632-659 `pt_section_map_share`. -/
  | map {s} :
      Free σ t k (.map s) (σ.act t k s { σ.cell s with mcount := (σ.cell s).mcount + 1 }
        (((σ.thread t).view.set s
          { (σ.thread t).view.loc s with own := ((σ.thread t).view.loc s).own + 1 }).ret true))
  | mapFail {s} : Free σ t k (.map s) (σ.run t k ((σ.thread t).view.ret false))
  /-- pt_section.c:661-702 `pt_section_unmap`. -/
  | unmap {s} : (σ.cell s).mcount ≠ 0 →
      Free σ t k (.unmap s) (σ.act t k s { σ.cell s with mcount := (σ.cell s).mcount - 1 }
        (((σ.thread t).view.set s
          { (σ.thread t).view.loc s with own := ((σ.thread t).view.loc s).own - 1 }).ret true))
  | unmapBad {s} : (σ.cell s).mcount = 0 → Free σ t k (.unmap s) (σ.run t k ((σ.thread t).view.ret false))
  /-- Reading fields of the section object, reading from the section, locking and unlocking it. -/
  | access {s} : Free σ t k (.access s) (σ.run t k (σ.thread t).view)
  /-- pt_section.c:269-341 `pt_section_attach`. -/
  | attach {s} : (σ.cell s).acount ≠ 65535 → (σ.cell s).acount + 1 ≤ (σ.cell s).ucount →
      Free σ t k (.attach s) (σ.act t k s { σ.cell s with acount := (σ.cell s).acount + 1 }
        (((σ.thread t).view.set s
          { (σ.thread t).view.loc s with att := ((σ.thread t).view.loc s).att + 1 }).ret true))
  | attachFail {s} : Free σ t k (.attach s) (σ.run t k ((σ.thread t).view.ret false))
  /-- pt_section.c:343-399 `pt_section_detach`. -/
  | detach {s} : (σ.cell s).acount ≠ 0 → (σ.cell s).acount - 1 ≤ (σ.cell s).ucount →
      Free σ t k (.detach s) (σ.act t k s { σ.cell s with acount := (σ.cell s).acount - 1 }
        (((σ.thread t).view.set s
          { (σ.thread t).view.loc s with att := ((σ.thread t).view.loc s).att - 1 }).ret true))
  | detachBad {s} : (σ.cell s).acount = 0 ∨ (σ.cell s).ucount < (σ.cell s).acount - 1 →
      Free σ t k (.detach s) (σ.run t k ((σ.thread t).view.ret false))
  /-- pt_image_section_cache.c:699-712. -/
  | insert {s} :
      Free σ t k (.insert s) (σ.act t k s { σ.cell s with entry := (σ.cell s).entry + 1 }
        ((σ.thread t).view.set s
          { (σ.thread t).view.loc s with
            ref := ((σ.thread t).view.loc s).ref - 1, att := ((σ.thread t).view.loc s).att - 1, known := true }))
  /-- pt_image_section_cache.c:811-823. -/
  | remove {s} : (σ.cell s).entry ≠ 0 →
      Free σ t k (.remove s) (σ.act t k s { σ.cell s with entry := (σ.cell s).entry - 1 }
        ((σ.thread t).view.set s
          { (σ.thread t).view.loc s with
            ref := ((σ.thread t).view.loc s).ref + 1, att := ((σ.thread t).view.loc s).att + 1 }))
  /-- The section is in the cache, for example pt_image_section_cache.c:782-788. -/
  | find {s} : (σ.cell s).entry ≠ 0 →
      Free σ t k (.find s) (σ.run t k
        ((σ.thread t).view.set s { (σ.thread t).view.loc s with known := true }))
  /-- pt_image_section_cache.c:270-275. -/
  | give {s} :
      Free σ t k (.give s) (σ.act t k s { σ.cell s with pool := (σ.cell s).pool + 1 }
        ((σ.thread t).view.set s { (σ.thread t).view.loc s with own := ((σ.thread t).view.loc s).own - 1 }))
  /-- Removing a section from the list of recently used ones, for example pt_image_section_cache.c:227-230. -/
  | take {s} : (σ.cell s).pool ≠ 0 →
      Free σ t k (.take s) (σ.act t k s { σ.cell s with pool := (σ.cell s).pool - 1 }
        ((σ.thread t).view.set s
          { (σ.thread t).view.loc s with own := ((σ.thread t).view.loc s).own + 1, known := true }))
  /-- Adding a section to an image, for example pt_image.c:243. -/
  | imgAdd {s} :
      Free σ t k (.imgAdd s) (σ.run t k
        ((σ.thread t).view.set s { (σ.thread t).view.loc s with img := ((σ.thread t).view.loc s).img + 1 }))
  /-- Removing a section from an image, for example pt_image.c:278. -/
  | imgDel {s} : ((σ.thread t).view.loc s).img ≠ 0 →
      Free σ t k (.imgDel s) (σ.run t k
        ((σ.thread t).view.set s { (σ.thread t).view.loc s with img := ((σ.thread t).view.loc s).img - 1 }))
  /-- Finding a section in an image, for example pt_image.c:509-551 `pt_image_fetch_section`. -/
  | imgFind {s} : ((σ.thread t).view.loc s).img ≠ 0 → Free σ t k (.imgFind s) (σ.run t k (σ.thread t).view)
  /-- A decoder keeps the section in its cache: pt_msec_cache.c:127-131. -/
  | hold {s} :
      Free σ t k (.hold s) (σ.run t k
        ((σ.thread t).view.set s { (σ.thread t).view.loc s with held := ((σ.thread t).view.loc s).held + 1 }))
  | unhold {s} : ((σ.thread t).view.loc s).held ≠ 0 →
      Free σ t k (.unhold s) (σ.run t k
        ((σ.thread t).view.set s { (σ.thread t).view.loc s with held := ((σ.thread t).view.loc s).held - 1 }))
  | heldFind {s} : ((σ.thread t).view.loc s).held ≠ 0 → Free σ t k (.heldFind s) (σ.run t k (σ.thread t).view)
  | lose {s} :
      Free σ t k (.lose s) (σ.run t k
        ((σ.thread t).view.set s { (σ.thread t).view.loc s with lost := ((σ.thread t).view.loc s).lost + 1 }))
  /-- The section is attached to a cache: internal/include/pt_section.h:350-356, pt_section.c:612-614. -/
  | attYes {s p q} : (σ.cell s).acount ≠ 0 →
      Free σ t k (.ifAtt s p q) (σ.run t (p :: k)
        ((σ.thread t).view.set s { (σ.thread t).view.loc s with known := true }))
  | attNo {s p q} : (σ.cell s).acount = 0 → Free σ t k (.ifAtt s p q) (σ.run t (q :: k) (σ.thread t).view)
  | skip : Free σ t k .skip (σ.run t k (σ.thread t).view)
  | done {b} : Free σ t k (.done b) (σ.run t k ((σ.thread t).view.ret b))
  | seq {p q} : Free σ t k (.seq p q) (σ.run t (p :: q :: k) (σ.thread t).view)
  | altL {p q} : Free σ t k (.alt p q) (σ.run t (p :: k) (σ.thread t).view)
  | altR {p q} : Free σ t k (.alt p q) (σ.run t (q :: k) (σ.thread t).view)
  | ifOk {p q} :
      Free σ t k (.ifOk p q) (σ.run t ((if (σ.thread t).view.res = true then p else q) :: k) (σ.thread t).view)
  | any {f} (s : Nat) : Free σ t k (.any f) (σ.run t (f s :: k) (σ.thread t).view)
  | anyList {f} (l : List Nat) : Free σ t k (.anyList f) (σ.run t (f l :: k) (σ.thread t).view)
  | stop {p} : Free σ t k (.star p) (σ.run t k (σ.thread t).view)
  | more {p} : Free σ t k (.star p) (σ.run t (p :: .star p :: k) (σ.thread t).view)

/-- Thread `t` makes a step. -/
inductive Step {n : Nat} (σ : St n) (t : Fin n) : St n → Prop
  /-- pt_section.c:163-178, 230 `pt_section_free`. -/
  | free {s} : (σ.thread t).freeing = some s →
      Step σ t
        { thread := upd σ.thread t
            { σ.thread t with
              freeing := none
              view := (σ.thread t).view.set s
                { (σ.thread t).view.loc s with ref := ((σ.thread t).view.loc s).ref - 1 } }
          cell := upd σ.cell s { σ.cell s with alive := false, ucount := 0 } }
  | code {p k σ'} : (σ.thread t).freeing = none → (σ.thread t).code = p :: k → Free σ t k p σ' → Step σ t σ'

/-- Any number of steps of any threads. -/
inductive Steps {n : Nat} : St n → St n → Prop
  | refl (σ) : Steps σ σ
  | step {σ σ' σ'' t} (h : Steps σ σ') (hs : Step σ' t σ'') : Steps σ σ''

/-- The threads at the start: each of them has a list of calls to make. -/
def start {n : Nat} (calls : Fin n → List Call) : St n :=
  { thread := fun t => { code := (calls t).map Call.prog } }

end Ipt.Refs
