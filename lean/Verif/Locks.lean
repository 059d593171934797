import Verif.Basic

/-!
# Locks of sections and of the image section cache

The locking behaviour of libipt/src/pt_section.c, pt_section_file.c, posix/pt_section_posix.c,
pt_image_section_cache.c, and of their users pt_image.c, pt_msec_cache.c and the decoders.

Every function below is the *skeleton* of the C function: the sequence of `mtx_lock`,
`mtx_unlock` and shared field accesses on every one of its paths.  Branches are non-deterministic
(`alt`), loops run any number of times (`star`) and pointers read from shared memory are arbitrary
(`any`); the model therefore has at least the paths of the code.  Mutexes are plain, non-recursive
mutexes (`mtx_plain`) that do not fail; `-pte_bad_lock` paths are not modelled.  What the code does
to the fields is modelled in `Verif/Section.lean` and `Verif/ISCache.lean`.
-/

namespace Ipt.Locks

/-- The mutexes: `pt_section.alock` and `pt_section.lock` (internal/include/pt_section.h:131-152),
`pt_image_section_cache.lock` (internal/include/pt_image_section_cache.h:101), and
`pt_sec_file_mapping.lock` (internal/include/pt_section_file.h:61).  Objects are numbered. -/
inductive Lock
  | attach (s : Nat)
  | cache (c : Nat)
  | sect (s : Nat)
  | file (s : Nat)
deriving DecidableEq, Repr

/-- Shared memory: `ucount`; `mcount` together with the mapping fields; `acount`; the `iscache`
pointer of a section; all the fields of an image section cache; the position of the file of a
file based section. -/
inductive Var
  | users (s : Nat)
  | maps (s : Nat)
  | acount (s : Nat)
  | link (s : Nat)
  | table (c : Nat)
  | fpos (s : Nat)
deriving DecidableEq, Repr

/-- Locking skeletons. -/
inductive Prog
  | skip
  | acq (l : Lock)
  | rel (l : Lock)
  | acc (v : Var) (write : Bool)
  | seq (p q : Prog)
  | alt (p q : Prog)
  | any (f : Nat → Prog)
  | star (p : Prog)

open Prog

infixr:60 " ;; " => Prog.seq

/-- A read and a write of a shared field. -/
abbrev rd (v : Var) : Prog := acc v false
abbrev wr (v : Var) : Prog := acc v true

/-! ## Sections -/

/-- pt_section.c:180-201 `pt_section_get`. -/
def get (s : Nat) : Prog :=
  acq (.sect s) ;; rd (.users s) ;;
    alt (rel (.sect s)) (wr (.users s) ;; rel (.sect s))

/-- pt_section.c:203-231 `pt_section_put`; the section is freed after it has been unlocked. -/
def put (s : Nat) : Prog :=
  acq (.sect s) ;; rd (.maps s) ;; rd (.users s) ;;
    alt (wr (.users s) ;; rel (.sect s)) (rel (.sect s))

/-- pt_section.c:269-341 `pt_section_attach`. -/
def attach (s : Nat) : Prog :=
  acq (.attach s) ;; rd (.acount s) ;;
    alt
      (rd (.link s) ;;
        alt (rel (.attach s))
          (acq (.sect s) ;; rd (.users s) ;;
            alt (rel (.sect s) ;; rel (.attach s))
              (rel (.sect s) ;; wr (.link s) ;; wr (.acount s) ;; rel (.attach s))))
      (alt (rel (.attach s))
        (rd (.link s) ;;
          alt (rel (.attach s))
            (acq (.sect s) ;; rd (.users s) ;;
              alt (rel (.sect s) ;; rel (.attach s))
                (rel (.sect s) ;; wr (.acount s) ;; rel (.attach s)))))

/-- pt_section.c:343-391 `pt_section_detach`. -/
def detach (s : Nat) : Prog :=
  acq (.attach s) ;; rd (.link s) ;;
    alt (rel (.attach s))
      (rd (.acount s) ;;
        alt (rel (.attach s))
          (acq (.sect s) ;; rd (.users s) ;;
            alt (rel (.sect s) ;; rel (.attach s))
              (rel (.sect s) ;; wr (.acount s) ;; alt skip (wr (.link s)) ;; rel (.attach s))))

/-- pt_section.c:461-475 `pt_section_memsize`. -/
def memsize (s : Nat) : Prog :=
  acq (.sect s) ;; rd (.maps s) ;; rel (.sect s)

/-- pt_section.c:632-659 `pt_section_map_share`. -/
def mapShare (s : Nat) : Prog :=
  acq (.sect s) ;; rd (.maps s) ;;
    alt (rel (.sect s)) (wr (.maps s) ;; rel (.sect s))

/-- pt_section.c:661-702 `pt_section_unmap`; the unmap functions (pt_section_file.c:175-196,
posix/pt_section_posix.c:266-286) take no locks. -/
def unmap (s : Nat) : Prog :=
  acq (.sect s) ;; rd (.maps s) ;;
    alt (rel (.sect s))
      (wr (.maps s) ;;
        alt (rel (.sect s))
          (alt (rel (.sect s)) (wr (.maps s) ;; rel (.sect s))))

/-- pt_image_section_cache.c:192-209 `pt_iscache_lru_free` of any list of sections. -/
def lruFree : Prog := star (any unmap)

/-- pt_image_section_cache.c:211-240 `pt_iscache_lru_prune`. -/
def lruPrune (c : Nat) : Prog :=
  rd (.table c) ;; alt skip (wr (.table c))

/-- pt_image_section_cache.c:242-292 `pt_isache_lru_new`. -/
def lruNew (c s : Nat) : Prog :=
  memsize s ;;
    alt skip
      (rd (.table c) ;;
        alt skip (mapShare s ;; alt skip (alt (unmap s) (wr (.table c)))))

/-- pt_image_section_cache.c:294-324 `pt_iscache_lru_add`. -/
def lruAdd (c s : Nat) : Prog :=
  rd (.table c) ;; alt (wr (.table c)) (lruNew c s)

/-- pt_image_section_cache.c:332-352 `pt_iscache_lru_remove`. -/
def lruRemove (c s : Nat) : Prog :=
  rd (.table c) ;; alt skip (wr (.table c) ;; unmap s)

/-- pt_image_section_cache.c:362-408 `pt_iscache_lru_resize`. -/
def lruResize (c s : Nat) : Prog :=
  lruAdd c s ;; alt skip (rd (.table c) ;; alt skip (wr (.table c)))

/-- pt_image_section_cache.c:416-434 `pt_iscache_lru_clear`. -/
def lruClear (c : Nat) : Prog :=
  acq (.cache c) ;; rd (.table c) ;; wr (.table c) ;; rel (.cache c) ;; lruFree

/-- pt_image_section_cache.c:1031-1053 `pt_iscache_notify_map`. -/
def notifyMap (c s : Nat) : Prog :=
  acq (.cache c) ;; lruAdd c s ;; alt skip (lruPrune c) ;; rel (.cache c) ;; alt skip lruFree

/-- pt_image_section_cache.c:1055-1077 `pt_iscache_notify_resize`. -/
def notifyResize (c s : Nat) : Prog :=
  acq (.cache c) ;; lruResize c s ;; alt skip (lruPrune c) ;; rel (.cache c) ;; alt skip lruFree

/-- pt_section.c:507-598 `pt_section_alloc_bcache`. -/
def allocBcache (s : Nat) : Prog :=
  acq (.attach s) ;; acq (.sect s) ;; rd (.maps s) ;;
    alt (rel (.sect s) ;; rel (.attach s))
      (rel (.sect s) ;;
        alt (rel (.attach s))
          (rd (.link s) ;; alt skip (any fun c => notifyResize c s) ;; rel (.attach s)))

/-- pt_section.c:600-630 `pt_section_on_map_lock`. -/
def onMapLock (s : Nat) : Prog :=
  acq (.attach s) ;; rd (.link s) ;;
    alt (rel (.attach s)) ((any fun c => notifyMap c s) ;; rel (.attach s))

/-- internal/include/pt_section.h:350-356 `pt_section_on_map`: the `iscache` pointer is read
without holding any lock. -/
def onMap (s : Nat) : Prog :=
  rd (.link s) ;; alt skip (onMapLock s)

/-- posix/pt_section_posix.c:163-197 `pt_sec_posix_map_success`, called with the section locked. -/
def mapSuccess (s : Nat) : Prog :=
  alt (rel (.sect s))
    (wr (.maps s) ;; rel (.sect s) ;; onMap s ;; alt skip (unmap s))

/-- posix/pt_section_posix.c:199-264 `pt_section_map`; the mapping functions
(posix/pt_section_posix.c:100-160, pt_section_file.c:109-173) take no locks. -/
def map (s : Nat) : Prog :=
  acq (.sect s) ;; rd (.maps s) ;;
    alt (mapSuccess s)
      (alt (rel (.sect s)) (wr (.maps s) ;; mapSuccess s))

/-- pt_section.c:704-726 `pt_section_read`, pt_section_file.c:198-243 `pt_sec_file_read`.  The
mapping fields are read without lock; they do not change while the section is mapped and this
access is not part of the model. -/
def read (s : Nat) : Prog :=
  alt skip
    (acq (.file s) ;; wr (.fpos s) ;; alt (rel (.file s)) (wr (.fpos s) ;; rel (.file s)))

/-! ## The image section cache -/

/-- pt_image_section_cache.c:728-732, label `out_put` preceded by `out_lru`. -/
def outLru (c s : Nat) : Prog := lruClear c ;; put s

/-- pt_image_section_cache.c:725, label `out_detach`. -/
def outDetach (c s : Nat) : Prog := detach s ;; outLru c s

/-- pt_image_section_cache.c:722, label `out_unlock_detach`. -/
def outUnlock (c s : Nat) : Prog := rel (.cache c) ;; outDetach c s

/-- pt_image_section_cache.c:565-685, one turn of the loop of `pt_iscache_add` in which the section
`s` is replaced by the cached section `t`.  The cache is locked before and after. -/
def addTurn (c s t : Nat) : Prog :=
  rd (.table c) ;; get t ;; rel (.cache c) ;; detach s ;; attach t ;;
    acq (.cache c) ;; lruRemove c s ;; put s

/-- pt_image_section_cache.c:565-735, the ways out of the loop of `pt_iscache_add`: no or a
corrupted match, a perfect match, each of the error paths of a replacement of `s` by `t`, and
adding the section. -/
def addExit (c s t : Nat) : Prog :=
  rd (.table c) ;;
    alt (outUnlock c s)
    (alt (rel (.cache c) ;; detach s ;; alt (outLru c s) (put s))
    (alt (get t ;; outUnlock c s)
    (alt (get t ;; rel (.cache c) ;; detach s ;; put t ;; outLru c s)
    (alt (get t ;; rel (.cache c) ;; detach s ;; attach t ;; put t ;; outLru c s)
    (alt (get t ;; rel (.cache c) ;; detach s ;; attach t ;; acq (.cache c) ;;
            lruRemove c s ;; put s ;; outUnlock c t)
      (wr (.table c) ;; alt (outUnlock c s) (wr (.table c) ;; rel (.cache c))))))))

/-- pt_image_section_cache.c:505-735 `pt_iscache_add`. -/
def iscAdd (c s : Nat) : Prog :=
  get s ;;
    alt skip
      (attach s ;;
        alt (put s)
          (acq (.cache c) ;; star (any fun s => any fun t => addTurn c s t) ;;
            any fun s => any fun t => addExit c s t))

/-- pt_image_section_cache.c:737-754 `pt_iscache_find`. -/
def iscFind (c : Nat) : Prog :=
  acq (.cache c) ;; rd (.table c) ;; rel (.cache c)

/-- pt_image_section_cache.c:756-795 `pt_iscache_lookup`. -/
def iscLookup (c s : Nat) : Prog :=
  acq (.cache c) ;; rd (.table c) ;; alt skip (get s) ;; rel (.cache c)

/-- pt_image_section_cache.c:797-848 `pt_iscache_clear`. -/
def iscClear (c : Nat) : Prog :=
  acq (.cache c) ;; rd (.table c) ;; wr (.table c) ;; rel (.cache c) ;; lruFree ;;
    star (any fun s => detach s ;; put s)

/-- pt_image_section_cache.c:870-895 `pt_iscache_set_limit`. -/
def iscSetLimit (c : Nat) : Prog :=
  acq (.cache c) ;; wr (.table c) ;; alt skip (lruPrune c) ;; rel (.cache c) ;; alt skip lruFree

/-- pt_image_section_cache.c:905-980 `pt_iscache_add_file`. -/
def iscAddFile (c s : Nat) : Prog :=
  acq (.cache c) ;; rd (.table c) ;;
    alt (rel (.cache c))
    (alt (get s ;; rel (.cache c))
    (alt (get s ;; rel (.cache c) ;; iscAdd c s ;; put s)
      (rel (.cache c) ;; alt skip (iscAdd c s ;; put s))))

/-- pt_image_section_cache.c:983-1029 `pt_iscache_read`. -/
def iscRead (c s : Nat) : Prog :=
  iscLookup c s ;;
    alt skip
    (alt (put s)
      (map s ;; alt (put s) (read s ;; unmap s ;; put s)))

/-! ## Images and decoders

Images and decoders themselves are not shared between threads; sections are. -/

/-- pt_image.c:136-246 `pt_image_add`: takes and drops references to sections. -/
def imgAdd (s : Nat) : Prog :=
  get s ;; star (any fun t => alt (get t) (put t))

/-- pt_image.c:288-320 `pt_image_add_file`. -/
def imgAddFile (s : Nat) : Prog := imgAdd s ;; put s

/-- pt_image.c:605-635 `pt_image_add_cached`. -/
def imgAddCached (c s : Nat) : Prog :=
  iscLookup c s ;; alt skip (imgAdd s ;; put s)

/-- pt_image.c:322-350 `pt_image_copy`. -/
def imgCopy : Prog := star (any imgAdd)

/-- pt_image.c:248-286, 353-401, 403-443 removing sections, and pt_image.c:100-108
`pt_image_fini`. -/
def imgRemove : Prog := star (any put)

/-- pt_image.c:555-600 `pt_image_read`. -/
def imgRead (s : Nat) : Prog :=
  alt skip (map s ;; alt skip (read s ;; unmap s))

/-- pt_msec_cache.c:56-75 `pt_msec_cache_invalidate`. -/
def msecInvalidate (s : Nat) : Prog :=
  alt skip (unmap s ;; alt skip (put s))

/-- pt_msec_cache.c:100-135 `pt_msec_cache_fill`, with pt_image.c:637-665 `pt_image_find`. -/
def msecFill (s t : Nat) : Prog :=
  msecInvalidate s ;; alt skip (get t ;; map t ;; alt skip (put t))

/-- What a call of an instruction or block flow decoder does with sections: read instructions
from the cached section (pt_insn_decoder.c:1565-1640, pt_block_decoder.c:800-860) or the image
(pt_insn.c:289-405), fill or invalidate its section cache (pt_insn_decoder.c:1612-1640, 1839, 1973,
pt_block_decoder.c:2915-2975), and request a block cache (pt_block_decoder.c:2940,
internal/include/pt_section.h:309-322). -/
def decode : Prog :=
  star (any fun s => any fun t =>
    alt (read s) (alt (imgRead s) (alt (msecFill s t) (alt (msecInvalidate s) (allocBcache s)))))

/-! ## Threads -/

/-- The public functions that use shared sections; `c` and `s` are the cache and section they are
about. -/
inductive Call
  | iscacheAddFile (c s : Nat)
  | iscacheRead (c s : Nat)
  | iscacheSetLimit (c : Nat)
  | iscacheFree (c : Nat)
  | imageAddFile (s : Nat)
  | imageAddCached (c s : Nat)
  | imageCopy
  | imageRemove
  | decode
deriving Repr

/-- The skeleton of each public function. -/
def Call.prog : Call → Prog
  | .iscacheAddFile c s => iscAddFile c s
  | .iscacheRead c s => iscRead c s
  | .iscacheSetLimit c => iscSetLimit c
  | .iscacheFree c => iscClear c
  | .imageAddFile s => imgAddFile s
  | .imageAddCached c s => imgAddCached c s
  | .imageCopy => imgCopy
  | .imageRemove => imgRemove
  | .decode => Locks.decode

/-- `n` threads: what each of them still has to do, and who owns each lock. -/
structure St (n : Nat) where
  code : Fin n → List Prog
  owner : Lock → Option (Fin n)

/-- `f` changed at `a`. -/
def upd {α β : Type} [DecidableEq α] (f : α → β) (a : α) (b : β) : α → β :=
  fun x => if x = a then b else f x

/-- Thread `t` makes one step. -/
inductive Step {n : Nat} (σ : St n) (t : Fin n) : St n → Prop
  | skip {k} (h : σ.code t = .skip :: k) : Step σ t { σ with code := upd σ.code t k }
  | acq {l k} (h : σ.code t = .acq l :: k) (hl : σ.owner l = none) :
      Step σ t { code := upd σ.code t k, owner := upd σ.owner l (some t) }
  | rel {l k} (h : σ.code t = .rel l :: k) (hl : σ.owner l = some t) :
      Step σ t { code := upd σ.code t k, owner := upd σ.owner l none }
  | acc {v w k} (h : σ.code t = .acc v w :: k) : Step σ t { σ with code := upd σ.code t k }
  | seq {p q k} (h : σ.code t = .seq p q :: k) :
      Step σ t { σ with code := upd σ.code t (p :: q :: k) }
  | altL {p q k} (h : σ.code t = .alt p q :: k) :
      Step σ t { σ with code := upd σ.code t (p :: k) }
  | altR {p q k} (h : σ.code t = .alt p q :: k) :
      Step σ t { σ with code := upd σ.code t (q :: k) }
  | any {f k} (i : Nat) (h : σ.code t = .any f :: k) :
      Step σ t { σ with code := upd σ.code t (f i :: k) }
  | stop {p k} (h : σ.code t = .star p :: k) : Step σ t { σ with code := upd σ.code t k }
  | more {p k} (h : σ.code t = .star p :: k) :
      Step σ t { σ with code := upd σ.code t (p :: .star p :: k) }

/-- Any number of steps of any threads. -/
inductive Steps {n : Nat} : St n → St n → Prop
  | refl (σ) : Steps σ σ
  | step {σ σ' σ'' t} (h : Steps σ σ') (hs : Step σ' t σ'') : Steps σ σ''

/-- The threads at the start: each of them has a list of calls to make. -/
def start {n : Nat} (calls : Fin n → List Call) : St n :=
  { code := fun t => (calls t).map Call.prog, owner := fun _ => none }

end Ipt.Locks
