import Verif.Basic

/-!
# Process contexts: sideband/src/pt_sb_context.c and sideband/src/pt_sb_session.c

Contexts live on a heap: a pointer is the number of the allocation, and an allocation that was freed is `none`.  Using a pointer
to a freed context is undefined.  The context's image, the file system, the image section cache and what the user's notifiers do
are parameters of the model, see `SbEnv`.

Simplifications: `malloc` succeeds; pointers that the caller passes are not `NULL`; the caller gives the same image pointer to
each call.
-/

namespace Ipt

/-- A function on a state of type `ω`. -/
def SbM (ω α : Type) : Type := ω → ω × Res α

namespace SbM

variable {ω α β : Type}

/-- Sequencing: `errcode = f(); if (errcode < 0) return errcode; ...`. -/
def bind (m : SbM ω α) (f : α → SbM ω β) : SbM ω β := fun w =>
  match m w with
  | (w, .ok a) => f a w
  | (w, .err e) => (w, .err e)
  | (w, .ub) => (w, .ub)

instance : Monad (SbM ω) where
  pure a := fun w => (w, .ok a)
  bind := bind

/-- Return an error. -/
def fail (e : Err) : SbM ω α := fun w => (w, .err e)

/-- Return the given result. -/
def lift (r : Res α) : SbM ω α := fun w => (w, r)

/-- The state. -/
def get : SbM ω ω := fun w => (w, .ok w)

/-- Change the state. -/
def modify (f : ω → ω) : SbM ω Unit := fun w => (f w, .ok ())

/-- Functions that have no result give an error or none. -/
def check : Option Err → SbM ω Unit
  | none => pure ()
  | some e => fail e

/-- Go on after an error. -/
def attempt (m : SbM ω α) : SbM ω (Option Err) := fun w =>
  match m w with
  | (w, .ok _) => (w, .ok none)
  | (w, .err e) => (w, .ok (some e))
  | (w, .ub) => (w, .ub)

end SbM

/-- `enum pt_sb_abi`, sideband/internal/include/pt_sb_context.h:38-44. -/
inductive SbAbi
  | unknown | x64 | x32 | ia32
deriving DecidableEq, Repr

/-- Errors and warnings for the user's notifier: error codes and `enum pt_sb_error_code`, sideband/include/libipt-sb.h.in:64-78. -/
inductive SbNote
  | error (e : Err) | lost | traceLost | sectionLost
deriving DecidableEq, Repr

/-- What contexts are made of: images `ι`, the file system, the section cache and the user `κ`.

* `empty`, `copy`: `pt_image_alloc` and `pt_image_copy`
* `mmap`: add a part of a file, given by its name, offset and size, to an image, at an address.  See `pt_sb_ctx_mmap`,
  sideband/src/pt_sb_context.c:114-136, with or without an image section cache.
* `abi`: `none` if the file cannot be opened and else the result of `elf_get_abi`, sideband/src/pt_sb_pevent.c:62-133
* `onError`: the error notifier, or zero if there is none, see `pt_sb_error`, sideband/src/pt_sb_session.c:591-604
* `onSwitch`: the context switch notifier, or zero if there is none.  The notifier gets a context, and may want to keep a
  reference to it. -/
structure SbEnv (ι κ : Type) where
  empty : ι
  copy : ι → ι → ι × Option Err
  mmap : κ → ι → List UInt8 → Nat → Nat → Nat → κ × ι × Option Err
  abi : κ → List UInt8 → Option SbAbi
  onError : κ → SbNote → Nat → κ × Option Err
  onSwitch : κ → Nat → κ × Bool × Option Err

/-- `struct pt_sb_context`, sideband/internal/include/pt_sb_context.h:46-86. -/
structure SbCtx (ι : Type) where
  image : ι
  abi : SbAbi := .unknown
  pid : Nat := 0
  ucount : Nat

/-- The contexts of a session, `struct pt_sb_session` in sideband/internal/include/pt_sb_session.h:41-96, with the heap.  The
linked list of contexts is a list of pointers.  `image` is the image that the caller's pointer refers to, if it was changed.
`held` has the references that the user has taken. -/
structure SbWorld (ι κ : Type) where
  heap : List (Option (SbCtx ι)) := []
  contexts : List Nat := []
  kernel : ι
  ext : κ
  image : Option Nat := none
  held : List Nat := []

section

variable {ι κ : Type} (env : SbEnv ι κ)

/-- Access to a context. -/
def sbDeref (i : Nat) : SbM (SbWorld ι κ) (SbCtx ι) := fun w =>
  match w.heap[i]? with
  | some (some c) => (w, .ok c)
  | _ => (w, .ub)

/-- Change of a context that has been accessed. -/
def sbStore (i : Nat) (c : SbCtx ι) : SbM (SbWorld ι κ) Unit := .modify fun w => { w with heap := w.heap.set i (some c) }

/-- sideband/src/pt_sb_context.c:38-58 `pt_sb_ctx_alloc`. -/
def sbCtxAlloc : SbM (SbWorld ι κ) Nat := fun w =>
  ({ w with heap := w.heap ++ [some { image := env.empty, ucount := 1 }] }, .ok w.heap.length)

/-- sideband/src/pt_sb_context.c:60-74 `pt_sb_ctx_get`. -/
def sbCtxGet (i : Nat) : SbM (SbWorld ι κ) Unit := do
  let c ← sbDeref i
  if 65535 ≤ c.ucount then .fail .overflow
  else sbStore i { c with ucount := c.ucount + 1 }

/-- sideband/src/pt_sb_context.c:76-104 `pt_sb_ctx_free` and `pt_sb_ctx_put`. -/
def sbCtxPut (i : Nat) : SbM (SbWorld ι κ) Unit := do
  let c ← sbDeref i
  if 1 < c.ucount then sbStore i { c with ucount := c.ucount - 1 }
  else if c.ucount = 0 then .fail .internal
  else .modify fun w => { w with heap := w.heap.set i none }

/-- `pt_image_copy(context->image, image)`. -/
def sbCopyImage (i : Nat) (image : ι) : SbM (SbWorld ι κ) Unit := do
  let c ← sbDeref i
  sbStore i { c with image := (env.copy c.image image).1 }
  .check (env.copy c.image image).2

/-- sideband/src/pt_sb_session.c:135-170 `pt_sb_add_context_by_pid`. -/
def sbAddContext (pid : Nat) : SbM (SbWorld ι κ) Nat := do
  let i ← sbCtxAlloc env
  let w ← .get
  match ← (sbCopyImage env i w.kernel).attempt with
  | some e => do
    sbCtxPut i
    .fail e
  | none => do
    let c ← sbDeref i
    sbStore i { c with pid }
    .modify fun w => { w with contexts := i :: w.contexts }
    return i

/-- sideband/src/pt_sb_session.c:199-202: the loop in `pt_sb_find_context_by_pid`. -/
def sbFindLoop (pid : Nat) : List Nat → SbM (SbWorld ι κ) (Option Nat)
  | [] => return none
  | i :: l => do
    let c ← sbDeref i
    if c.pid = pid then return some i else sbFindLoop pid l

/-- sideband/src/pt_sb_session.c:190-206 `pt_sb_find_context_by_pid`. -/
def sbFindContext (pid : Nat) : SbM (SbWorld ι κ) (Option Nat) := do
  let w ← .get
  sbFindLoop pid w.contexts

/-- sideband/src/pt_sb_session.c:172-188 `pt_sb_get_context_by_pid`. -/
def sbGetContext (pid : Nat) : SbM (SbWorld ι κ) Nat := do
  match ← sbFindContext pid with
  | some i => return i
  | none => sbAddContext env pid

/-- sideband/src/pt_sb_session.c:217-220: the loop in `pt_sb_remove_context`: whether the context was found. -/
def sbSeek (i : Nat) : List Nat → SbM (SbWorld ι κ) Bool
  | [] => return false
  | j :: l =>
    if j = i then return true
    else do
      let _ ← sbDeref j
      sbSeek i l

/-- sideband/src/pt_sb_session.c:208-228 `pt_sb_remove_context`. -/
def sbRemoveContext (i : Nat) : SbM (SbWorld ι κ) Unit := do
  let w ← .get
  let found ← sbSeek i w.contexts
  if found = true then do
    .modify fun w => { w with contexts := w.contexts.erase i }
    sbCtxPut i
  else .fail .nosync

/-- sideband/src/pt_sb_context.c:114-136 `pt_sb_ctx_mmap`. -/
def sbCtxMmap (i : Nat) (file : List UInt8) (offset size vaddr : Nat) : SbM (SbWorld ι κ) Unit := do
  let c ← sbDeref i
  let w ← .get
  let r := env.mmap w.ext c.image file offset size vaddr
  sbStore i { c with image := r.2.1 }
  .modify fun w => { w with ext := r.1 }
  .check r.2.2

/-- The user takes a reference with `pt_sb_ctx_get`. -/
def sbHold (i : Nat) : SbM (SbWorld ι κ) Unit := do
  sbCtxGet i
  .modify fun w => { w with held := i :: w.held }

/-- The user gives back a reference with `pt_sb_ctx_put`. -/
def sbDrop (i : Nat) : SbM (SbWorld ι κ) Unit := do
  .modify fun w => { w with held := w.held.erase i }
  sbCtxPut i

/-- sideband/src/pt_sb_context.c:138-162 `pt_sb_ctx_switch_to`.  The notifier ignores that it cannot get another reference. -/
def sbSwitchTo (i : Nat) : SbM (SbWorld ι κ) Unit := do
  let _ ← sbDeref i
  let w ← .get
  let r := env.onSwitch w.ext i
  .modify fun w => { w with ext := r.1 }
  let _ ← (if r.2.1 = true then (sbHold i).attempt else pure none : SbM (SbWorld ι κ) (Option Err))
  .check r.2.2
  .modify fun w => { w with image := some i }

/-- sideband/src/pt_sb_session.c:591-604 `pt_sb_error`. -/
def sbError (note : SbNote) (offset : Nat) : SbM (SbWorld ι κ) Unit := do
  let w ← .get
  let r := env.onError w.ext note offset
  .modify fun w => { w with ext := r.1 }
  .check r.2

/-- sideband/src/pt_sb_session.c:104-112: the contexts in `pt_sb_free`. -/
def sbFreeContexts : List Nat → SbM (SbWorld ι κ) Unit
  | [] => return ()
  | i :: l => do
    let _ ← sbDeref i
    .modify fun w => { w with contexts := l }
    let _ ← (sbCtxPut i).attempt
    sbFreeContexts l

end

end Ipt
