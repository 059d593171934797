import Verif.RefThreads

/-!
# Specification: what must not happen to a section object
-/

namespace Ipt.Spec

open Refs

variable {n : Nat}

/-- Doing `p` accesses the section object `s`. -/
def Accesses (s : Nat) : Prog → Prop
  | .get x | .put x | .map x | .unmap x | .access x | .attach x | .detach x | .ifAtt x _ _ => x = s
  | _ => False

/-- Thread `t` goes on with `p`. -/
def Next (σ : St n) (t : Fin n) (p : Prog) : Prop := (σ.thread t).freeing = none ∧ ∃ k, (σ.thread t).code = p :: k

/-- The object does not exist, or a thread is about to free it. -/
def Gone (σ : St n) (s : Nat) : Prop := (σ.cell s).alive = false ∨ ∃ u, (σ.thread u).freeing = some s

/-- A thread is about to access a section object that has been freed, or that another thread may free at any time. -/
def AccessAfterFree (σ : St n) : Prop := ∃ t s p, Next σ t p ∧ Accesses s p ∧ Gone σ s

/-- A thread is about to free a section object that does not exist, or that another one is about to free, too. -/
def DoubleFree (σ : St n) : Prop :=
  ∃ t s, (σ.thread t).freeing = some s ∧ ((σ.cell s).alive = false ∨ ∃ u, u ≠ t ∧ (σ.thread u).freeing = some s)

/-- A section that does not exist any more, or will not exist much longer, is still mapped, or is still in a cache, an
image or a decoder. -/
def Dangling (σ : St n) : Prop :=
  ∃ s, Gone σ s ∧ ((σ.cell s).mcount ≠ 0 ∨ (σ.cell s).acount ≠ 0 ∨ (σ.cell s).entry ≠ 0 ∨ (σ.cell s).pool ≠ 0 ∨
    ∃ t, ((σ.thread t).view.loc s).img ≠ 0 ∨ ((σ.thread t).view.loc s).held ≠ 0)

/-- A thread is about to find the counts of a section inconsistent (-pte_internal): when it drops a reference, unmaps the
section, attaches the section to a cache or detaches it. -/
def Inconsistent (σ : St n) : Prop :=
  ∃ t s,
    (Next σ t (.put s) ∧ ((σ.cell s).ucount = 0 ∨ ((σ.cell s).ucount = 1 ∧ (σ.cell s).mcount ≠ 0))) ∨
    (Next σ t (.unmap s) ∧ (σ.cell s).mcount = 0) ∨
    (Next σ t (.attach s) ∧ (σ.cell s).ucount < (σ.cell s).acount + 1) ∨
    (Next σ t (.detach s) ∧ ((σ.cell s).acount = 0 ∨ (σ.cell s).ucount < (σ.cell s).acount - 1))

/-- All threads have finished their calls. -/
def AllDone (σ : St n) : Prop := ∀ t, (σ.thread t).freeing = none ∧ (σ.thread t).code = []

/-- The number of places that refer to section `s`: elements of images, caches of decoders, and entries of image section
caches. -/
def uses (σ : St n) (s : Nat) : Nat :=
  (∑ t, (((σ.thread t).view.loc s).img + ((σ.thread t).view.loc s).held)) + (σ.cell s).entry

/-- The call does not free an image section cache. -/
def KeepsCache : Call → Prop
  | .iscacheFree _ _ => False
  | _ => True

/-- The call does not have an address space identifier that cannot be read. -/
def GoodAsid : Call → Prop
  | .imageAddCached asid => asid = true
  | _ => True

end Ipt.Spec
