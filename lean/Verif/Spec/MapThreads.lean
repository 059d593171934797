import Verif.MapThreads

/-!
# Specification: what must not happen to a mapped section
-/

namespace Ipt.Spec

open Maps

variable {n : Nat}

/-- Thread `t` is about to do `p`. -/
def AboutTo (σ : St n) (t : Fin n) (p : Prog) : Prop := (σ.thread t).at_ = none ∧ ∃ k, (σ.thread t).code = p :: k

/-- A thread reads from a section that is not mapped: there is no mapping when it looks for one, or it has not found
one. -/
def ReadsUnmapped (σ : St n) : Prop :=
  ∃ t s, (AboutTo σ t (.load .mapping s) ∧ σ.obj .mapping s = none) ∨
    (AboutTo σ t (.use .mapping s) ∧ (σ.thread t).ptr .mapping s = none)

/-- A thread is about to access a mapping or a block cache that does not exist any more. -/
def UseAfterFree (σ : St n) : Prop :=
  ∃ t o s b, AboutTo σ t (.use o s) ∧ (σ.thread t).ptr o s = some b ∧ σ.obj o s ≠ some b

/-- A thread is about to read the pointer to the mapping, without lock, while another one is about to write it. -/
def MappingRace (σ : St n) : Prop :=
  ∃ t u s, t ≠ u ∧ AboutTo σ t (.load .mapping s) ∧
    ((σ.thread u).at_ = some (s, .mapSet) ∨ (σ.thread u).at_ = some (s, .unmapFree))

/-- A thread is about to fail to unmap, to share, or to allocate a block cache for a section because it is not mapped. -/
def NotMapped (σ : St n) : Prop :=
  ∃ t s, σ.mcount s = 0 ∧
    ((σ.thread t).at_ = some (s, .unmapTest) ∨ (σ.thread t).at_ = some (s, .shareTest) ∨
      (σ.thread t).at_ = some (s, .allocTest))

/-- All threads have finished their calls. -/
def Finished (σ : St n) : Prop := ∀ t, (σ.thread t).at_ = none ∧ (σ.thread t).code = []

end Ipt.Spec
