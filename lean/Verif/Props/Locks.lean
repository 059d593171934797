import Verif.LocksInv

/-!
# C31, C52: threads sharing sections neither deadlock nor race
-/

namespace Ipt

open Locks

namespace Spec

/-- A deadlock: some threads each of which waits for a lock that is held by one of them (a thread
that waits for a lock it holds itself is one, too). -/
def Deadlock {n : Nat} (σ : St n) : Prop :=
  ∃ D : Fin n → Prop, (∃ t, D t) ∧
    ∀ t, D t → ∃ l k u, σ.code t = .acq l :: k ∧ σ.owner l = some u ∧ D u

/-- A thread is about to unlock a mutex it has not locked. -/
def BadUnlock {n : Nat} (σ : St n) : Prop :=
  ∃ t l k, σ.code t = .rel l :: k ∧ σ.owner l ≠ some t

/-- A data race: two threads are about to access the same field and one of them writes. -/
def Race {n : Nat} (σ : St n) (v : Var) : Prop :=
  ∃ t u w w' k k', t ≠ u ∧ σ.code t = .acc v w :: k ∧ σ.code u = .acc v w' :: k' ∧
    (w = true ∨ w' = true)

end Spec

open Spec

namespace Props

/-- C31: whatever the calls each of `n` threads makes and however their steps interleave, they
never deadlock. -/
theorem C31_no_deadlock {n : Nat} (calls : Fin n → List Call) (σ : St n)
    (h : Steps (start calls) σ) : ¬ Deadlock σ := by
  obtain ⟨held, hi⟩ := steps_inv h
  rintro ⟨D, ⟨t, ht⟩, hD⟩
  have key : ∀ (m : Nat) (t : Fin n), D t →
      (∀ l k, σ.code t = .acq l :: k → 4 ≤ l.rank + m) → False := by
    intro m
    induction m with
    | zero =>
      intro t ht hr
      obtain ⟨l, k, u, hc, -, -⟩ := hD t ht
      have := hr l k hc
      cases l <;> simp [Lock.rank] at this
    | succ m ih =>
      intro t ht hr
      obtain ⟨l, k, u, hc, ho, hu⟩ := hD t ht
      have h1 := hr l k hc
      have hm := (hi.own u l).2 ho
      refine ih u hu (fun l' k' hc' => ?_)
      have hs := hi.safe u
      rw [hc'] at hs
      have h2 := hs.1 l hm
      omega
  exact key 4 t ht (fun l k _ => by omega)

/-- C31: from every reachable state all threads can still finish all of their calls, and no lock is
then left locked. -/
theorem C31_can_always_finish {n : Nat} (calls : Fin n → List Call) (σ : St n)
    (h : Steps (start calls) σ) :
    ∃ σ', Steps σ σ' ∧ (∀ t, σ'.code t = []) ∧ ∀ l, σ'.owner l = none := by
  obtain ⟨held, hi⟩ := steps_inv h
  obtain ⟨σ', h1, h2⟩ := finish _ σ held hi (Nat.le_refl _)
  refine ⟨σ', h1, h2, fun l => ?_⟩
  obtain ⟨held', hi'⟩ := steps_inv (h.trans h1)
  rcases ho : σ'.owner l with _ | u
  · rfl
  · have hm := (hi'.own u l).2 ho
    have hs := hi'.safe u
    rw [h2 u] at hs
    rw [show held' u = [] from hs] at hm
    cases hm

/-- C31: mutexes are only unlocked by the thread that locked them, and a thread holds none between
two calls. -/
theorem C31_unlocks_paired {n : Nat} (calls : Fin n → List Call) (σ : St n)
    (h : Steps (start calls) σ) :
    ¬ BadUnlock σ ∧
      ∀ t, σ.code t = [] → ∀ l, σ.owner l ≠ some t := by
  obtain ⟨held, hi⟩ := steps_inv h
  refine ⟨?_, ?_⟩
  · rintro ⟨t, l, k, hc, ho⟩
    have hs := hi.safe t
    rw [hc] at hs
    obtain ⟨h', e, -⟩ := hs
    exact ho ((hi.own t l).1 (by rw [e]; simp))
  · intro t hc l ho
    have hm := (hi.own t l).2 ho
    have hs := hi.safe t
    rw [hc] at hs
    rw [show held t = [] from hs] at hm
    cases hm

/-- C52: the use, map and attach counts of sections, the contents of image section caches and the
positions of section files are never the subject of a data race.  Missing: the `iscache` pointer of
a section, see `C52_iscache_pointer_race`. -/
theorem C52_race_free_partial {n : Nat} (calls : Fin n → List Call) (σ : St n)
    (h : Steps (start calls) σ) (v : Var) (hv : ∀ s, v ≠ .link s) : ¬ Race σ v := by
  obtain ⟨held, hi⟩ := steps_inv h
  rintro ⟨t, u, w, w', k, k', hne, ht, hu, -⟩
  have h1 := hi.safe t
  have h2 := hi.safe u
  rw [ht] at h1
  rw [hu] at h2
  rcases h1.1 with m1 | ⟨⟨s, e⟩, -⟩
  · rcases h2.1 with m2 | ⟨⟨s, e⟩, -⟩
    · have o1 := (hi.own t _).1 m1
      have o2 := (hi.own u _).1 m2
      rw [o1] at o2
      exact hne (by simpa using o2)
    · exact hv s e
  · exact hv s e

/-- C52: two threads never write the `iscache` pointer at the same time. -/
theorem C52_link_writes_exclusive {n : Nat} (calls : Fin n → List Call) (σ : St n)
    (h : Steps (start calls) σ) (v : Var) (t u : Fin n) (k k' : List Prog) (hne : t ≠ u)
    (ht : σ.code t = .acc v true :: k) : σ.code u ≠ .acc v true :: k' := by
  obtain ⟨held, hi⟩ := steps_inv h
  intro hu
  have h1 := hi.safe t
  have h2 := hi.safe u
  rw [ht] at h1
  rw [hu] at h2
  rcases h1.1 with m1 | ⟨-, e⟩
  · rcases h2.1 with m2 | ⟨-, e⟩
    · have o1 := (hi.own t _).1 m1
      have o2 := (hi.own u _).1 m2
      rw [o1] at o2
      exact hne (by simpa using o2)
    · cases e
  · cases e

/-- A thread frees an image section cache while another one decodes from a section of the cache. -/
def freeAndDecode : Fin 2 → List Call := fun t => if t = 0 then [.iscacheFree 0] else [.decode]

/-- The second thread has just mapped section 0; the first one is about to detach it. -/
def racySchedule : List (Fin 2 × Nat) :=
  [1, 0, 0, 1, 0, 1, 0, 0, 0, 0, 0, 0, 1, 0, 0, 0, 0, 0, 0].map (fun i => (1, i)) ++
  [0, 0, 0, 0, 0, 0, 0, 0, 0, 0, 1, 0, 0, 0, 0, 0, 0, 1, 0, 0, 1, 0, 0, 0, 0, 1, 0, 0, 0, 0, 0,
    1].map (fun i => (0, i))

/-- C52 is false for the `iscache` pointer: mapping a section reads it without lock
(internal/include/pt_section.h:350-356) while another thread may be writing it. -/
theorem C52_iscache_pointer_race :
    ∃ σ, Steps (start freeAndDecode) σ ∧ Race σ (.link 0) := by
  have h : (exec (start freeAndDecode) racySchedule).map
      (fun σ => (accesses σ 0, accesses σ 1)) =
      some (some (.link 0, true), some (.link 0, false)) := by decide +kernel
  cases he : exec (start freeAndDecode) racySchedule with
  | none => rw [he] at h; cases h
  | some σ =>
    rw [he] at h
    simp only [Option.map_some, Option.some.injEq, Prod.mk.injEq] at h
    obtain ⟨k, hk⟩ := accesses_code h.1
    obtain ⟨k', hk'⟩ := accesses_code h.2
    exact ⟨σ, exec_steps he, 0, 1, true, false, k, k', by decide, hk, hk', .inl rfl⟩

/-! ## Non-vacuity -/

/-- Threads do wait for each other: the first one holds the cache and the second one wants it. -/
example : (exec (start (n := 2) fun _ => [.iscacheAddFile 0 0])
    [(0, 0), (0, 0), (1, 0)]).map
    (fun σ => (σ.owner (.cache 0), wants σ 1)) = some (some 0, some (.cache 0)) := by
  decide +kernel

/-- `Deadlock` says what it should: two threads wait for each other's lock. -/
example : Deadlock (n := 2)
    { code := fun t => if t = 0 then [.acq (.sect 0)] else [.acq (.attach 0)]
      owner := fun l => if l = .attach 0 then some 0 else if l = .sect 0 then some 1 else none } := by
  refine ⟨fun _ => True, ⟨0, trivial⟩, fun t _ => ?_⟩
  by_cases h : t = 0
  · exact ⟨.sect 0, [], 1, by simp [h], by decide, trivial⟩
  · exact ⟨.attach 0, [], 0, by simp [h], by decide, trivial⟩

/-- A thread that acquires a lock it already holds is deadlocked. -/
example : Deadlock (n := 1) { code := fun _ => [.acq (.sect 0)], owner := fun _ => some 0 } :=
  ⟨fun _ => True, ⟨0, trivial⟩, fun t _ => ⟨.sect 0, [], 0, rfl, rfl, trivial⟩⟩

end Props
end Ipt
