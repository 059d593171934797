import Verif.MapThreadsInv
import Verif.Spec.MapThreads

/-!
# C69: a section stays mapped while somebody uses it
-/

namespace Ipt

open Maps Spec

namespace Maps

variable {n : Nat}

/-- A choice for each step: what to do if there are alternatives. -/
def locked? (σ : St n) (t : Fin n) (s : Nat) (c : Nat) : Micro → Option (St n)
  | .mapTest =>
    if σ.mcount s ≠ 0 then some (σ.goto t s .mapCount)
    else if c = 0 ∧ σ.obj .mapping s = none then some (σ.goto t s .mapSet)
    else some (σ.goto t s (.leave false))
  | .mapSet => some ((σ.alloc .mapping s).goto t s .mapCount)
  | .mapCount =>
    if σ.mcount s = 65535 then some (σ.goto t s (.leave false))
    else some (((σ.setCount s (σ.mcount s + 1)).look t (·.gain s)).goto t s (.leave true))
  | .shareTest =>
    if σ.mcount s = 0 ∨ σ.mcount s = 65535 then none
    else some (((σ.setCount s (σ.mcount s + 1)).look t (·.gain s)).goto t s (.leave true))
  | .unmapTest =>
    if σ.mcount s = 0 then none
    else if σ.mcount s = 1 then some (((σ.setCount s (σ.mcount s - 1)).look t (·.lose s)).goto t s .unmapFree)
    else some (((σ.setCount s (σ.mcount s - 1)).look t (·.lose s)).goto t s (.leave true))
  | .unmapFree =>
    if σ.obj .mapping s = none then none else some ((σ.setObj .mapping s none).goto t s .bcacheFree)
  | .bcacheFree => some ((σ.setObj .bcache s none).goto t s (.leave true))
  | .allocTest =>
    if σ.mcount s ≠ 0 ∧ σ.obj .bcache s = none then some (σ.goto t s .allocSet) else none
  | .allocSet => some ((σ.alloc .bcache s).goto t s (.leave true))
  | .leave b => some
      { σ with
        owner := upd σ.owner s none
        thread := upd σ.thread t
          { σ.thread t with at_ := none, view := (σ.thread t).view.ret b } }

def free? (σ : St n) (t : Fin n) (k : List Prog) (c : Nat) : Prog → Option (St n)
  | .skip => some (σ.run t k)
  | .enter s m =>
    if σ.owner s = none then some
      { σ with
        owner := upd σ.owner s (some t)
        thread := upd σ.thread t { σ.thread t with code := k, at_ := some (s, m) } }
    else none
  | .load o s => some (σ.thr t { σ.thread t with
      code := k
      ptr := upd2 (σ.thread t).ptr o s (σ.obj o s)
      view := (σ.thread t).view.loaded o s })
  | .use _ _ => some (σ.run t k)
  | .give s => some (((σ.setPool s (σ.pool s + 1)).look t (·.lose s)).run t k)
  | .take s => if σ.pool s ≠ 0 then some (((σ.setPool s (σ.pool s - 1)).look t (·.gain s)).run t k) else none
  | .done b => some ((σ.look t (·.ret b)).run t k)
  | .seq p q => some (σ.run t (p :: q :: k))
  | .alt p q => if c = 0 then some (σ.run t (p :: k)) else some (σ.run t (q :: k))
  | .ifOk p q => some (σ.run t ((if (σ.thread t).view.res = true then p else q) :: k))
  | .any f => some (σ.run t (f (List.replicate c 0) :: k))
  | .star p => if c = 0 then some (σ.run t k) else some (σ.run t (p :: .star p :: k))

def step? (σ : St n) (t : Fin n) (c : Nat) : Option (St n) :=
  match (σ.thread t).at_ with
  | some (s, m) => locked? σ t s c m
  | none =>
    match (σ.thread t).code with
    | [] => none
    | p :: k => free? σ t k c p

/-- Follow a schedule: threads with choices. -/
def exec (σ : St n) : List (Fin n × Nat) → Option (St n)
  | [] => some σ
  | (t, c) :: l => (step? σ t c).bind fun σ' => exec σ' l

theorem locked?_sound {σ σ' : St n} {t : Fin n} {s c : Nat} {m : Micro} (h : locked? σ t s c m = some σ') :
    Locked σ t s m σ' := by
  cases m <;> simp only [locked?] at h
  case mapTest =>
    split at h
    · cases h; exact .mapAgain (by assumption)
    · rename_i h0
      split at h
      · cases h; rename_i h1; exact .mapOk (by simpa using h0) h1.2
      · cases h; exact .mapFail (by simpa using h0)
  case mapSet => cases h; exact .mapSet
  case mapCount =>
    split at h
    · cases h; exact .mapMany (by assumption)
    · cases h; exact .mapCount (by assumption)
  case shareTest =>
    split at h
    · cases h
    · rename_i h0
      cases h; exact .share (fun h => h0 (.inl h)) (fun h => h0 (.inr h))
  case unmapTest =>
    split at h
    · cases h
    · split at h
      · cases h; exact .unmapLast (by assumption)
      · cases h; exact .unmap (by omega)
  case unmapFree =>
    split at h
    · cases h
    · cases h; exact .unmapFree (by assumption)
  case bcacheFree => cases h; exact .bcacheFree
  case allocTest =>
    split at h
    · rename_i h0; cases h; exact .allocOk h0.1 h0.2
    · cases h
  case allocSet => cases h; exact .allocSet true
  case leave => cases h; exact .leave _

theorem free?_sound {σ σ' : St n} {t : Fin n} {k : List Prog} {c : Nat} {p : Prog} (h : free? σ t k c p = some σ') :
    Free σ t k p σ' := by
  cases p <;> simp only [free?] at h
  case skip => cases h; exact .skip
  case enter =>
    split at h
    · cases h; exact .enter (by assumption)
    · cases h
  case load => cases h; exact .load
  case use => cases h; exact .use
  case give => cases h; exact .give
  case take =>
    split at h
    · cases h; exact .take (by assumption)
    · cases h
  case done => cases h; exact .done
  case seq => cases h; exact .seq
  case alt =>
    split at h
    · cases h; exact .altL
    · cases h; exact .altR
  case ifOk => cases h; exact .ifOk
  case any => cases h; exact .any _
  case star =>
    split at h
    · cases h; exact .stop
    · cases h; exact .more

theorem step?_sound {σ σ' : St n} {t : Fin n} {c : Nat} (h : step? σ t c = some σ') : Step σ t σ' := by
  unfold step? at h
  split at h
  · exact .locked (by assumption) (locked?_sound h)
  · split at h
    · cases h
    · exact .free (by assumption) (by assumption) (free?_sound h)

theorem Steps.cons {σ σ' σ'' : St n} {t : Fin n} (h : Step σ t σ') (hs : Steps σ' σ'') : Steps σ σ'' := by
  induction hs with
  | refl => exact .step (.refl _) h
  | step _ hs ih => exact .step ih hs

theorem exec_steps {σ σ' : St n} {l : List (Fin n × Nat)} (h : exec σ l = some σ') : Steps σ σ' := by
  induction l generalizing σ with
  | nil => cases h; exact .refl _
  | cons x l ih =>
    unfold exec at h
    rcases hs : step? σ x.1 x.2 with _ | σ1
    · rw [hs] at h; cases h
    · rw [hs] at h
      exact (ih h).cons (step?_sound hs)

theorem exec_any {σ : St n} {l : List (Fin n × Nat)} {p : St n → Bool} (h : (exec σ l).any p = true) :
    ∃ σ', Steps σ σ' ∧ p σ' = true := by
  rcases hs : exec σ l with _ | σ'
  · rw [hs] at h; cases h
  · rw [hs] at h; exact ⟨σ', exec_steps hs, h⟩

/-- Is thread `t` about to read through a pointer to the mapping of section `s`? -/
def reading (σ : St n) (t : Fin n) (s : Nat) : Bool :=
  match (σ.thread t).at_, (σ.thread t).code with
  | none, .use .mapping x :: _ => x == s && ((σ.thread t).ptr .mapping s).isSome
  | _, _ => false

/-- Has thread `t` finished? -/
def finished (σ : St n) (t : Fin n) : Bool := (σ.thread t).at_.isNone && (σ.thread t).code.isEmpty

end Maps

namespace Props

/-- C69: whatever calls each of `n` threads makes and however their steps interleave, a thread that reads from a section
finds it mapped, the mapping and the block cache it uses exist until it is done, and the pointer to the mapping does
not change while it is read. -/
theorem C69_stays_mapped {n : Nat} (calls : Fin n → List Call) (σ : St n) (h : Steps (start calls) σ) :
    ¬ ReadsUnmapped σ ∧ ¬ UseAfterFree σ ∧ ¬ MappingRace σ := by
  have hi := steps_inv h
  have ob : ∀ {t p}, AboutTo σ t p → ∃ k, wp p (wpL k) (σ.thread t).view := by
    rintro t p ⟨h1, k, h2⟩
    have := hi.ob t
    unfold Ob at this
    rw [h1, h2] at this
    exact ⟨k, this⟩
  have mapped : ∀ {t s}, AboutTo σ t (.load .mapping s) → σ.mcount s ≠ 0 := by
    intro t s h
    obtain ⟨k, hk⟩ := ob h
    exact hi.own_pos hk.1
  have busy : ∀ {s u m}, (σ.thread u).at_ = some (s, m) → σ.mcount s ≠ 0 →
      m ≠ .mapSet ∧ m ≠ .unmapFree ∧ σ.obj .mapping s ≠ none := by
    intro s u m hm hne
    have := hi.busy s u m hm
    cases m <;> simp only [HeapAt, Cons] at this <;>
      first
      | exact ⟨by simp, by simp, this.2 hne⟩
      | exact absurd this.1 hne
      | exact ⟨by simp, by simp, this.1⟩
      | exact ⟨by simp, by simp, this.2.1⟩
  refine ⟨?_, ?_, ?_⟩
  · rintro ⟨t, s, ⟨h1, h2⟩ | ⟨h1, h2⟩⟩
    · have hne := mapped h1
      rcases how : σ.owner s with _ | u
      · exact (hi.idle s how).2 hne h2
      · obtain ⟨m, hm⟩ := (hi.lock s u).1 how
        exact (busy hm hne).2.2 h2
    · obtain ⟨k, hk⟩ := ob h1
      exact (hi.ptr t .mapping s hk.1).2.1 rfl h2
  · rintro ⟨t, o, s, b, h1, h2, h3⟩
    obtain ⟨k, hk⟩ := ob h1
    exact h3 ((hi.ptr t o s hk.1).2.2 b h2)
  · rintro ⟨t, u, s, -, h1, h2 | h2⟩
    · exact (busy h2 (mapped h1)).1 rfl
    · exact (busy h2 (mapped h1)).2.1 rfl

/-- Two threads read from the same section.  The second one maps, reads and unmaps while the first one is about to read
through the pointer: the section stays mapped, once. -/
example : ∃ σ : St 2, Steps (start fun _ => [.iscacheRead 0]) σ ∧
    (reading σ 0 0 && finished σ 1 && σ.mcount 0 == 1 && σ.obj .mapping 0 == some 0) = true :=
  exec_any (l := List.replicate 14 (0, 0) ++ List.replicate 17 (1, 0)) (by decide +kernel)

/-- The second one may also come first: when it unmaps, the mapping goes away, and the first one maps again. -/
example : ∃ σ : St 2, Steps (start fun _ => [.iscacheRead 0]) σ ∧
    (reading σ 0 0 && finished σ 1 && σ.mcount 0 == 1 && σ.obj .mapping 0 == some 1) = true :=
  exec_any (l := List.replicate 20 (1, 0) ++ List.replicate 14 (0, 0)) (by decide +kernel)

/-- Mapping the section adds it to a cache, which unmaps it while the first thread is about to read. -/
example : ∃ σ : St 2, Steps (start fun t => if t = 0 then [.iscacheRead 0] else [.iscacheDrop]) σ ∧
    (reading σ 0 0 && finished σ 1 && σ.mcount 0 == 1 && σ.pool 0 == 0) = true :=
  exec_any (l := List.replicate 8 (0, 0) ++ List.replicate 13 (0, 1) ++ List.replicate 11 (0, 0) ++ List.replicate 11 (1, 1)) (by decide +kernel)

/-- C69: no thread finds a section not mapped when it unmaps it, shares its mapping with the cache, or allocates a block
cache for it. -/
theorem C69_counts {n : Nat} (calls : Fin n → List Call) (σ : St n) (h : Steps (start calls) σ) : ¬ NotMapped σ := by
  have hi := steps_inv h
  rintro ⟨t, s, h0, h1⟩
  have hob := hi.ob t
  unfold Ob at hob
  rcases h1 with h1 | h1 | h1 <;> rw [h1] at hob <;> exact hi.own_pos hob.1 h0

/-- C69: when all threads have finished, those sections are mapped that are mapped by an image section cache, once for each
cache.  The others are not, and have no block cache. -/
theorem C69_nothing_left {n : Nat} (calls : Fin n → List Call) (σ : St n) (h : Steps (start calls) σ)
    (hf : Finished σ) (s : Nat) :
    σ.mcount s = σ.pool s ∧ (σ.obj .mapping s ≠ none ↔ σ.pool s ≠ 0) ∧ (σ.pool s = 0 → σ.obj .bcache s = none) := by
  have hi := steps_inv h
  have hz : ∀ t, (σ.thread t).view.own s = 0 := by
    intro t
    have := hi.ob t
    unfold Ob at this
    rw [(hf t).1, (hf t).2] at this
    exact this s
  have hc : σ.mcount s = σ.pool s := by
    rw [hi.count s, Finset.sum_eq_zero fun t _ => hz t]; simp
  have how : σ.owner s = none := by
    rcases how : σ.owner s with _ | u
    · rfl
    · obtain ⟨m, hm⟩ := (hi.lock s u).1 how
      rw [(hf u).1] at hm
      cases hm
  have := hi.idle s how
  rw [hc] at this
  refine ⟨hc, ⟨fun h1 h0 => h1 (this.1 h0).1, this.2⟩, fun h0 => (this.1 h0).2⟩

/-- All threads have finished and the cache holds on to the section. -/
example : ∃ σ : St 1, Steps (start fun _ => [.iscacheRead 0]) σ ∧
    (finished σ 0 && σ.mcount 0 == 1 && σ.pool 0 == 1) = true :=
  exec_any (l := List.replicate 8 (0, 0) ++ List.replicate 13 (0, 1) ++ List.replicate 15 (0, 0)) (by decide +kernel)

/-- All threads have finished and the section is not mapped any more. -/
example : ∃ σ : St 2, Steps (start fun _ => [.iscacheRead 0]) σ ∧
    (finished σ 0 && finished σ 1 && σ.mcount 0 == 0 && σ.next == 1) = true :=
  exec_any (l := List.replicate 14 (0, 0) ++ List.replicate 17 (1, 0) ++ List.replicate 6 (0, 0)) (by decide +kernel)

end Props

end Ipt
