import Verif.SbPeventInv
import Verif.Spec.SbPevent

/-! # Lemmas: the table of processes -/

namespace Ipt

open Spec.Processes

variable {ι κ : Type} (env : SbEnv ι κ)

/-- The image and the ABI of a process. -/
def SbWorld.table (w : SbWorld ι κ) : Table ι := fun pid => (w.find pid).bind fun i => (w.seen i).map (·.2)

theorem find_iff {w : SbWorld ι κ} (hu : w.Uniq) {pid i : Nat} :
    w.find pid = some i ↔ i ∈ w.contexts ∧ (w.seen i).map (·.1) = some pid := by
  constructor
  · intro h
    obtain ⟨h1, x, hx⟩ := find_mem h
    exact ⟨h1, by rw [hx]; rfl⟩
  · intro ⟨h1, h2⟩
    rcases hf : w.find pid with _ | j
    · exact absurd h2 (find_none hf i h1)
    · obtain ⟨h3, x, hx⟩ := find_mem hf
      rw [hu.of j h3 i h1 (by rw [hx, h2]; rfl)]

theorem option_ext {α : Type} {a b : Option α} (h : ∀ x, a = some x ↔ b = some x) : a = b := by
  rcases a with _ | a
  · rcases b with _ | b
    · rfl
    · exact ((h b).2 rfl)
  · exact ((h a).1 rfl).symm

theorem same_find {w w' : SbWorld ι κ} {rs : List Nat} (hu : w.Uniq) (h : SbSame w w') (ho : Own w' rs) (pid : Nat) :
    w'.find pid = w.find pid := by
  refine option_ext fun i => ?_
  rw [find_iff hu, find_iff (hu.same h ho), h.contexts]
  constructor
  · rintro ⟨h1, h2⟩
    rw [h.eq_seen ho (by simp [SbWorld.refs, h.contexts, h1])] at h2
    exact ⟨h1, h2⟩
  · rintro ⟨h1, h2⟩
    rw [← h.eq_seen ho (by simp [SbWorld.refs, h.contexts, h1])] at h2
    exact ⟨h1, h2⟩

theorem same_table {w w' : SbWorld ι κ} {rs : List Nat} (hu : w.Uniq) (h : SbSame w w') (ho : Own w' rs) : w'.table = w.table := by
  funext pid
  unfold SbWorld.table
  rw [same_find hu h ho]
  rcases hf : w.find pid with _ | i
  · rfl
  · have := (find_mem hf).1
    rw [← h.contexts] at this
    simp only [Option.bind_some]
    rw [h.eq_seen ho (by simp [SbWorld.refs, this])]

theorem got_find {w w' : SbWorld ι κ} {rs : List Nat} {pid i : Nat} (hg : Got env w pid i w') (h : Own w rs) (hu : w.Uniq) :
    w'.find pid = some i := by
  rw [find_iff (hg.uniq env h hu)]
  cases hg with
  | old hf =>
    obtain ⟨h1, x, hx⟩ := find_mem hf
    exact ⟨h1, by rw [hx]; rfl⟩
  | new hf =>
    refine ⟨by simp [SbWorld.add], ?_⟩
    rw [SbWorld.seen_add, if_pos rfl]; rfl

/-- Adding a context for a process that has none. -/
theorem add_find {w : SbWorld ι κ} {rs : List Nat} {pid : Nat} {image : ι} (h : Own w rs) (hu : w.Uniq) (hf : w.find pid = none)
    (q : Nat) : (w.add pid image).find q = if q = pid then some w.heap.length else w.find q := by
  have hu' := hu.add h (image := image) hf
  have hfr : ∀ i ∈ w.contexts, i ≠ w.heap.length := fun i hi e => h.fresh (by simp [SbWorld.refs, ← e, hi])
  refine option_ext fun i => ?_
  rw [find_iff hu']
  by_cases hq : q = pid
  · subst hq
    rw [if_pos rfl]
    constructor
    · rintro ⟨h1, h2⟩
      simp only [SbWorld.add, List.mem_cons] at h1
      rcases h1 with rfl | h1
      · rfl
      · rw [SbWorld.seen_add, if_neg (hfr i h1)] at h2
        exact absurd h2 (find_none hf i h1)
    · intro h1; injection h1 with h1; subst h1
      exact ⟨by simp [SbWorld.add], by rw [SbWorld.seen_add, if_pos rfl]; rfl⟩
  · rw [if_neg hq, find_iff hu]
    constructor
    · rintro ⟨h1, h2⟩
      simp only [SbWorld.add, List.mem_cons] at h1
      rcases h1 with rfl | h1
      · rw [SbWorld.seen_add, if_pos rfl] at h2
        injection h2 with h2; exact absurd h2.symm hq
      · rw [SbWorld.seen_add, if_neg (hfr i h1)] at h2
        exact ⟨h1, h2⟩
    · rintro ⟨h1, h2⟩
      exact ⟨by simp [SbWorld.add, h1], by rw [SbWorld.seen_add, if_neg (hfr i h1)]; exact h2⟩

/-- The image of a new process. -/
def SbWorld.fresh (w : SbWorld ι κ) : ι := (env.copy env.empty w.kernel).1

theorem got_table {w w' : SbWorld ι κ} {rs : List Nat} {pid i : Nat} (hg : Got env w pid i w') (h : Own w rs) (hu : w.Uniq) :
    w'.table = w.table.set pid (w.table.get (w.fresh env) pid) := by
  funext q
  unfold Table.set Table.get
  cases hg with
  | old hf =>
    by_cases hq : q = pid
    · subst hq
      rw [if_pos rfl]
      obtain ⟨h1, x, hx⟩ := find_mem hf
      have : w.table q = some x := by simp [SbWorld.table, hf, hx]
      rw [this]; rfl
    · rw [if_neg hq]
  | @new image hf hc =>
    have hfr : ∀ i ∈ w.contexts, i ≠ w.heap.length := fun i hi e => h.fresh (by simp [SbWorld.refs, ← e, hi])
    have ht : w.table pid = none := by simp [SbWorld.table, hf]
    have hfi : w.fresh env = image := by rw [SbWorld.fresh, hc]
    rw [ht, hfi]
    unfold SbWorld.table
    rw [add_find h hu hf]
    by_cases hq : q = pid
    · rw [if_pos hq, if_pos hq, Option.bind_some, SbWorld.seen_add, if_pos rfl]; rfl
    · rw [if_neg hq, if_neg hq]
      rcases hf' : w.find q with _ | j
      · rfl
      · rw [Option.bind_some, Option.bind_some, SbWorld.seen_add, if_neg (hfr j (find_mem hf').1)]

/-- Removing the context of a process. -/
theorem drop_find {w : SbWorld ι κ} {pid i : Nat} (hn : w.contexts.Nodup) (hu : w.Uniq) (hf : w.find pid = some i) (q : Nat) :
    (w.drop i).find q = if q = pid then none else w.find q := by
  have hi := (find_iff hu).1 hf
  refine option_ext fun j => ?_
  rw [find_iff (hu.drop i)]
  have hm : j ∈ (w.drop i).contexts ↔ j ≠ i ∧ j ∈ w.contexts := hn.mem_erase_iff
  have hs : (w.drop i).seen j = w.seen j := rfl
  rw [hm, hs]
  by_cases hq : q = pid
  · subst hq
    rw [if_pos rfl]
    constructor
    · rintro ⟨⟨h1, h2⟩, h3⟩
      exact absurd (hu.of j h2 i hi.1 (by rw [h3, hi.2])) h1
    · intro h; cases h
  · rw [if_neg hq, find_iff hu]
    constructor
    · rintro ⟨⟨h1, h2⟩, h3⟩; exact ⟨h2, h3⟩
    · rintro ⟨h2, h3⟩
      refine ⟨⟨fun e => ?_, h2⟩, h3⟩
      subst e
      rw [hi.2] at h3
      injection h3 with h3
      exact hq h3.symm

theorem drop_table {w : SbWorld ι κ} {pid i : Nat} (hn : w.contexts.Nodup) (hu : w.Uniq) (hf : w.find pid = some i) (q : Nat) :
    (w.drop i).table q = if q = pid then none else w.table q := by
  unfold SbWorld.table
  rw [drop_find hn hu hf]
  by_cases hq : q = pid
  · rw [if_pos hq, if_pos hq]; rfl
  · rw [if_neg hq, if_neg hq]; rfl

theorem SbWorld.seen_put {w : SbWorld ι κ} {i j : Nat} {c d : SbCtx ι} (hc : w.at i = some c) :
    (w.put i (some d)).seen j = if j = i then some (d.pid, d.image, d.abi) else w.seen j := by
  unfold SbWorld.seen
  rw [SbWorld.at_put hc]
  split <;> rfl

/-- Changing the context of a process. -/
theorem store_find {w : SbWorld ι κ} {i : Nat} {c d : SbCtx ι} (hu : w.Uniq) (hc : w.at i = some c) (hd : d.pid = c.pid) (q : Nat) :
    (w.put i (some d)).find q = w.find q := by
  refine option_ext fun j => ?_
  rw [find_iff (hu.store hc hd), find_iff hu, SbWorld.seen_put hc]
  have hs : w.seen i = some (c.pid, c.image, c.abi) := by simp [SbWorld.seen, hc]
  by_cases hj : j = i
  · subst hj; rw [if_pos rfl, hs, hd]; exact Iff.rfl
  · rw [if_neg hj]; exact Iff.rfl

theorem store_table {w : SbWorld ι κ} {pid i : Nat} {c d : SbCtx ι} (hu : w.Uniq) (hf : w.find pid = some i) (hc : w.at i = some c)
    (hd : d.pid = c.pid) : (w.put i (some d)).table = w.table.set pid (d.image, d.abi) := by
  funext q
  unfold Table.set
  unfold SbWorld.table
  rw [store_find hu hc hd]
  by_cases hq : q = pid
  · subst hq
    rw [if_pos rfl, hf, Option.bind_some, SbWorld.seen_put hc, if_pos rfl]; rfl
  · rw [if_neg hq]
    rcases hf' : w.find q with _ | j
    · rfl
    · rw [Option.bind_some, Option.bind_some, SbWorld.seen_put hc]
      have hj : j ≠ i := by
        intro e
        subst e
        have h1 := ((find_iff hu).1 hf).2
        have h2 := ((find_iff hu).1 hf').2
        rw [h1] at h2; injection h2 with h2; exact hq h2.symm
      rw [if_neg hj]

theorem table_at {w : SbWorld ι κ} {pid i : Nat} {c : SbCtx ι} (hf : w.find pid = some i) (hc : w.at i = some c) :
    w.table pid = some (c.image, c.abi) := by
  simp [SbWorld.table, hf, SbWorld.seen, hc]

end Ipt
