import Verif.SidebandInv

/-!
# Sideband sessions: the times of the applied records
-/

namespace Ipt

open Spec.Sideband

theorem inOrder_init {l : List SbCall} {c : SbCall} (h : InOrder (l ++ [c])) : InOrder l := by
  intro b i t e a he
  exact h b i t e (a ++ [c]) (by rw [he]; simp)

theorem quiet_init {l : List SbCall} {c : SbCall} (h : Quiet (l ++ [c])) : Quiet l := by
  intro b x a he
  exact h b x (a ++ [c]) (by rw [he]; simp)

theorem steady_init {l : List SbCall} {c : SbCall} (h : Steady (l ++ [c])) : Steady l := by
  intro b i t a he
  exact h b i t (a ++ [c]) (by rw [he]; simp)

theorem lastFetched_append (l : List SbCall) (c : SbCall) (id : Nat) :
    lastFetched (l ++ [c]) id = match c with | .fetched i t => if i = id then some t else lastFetched l id | _ => lastFetched l id := by
  unfold lastFetched
  rw [List.foldl_append]
  cases c <;> rfl

theorem appliedTimes_append (l : List SbCall) (c : SbCall) :
    appliedTimes (l ++ [c]) = appliedTimes l ++ match c with | .due _ t _ => [t] | _ => [] := by
  unfold appliedTimes
  rw [List.filterMap_append]
  cases c <;> rfl

theorem appliedTimes_nil {l : List SbCall} (h : ∀ i t ev, SbCall.due i t ev ∉ l) : appliedTimes l = [] := by
  unfold appliedTimes
  rw [List.filterMap_eq_nil_iff]
  intro c hc
  cases c <;> first | rfl | exact absurd hc (h _ _ _)

/-- The times of the applied records are ordered, and not behind those of the records to come. -/
structure Times (l : List SbCall) : Prop where
  sorted : (appliedTimes l).Pairwise (· ≤ ·)
  pend : ∀ j t, status l j = .pending t → lastFetched l j = some t ∧ ∀ a ∈ appliedTimes l, a ≤ t
  appl : ∀ j, status l j = .applied → ∃ t, lastFetched l j = some t ∧ ∀ a ∈ appliedTimes l, a ≤ t
  unkn : ∀ j, status l j = .unknown → lastFetched l j = none

theorem snoc_ind {α : Type} {P : List α → Prop} (nil : P []) (append_singleton : ∀ l c, P l → P (l ++ [c])) (l : List α) : P l := by
  rw [← List.reverse_reverse l]
  induction l.reverse with
  | nil => exact nil
  | cons c l ih => rw [List.reverse_cons]; exact append_singleton _ _ ih

theorem times_of_order (l : List SbCall) : InOrder l → Quiet l → Steady l → Times l := by
  induction l using snoc_ind with
  | nil => exact fun _ _ _ => ⟨List.Pairwise.nil, (by intro j t h; cases h), (by intro j h; cases h), fun _ _ => rfl⟩
  | append_singleton l c ih =>
    intro ho hq hs
    obtain ⟨h1, h2, h3, h4⟩ := ih (inOrder_init ho) (quiet_init hq) (steady_init hs)
    have hc := hq l c [] rfl
    have same : (∀ i t, c ≠ .fetched i t) → ∀ j, lastFetched (l ++ [c]) j = lastFetched l j := by
      intro hn j
      rw [lastFetched_append]
      cases c <;> first | rfl | exact absurd rfl (hn _ _)
    have none : (∀ i t e, c ≠ .due i t e) → appliedTimes (l ++ [c]) = appliedTimes l := by
      intro hn
      rw [appliedTimes_append]
      cases c <;> first | exact List.append_nil _ | exact absurd rfl (hn _ _ _)
    cases c with
    | fetched i u =>
      have hu : ∀ a ∈ appliedTimes l, a ≤ u := by
        rcases hs l i u [] rfl with h | ⟨t, ht, htu⟩
        · rw [appliedTimes_nil h]; simp
        · intro a ha
          rcases hst : status l i with _ | t' | _ | _ | _
          · rw [h4 i hst] at ht; cases ht
          · obtain ⟨q1, q2⟩ := h2 i t' hst
            rw [q1] at ht; injection ht with ht
            exact Nat.le_trans (q2 a ha) (by omega)
          · obtain ⟨t', q1, q2⟩ := h3 i hst
            rw [q1] at ht; injection ht with ht
            exact Nat.le_trans (q2 a ha) (by omega)
          · exact absurd hst (hc.2 i u rfl)
          · exact absurd hst hc.1
      rw [← none (by simp)] at hu h1 h2 h3
      refine ⟨h1, ?_, ?_, ?_⟩
      · intro j t hj
        rw [status_append] at hj
        rw [lastFetched_append]
        dsimp only [Status.step] at hj ⊢
        by_cases e : i = j
        · rw [if_pos e] at hj ⊢
          injection hj with hj
          subst hj
          exact ⟨rfl, hu⟩
        · rw [if_neg e] at hj ⊢
          exact h2 j t hj
      · intro j hj
        rw [status_append] at hj
        rw [lastFetched_append]
        dsimp only [Status.step] at hj ⊢
        by_cases e : i = j
        · rw [if_pos e] at hj; cases hj
        · rw [if_neg e] at hj ⊢
          exact h3 j hj
      · intro j hj
        rw [status_append] at hj
        rw [lastFetched_append]
        dsimp only [Status.step] at hj ⊢
        by_cases e : i = j
        · rw [if_pos e] at hj; cases hj
        · rw [if_neg e] at hj ⊢
          exact h4 j hj
    | due i u ev =>
      obtain ⟨o1, -, o3, o4⟩ := ho l i u ev [] rfl
      have ha : appliedTimes (l ++ [.due i u ev]) = appliedTimes l ++ [u] := appliedTimes_append ..
      have hu := (h2 i u o1).2
      have hle : ∀ t, u ≤ t → ∀ a ∈ appliedTimes l ++ [u], a ≤ t := by
        intro t ht a hm
        rcases List.mem_append.1 hm with hm | hm
        · exact Nat.le_trans (hu a hm) ht
        · simp only [List.mem_singleton] at hm; omega
      refine ⟨?_, ?_, ?_, ?_⟩
      · rw [ha, List.pairwise_append]
        refine ⟨h1, List.pairwise_singleton .., ?_⟩
        intro a hm b hb
        simp only [List.mem_singleton] at hb
        subst hb
        exact hu a hm
      · intro j t hj
        rw [status_append] at hj
        rw [same (by simp), ha]
        dsimp only [Status.step] at hj
        by_cases e : i = j
        · rw [if_pos e] at hj; cases hj
        · rw [if_neg e] at hj
          exact ⟨(h2 j t hj).1, hle t (o3 j t hj)⟩
      · intro j hj
        rw [status_append] at hj
        rw [same (by simp), ha]
        dsimp only [Status.step] at hj
        by_cases e : i = j
        · subst e
          exact ⟨u, (h2 i u o1).1, hle u (Nat.le_refl u)⟩
        · rw [if_neg e] at hj
          exact absurd hj (o4 j)
      · intro j hj
        rw [status_append] at hj
        rw [same (by simp)]
        dsimp only [Status.step] at hj
        by_cases e : i = j
        · rw [if_pos e] at hj; cases hj
        · rw [if_neg e] at hj; exact h4 j hj
    | ended i =>
      rw [← none (by simp)] at h1 h2 h3
      refine ⟨h1, ?_, ?_, ?_⟩ <;> intro j <;> rw [status_append, same (by simp)] <;> dsimp only [Status.step]
      · intro t; split
        · split <;> intro h <;> cases h
        · exact h2 j t
      · split
        · split <;> intro h <;> cases h
        · exact h3 j
      · split
        · split <;> intro h <;> cases h
        · exact h4 j
    | failed i =>
      rw [← none (by simp)] at h1 h2 h3
      refine ⟨h1, ?_, ?_, ?_⟩ <;> intro j <;> rw [status_append, same (by simp)] <;> dsimp only [Status.step]
      · intro t; split
        · intro h; cases h
        · exact h2 j t
      · split
        · intro h; cases h
        · exact h3 j
      · split
        · intro h; cases h
        · exact h4 j
    | printed i =>
      rw [← none (by simp)] at h1 h2 h3
      refine ⟨h1, ?_, ?_, ?_⟩ <;> intro j <;> rw [status_append, same (by simp)] <;> dsimp only [Status.step]
      · exact h2 j
      · exact h3 j
      · exact h4 j
    | shown i e =>
      rw [← none (by simp)] at h1 h2 h3
      refine ⟨h1, ?_, ?_, ?_⟩ <;> intro j <;> rw [status_append, same (by simp)] <;> dsimp only [Status.step]
      · exact h2 j
      · exact h3 j
      · exact h4 j

end Ipt
