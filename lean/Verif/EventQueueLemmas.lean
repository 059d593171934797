import Verif.EventQueue

/-! Helper lemmas on the event queue: refinement of a list of (event, binding) pairs. -/

set_option linter.unusedSimpArgs false

namespace Ipt

variable {α : Type} [Inhabited α]

/-- Does an entry match a binding mask? -/
def matches_ (evb : Nat) (e : α × Nat) : Bool := decide (e.2 &&& evb ≠ 0)

/-- The ring holds the list `l` of pending entries, oldest first. -/
structure Evq.Holds (q : Evq α) (l : List (α × Nat)) : Prop where
  size : q.queue.length = 16
  begin : q.begin < 16
  end_ : q.end_ = (q.begin + l.length) % 16
  len : l.length ≤ 14
  get : ∀ i, i < l.length → l[i]? = some (q.entry ((q.begin + i) % 16))

theorem entry_eq {q : Evq α} (h : q.queue.length = 16) {i : Nat} (hi : i < 16) :
    q.queue[i]? = some (q.entry i) := by
  unfold Evq.entry
  rw [List.getD_eq_getElem?_getD, List.getElem?_eq_getElem (by omega)]
  rfl

theorem getD_set {β : Type} (l : List β) (i j : Nat) (x d : β) (hi : i < l.length) :
    (l.set i x).getD j d = if i = j then x else l.getD j d := by
  rw [List.getD_eq_getElem?_getD, List.getD_eq_getElem?_getD]
  by_cases h : i = j
  · subst h; rw [List.getElem?_set_self hi, if_pos rfl]; rfl
  · rw [List.getElem?_set_ne h, if_neg h]

theorem enqueue_holds {q : Evq α} {l : List (α × Nat)} (h : q.Holds l) (evb : Nat) :
    (l.length < 14 → ∃ q', q.enqueue evb = (q', some q.end_) ∧ q'.Holds (l ++ [(default, evb)]) ∧
      q'.begin = q.begin ∧ (∀ j, j ≠ q.end_ → q'.entry j = q.entry j) ∧ q'.standalone = q.standalone) ∧
    (l.length = 14 → q.enqueue evb = (q, none)) := by
  obtain ⟨h1, h2, h3, h4, h5⟩ := h
  unfold Evq.enqueue
  rw [if_neg (by omega), if_neg (by omega)]
  dsimp only [evqInc]
  constructor
  · intro hl
    rw [if_neg (by omega)]
    refine ⟨_, rfl, ⟨by simp [h1], h2, ?_, by simp; omega, ?_⟩, rfl, ?_, rfl⟩
    · simp only [List.length_append, List.length_cons, List.length_nil]; omega
    · intro i hi
      simp only [List.length_append, List.length_cons, List.length_nil] at hi
      simp only [Evq.entry]
      rw [getD_set _ _ _ _ _ (by omega)]
      by_cases hil : i < l.length
      · rw [List.getElem?_append_left hil, h5 i hil, if_neg (by omega)]
        rfl
      · have : i = l.length := by omega
        subst this
        rw [if_pos h3]
        simp
    · intro j hj
      simp only [Evq.entry]
      rw [getD_set _ _ _ _ _ (by omega), if_neg (by omega)]
  · intro hl
    rw [if_pos (by omega)]

theorem put_last_holds {q : Evq α} {l : List (α × Nat)} {evb i : Nat} (h : q.Holds (l ++ [(default, evb)]))
    (hi : i = (q.begin + l.length) % 16) (ev : α) :
    (q.put i ev).Holds (l ++ [(ev, evb)]) := by
  obtain ⟨h1, h2, h3, h4, h5⟩ := h
  have hb := h5 l.length (by simp)
  rw [List.getElem?_append_right (Nat.le_refl _)] at hb
  simp only [Nat.sub_self, List.getElem?_cons_zero, Option.some.injEq] at hb
  simp only [List.length_append, List.length_cons, List.length_nil] at h3 h4 h5
  refine ⟨by simp [Evq.put, h1], h2, ?_, by simp; omega, ?_⟩
  · simp only [Evq.put, List.length_append, List.length_cons, List.length_nil]; omega
  · intro j hj
    simp only [List.length_append, List.length_cons, List.length_nil] at hj
    simp only [Evq.put, Evq.entry]
    rw [getD_set _ _ _ _ _ (by omega)]
    by_cases hjl : j < l.length
    · rw [List.getElem?_append_left hjl, if_neg (by omega)]
      have := h5 j (by omega)
      rw [List.getElem?_append_left hjl] at this
      exact this
    · have : j = l.length := by omega
      subst this
      rw [if_pos hi, List.getElem?_append_right (Nat.le_refl _)]
      simp only [Nat.sub_self, List.getElem?_cons_zero, Option.some.injEq]
      rw [hi]
      unfold Evq.entry at hb
      rw [← hb]

/-- First matching index of a list. -/
theorem scan_spec {q : Evq α} {l : List (α × Nat)} (h : q.Holds l) (evb : Nat) (p : α → Bool) :
    ∀ (fuel i : Nat), i ≤ l.length → l.length - i < fuel →
      (∃ j, i ≤ j ∧ j < l.length ∧ q.scan evb p fuel ((q.begin + i) % 16) = some ((q.begin + j) % 16) ∧
        (∃ e, l[j]? = some e ∧ matches_ evb e = true ∧ p e.1 = true) ∧
        (∀ k, i ≤ k → k < j → ∀ e, l[k]? = some e → ¬ (matches_ evb e = true ∧ p e.1 = true))) ∨
      (q.scan evb p fuel ((q.begin + i) % 16) = none ∧
        (∀ k, i ≤ k → ∀ e, l[k]? = some e → ¬ (matches_ evb e = true ∧ p e.1 = true))) := by
  intro fuel
  induction fuel with
  | zero => intro i _ h; omega
  | succ fuel ih =>
    intro i hi hf
    have h3 := h.end_
    have h4 := h.len
    have h2 := h.begin
    simp only [Evq.scan]
    by_cases hil : i = l.length
    · right
      rw [if_pos (by omega)]
      refine ⟨rfl, ?_⟩
      intro k hk e he
      rw [List.getElem?_eq_none (by omega)] at he
      cases he
    · rw [if_neg (by omega)]
      have hget := h.get i (by omega)
      by_cases hm : (q.entry ((q.begin + i) % 16)).2 &&& evb ≠ 0 ∧ p (q.entry ((q.begin + i) % 16)).1 = true
      · rw [if_pos hm]
        refine .inl ⟨i, Nat.le_refl _, by omega, rfl, ⟨_, hget, ?_, hm.2⟩, fun k h1 h2 => by omega⟩
        simpa [matches_] using hm.1
      · rw [if_neg hm]
        have e : evqInc ((q.begin + i) % 16) = (q.begin + (i + 1)) % 16 := by unfold evqInc; omega
        rw [e]
        have hno : ∀ e, l[i]? = some e → ¬ (matches_ evb e = true ∧ p e.1 = true) := by
          intro e he
          rw [hget] at he
          simp only [Option.some.injEq] at he
          subst he
          simpa [matches_] using hm
        rcases ih (i + 1) (by omega) (by omega) with ⟨j, a1, a2, a3, a4, a5⟩ | ⟨a1, a2⟩
        · refine .inl ⟨j, by omega, a2, a3, a4, ?_⟩
          intro k hk1 hk2 e he
          by_cases hki : k = i
          · subst hki; exact hno _ he
          · exact a5 k (by omega) hk2 e he
        · refine .inr ⟨a1, ?_⟩
          intro k hk1 e he
          by_cases hki : k = i
          · subst hki; exact hno _ he
          · exact a2 k (by omega) e he

theorem findSlot_spec {q : Evq α} {l : List (α × Nat)} (h : q.Holds l) (evb : Nat) :
    ∀ (fuel i : Nat), i < l.length → l.length - (i + 1) < fuel →
      (∃ j, i < j ∧ j < l.length ∧ q.findSlot evb fuel ((q.begin + i) % 16) = some ((q.begin + j) % 16) ∧
        (∃ e, l[j]? = some e ∧ matches_ evb e = true) ∧
        (∀ k, i < k → k < j → ∀ e, l[k]? = some e → ¬ (matches_ evb e = true))) ∨
      (q.findSlot evb fuel ((q.begin + i) % 16) = none ∧
        (∀ k, i < k → ∀ e, l[k]? = some e → ¬ (matches_ evb e = true))) := by
  intro fuel
  induction fuel with
  | zero => intro i _ h; omega
  | succ fuel ih =>
    intro i hi hf
    have h3 := h.end_
    have h4 := h.len
    have h2 := h.begin
    have e : evqInc ((q.begin + i) % 16) = (q.begin + (i + 1)) % 16 := by unfold evqInc; omega
    simp only [Evq.findSlot, e]
    by_cases hil : i + 1 = l.length
    · right
      rw [if_pos (by omega)]
      refine ⟨rfl, ?_⟩
      intro k hk e he
      rw [List.getElem?_eq_none (by omega)] at he
      cases he
    · rw [if_neg (by omega)]
      have hget := h.get (i + 1) (by omega)
      by_cases hm : (q.entry ((q.begin + (i + 1)) % 16)).2 &&& evb ≠ 0
      · rw [if_pos hm]
        refine .inl ⟨i + 1, by omega, by omega, rfl, ⟨_, hget, ?_⟩, fun k h1 h2 => by omega⟩
        simpa [matches_] using hm
      · rw [if_neg hm]
        have hno : ∀ e, l[i + 1]? = some e → ¬ (matches_ evb e = true) := by
          intro e he
          rw [hget] at he
          simp only [Option.some.injEq] at he
          subst he
          simpa [matches_] using hm
        rcases ih (i + 1) (by omega) (by omega) with ⟨j, a1, a2, a3, a4, a5⟩ | ⟨a1, a2⟩
        · refine .inl ⟨j, by omega, a2, a3, a4, ?_⟩
          intro k hk1 hk2 e he
          by_cases hki : k = i + 1
          · subst hki; exact hno e he
          · exact a5 k (by omega) hk2 e he
        · refine .inr ⟨a1, ?_⟩
          intro k hk1 e he
          by_cases hki : k = i + 1
          · subst hki; exact hno e he
          · exact a2 k (by omega) e he

theorem shiftDown_spec {b : Nat} (hb : b < 16) : ∀ (fuel j : Nat) (l : List (α × Nat)), l.length = 16 →
    1 ≤ j → j < 16 → j ≤ fuel →
    ∃ l', Evq.shiftDown b fuel l ((b + j) % 16) = (l', (b + 1) % 16) ∧ l'.length = 16 ∧
      ∀ k, k < 16 → l'.getD ((b + k) % 16) (default, 0) =
        if 1 ≤ k ∧ k ≤ j then l.getD ((b + (k - 1)) % 16) (default, 0) else l.getD ((b + k) % 16) (default, 0) := by
  intro fuel
  induction fuel with
  | zero => intro j l _ h1 _ h2; omega
  | succ fuel ih =>
    intro j l hl h1 h16 hf
    have e : evqDec ((b + j) % 16) = (b + (j - 1)) % 16 := by unfold evqDec; omega
    simp only [Evq.shiftDown, e]
    by_cases hj : j = 1
    · subst hj
      rw [if_pos (by omega)]
      refine ⟨_, rfl, by simp [hl], ?_⟩
      intro k hk
      rw [getD_set _ _ _ _ _ (by omega)]
      by_cases hk1 : k = 1
      · subst hk1; rw [if_pos rfl, if_pos (by omega)]
      · rw [if_neg (by omega), if_neg (by omega)]
    · rw [if_neg (by omega)]
      obtain ⟨l', h3, h4, h5⟩ := ih (j - 1) (l.set ((b + j) % 16) (l.getD ((b + (j - 1)) % 16) (default, 0)))
        (by simp [hl]) (by omega) (by omega) (by omega)
      refine ⟨l', h3, h4, ?_⟩
      intro k hk
      rw [h5 k hk]
      by_cases hkj : k = j
      · subst hkj
        rw [if_neg (by omega), if_pos (by omega), getD_set _ _ _ _ _ (by omega), if_pos rfl]
      · by_cases hkr : 1 ≤ k ∧ k ≤ j
        · rw [if_pos (by omega), if_pos hkr, getD_set _ _ _ _ _ (by omega), if_neg (by omega)]
        · rw [if_neg (by omega), if_neg hkr, getD_set _ _ _ _ _ (by omega), if_neg (by omega)]

/-- Index of the first entry that matches. -/
def firstMatch (evb : Nat) (l : List (α × Nat)) : Option Nat := l.findIdx? (matches_ evb)

omit [Inhabited α] in
theorem firstMatch_some {evb : Nat} {l : List (α × Nat)} {j : Nat} {e : α × Nat} (h : l[j]? = some e)
    (hm : matches_ evb e = true)
    (hn : ∀ k, k < j → ∀ e, l[k]? = some e → ¬ (matches_ evb e = true)) :
    firstMatch evb l = some j := by
  obtain ⟨hj, he⟩ := List.getElem?_eq_some_iff.1 h
  unfold firstMatch
  rw [List.findIdx?_eq_some_iff_getElem]
  refine ⟨hj, by rw [he]; exact hm, ?_⟩
  intro k hk
  exact hn k hk _ (List.getElem?_eq_getElem (by omega))

omit [Inhabited α] in
theorem firstMatch_none {evb : Nat} {l : List (α × Nat)}
    (hn : ∀ (k : Nat) e, l[k]? = some e → ¬ (matches_ evb e = true)) :
    firstMatch evb l = none := by
  unfold firstMatch
  rw [List.findIdx?_eq_none_iff]
  intro x hx
  obtain ⟨k, hk⟩ := List.getElem?_of_mem hx
  have := hn k x hk
  simpa using this

theorem dequeue_holds {q : Evq α} {l : List (α × Nat)} (h : q.Holds l) (evb : Nat) :
    match firstMatch evb l with
    | none => q.dequeue evb = (q, none)
    | some j => ∃ q' e, q.dequeue evb = (q', some q.begin) ∧ l[j]? = some e ∧ q'.entry q.begin = e ∧
        q'.Holds (l.eraseIdx j) ∧ q'.begin = (q.begin + 1) % 16 ∧ q'.standalone = q.standalone := by
  have h1 := h.size
  have h2 := h.begin
  have h3 := h.end_
  have h4 := h.len
  have h5 := h.get
  unfold Evq.dequeue
  rw [if_neg (by omega), if_neg (by omega)]
  by_cases hl : l.length = 0
  · have : l = [] := List.length_eq_zero_iff.1 hl
    subst this
    rw [if_pos (by simp at h3; omega)]
    simp [firstMatch]
  · rw [if_neg (by omega)]
    have h0 := h5 0 (by omega)
    rw [show (q.begin + 0) % 16 = q.begin by omega] at h0
    by_cases hm : (q.entry q.begin).2 &&& evb ≠ 0
    · rw [if_pos hm]
      have hm' : matches_ evb (q.entry q.begin) = true := by simpa [matches_] using hm
      have hf : firstMatch evb l = some 0 := firstMatch_some h0 hm' (fun k hk => by omega)
      rw [hf]
      refine ⟨_, _, rfl, h0, rfl, ⟨h1, ?_, ?_, ?_, ?_⟩, ?_, rfl⟩
      · simp only [evqInc]; omega
      · simp only [evqInc, List.length_eraseIdx]
        rw [if_pos (by omega)]; omega
      · rw [List.length_eraseIdx, if_pos (by omega)]; omega
      · intro i hi
        rw [List.length_eraseIdx, if_pos (by omega)] at hi
        rw [List.getElem?_eraseIdx, if_neg (by omega), h5 (i + 1) (by omega)]
        simp only [evqInc, Evq.entry]
        congr 2; omega
      · simp only [evqInc]; omega
    · rw [if_neg hm]
      have hm' : ¬ matches_ evb (q.entry q.begin) = true := by simpa [matches_] using hm
      rcases findSlot_spec h evb 16 0 (by omega) (by omega) with ⟨j, a1, a2, a3, ⟨e, a4, a5⟩, a6⟩ | ⟨a1, a2⟩
      · rw [show (q.begin + 0) % 16 = q.begin by omega] at a3
        have hf : firstMatch evb l = some j := by
          refine firstMatch_some a4 a5 ?_
          intro k hk e' he'
          by_cases hk0 : k = 0
          · subst hk0; rw [h0] at he'; simp only [Option.some.injEq] at he'; subst he'; exact hm'
          · exact a6 k (by omega) hk e' he'
        rw [hf, a3]
        obtain ⟨l', b1, b2, b3⟩ := shiftDown_spec (α := α) h2 16 j q.queue h1 (by omega) (by omega) (by omega)
        have he : q.entry ((q.begin + j) % 16) = e := by
          have := h5 j a2
          rw [a4] at this
          simp at this
          exact this.symm
        simp only [b1, he]
        refine ⟨_, e, rfl, a4, ?_, ⟨by simp [b2], ?_, ?_, ?_, ?_⟩, rfl, rfl⟩
        · simp only [Evq.entry]
          rw [getD_set _ _ _ _ _ (by omega), if_pos rfl]
        · dsimp only; omega
        · dsimp only
          rw [List.length_eraseIdx, if_pos (by omega)]; omega
        · rw [List.length_eraseIdx, if_pos (by omega)]; omega
        · intro i hi
          rw [List.length_eraseIdx, if_pos (by omega)] at hi
          simp only [Evq.entry]
          rw [getD_set _ _ _ _ _ (by omega), if_neg (by omega),
            show ((q.begin + 1) % 16 + i) % 16 = (q.begin + (i + 1)) % 16 by omega, b3 (i + 1) (by omega)]
          rw [List.getElem?_eraseIdx]
          by_cases hij : i < j
          · rw [if_pos hij, if_pos (by omega), h5 i (by omega)]
            rfl
          · rw [if_neg hij, if_neg (by omega), h5 (i + 1) (by omega)]
            rfl
      · rw [show (q.begin + 0) % 16 = q.begin by omega] at a1
        have hf : firstMatch evb l = none := by
          refine firstMatch_none ?_
          intro k e' he'
          by_cases hk0 : k = 0
          · subst hk0; rw [h0] at he'; simp only [Option.some.injEq] at he'; subst he'; exact hm'
          · exact a2 k (by omega) e' he'
        rw [hf, a1]

theorem peek_holds {q : Evq α} {l : List (α × Nat)} (h : q.Holds l) (evb : Nat) :
    q.peek evb = (firstMatch evb l).map (fun j => (q.begin + j) % 16) := by
  have h2 := h.begin
  have h3 := h.end_
  have h4 := h.len
  unfold Evq.peek
  rw [if_neg (by omega), if_neg (by omega)]
  rcases scan_spec h evb (fun _ => true) 16 0 (by omega) (by omega) with
    ⟨j, a1, a2, a3, ⟨e, a4, a5, _⟩, a6⟩ | ⟨a1, a2⟩
  · rw [show (q.begin + 0) % 16 = q.begin by omega] at a3
    rw [a3, firstMatch_some a4 a5 (fun k hk e he hm => a6 k (by omega) hk e he ⟨hm, rfl⟩)]
    rfl
  · rw [show (q.begin + 0) % 16 = q.begin by omega] at a1
    rw [a1, firstMatch_none (fun k e he hm => a2 k (by omega) e he ⟨hm, rfl⟩)]
    rfl

theorem pending_holds {q : Evq α} {l : List (α × Nat)} (h : q.Holds l) (evb : Nat) :
    q.pending evb = .ok (l.any (matches_ evb)) := by
  have h2 := h.begin
  have h3 := h.end_
  have h4 := h.len
  have hp := peek_holds h evb
  unfold Evq.peek at hp
  rw [if_neg (by omega), if_neg (by omega)] at hp
  unfold Evq.pending
  rw [if_neg (by omega), if_neg (by omega), hp, Option.isSome_map]
  congr 1
  exact List.findIdx?_isSome

theorem clear_holds {q : Evq α} {l : List (α × Nat)} (h : q.Holds l) : (q.clear).Holds [] :=
  ⟨h.size, by simp [Evq.clear], by simp [Evq.clear], by simp, by simp⟩

theorem init_holds : ({} : Evq α).Holds [] := ⟨by simp, by simp, by simp, by simp, by simp⟩

end Ipt
