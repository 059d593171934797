import Verif.Spec.Sideband

/-!
# Sideband sessions: invariant
-/

namespace Ipt

open Spec.Sideband

theorem status_append (l : List SbCall) (c : SbCall) (id : Nat) : status (l ++ [c]) id = (status l id).step id c := by
  simp [status]

theorem step_other {id : Nat} {s : Status} {c : SbCall} (h : who c ≠ id) : s.step id c = s := by
  cases c <;> simp only [who] at h <;> simp only [Status.step, if_neg h]

theorem status_other {l seg : List SbCall} {id j : Nat} (h : ∀ c ∈ seg, who c = id) (hj : j ≠ id) : status (l ++ seg) j = status l j := by
  induction seg generalizing l with
  | nil => simp
  | cons c seg ih =>
    rw [List.append_cons, ih (fun x hx => h x (List.mem_cons_of_mem _ hx)), status_append, step_other]
    rw [h c List.mem_cons_self]; exact fun e => hj e.symm

/-- What `InOrder` says for one more call. -/
theorem inOrder_append {l : List SbCall} {c : SbCall} (h : InOrder l)
    (hc : ∀ id t ev, c = .due id t ev → status l id = .pending t ∧ t ≤ ev.tsc ∧ (∀ j t', status l j = .pending t' → t ≤ t') ∧
      ∀ j, status l j ≠ .applied) :
    InOrder (l ++ [c]) := by
  intro before id t ev after e
  rcases List.eq_nil_or_concat after with rfl | ⟨after', x, rfl⟩
  · have e' : l ++ [c] = before ++ [SbCall.due id t ev] := e
    obtain ⟨rfl, e2⟩ := List.append_inj' e' rfl
    simp only [List.cons.injEq, and_true] at e2
    exact hc id t ev e2
  · have e' : l ++ [c] = (before ++ .due id t ev :: after') ++ [x] := by simpa using e
    obtain ⟨rfl, -⟩ := List.append_inj' e' rfl
    exact h before id t ev after' rfl

theorem inOrder_plain {l seg : List SbCall} (h : InOrder l) (hs : ∀ c ∈ seg, ∀ id t ev, c ≠ .due id t ev) : InOrder (l ++ seg) := by
  induction seg generalizing l with
  | nil => simpa using h
  | cons c seg ih =>
    rw [List.append_cons]
    exact ih (inOrder_append h fun id t ev e => absurd e (hs c List.mem_cons_self id t ev)) fun x hx => hs x (List.mem_cons_of_mem _ hx)

theorem quiet_append {l : List SbCall} {c : SbCall} (h : Quiet l) (hc : status l (who c) ≠ .gone)
    (hd : ∀ i t, c = .fetched i t → status l i ≠ .ended) : Quiet (l ++ [c]) := by
  intro before x after e
  rcases List.eq_nil_or_concat after with rfl | ⟨after', y, rfl⟩
  · have e' : l ++ [c] = before ++ [x] := e
    obtain ⟨rfl, e2⟩ := List.append_inj' e' rfl
    simp only [List.cons.injEq, and_true] at e2
    rw [← e2]; exact ⟨hc, hd⟩
  · have e' : l ++ [c] = (before ++ x :: after') ++ [y] := by simpa using e
    obtain ⟨rfl, -⟩ := List.append_inj' e' rfl
    exact h before x after' rfl

/-- The channel may have been given up behind such a call. -/
def Final : SbCall → Prop
  | .ended _ | .failed _ => True
  | _ => False

theorem quiet_seg {l seg : List SbCall} {i : Nat} (h : Quiet l) (hi : status l i ≠ .gone) (hs : ∀ c ∈ seg, who c = i)
    (hf : ∀ c ∈ seg.dropLast, ¬ Final c) (hn : status l i ≠ .ended ∨ ∀ c ∈ seg, ∀ j t, c ≠ .fetched j t) : Quiet (l ++ seg) := by
  induction seg generalizing l with
  | nil => simpa using h
  | cons c seg ih =>
    have h1 := quiet_append (c := c) h (by rw [hs c List.mem_cons_self]; exact hi) (by
      intro j t e
      have : j = i := by have := hs c List.mem_cons_self; rw [e] at this; exact this
      rcases hn with hn | hn
      · rw [this]; exact hn
      · exact absurd e (hn c List.mem_cons_self j t))
    rcases seg with _ | ⟨c2, seg⟩
    · exact h1
    · rw [List.append_cons]
      have := hf c (by simp)
      refine ih h1 ?_ (fun x hx => hs x (List.mem_cons_of_mem _ hx)) (fun x hx => hf x (by simp [hx])) ?_
      · rw [status_append]
        cases c <;> simp only [Status.step] <;> first | exact absurd trivial this | exact hi | (split <;> simp_all)
      · rcases hn with hn | hn
        · left
          rw [status_append]
          cases c <;> simp only [Status.step] <;> first | exact absurd trivial this | exact hn | (split <;> simp_all)
        · exact .inr fun x hx => hn x (List.mem_cons_of_mem _ hx)

/-- The lists of a session, as identifiers with times, fit the log: active decoders, waiting, retired and removed ones. -/
structure SbInv (D W R X : List (Nat × Nat)) (log : List SbCall) : Prop where
  nodup : ((D ++ W ++ R ++ X).map (·.1)).Nodup
  dec : ∀ d ∈ D, status log d.1 = .pending d.2
  wait : ∀ d ∈ W, status log d.1 = .unknown
  ret : ∀ d ∈ R, status log d.1 = .ended
  rem : ∀ d ∈ X, status log d.1 = .gone
  act : ∀ j t, status log j = .pending t → (j, t) ∈ D
  retd : ∀ j, status log j = .ended → ∃ t, (j, t) ∈ R
  sorted : D.Pairwise (·.2 ≤ ·.2)
  order : InOrder log
  quiet : Quiet log
  still : ∀ j, status log j ≠ .applied

/-- Insertion into an ordered list. -/
def insertKey (d : Nat × Nat) : List (Nat × Nat) → List (Nat × Nat)
  | [] => [d]
  | c :: l => if d.2 ≤ c.2 then d :: c :: l else c :: insertKey d l

theorem insertKey_perm (d : Nat × Nat) (l : List (Nat × Nat)) : (insertKey d l).Perm (d :: l) := by
  induction l with
  | nil => exact .refl _
  | cons c l ih =>
    unfold insertKey
    split
    · exact .refl _
    · exact (ih.cons c).trans (.swap ..)

theorem insertKey_sorted {d : Nat × Nat} {l : List (Nat × Nat)} (h : l.Pairwise (·.2 ≤ ·.2)) : (insertKey d l).Pairwise (·.2 ≤ ·.2) := by
  induction l with
  | nil => exact List.pairwise_singleton ..
  | cons c l ih =>
    obtain ⟨h1, h2⟩ := List.pairwise_cons.1 h
    unfold insertKey
    split
    · refine List.pairwise_cons.2 ⟨?_, h⟩
      intro x hx
      rcases List.mem_cons.1 hx with rfl | hx
      · assumption
      · have := h1 x hx; omega
    · refine List.pairwise_cons.2 ⟨?_, ih h2⟩
      intro x hx
      rcases List.mem_cons.1 ((insertKey_perm d l).mem_iff.1 hx) with rfl | hx
      · omega
      · exact h1 x hx

variable {D W R X : List (Nat × Nat)} {log seg : List SbCall} {i t : Nat}

theorem other_of_nodup {l l' : List (Nat × Nat)} (h : ((l ++ (i, t) :: l').map (·.1)).Nodup) : ∀ d ∈ l ++ l', d.1 ≠ i := by
  rw [List.map_append, List.map_cons, List.perm_middle.nodup_iff] at h
  intro d hd e
  apply (List.nodup_cons.1 h).1
  rw [← List.map_append, List.mem_map]
  exact ⟨d, hd, e⟩

/-- The lists if a decoder is moved from the active ones to elsewhere. -/
theorem SbInv.nodup_front (h : SbInv ((i, t) :: D) W R X log) : ∀ d ∈ D ++ W ++ R ++ X, d.1 ≠ i :=
  other_of_nodup (l := []) (t := t) (by simpa using h.nodup)

/-- The first decoder has been used and has another record now. -/
theorem SbInv.next (h : SbInv ((i, t) :: D) W R X log) (hs : ∀ c ∈ seg, who c = i) (hf : ∀ c ∈ seg.dropLast, ¬ Final c) (ho : InOrder (log ++ seg)) {t' : Nat}
    (hp : status (log ++ seg) i = .pending t') : SbInv (insertKey (i, t') D) W R X (log ++ seg) := by
  have ne := h.nodup_front
  have st : ∀ j, j ≠ i → status (log ++ seg) j = status log j := fun j hj => status_other hs hj
  have mem : ∀ d, d ∈ insertKey (i, t') D ↔ d = (i, t') ∨ d ∈ D := fun d => by rw [(insertKey_perm _ _).mem_iff, List.mem_cons]
  refine ⟨?_, ?_, ?_, ?_, ?_, ?_, ?_, ?_, ho, quiet_seg h.quiet (by rw [show status log i = _ from (h.dec _ List.mem_cons_self)]; simp) hs hf (.inl (by rw [show status log i = _ from (h.dec _ List.mem_cons_self)]; simp)), fun j => ?_⟩
  · have p : ((insertKey (i, t') D ++ W ++ R ++ X).map (·.1)).Perm ((((i, t) :: D) ++ W ++ R ++ X).map (·.1)) := by
      have q := ((((insertKey_perm (i, t') D).map (·.1)).append_right (W.map (·.1))).append_right (R.map (·.1))).append_right (X.map (·.1))
      simpa using q
    exact p.nodup_iff.2 h.nodup
  · intro d hd
    rcases (mem d).1 hd with rfl | hd
    · exact hp
    · rw [st _ (ne d (by simp [hd]))]; exact h.dec d (List.mem_cons_of_mem _ hd)
  · intro d hd; rw [st _ (ne d (by simp [hd]))]; exact h.wait d hd
  · intro d hd; rw [st _ (ne d (by simp [hd]))]; exact h.ret d hd
  · intro d hd; rw [st _ (ne d (by simp [hd]))]; exact h.rem d hd
  · intro j u hj
    by_cases e : j = i
    · subst e
      rw [hp] at hj
      injection hj with hj
      exact (mem _).2 (.inl (by rw [hj]))
    · rw [st j e] at hj
      rcases List.mem_cons.1 (h.act j u hj) with e2 | hm
      · exact absurd (congrArg Prod.fst e2) e
      · exact (mem _).2 (.inr hm)
  · intro j hj
    by_cases e : j = i
    · subst e; rw [hp] at hj; cases hj
    · rw [st j e] at hj; exact h.retd j hj
  · exact insertKey_sorted (List.pairwise_cons.1 h.sorted).2
  · by_cases e : j = i
    · rw [e, hp]; simp
    · rw [st j e]; exact h.still j

/-- The first decoder has no more records. -/
theorem SbInv.retire (h : SbInv ((i, t) :: D) W R X log) (hs : ∀ c ∈ seg, who c = i) (hf : ∀ c ∈ seg.dropLast, ¬ Final c) (ho : InOrder (log ++ seg)) {t' : Nat}
    (hp : status (log ++ seg) i = .ended) : SbInv D W ((i, t') :: R) X (log ++ seg) := by
  have ne := h.nodup_front
  have st : ∀ j, j ≠ i → status (log ++ seg) j = status log j := fun j hj => status_other hs hj
  refine ⟨?_, ?_, ?_, ?_, ?_, ?_, ?_, (List.pairwise_cons.1 h.sorted).2, ho, quiet_seg h.quiet (by rw [show status log i = _ from (h.dec _ List.mem_cons_self)]; simp) hs hf (.inl (by rw [show status log i = _ from (h.dec _ List.mem_cons_self)]; simp)), fun j => ?_⟩
  · have p : ((D ++ W ++ (i, t') :: R ++ X).map (·.1)).Perm ((((i, t) :: D) ++ W ++ R ++ X).map (·.1)) := by
      refine List.perm_iff_count.2 fun a => ?_
      simp only [List.map_append, List.map_cons, List.count_append, List.count_cons]
      omega
    exact p.nodup_iff.2 h.nodup
  · intro d hd; rw [st _ (ne d (by simp [hd]))]; exact h.dec d (List.mem_cons_of_mem _ hd)
  · intro d hd; rw [st _ (ne d (by simp [hd]))]; exact h.wait d hd
  · intro d hd
    rcases List.mem_cons.1 hd with rfl | hd
    · exact hp
    · rw [st _ (ne d (by simp [hd]))]; exact h.ret d hd
  · intro d hd; rw [st _ (ne d (by simp [hd]))]; exact h.rem d hd
  · intro j u hj
    by_cases e : j = i
    · subst e; rw [hp] at hj; cases hj
    · rw [st j e] at hj
      rcases List.mem_cons.1 (h.act j u hj) with e2 | hm
      · exact absurd (congrArg Prod.fst e2) e
      · exact hm
  · intro j hj
    by_cases e : j = i
    · subst e; exact ⟨t', List.mem_cons_self⟩
    · rw [st j e] at hj
      obtain ⟨u, hu⟩ := h.retd j hj
      exact ⟨u, List.mem_cons_of_mem _ hu⟩
  · by_cases e : j = i
    · rw [e, hp]; simp
    · rw [st j e]; exact h.still j

/-- An active decoder is removed. -/
theorem SbInv.remove {D' : List (Nat × Nat)} (h : SbInv (D' ++ (i, t) :: D) W R X log) (hs : ∀ c ∈ seg, who c = i) (hf : ∀ c ∈ seg.dropLast, ¬ Final c) (ho : InOrder (log ++ seg)) {t' : Nat}
    (hp : status (log ++ seg) i = .gone) : SbInv (D' ++ D) W R ((i, t') :: X) (log ++ seg) := by
  have ne : ∀ d ∈ D' ++ (D ++ W ++ R ++ X), d.1 ≠ i := other_of_nodup (t := t) (by simpa using h.nodup)
  have st : ∀ j, j ≠ i → status (log ++ seg) j = status log j := fun j hj => status_other hs hj
  have mem : ∀ d, d ∈ D' ++ D → d ∈ D' ++ (i, t) :: D := fun d hd => by
    rcases List.mem_append.1 hd with h | h
    · exact List.mem_append_left _ h
    · exact List.mem_append_right _ (List.mem_cons_of_mem _ h)
  refine ⟨?_, ?_, ?_, ?_, ?_, ?_, ?_, ?_, ho, quiet_seg h.quiet (by rw [show status log i = _ from (h.dec (i, t) (by simp))]; simp) hs hf (.inl (by rw [show status log i = _ from (h.dec (i, t) (by simp))]; simp)), fun j => ?_⟩
  · have p : (((D' ++ D) ++ W ++ R ++ (i, t') :: X).map (·.1)).Perm (((D' ++ (i, t) :: D) ++ W ++ R ++ X).map (·.1)) := by
      refine List.perm_iff_count.2 fun a => ?_
      simp only [List.map_append, List.map_cons, List.count_append, List.count_cons]
      omega
    exact p.nodup_iff.2 h.nodup
  · intro d hd; rw [st _ (ne d (by rw [← List.append_assoc, ← List.append_assoc, ← List.append_assoc]; simp only [List.mem_append] at hd ⊢; simp [hd]))]; exact h.dec d (mem d hd)
  · intro d hd; rw [st _ (ne d (by simp [hd]))]; exact h.wait d hd
  · intro d hd; rw [st _ (ne d (by simp [hd]))]; exact h.ret d hd
  · intro d hd
    rcases List.mem_cons.1 hd with rfl | hd
    · exact hp
    · rw [st _ (ne d (by simp [hd]))]; exact h.rem d hd
  · intro j u hj
    by_cases e : j = i
    · subst e; rw [hp] at hj; cases hj
    · rw [st j e] at hj
      rcases List.mem_append.1 (h.act j u hj) with hm | hm
      · exact List.mem_append_left _ hm
      · rcases List.mem_cons.1 hm with e2 | hm
        · exact absurd (congrArg Prod.fst e2) e
        · exact List.mem_append_right _ hm
  · intro j hj
    by_cases e : j = i
    · subst e; rw [hp] at hj; cases hj
    · rw [st j e] at hj; exact h.retd j hj
  · exact h.sorted.sublist (List.Sublist.append_left (List.sublist_cons_self ..) _)
  · by_cases e : j = i
    · rw [e, hp]; simp
    · rw [st j e]; exact h.still j

/-- A retired decoder is removed. -/
theorem SbInv.removeRetired {R' : List (Nat × Nat)} (h : SbInv D W (R' ++ (i, t) :: R) X log) (hs : ∀ c ∈ seg, who c = i) (hn : ∀ c ∈ seg, ∀ j t, c ≠ .fetched j t) (hf : ∀ c ∈ seg.dropLast, ¬ Final c) (ho : InOrder (log ++ seg)) {t' : Nat}
    (hp : status (log ++ seg) i = .gone) : SbInv D W (R' ++ R) ((i, t') :: X) (log ++ seg) := by
  have ne : ∀ d ∈ (D ++ W ++ R') ++ (R ++ X), d.1 ≠ i := other_of_nodup (t := t) (by simpa using h.nodup)
  have st : ∀ j, j ≠ i → status (log ++ seg) j = status log j := fun j hj => status_other hs hj
  refine ⟨?_, ?_, ?_, ?_, ?_, ?_, ?_, h.sorted, ho, quiet_seg h.quiet (by rw [show status log i = _ from (h.ret (i, t) (by simp))]; simp) hs hf (.inr hn), fun j => ?_⟩
  · have p : ((D ++ W ++ (R' ++ R) ++ (i, t') :: X).map (·.1)).Perm ((D ++ W ++ (R' ++ (i, t) :: R) ++ X).map (·.1)) := by
      refine List.perm_iff_count.2 fun a => ?_
      simp only [List.map_append, List.map_cons, List.count_append, List.count_cons]
      omega
    exact p.nodup_iff.2 h.nodup
  · intro d hd; rw [st _ (ne d (by simp [hd]))]; exact h.dec d hd
  · intro d hd; rw [st _ (ne d (by simp [hd]))]; exact h.wait d hd
  · intro d hd
    rcases List.mem_append.1 hd with hd | hd
    · rw [st _ (ne d (by simp [hd]))]; exact h.ret d (List.mem_append_left _ hd)
    · rw [st _ (ne d (by simp [hd]))]; exact h.ret d (List.mem_append_right _ (List.mem_cons_of_mem _ hd))
  · intro d hd
    rcases List.mem_cons.1 hd with rfl | hd
    · exact hp
    · rw [st _ (ne d (by simp [hd]))]; exact h.rem d hd
  · intro j u hj
    by_cases e : j = i
    · subst e; rw [hp] at hj; cases hj
    · rw [st j e] at hj; exact h.act j u hj
  · intro j hj
    by_cases e : j = i
    · subst e; rw [hp] at hj; cases hj
    · rw [st j e] at hj
      obtain ⟨u, hu⟩ := h.retd j hj
      rcases List.mem_append.1 hu with hm | hm
      · exact ⟨u, List.mem_append_left _ hm⟩
      · rcases List.mem_cons.1 hm with e2 | hm
        · exact absurd (congrArg Prod.fst e2) e
        · exact ⟨u, List.mem_append_right _ hm⟩
  · by_cases e : j = i
    · rw [e, hp]; simp
    · rw [st j e]; exact h.still j

/-- Calls that do not change the status of any channel. -/
theorem SbInv.idle (h : SbInv D W R X log) (hs : ∀ c ∈ seg, (∃ j ev, c = .shown j ev) ∨ ∃ j, c = .printed j)
    (hq : Quiet (log ++ seg)) : SbInv D W R X (log ++ seg) := by
  have st : ∀ j, status (log ++ seg) j = status log j := by
    intro j
    clear h hq
    induction seg generalizing log with
    | nil => simp
    | cons c seg ih =>
      rw [List.append_cons, ih fun x hx => hs x (List.mem_cons_of_mem _ hx), status_append]
      rcases hs c List.mem_cons_self with ⟨k, ev, rfl⟩ | ⟨k, rfl⟩ <;> rfl
  have hd : ∀ c ∈ seg, ∀ id t ev, c ≠ .due id t ev := by
    intro c hc id t ev e
    rcases hs c hc with ⟨k, ev, rfl⟩ | ⟨k, rfl⟩ <;> cases e
  refine ⟨h.nodup, ?_, ?_, ?_, ?_, ?_, ?_, h.sorted, inOrder_plain h.order hd, hq, fun j => by rw [st]; exact h.still j⟩
  · intro d hd; rw [st]; exact h.dec d hd
  · intro d hd; rw [st]; exact h.wait d hd
  · intro d hd; rw [st]; exact h.ret d hd
  · intro d hd; rw [st]; exact h.rem d hd
  · intro j t hj; rw [st] at hj; exact h.act j t hj
  · intro j hj; rw [st] at hj; exact h.retd j hj

end Ipt
