import Verif.SidebandInv

/-!
# Sideband sessions: all functions keep the invariant
-/

namespace Ipt

open Spec.Sideband

variable {σ π : Type} {cb : SbCallbacks σ π} {image stream : Bool} {ev : Event}

/-- Identifier and time. -/
def SbDecoder.key (d : SbDecoder π) : Nat × Nat := (d.id, d.tsc)

/-- The lists of the session fit its log. -/
def SbSession.Inv (s : SbSession σ π) : Prop :=
  SbInv (s.decoders.map (·.key)) (s.waiting.map (·.key)) (s.retired.map (·.key)) (s.removed.map (·.key)) s.log

theorem insert_key (d : SbDecoder π) (l : List (SbDecoder π)) : (sbInsert d l).map (·.key) = insertKey d.key (l.map (·.key)) := by
  induction l with
  | nil => rfl
  | cons c l ih =>
    unfold sbInsert
    rw [List.map_cons]
    unfold insertKey
    by_cases h : d.tsc ≤ c.tsc
    · rw [if_pos h, if_pos (show d.key.2 ≤ c.key.2 from h)]; rfl
    · rw [if_neg h, if_neg (show ¬ d.key.2 ≤ c.key.2 from h), List.map_cons, ih]

/-- The first turn of a call: the record of the first decoder may be applied. -/
theorem due_ok {D W R X : List (Nat × Nat)} {log : List SbCall} {i t : Nat} (h : SbInv ((i, t) :: D) W R X log) (hd : t ≤ ev.tsc) :
    InOrder (log ++ [.due i t ev]) := by
  refine inOrder_append h.order ?_
  intro id u e hc
  injection hc with h1 h2 h3
  subst h1; subst h2; subst h3
  refine ⟨h.dec _ List.mem_cons_self, hd, ?_, h.still⟩
  intro j t' hj
  rcases List.mem_cons.1 (h.act j t' hj) with e | hm
  · exact Nat.le_of_eq (congrArg Prod.snd e).symm
  · exact (List.pairwise_cons.1 h.sorted).1 _ hm

/-- What a turn of one of the loops leaves. -/
def TurnOk (s : SbSession σ π) (r : SbSession σ π × Res Unit) : Prop :=
  match r with
  | (s', .ok ()) => s'.Inv ∧ ∃ seg, s'.log = s.log ++ seg ∧ ∀ c ∈ seg, ∀ i e, c ≠ .shown i e
  | (_, .err _) => False
  | (_, .ub) => True

/-- The part of a turn behind printing. -/
theorem turn_rest {s : SbSession σ π} {d : SbDecoder π} (h : SbInv (d.key :: s.decoders.map (·.key)) (s.waiting.map (·.key))
    (s.retired.map (·.key)) (s.removed.map (·.key)) s.log) (hd : d.tsc ≤ ev.tsc) :
    TurnOk s (sbOffer cb image ev s d) := by
  have hdue := due_ok h hd
  have st1 : status (s.log ++ [.due d.id d.tsc ev]) d.id = .applied := by rw [status_append]; simp [Status.step]
  unfold sbOffer sbApply
  rcases cb.apply (image && d.primary) ev s.shared d.priv with ⟨sh, pv, _ | e | _⟩
  · dsimp only
    unfold sbFetch
    dsimp only
    rcases cb.fetch sh pv with ⟨sh2, pv2, u | e | _⟩
    · dsimp only
      refine ⟨?_, [.due d.id d.tsc ev, .fetched d.id u], by simp, by simp⟩
      have := h.next (seg := [.due d.id d.tsc ev, .fetched d.id u]) (t' := u) (by simp [who]) (by simp [Final])
        (by rw [show s.log ++ [SbCall.due d.id d.tsc ev, .fetched d.id u] = s.log ++ [.due d.id d.tsc ev] ++ [.fetched d.id u] by simp]
            exact inOrder_plain hdue (by simp))
        (by rw [show s.log ++ [SbCall.due d.id d.tsc ev, .fetched d.id u] = s.log ++ [.due d.id d.tsc ev] ++ [.fetched d.id u] by simp, status_append]
            simp [Status.step])
      unfold SbSession.Inv
      dsimp only
      rw [insert_key]
      simpa [SbDecoder.key] using this
    · have gone : TurnOk s (({ s with shared := sh2, log := s.log ++ [.due d.id d.tsc ev] ++ [.failed d.id], removed := { d with priv := pv2 } :: s.removed }), Res.ok ()) := by
        refine ⟨?_, [.due d.id d.tsc ev, .failed d.id], by simp, by simp⟩
        have := SbInv.remove (D' := []) h (seg := [.due d.id d.tsc ev, .failed d.id]) (t' := d.tsc) (by simp [who]) (by simp [Final])
          (by rw [show s.log ++ [SbCall.due d.id d.tsc ev, .failed d.id] = s.log ++ [.due d.id d.tsc ev] ++ [.failed d.id] by simp]
              exact inOrder_plain hdue (by simp))
          (by rw [show s.log ++ [SbCall.due d.id d.tsc ev, .failed d.id] = s.log ++ [.due d.id d.tsc ev] ++ [.failed d.id] by simp, status_append]
              simp [Status.step])
        unfold SbSession.Inv
        simpa [SbDecoder.key] using this
      by_cases he : e = .eos
      · subst he
        dsimp only
        refine ⟨?_, [.due d.id d.tsc ev, .ended d.id], by simp, by simp⟩
        have := h.retire (seg := [.due d.id d.tsc ev, .ended d.id]) (t' := d.tsc) (by simp [who]) (by simp [Final])
          (by rw [show s.log ++ [SbCall.due d.id d.tsc ev, .ended d.id] = s.log ++ [.due d.id d.tsc ev] ++ [.ended d.id] by simp]
              exact inOrder_plain hdue (by simp))
          (by rw [show s.log ++ [SbCall.due d.id d.tsc ev, .ended d.id] = s.log ++ [.due d.id d.tsc ev] ++ [.ended d.id] by simp, status_append, st1]
              simp [Status.step])
        unfold SbSession.Inv
        simpa [SbDecoder.key] using this
      · have e1 := gone
        revert e1
        cases e <;> first | exact fun h => h | exact absurd rfl he
    · trivial
  · dsimp only
    refine ⟨?_, [.due d.id d.tsc ev, .failed d.id], by simp, by simp⟩
    have := SbInv.remove (D' := []) h (seg := [.due d.id d.tsc ev, .failed d.id]) (t' := d.tsc) (by simp [who]) (by simp [Final])
      (by rw [show s.log ++ [SbCall.due d.id d.tsc ev, .failed d.id] = s.log ++ [.due d.id d.tsc ev] ++ [.failed d.id] by simp]
          exact inOrder_plain hdue (by simp))
      (by rw [show s.log ++ [SbCall.due d.id d.tsc ev, .failed d.id] = s.log ++ [.due d.id d.tsc ev] ++ [.failed d.id] by simp, status_append]
          simp [Status.step])
    unfold SbSession.Inv
    simpa [SbDecoder.key] using this
  · trivial

/-- One turn of the loop in `pt_sb_event`. -/
theorem turn_ok {s : SbSession σ π} {d : SbDecoder π} (h : SbInv (d.key :: s.decoders.map (·.key)) (s.waiting.map (·.key))
    (s.retired.map (·.key)) (s.removed.map (·.key)) s.log) (hd : d.tsc ≤ ev.tsc) : TurnOk s (sbTurn cb image stream ev s d) := by
  unfold sbTurn
  cases stream
  · rw [if_neg (by decide)]; exact turn_rest h hd
  · rw [if_pos rfl]
    unfold sbPrint
    rcases cb.print s.shared d.priv with ⟨sh, pv, _ | e | _⟩
    · dsimp only
      have h2 := h.idle (seg := [.printed d.id]) (by simp) (quiet_append h.quiet (by rw [show status s.log (who (.printed d.id)) = _ from h.dec _ List.mem_cons_self]; simp) (by simp))
      have := turn_rest (cb := cb) (image := image) (ev := ev) (s := { s with shared := sh, log := s.log ++ [.printed d.id] }) (d := { d with priv := pv }) h2 hd
      revert this
      generalize sbOffer cb image ev _ _ = r
      rcases r with ⟨s', _ | e | _⟩
      · rintro ⟨h3, seg, e, hs⟩
        refine ⟨h3, .printed d.id :: seg, by rw [e]; simp, ?_⟩
        intro c hc i e
        rcases List.mem_cons.1 hc with rfl | hc
        · simp
        · exact hs c hc i e
      · exact fun h => h
      · exact fun h => h
    · dsimp only
      refine ⟨?_, [.printed d.id, .failed d.id], rfl, by simp⟩
      have := SbInv.remove (D' := []) h (seg := [.printed d.id, .failed d.id]) (t' := d.tsc) (by simp [who]) (by simp [Final])
        (inOrder_plain h.order (by simp))
        (by rw [show s.log ++ [SbCall.printed d.id, .failed d.id] = s.log ++ [.printed d.id] ++ [.failed d.id] by simp, status_append]
            simp [Status.step])
      unfold SbSession.Inv
      simpa [SbDecoder.key] using this
    · trivial

theorem TurnOk.trans {s s' : SbSession σ π} {r : SbSession σ π × Res Unit} {seg : List SbCall} (e : s'.log = s.log ++ seg)
    (hs : ∀ c ∈ seg, ∀ i e, c ≠ SbCall.shown i e) (h : TurnOk s' r) : TurnOk s r := by
  rcases r with ⟨s2, _ | _ | _⟩
  · obtain ⟨h1, seg2, e2, h2⟩ := h
    refine ⟨h1, seg ++ seg2, by rw [e2, e, List.append_assoc], ?_⟩
    intro c hc
    rcases List.mem_append.1 hc with hc | hc
    · exact hs c hc
    · exact h2 c hc
  · exact h
  · trivial

/-- The loop in `pt_sb_event`: afterwards, no record is due. -/
theorem round1_ok : ∀ (fuel : Nat) (s : SbSession σ π), s.Inv → TurnOk s (sbRound1 cb image stream ev fuel s) ∧
    ∀ s', sbRound1 cb image stream ev fuel s = (s', .ok ()) → ∀ d ∈ s'.decoders, ev.tsc < d.tsc
  | 0, s, h => ⟨trivial, by intro s' e; cases e⟩
  | fuel + 1, s, h => by
    unfold sbRound1
    rcases hd : s.decoders with _ | ⟨d, l⟩
    · refine ⟨⟨h, [], by simp, by simp⟩, ?_⟩
      intro s' e
      injection e with e _
      subst e
      rw [hd]; simp
    · dsimp only
      by_cases ht : ev.tsc < d.tsc
      · rw [if_pos ht]
        refine ⟨⟨h, [], by simp, by simp⟩, ?_⟩
        intro s' e
        injection e with e _
        subst e
        rw [hd]
        intro x hx
        have hs := h.sorted
        rw [hd, List.map_cons] at hs
        rcases List.mem_cons.1 hx with rfl | hx
        · exact ht
        · have := (List.pairwise_cons.1 hs).1 x.key (List.mem_map.2 ⟨x, hx, rfl⟩)
          exact Nat.lt_of_lt_of_le ht this
      · rw [if_neg ht]
        have h' : SbInv (d.key :: l.map (·.key)) (s.waiting.map (·.key)) (s.retired.map (·.key)) (s.removed.map (·.key)) s.log := by
          have := h
          unfold SbSession.Inv at this
          rw [hd] at this
          exact this
        have ht2 := turn_ok (cb := cb) (image := image) (stream := stream) (s := { s with decoders := l }) (d := d) (ev := ev) h' (by omega)
        revert ht2
        generalize sbTurn cb image stream ev { s with decoders := l } d = r
        rcases r with ⟨s2, _ | _ | _⟩
        · rintro ⟨h1, seg, e, hs⟩
          have ih := round1_ok fuel s2 h1
          exact ⟨ih.1.trans e hs, ih.2⟩
        · exact fun h => h.elim
        · exact fun _ => ⟨trivial, by intro s' e; cases e⟩

/-- The segment of the log in which an event is shown to the decoders `l`. -/
structure Shown (ev : Event) (I : List Nat) (seg : List SbCall) : Prop where
  ids : shownTo ev seg = I
  only : ∀ c ∈ seg, (∃ i ∈ I, c = SbCall.shown i ev) ∨ ∃ i ∈ I, c = SbCall.failed i

theorem Shown.cons_ok {i : Nat} {ids : List Nat} {seg : List SbCall} (h : Shown ev ids seg) : Shown ev (i :: ids) (.shown i ev :: seg) := by
  refine ⟨?_, ?_⟩
  · have := h.ids
    unfold shownTo at this ⊢
    rw [List.filterMap_cons, this]
    simp
  · intro c hc
    rcases List.mem_cons.1 hc with rfl | hc
    · exact .inl ⟨i, List.mem_cons_self, rfl⟩
    · rcases h.only c hc with ⟨j, hj, e⟩ | ⟨j, hj, e⟩
      · exact .inl ⟨j, List.mem_cons_of_mem _ hj, e⟩
      · exact .inr ⟨j, List.mem_cons_of_mem _ hj, e⟩

theorem Shown.cons_failed {i : Nat} {ids : List Nat} {seg : List SbCall} (h : Shown ev ids seg) : Shown ev (i :: ids) (.shown i ev :: .failed i :: seg) := by
  refine ⟨?_, ?_⟩
  · have := h.ids
    unfold shownTo at this ⊢
    rw [List.filterMap_cons, List.filterMap_cons, this]
    simp
  · intro c hc
    rcases List.mem_cons.1 hc with rfl | hc
    · exact .inl ⟨i, List.mem_cons_self, rfl⟩
    · rcases List.mem_cons.1 hc with rfl | hc
      · exact .inr ⟨i, List.mem_cons_self, rfl⟩
      · rcases h.only c hc with ⟨j, hj, e⟩ | ⟨j, hj, e⟩
        · exact .inl ⟨j, List.mem_cons_of_mem _ hj, e⟩
        · exact .inr ⟨j, List.mem_cons_of_mem _ hj, e⟩

/-- Presenting an event to a list of decoders, where `P` is the invariant in terms of that list, of the removed decoders and of
the log. -/
theorem present_ok {W : List (SbDecoder π)} {R : List (SbDecoder π)} {P : List (Nat × Nat) → List (Nat × Nat) → List SbCall → Prop}
    (idle : ∀ L i t L' X log e, P (L ++ (i, t) :: L') X log → P (L ++ (i, t) :: L') X (log ++ [.shown i e]))
    (drop : ∀ L i t L' X log, P (L ++ (i, t) :: L') X log → P (L ++ L') ((i, t) :: X) (log ++ [.failed i])) :
    ∀ (l : List (SbDecoder π)) (pre : List (Nat × Nat)) (s : SbSession σ π), s.waiting = W → s.retired = R →
      P (pre ++ l.map (·.key)) (s.removed.map (·.key)) s.log →
      match sbPresent cb image ev l s with
      | (s', .ok l') => P (pre ++ l'.map (·.key)) (s'.removed.map (·.key)) s'.log ∧ s'.waiting = W ∧ s'.retired = R ∧ s'.decoders = s.decoders ∧
          ∃ seg, s'.log = s.log ++ seg ∧ Shown ev (l.map (·.id)) seg
      | (_, .err _) => False
      | (_, .ub) => True
  | [], pre, s, hw, hr, h => ⟨h, hw, hr, rfl, [], by simp, rfl, by simp⟩
  | d :: l, pre, s, hw, hr, h => by
    unfold sbPresent sbApply
    rcases cb.apply (image && d.primary) ev s.shared d.priv with ⟨sh, pv, _ | e | _⟩
    · dsimp only
      have ih := present_ok idle drop l (pre ++ [d.key]) { s with shared := sh, log := s.log ++ [.shown d.id ev] } hw hr
        (by have := idle _ _ _ _ _ _ ev h; simpa [SbDecoder.key] using this)
      revert ih
      rcases sbPresent cb image ev l _ with ⟨s2, l2 | _ | _⟩
      · rintro ⟨h1, h2, h3, h4, seg, e, h5⟩
        refine ⟨by simpa [SbDecoder.key] using h1, h2, h3, h4, .shown d.id ev :: seg, by rw [e]; simp, ?_⟩
        exact h5.cons_ok
      · exact fun h => h
      · exact fun h => h
    · dsimp only
      have ih := present_ok idle drop l pre { s with shared := sh, log := s.log ++ [.shown d.id ev, .failed d.id], removed := { d with priv := pv } :: s.removed } hw hr
        (by have := drop _ _ _ _ _ _ (idle _ _ _ _ _ _ ev h); simpa [SbDecoder.key] using this)
      revert ih
      rcases sbPresent cb image ev l _ with ⟨s2, l2 | _ | _⟩
      · rintro ⟨h1, h2, h3, h4, seg, e, h5⟩
        exact ⟨h1, h2, h3, h4, .shown d.id ev :: .failed d.id :: seg, by rw [e]; simp, h5.cons_failed⟩
      · exact fun h => h
      · exact fun h => h
    · trivial

/-- The second round of `pt_sb_event`. -/
theorem round2_ok {s : SbSession σ π} (h : s.Inv) :
    match sbRound2 cb image ev s with
    | (s', .ok ()) => s'.Inv ∧ ∃ seg, s'.log = s.log ++ seg ∧ Shown ev (s.decoders.map (·.id) ++ s.retired.map (·.id)) seg
    | (_, .err _) => False
    | (_, .ub) => True := by
  unfold sbRound2
  have h1 := present_ok (cb := cb) (image := image) (ev := ev) (W := s.waiting) (R := s.retired)
    (P := fun L X log => SbInv L (s.waiting.map SbDecoder.key) (s.retired.map SbDecoder.key) X log)
    (fun L i t L' X log e h => h.idle (by simp) (quiet_append h.quiet (by rw [show status log (who (.shown i e)) = _ from h.dec (i, t) (by simp)]; simp) (by simp)))
    (fun L i t L' X log h => h.remove (by simp [who]) (by simp [Final]) (inOrder_plain h.order (by simp)) (by rw [status_append]; simp [Status.step]))
    s.decoders [] s rfl rfl h
  revert h1
  rcases sbPresent cb image ev s.decoders s with ⟨s1, l | _ | _⟩
  · rintro ⟨h1, hw, hr, hd, seg1, e1, g1⟩
    dsimp only
    have h2 := present_ok (cb := cb) (image := image) (ev := ev) (W := s.waiting) (R := s.retired)
      (P := fun L X log => SbInv (l.map SbDecoder.key) (s.waiting.map SbDecoder.key) L X log)
      (fun L i t L' X log e h => h.idle (by simp) (quiet_append h.quiet (by rw [show status log (who (.shown i e)) = _ from h.ret (i, t) (by simp)]; simp) (by simp)))
      (fun L i t L' X log h => h.removeRetired (by simp [who]) (by simp) (by simp [Final]) (inOrder_plain h.order (by simp)) (by rw [status_append]; simp [Status.step]))
      s1.retired [] { s1 with decoders := l } hw hr (by rw [hr]; exact h1)
    revert h2
    rcases sbPresent cb image ev s1.retired _ with ⟨s2, r | _ | _⟩
    · rintro ⟨h2, hw2, hr2, hd2, seg2, e2, g2⟩
      refine ⟨?_, seg1 ++ seg2, by dsimp only; rw [e2]; dsimp only; rw [e1, List.append_assoc], ?_, ?_⟩
      · unfold SbSession.Inv
        dsimp only
        rw [hd2, hw2]
        exact h2
      · have a := g1.ids
        have b := g2.ids
        unfold shownTo at a b ⊢
        rw [List.filterMap_append, a, b, hr]
      · intro c hc
        rcases List.mem_append.1 hc with hc | hc
        · rcases g1.only c hc with ⟨j, hj, e⟩ | ⟨j, hj, e⟩
          · exact .inl ⟨j, List.mem_append_left _ hj, e⟩
          · exact .inr ⟨j, List.mem_append_left _ hj, e⟩
        · rw [← hr]
          rcases g2.only c hc with ⟨j, hj, e⟩ | ⟨j, hj, e⟩
          · exact .inl ⟨j, List.mem_append_right _ hj, e⟩
          · exact .inr ⟨j, List.mem_append_right _ hj, e⟩
    · exact fun h => h
    · exact fun h => h
  · exact fun h => h
  · exact fun h => h

/-- One turn of the loop in `pt_sb_dump`. -/
theorem dumpTurn_ok {s : SbSession σ π} {d : SbDecoder π} (h : SbInv (d.key :: s.decoders.map (·.key)) (s.waiting.map (·.key))
    (s.retired.map (·.key)) (s.removed.map (·.key)) s.log) : TurnOk s (sbDumpTurn cb s d) := by
  have gone : ∀ (sh : σ) (pv : π) (seg : List SbCall), (∀ c ∈ seg, who c = d.id) → (∀ c ∈ seg.dropLast, ¬ Final c) → (∀ c ∈ seg, ∀ i e, c ≠ .shown i e) → (∀ c ∈ seg, ∀ i t e, c ≠ .due i t e) →
      status (s.log ++ seg) d.id = .gone →
      TurnOk s ({ s with shared := sh, log := s.log ++ seg, removed := { d with priv := pv } :: s.removed }, Res.ok ()) := by
    intro sh pv seg h1 hf h2 h3 h4
    refine ⟨?_, seg, rfl, h2⟩
    have := SbInv.remove (D' := []) h (seg := seg) (t' := d.tsc) h1 hf (inOrder_plain h.order h3) h4
    unfold SbSession.Inv
    simpa [SbDecoder.key] using this
  have hp : status (s.log ++ [.printed d.id]) d.id = .pending d.tsc := by
    rw [status_append]; exact h.dec _ List.mem_cons_self
  unfold sbDumpTurn sbPrint
  rcases cb.print s.shared d.priv with ⟨sh, pv, _ | e | _⟩
  · dsimp only
    unfold sbFetch
    dsimp only
    rcases cb.fetch sh pv with ⟨sh2, pv2, u | e | _⟩
    · dsimp only
      refine ⟨?_, [.printed d.id, .fetched d.id u], by simp, by simp⟩
      have := h.next (seg := [.printed d.id, .fetched d.id u]) (t' := u) (by simp [who]) (by simp [Final]) (inOrder_plain h.order (by simp))
        (by rw [show s.log ++ [SbCall.printed d.id, .fetched d.id u] = s.log ++ [.printed d.id] ++ [.fetched d.id u] by simp, status_append]
            simp [Status.step])
      unfold SbSession.Inv
      dsimp only
      rw [insert_key]
      simpa [SbDecoder.key] using this
    · have g1 := gone sh2 pv2 [.printed d.id, .failed d.id] (by simp [who]) (by simp [Final]) (by simp) (by simp)
        (by rw [show s.log ++ [SbCall.printed d.id, .failed d.id] = s.log ++ [.printed d.id] ++ [.failed d.id] by simp, status_append]
            simp [Status.step])
      have g2 := gone sh2 pv2 [.printed d.id, .ended d.id] (by simp [who]) (by simp [Final]) (by simp) (by simp)
        (by rw [show s.log ++ [SbCall.printed d.id, .ended d.id] = s.log ++ [.printed d.id] ++ [.ended d.id] by simp, status_append, hp]
            simp [Status.step])
      rw [List.append_cons] at g1 g2
      revert g1 g2
      cases e <;> first | exact fun _ h => h | exact fun h _ => h
    · trivial
  · exact gone sh pv [.printed d.id, .failed d.id] (by simp [who]) (by simp [Final]) (by simp) (by simp)
        (by rw [show s.log ++ [SbCall.printed d.id, .failed d.id] = s.log ++ [.printed d.id] ++ [.failed d.id] by simp, status_append]
            simp [Status.step])
  · trivial

/-- `pt_sb_dump`. -/
theorem dump_ok {tsc : Nat} : ∀ (fuel : Nat) (s : SbSession σ π), s.Inv → TurnOk s (sbDump cb tsc fuel s) ∧
    ∀ s', sbDump cb tsc fuel s = (s', .ok ()) → ∀ d ∈ s'.decoders, tsc < d.tsc
  | 0, s, h => ⟨trivial, by intro s' e; cases e⟩
  | fuel + 1, s, h => by
    unfold sbDump
    rcases hd : s.decoders with _ | ⟨d, l⟩
    · refine ⟨⟨h, [], by simp, by simp⟩, ?_⟩
      intro s' e
      injection e with e _
      subst e
      rw [hd]; simp
    · dsimp only
      by_cases ht : tsc < d.tsc
      · rw [if_pos ht]
        refine ⟨⟨h, [], by simp, by simp⟩, ?_⟩
        intro s' e
        injection e with e _
        subst e
        rw [hd]
        intro x hx
        have hs := h.sorted
        rw [hd, List.map_cons] at hs
        rcases List.mem_cons.1 hx with rfl | hx
        · exact ht
        · have := (List.pairwise_cons.1 hs).1 x.key (List.mem_map.2 ⟨x, hx, rfl⟩)
          exact Nat.lt_of_lt_of_le ht this
      · rw [if_neg ht]
        have h' : SbInv (d.key :: l.map (·.key)) (s.waiting.map (·.key)) (s.retired.map (·.key)) (s.removed.map (·.key)) s.log := by
          have := h
          unfold SbSession.Inv at this
          rw [hd] at this
          exact this
        have ht2 := dumpTurn_ok (cb := cb) (s := { s with decoders := l }) (d := d) h'
        revert ht2
        generalize sbDumpTurn cb { s with decoders := l } d = r
        rcases r with ⟨s2, _ | _ | _⟩
        · rintro ⟨h1, seg, e, hs⟩
          have ih := dump_ok (tsc := tsc) fuel s2 h1
          exact ⟨ih.1.trans e hs, ih.2⟩
        · exact fun h => h.elim
        · exact fun _ => ⟨trivial, by intro s' e; cases e⟩

/-- The log is extended by some calls that apply nothing. -/
def Plain (s s' : SbSession σ π) : Prop :=
  ∃ seg, s'.log = s.log ++ seg ∧ (∀ c ∈ seg, ∀ i t e, c ≠ SbCall.due i t e) ∧ ∀ c ∈ seg, ∀ i e, c ≠ SbCall.shown i e

theorem Plain.trans {s s' s'' : SbSession σ π} (h : Plain s s') (h' : Plain s' s'') : Plain s s'' := by
  obtain ⟨a, e, p1, p2⟩ := h
  obtain ⟨b, e', q1, q2⟩ := h'
  refine ⟨a ++ b, by rw [e', e, List.append_assoc], ?_, ?_⟩
  · intro c hc
    rcases List.mem_append.1 hc with hc | hc
    · exact p1 c hc
    · exact q1 c hc
  · intro c hc
    rcases List.mem_append.1 hc with hc | hc
    · exact p2 c hc
    · exact q2 c hc

theorem print_plain (s : SbSession σ π) (d : SbDecoder π) : Plain s (sbPrint cb s d).1 := by
  unfold sbPrint
  rcases cb.print s.shared d.priv with ⟨sh, pv, _ | e | _⟩
  · exact ⟨[.printed d.id], rfl, by simp, by simp⟩
  · exact ⟨[.printed d.id, .failed d.id], rfl, by simp, by simp⟩
  · exact ⟨[], by simp, by simp, by simp⟩

theorem fetch_plain (s : SbSession σ π) (d : SbDecoder π) : Plain s (sbFetch cb s d).1 := by
  unfold sbFetch
  rcases cb.fetch s.shared d.priv with ⟨sh, pv, _ | e | _⟩
  · exact ⟨[.fetched d.id _], rfl, by simp, by simp⟩
  · have h1 : Plain s { s with shared := sh, log := s.log ++ [.failed d.id] } := ⟨[.failed d.id], rfl, by simp, by simp⟩
    have h2 : Plain s { s with shared := sh, log := s.log ++ [.ended d.id] } := ⟨[.ended d.id], rfl, by simp, by simp⟩
    cases e <;> first | exact h2 | exact h1
  · exact ⟨[], by simp, by simp, by simp⟩

theorem dumpTurn_plain (s : SbSession σ π) (d : SbDecoder π) : Plain s (sbDumpTurn cb s d).1 := by
  unfold sbDumpTurn
  have h1 := print_plain (cb := cb) s d
  revert h1
  rcases sbPrint cb s d with ⟨s1, d1, _ | _ | _⟩
  · intro h1
    have h2 := h1.trans (fetch_plain (cb := cb) s1 d1)
    dsimp only
    revert h2
    rcases sbFetch cb s1 d1 with ⟨s2, d2, _ | _ | _⟩ <;> exact fun h => h
  · exact fun h => h
  · exact fun h => h

theorem dump_plain {tsc : Nat} : ∀ (fuel : Nat) (s : SbSession σ π), Plain s (sbDump cb tsc fuel s).1
  | 0, s => ⟨[], by simp [sbDump], by simp, by simp⟩
  | fuel + 1, s => by
    unfold sbDump
    rcases hd : s.decoders with _ | ⟨d, l⟩
    · exact ⟨[], by simp, by simp, by simp⟩
    · dsimp only
      split
      · exact ⟨[], by simp, by simp, by simp⟩
      · have h1 := dumpTurn_plain (cb := cb) { s with decoders := l } d
        revert h1
        rcases sbDumpTurn cb { s with decoders := l } d with ⟨s1, _ | _ | _⟩
        · exact fun h => Plain.trans (s' := s1) h (dump_plain fuel s1)
        · exact fun h => h
        · exact fun h => h

/-- A waiting decoder gets its first record. -/
theorem SbInv.start {D W R X : List (Nat × Nat)} {log : List SbCall} {i t u : Nat} (h : SbInv D ((i, t) :: W) R X log) :
    SbInv (insertKey (i, u) D) W R X (log ++ [.fetched i u]) := by
  have hu : status log i = .unknown := h.wait _ List.mem_cons_self
  have ne : ∀ d ∈ D ++ (W ++ R ++ X), d.1 ≠ i := other_of_nodup (t := t) (by simpa using h.nodup)
  have hs : ∀ c ∈ [SbCall.fetched i u], who c = i := by simp [who]
  have st : ∀ j, j ≠ i → status (log ++ [.fetched i u]) j = status log j := fun j hj => status_other hs hj
  have hp : status (log ++ [.fetched i u]) i = .pending u := by rw [status_append]; simp [Status.step]
  have mem : ∀ d, d ∈ insertKey (i, u) D ↔ d = (i, u) ∨ d ∈ D := fun d => by rw [(insertKey_perm _ _).mem_iff, List.mem_cons]
  refine ⟨?_, ?_, ?_, ?_, ?_, ?_, ?_, insertKey_sorted h.sorted, inOrder_plain h.order (by simp),
    quiet_append h.quiet (by rw [show status log (who (.fetched i u)) = _ from hu]; simp) (by intro j t e; injection e with e; rw [← e, hu]; simp), fun j => ?_⟩
  · have p : ((insertKey (i, u) D ++ W ++ R ++ X).map (·.1)).Perm ((D ++ ((i, t) :: W) ++ R ++ X).map (·.1)) := by
      have q := ((((insertKey_perm (i, u) D).map (·.1)).append_right (W.map (·.1))).append_right (R.map (·.1))).append_right (X.map (·.1))
      have q2 : (List.map (·.1) ((i, u) :: D) ++ W.map (·.1) ++ R.map (·.1) ++ X.map (·.1)).Perm ((D ++ ((i, t) :: W) ++ R ++ X).map (·.1)) := by
        refine List.perm_iff_count.2 fun a => ?_
        simp only [List.map_append, List.map_cons, List.count_append, List.count_cons]
        omega
      simp only [List.map_append]
      simp only [List.map_append] at q2
      exact q.trans q2
    exact p.nodup_iff.2 h.nodup
  · intro d hd
    rcases (mem d).1 hd with rfl | hd
    · exact hp
    · rw [st _ (ne d (by simp [hd]))]; exact h.dec d hd
  · intro d hd; rw [st _ (ne d (by simp [hd]))]; exact h.wait d (List.mem_cons_of_mem _ hd)
  · intro d hd; rw [st _ (ne d (by simp [hd]))]; exact h.ret d hd
  · intro d hd; rw [st _ (ne d (by simp [hd]))]; exact h.rem d hd
  · intro j v hj
    by_cases e : j = i
    · subst e
      rw [hp] at hj
      injection hj with hj
      exact (mem _).2 (.inl (by rw [hj]))
    · rw [st j e] at hj; exact (mem _).2 (.inr (h.act j v hj))
  · intro j hj
    by_cases e : j = i
    · subst e; rw [hp] at hj; cases hj
    · rw [st j e] at hj; exact h.retd j hj
  · by_cases e : j = i
    · rw [e, hp]; simp
    · rw [st j e]; exact h.still j

/-- A waiting decoder cannot get its first record and is freed. -/
theorem SbInv.drop {D W R X : List (Nat × Nat)} {log : List SbCall} {i t : Nat} {c : SbCall} (h : SbInv D ((i, t) :: W) R X log)
    (hc : c = .ended i ∨ c = .failed i) : SbInv D W R X (log ++ [c]) := by
  have ne : ∀ d ∈ D ++ (W ++ R ++ X), d.1 ≠ i := other_of_nodup (t := t) (by simpa using h.nodup)
  have hs : ∀ x ∈ [c], who x = i := by rcases hc with rfl | rfl <;> simp [who]
  have st : ∀ j, j ≠ i → status (log ++ [c]) j = status log j := fun j hj => status_other hs hj
  have hu : status log i = .unknown := h.wait _ List.mem_cons_self
  have hp : status (log ++ [c]) i = .gone := by
    rw [status_append, hu]; rcases hc with rfl | rfl <;> simp [Status.step]
  refine ⟨?_, ?_, ?_, ?_, ?_, ?_, ?_, h.sorted, inOrder_plain h.order (by rcases hc with rfl | rfl <;> simp),
    quiet_append h.quiet (by rw [hs c List.mem_cons_self, hu]; simp) (by rcases hc with rfl | rfl <;> simp), fun j => ?_⟩
  · refine List.Nodup.sublist ?_ h.nodup
    refine List.Sublist.map _ ?_
    exact ((List.Sublist.refl D).append (List.sublist_cons_self ..) |>.append (List.Sublist.refl R)).append (List.Sublist.refl X)
  · intro d hd; rw [st _ (ne d (by simp [hd]))]; exact h.dec d hd
  · intro d hd; rw [st _ (ne d (by simp [hd]))]; exact h.wait d (List.mem_cons_of_mem _ hd)
  · intro d hd; rw [st _ (ne d (by simp [hd]))]; exact h.ret d hd
  · intro d hd; rw [st _ (ne d (by simp [hd]))]; exact h.rem d hd
  · intro j v hj
    by_cases e : j = i
    · subst e; rw [hp] at hj; cases hj
    · rw [st j e] at hj; exact h.act j v hj
  · intro j hj
    by_cases e : j = i
    · subst e; rw [hp] at hj; cases hj
    · rw [st j e] at hj; exact h.retd j hj
  · by_cases e : j = i
    · rw [e, hp]; simp
    · rw [st j e]; exact h.still j

/-- `pt_sb_init_decoders`. -/
theorem init_ok {dtor : σ → π → σ × Res Unit} : ∀ (l : List (SbDecoder π)) (s : SbSession σ π), s.waiting = l → s.Inv →
    TurnOk s (sbInit cb dtor l s) ∧ ∀ s', sbInit cb dtor l s = (s', .ok ()) → s'.waiting = []
  | [], s, hw, h => ⟨⟨h, [], by simp, by simp⟩, by intro s' e; injection e with e _; subst e; exact hw⟩
  | d :: l, s, hw, h => by
    have h' : SbInv (s.decoders.map (·.key)) (d.key :: l.map (·.key)) (s.retired.map (·.key)) (s.removed.map (·.key)) s.log := by
      have := h
      unfold SbSession.Inv at this
      rw [hw] at this
      exact this
    have fin : ∀ (s2 : SbSession σ π) (c : SbCall), (∀ i e, c ≠ .shown i e) → s2.waiting = l → s2.Inv → s2.log = s.log ++ [c] →
        TurnOk s (sbInit cb dtor l s2) ∧ ∀ s', sbInit cb dtor l s2 = (s', .ok ()) → s'.waiting = [] := by
      intro s2 c hc hw2 hi e
      have ih := init_ok (dtor := dtor) l s2 hw2 hi
      exact ⟨ih.1.trans e (by intro x hx; simp only [List.mem_singleton] at hx; subst hx; exact hc), ih.2⟩
    unfold sbInit sbFetch
    dsimp only
    rcases cb.fetch s.shared d.priv with ⟨sh, pv, u | e | _⟩
    · dsimp only
      refine fin _ (.fetched d.id u) (by simp) rfl ?_ rfl
      unfold SbSession.Inv
      dsimp only
      rw [insert_key]
      exact h'.start
    · have gone : ∀ (c : SbCall), c = .ended d.id ∨ c = .failed d.id → ∀ sh2, ∀ s2 : SbSession σ π, s2 = { s with shared := sh2, waiting := l, log := s.log ++ [c] } →
          TurnOk s (sbInit cb dtor l s2) ∧ ∀ s', sbInit cb dtor l s2 = (s', .ok ()) → s'.waiting = [] := by
        intro c hc sh2 s2 e2
        subst e2
        exact fin _ c (by rcases hc with rfl | rfl <;> simp) rfl (h'.drop hc) rfl
      rcases hdt : dtor sh pv with ⟨sh2, _ | _ | _⟩
      all_goals
        cases e <;> dsimp only <;> rw [hdt] <;> dsimp only <;>
          first
          | exact gone _ (.inl rfl) sh2 _ rfl
          | exact gone _ (.inr rfl) sh2 _ rfl
          | exact ⟨trivial, by intro s' e; cases e⟩
    · exact ⟨trivial, by intro s' e; cases e⟩

/-- `pt_sb_alloc_decoder`, for a decoder that was not used before. -/
theorem alloc_ok {s : SbSession σ π} (h : s.Inv) {id : Nat} (primary : Bool) (pv : π) (hid : ∀ d ∈ s.decoders ++ s.waiting ++ s.retired ++ s.removed, d.id ≠ id)
    (hl : status s.log id = .unknown) : (sbAllocDecoder s id primary pv).Inv := by
  refine ⟨?_, h.dec, ?_, h.ret, h.rem, h.act, h.retd, h.sorted, h.order, h.quiet, h.still⟩
  · unfold sbAllocDecoder
    dsimp only
    have p : ((s.decoders.map (·.key) ++ List.map (·.key) ({ id, tsc := 0, primary, priv := pv } :: s.waiting) ++ s.retired.map (·.key) ++ s.removed.map (·.key)).map (·.1)).Perm
        (id :: ((s.decoders.map (·.key) ++ s.waiting.map (·.key) ++ s.retired.map (·.key) ++ s.removed.map (·.key)).map (·.1))) := by
      refine List.perm_iff_count.2 fun a => ?_
      simp only [List.map_append, List.map_cons, List.count_append, List.count_cons, SbDecoder.key]
      omega
    rw [p.nodup_iff, List.nodup_cons]
    refine ⟨?_, h.nodup⟩
    intro hm
    rw [← List.map_append, ← List.map_append, ← List.map_append, List.map_map, List.mem_map] at hm
    obtain ⟨d, hd, e⟩ := hm
    exact hid d hd e
  · intro d hd
    unfold sbAllocDecoder at hd
    rw [List.map_cons] at hd
    rcases List.mem_cons.1 hd with rfl | hd
    · exact hl
    · exact h.wait d hd

end Ipt
