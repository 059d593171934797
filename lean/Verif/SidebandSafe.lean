import Verif.Sideband

/-!
# Lemmas: sideband sessions keep what their callbacks keep

`W` is about the shared state and the private data of all decoders, `N`, `A` and `E` are about the private data of decoders that
have not been started, that have a current record at the given time, and that have no more records.  `μ` bounds the number of records.
-/

namespace Ipt

variable {σ π : Type}

theorem perm_count {α : Type} {l l' : List α} (h : ∀ (_ : DecidableEq α) (a : α), l.count a = l'.count a) : l.Perm l' := by
  classical exact List.perm_iff_count.2 fun a => h _ a

/-- What callbacks keep. -/
structure SbKeeps (cb : SbCallbacks σ π) (dtor : σ → π → σ × Res Unit) (W : σ → List π → Prop) (N : π → Prop) (A : Nat → π → Prop) (E : π → Prop) (μ : π → Nat) :
    Prop where
  perm : ∀ {sh l l'}, W sh l → l'.Perm l → W sh l'
  fetch : ∀ {sh p l}, (N p ∨ ∃ t, A t p) → W sh (p :: l) →
    match cb.fetch sh p with
    | (sh', p', .ok t) => W sh' (p' :: l) ∧ A t p' ∧ μ p' < μ p
    | (sh', p', .err e) => W sh' (p' :: l) ∧ (e = .eos → E p') ∧ (N p → N p')
    | (_, _, .ub) => False
  print : ∀ {sh t p l}, A t p → W sh (p :: l) →
    match cb.print sh p with
    | (sh', p', .ok _) => W sh' (p' :: l) ∧ A t p' ∧ μ p' ≤ μ p
    | (sh', p', .err _) => W sh' (p' :: l)
    | (_, _, .ub) => False
  apply : ∀ {image ev sh p l}, ((∃ t, A t p) ∨ E p) → W sh (p :: l) →
    match cb.apply image ev sh p with
    | (sh', p', .ok _) => W sh' (p' :: l) ∧ (∀ t, A t p → A t p') ∧ (E p → E p') ∧ μ p' ≤ μ p
    | (sh', p', .err _) => W sh' (p' :: l)
    | (_, _, .ub) => False
  dtor : ∀ {sh p l}, N p → W sh (p :: l) →
    match dtor sh p with
    | (sh', .ok _) => W sh' l
    | (sh', .err _) => W sh' l
    | (_, .ub) => False

/-- The private data of all decoders. -/
def SbSession.privs (s : SbSession σ π) : List π := (s.decoders ++ s.waiting ++ s.retired ++ s.removed).map (·.priv)

/-- The invariant, with the private data in `out` that is in no list. -/
structure SbSession.Safe (W : σ → List π → Prop) (N : π → Prop) (A : Nat → π → Prop) (E : π → Prop) (s : SbSession σ π) (out : List π) : Prop where
  shared : W s.shared (out ++ s.privs)
  active : ∀ d ∈ s.decoders, A d.tsc d.priv
  retired : ∀ d ∈ s.retired, E d.priv
  waiting : ∀ d ∈ s.waiting, N d.priv

/-- A bound for the number of turns. -/
def turns (μ : π → Nat) (l : List (SbDecoder π)) : Nat := (l.map fun d => μ d.priv + 1).sum

theorem insert_perm (d : SbDecoder π) : ∀ l : List (SbDecoder π), (sbInsert d l).Perm (d :: l)
  | [] => .refl _
  | c :: l => by
    unfold sbInsert
    split
    · exact .refl _
    · exact ((insert_perm d l).cons c).trans (.swap _ _ _)

theorem turns_insert (μ : π → Nat) (d : SbDecoder π) (l : List (SbDecoder π)) : turns μ (sbInsert d l) = μ d.priv + 1 + turns μ l := by
  unfold turns
  have := ((insert_perm d l).map fun d => μ d.priv + 1).sum_nat
  simpa using this

section

variable {cb : SbCallbacks σ π} {dtor : σ → π → σ × Res Unit} {W : σ → List π → Prop} {N : π → Prop} {A : Nat → π → Prop} {E : π → Prop} {μ : π → Nat}
variable (K : SbKeeps cb dtor W N A E μ) {s : SbSession σ π} {d : SbDecoder π} {out : List π}

include K in
theorem safe_insert (h : s.Safe W N A E (d.priv :: out)) (ha : A d.tsc d.priv) :
    SbSession.Safe W N A E { s with decoders := sbInsert d s.decoders } out := by
  refine ⟨K.perm h.shared ?_, ?_, h.retired, h.waiting⟩
  · have := ((insert_perm d s.decoders).append_right (s.waiting ++ s.retired ++ s.removed)).map (·.priv)
    simp only [SbSession.privs, List.append_assoc, List.map_append, List.map_cons, List.cons_append] at this ⊢
    refine (this.append_left out).trans ?_
    simp
  · intro e he
    rcases List.mem_cons.1 ((insert_perm d s.decoders).mem_iff.1 he) with rfl | he
    · exact ha
    · exact h.active e he

include K in
theorem safe_remove (h : s.Safe W N A E (d.priv :: out)) : SbSession.Safe W N A E { s with removed := d :: s.removed } out := by
  refine ⟨K.perm h.shared ?_, h.active, h.retired, h.waiting⟩
  simp only [SbSession.privs, List.append_assoc, List.map_append, List.map_cons, List.cons_append]
  simp only [← List.append_assoc]
  exact List.perm_middle

include K in
theorem safe_retire (h : s.Safe W N A E (d.priv :: out)) (he : E d.priv) :
    SbSession.Safe W N A E { s with retired := d :: s.retired } out := by
  refine ⟨K.perm h.shared ?_, h.active, ?_, h.waiting⟩
  · simp only [SbSession.privs, List.append_assoc, List.map_append, List.map_cons, List.cons_append]
    refine perm_count fun _ a => ?_
    simp [List.count_cons]
    omega
  · intro e hm
    rcases List.mem_cons.1 hm with rfl | hm
    · exact he
    · exact h.retired e hm

include K in
theorem fetch_safe (h : s.Safe W N A E (d.priv :: out)) (ha : N d.priv ∨ ∃ t, A t d.priv) :
    match sbFetch cb s d with
    | (s', d', .ok _) => s'.Safe W N A E (d'.priv :: out) ∧ A d'.tsc d'.priv ∧ μ d'.priv < μ d.priv ∧ s'.decoders = s.decoders
    | (s', d', .err e) => s'.Safe W N A E (d'.priv :: out) ∧ (e = .eos → E d'.priv) ∧ (N d.priv → N d'.priv) ∧ s'.decoders = s.decoders
    | (_, _, .ub) => False := by
  have := K.fetch ha h.shared
  revert this
  unfold sbFetch
  rcases cb.fetch s.shared d.priv with ⟨sh, pv, t | e | _⟩
  · exact fun ⟨a, b, c⟩ => ⟨⟨a, h.active, h.retired, h.waiting⟩, b, c, rfl⟩
  · intro ⟨a, b, c⟩
    have hs : ∀ s' : SbSession σ π, s'.shared = sh → s'.privs = s.privs → s'.decoders = s.decoders → s'.retired = s.retired →
        s'.waiting = s.waiting → s'.Safe W N A E (pv :: out) := fun s' e1 e2 e3 e4 e5 =>
      ⟨by rw [e1, e2]; exact a, by rw [e3]; exact h.active, by rw [e4]; exact h.retired, by rw [e5]; exact h.waiting⟩
    cases e <;> exact ⟨hs _ rfl rfl rfl rfl rfl, b, c, rfl⟩
  · exact fun h => h

include K in
theorem print_safe (h : s.Safe W N A E (d.priv :: out)) (ha : A d.tsc d.priv) :
    match sbPrint cb s d with
    | (s', d', .ok _) => s'.Safe W N A E (d'.priv :: out) ∧ A d'.tsc d'.priv ∧ μ d'.priv ≤ μ d.priv ∧ s'.decoders = s.decoders
    | (s', d', .err _) => s'.Safe W N A E (d'.priv :: out) ∧ s'.decoders = s.decoders
    | (_, _, .ub) => False := by
  have := K.print ha h.shared
  revert this
  unfold sbPrint
  rcases cb.print s.shared d.priv with ⟨sh, pv, t | e | _⟩
  · exact fun ⟨a, b, c⟩ => ⟨⟨a, h.active, h.retired, h.waiting⟩, b, c, rfl⟩
  · exact fun a => ⟨⟨a, h.active, h.retired, h.waiting⟩, rfl⟩
  · exact fun h => h

include K in
theorem apply_safe {image : Bool} {ev : Event} {call : SbCall} (h : s.Safe W N A E (d.priv :: out)) (ha : (∃ t, A t d.priv) ∨ E d.priv) :
    match sbApply cb image ev call s d with
    | (s', d', .ok _) => s'.Safe W N A E (d'.priv :: out) ∧ (A d.tsc d.priv → A d'.tsc d'.priv) ∧ (E d.priv → E d'.priv) ∧
        μ d'.priv ≤ μ d.priv ∧ s'.decoders = s.decoders ∧ s'.retired = s.retired ∧ s'.removed = s.removed ∧ s'.waiting = s.waiting
    | (s', d', .err _) => s'.Safe W N A E (d'.priv :: out) ∧ s'.decoders = s.decoders ∧ s'.retired = s.retired ∧
        s'.removed = s.removed ∧ s'.waiting = s.waiting
    | (_, _, .ub) => False := by
  have := K.apply (image := image && d.primary) (ev := ev) ha h.shared
  revert this
  unfold sbApply
  rcases cb.apply (image && d.primary) ev s.shared d.priv with ⟨sh, pv, t | e | _⟩
  · exact fun ⟨a, b, c, e⟩ => ⟨⟨a, h.active, h.retired, h.waiting⟩, b _, c, e, rfl, rfl, rfl, rfl⟩
  · exact fun a => ⟨⟨a, h.active, h.retired, h.waiting⟩, rfl, rfl, rfl, rfl⟩
  · exact fun h => h

/-- What a turn does. -/
def TurnSafe (W : σ → List π → Prop) (N : π → Prop) (A : Nat → π → Prop) (E : π → Prop) (μ : π → Nat) (s : SbSession σ π) (d : SbDecoder π)
    (r : SbSession σ π × Res Unit) : Prop :=
  match r with
  | (s', .ok ()) => s'.Safe W N A E [] ∧ turns μ s'.decoders < μ d.priv + 1 + turns μ s.decoders
  | (_, .err _) => False
  | (_, .ub) => False

include K in
theorem offer_safe {image : Bool} {ev : Event} (h : s.Safe W N A E [d.priv]) (ha : A d.tsc d.priv) :
    TurnSafe W N A E μ s d (sbOffer cb image ev s d) := by
  unfold sbOffer
  have h1 := apply_safe K (image := image) (ev := ev) (call := .due d.id d.tsc ev) h (.inl ⟨_, ha⟩)
  revert h1
  rcases sbApply cb image ev (.due d.id d.tsc ev) s d with ⟨s1, d1, _ | _ | _⟩
  · intro ⟨a1, a2, a3, a4, a5, _⟩
    dsimp only
    have h2 := fetch_safe K a1 (.inr ⟨_, a2 ha⟩)
    revert h2
    rcases sbFetch cb s1 d1 with ⟨s2, d2, _ | e | _⟩
    · intro ⟨b1, b2, b3, b4⟩
      refine ⟨safe_insert K b1 b2, ?_⟩
      show turns μ (sbInsert d2 s2.decoders) < _
      rw [turns_insert, b4, a5]; omega
    · intro ⟨b1, b2, b3, b4⟩
      have hr : TurnSafe W N A E μ s d ({ s2 with removed := d2 :: s2.removed }, .ok ()) := by
        refine ⟨safe_remove K b1, ?_⟩
        show turns μ s2.decoders < _
        rw [b4, a5]; omega
      cases e <;> first
        | exact hr
        | (refine ⟨safe_retire K b1 (b2 rfl), ?_⟩
           show turns μ s2.decoders < _
           rw [b4, a5]; omega)
    · exact fun h => h
  · intro ⟨a1, a2, _⟩
    refine ⟨safe_remove K a1, ?_⟩
    show turns μ s1.decoders < _
    rw [a2]; omega
  · exact fun h => h

include K in
theorem turn_safe {image stream : Bool} {ev : Event} (h : s.Safe W N A E [d.priv]) (ha : A d.tsc d.priv) :
    TurnSafe W N A E μ s d (sbTurn cb image stream ev s d) := by
  unfold sbTurn
  split
  · have h1 := print_safe K h ha
    revert h1
    rcases sbPrint cb s d with ⟨s1, d1, _ | _ | _⟩
    · intro ⟨a1, a2, a3, a4⟩
      have := offer_safe K (image := image) (ev := ev) a1 a2
      dsimp only
      revert this
      unfold TurnSafe
      rcases sbOffer cb image ev s1 d1 with ⟨s2, _ | _ | _⟩
      · intro ⟨b1, b2⟩
        exact ⟨b1, by rw [a4] at b2; omega⟩
      · exact fun h => h
      · exact fun h => h
    · intro ⟨a1, a2⟩
      refine ⟨safe_remove K a1, ?_⟩
      show turns μ s1.decoders < _
      rw [a2]; omega
    · exact fun h => h
  · exact offer_safe K h ha

theorem safe_take {l : List (SbDecoder π)} (h : s.Safe W N A E []) (hd : s.decoders = d :: l) :
    SbSession.Safe W N A E { s with decoders := l } [d.priv] ∧ A d.tsc d.priv := by
  refine ⟨⟨?_, fun e he => h.active e (by rw [hd]; simp [he]), h.retired, h.waiting⟩, h.active d (by rw [hd]; simp)⟩
  have := h.shared
  simpa [SbSession.privs, hd] using this

include K in
theorem round1_safe {image stream : Bool} {ev : Event} : ∀ (fuel : Nat) (s : SbSession σ π), s.Safe W N A E [] →
    match sbRound1 cb image stream ev fuel s with
    | (s', .ok ()) => s'.Safe W N A E []
    | (_, .err _) => False
    | (_, .ub) => fuel ≤ turns μ s.decoders
  | 0, s, _ => Nat.zero_le _
  | fuel + 1, s, h => by
    unfold sbRound1
    rcases hd : s.decoders with _ | ⟨d, l⟩
    · exact h
    dsimp only
    by_cases ht : ev.tsc < d.tsc
    · rw [if_pos ht]; exact h
    rw [if_neg ht]
    obtain ⟨h1, h2⟩ := safe_take h hd
    have ht := turn_safe K (image := image) (stream := stream) (ev := ev) h1 h2
    revert ht
    unfold TurnSafe
    rcases sbTurn cb image stream ev { s with decoders := l } d with ⟨s1, _ | _ | _⟩
    · intro ⟨a1, a2⟩
      have ih := round1_safe (image := image) (stream := stream) (ev := ev) fuel s1 a1
      dsimp only
      revert ih
      rcases sbRound1 cb image stream ev fuel s1 with ⟨s2, _ | _ | _⟩
      · exact fun h => h
      · exact fun h => h
      · intro (h3 : fuel ≤ _)
        show fuel + 1 ≤ turns μ (d :: l)
        have : turns μ (d :: l) = μ d.priv + 1 + turns μ l := by simp [turns]
        dsimp only at a2
        omega
    · exact fun h => h
    · exact fun h => h.elim

include K in
/-- Presenting an event to a list of decoders, `l`, which the lists do not have any more. -/
theorem present_safe {image : Bool} {ev : Event} : ∀ (l : List (SbDecoder π)) (s : SbSession σ π) (out : List π),
    s.Safe W N A E (l.map (·.priv) ++ out) → (∀ d ∈ l, (∃ t, A t d.priv) ∨ E d.priv) →
    match sbPresent cb image ev l s with
    | (s', .ok l') => s'.Safe W N A E (l'.map (·.priv) ++ out) ∧ s'.decoders = s.decoders ∧ s'.retired = s.retired ∧
        s'.waiting = s.waiting ∧ ((∀ d ∈ l, A d.tsc d.priv) → ∀ d ∈ l', A d.tsc d.priv) ∧ ((∀ d ∈ l, E d.priv) → ∀ d ∈ l', E d.priv)
    | (_, .err _) => False
    | (_, .ub) => False
  | [], s, out, h, _ => ⟨h, rfl, rfl, rfl, (by simp), (by simp)⟩
  | d :: l, s, out, h, hl => by
    unfold sbPresent
    have h1 := apply_safe K (image := image) (ev := ev) (call := .shown d.id ev) (out := l.map (·.priv) ++ out) h
      (hl d (by simp))
    revert h1
    rcases sbApply cb image ev (.shown d.id ev) s d with ⟨s1, d1, _ | _ | _⟩
    · intro ⟨a1, a2, a3, a4, a5, a6, a7, a8⟩
      dsimp only
      have a1' : s1.Safe W N A E (l.map (·.priv) ++ (d1.priv :: out)) :=
        ⟨K.perm a1.shared (by simpa using List.perm_middle), a1.active, a1.retired, a1.waiting⟩
      have ih := present_safe (image := image) (ev := ev) l s1 (d1.priv :: out) a1' fun e he => hl e (by simp [he])
      revert ih
      rcases sbPresent cb image ev l s1 with ⟨s2, l' | _ | _⟩
      · intro ⟨b1, b2, b3, b4, b5, b6⟩
        refine ⟨⟨K.perm b1.shared (by simpa using List.perm_middle.symm), b1.active, b1.retired, b1.waiting⟩, b2.trans a5, b3.trans a6,
          b4.trans a8, ?_, ?_⟩
        · intro hA e he
          rcases List.mem_cons.1 he with rfl | he
          · exact a2 (hA d (by simp))
          · exact b5 (fun f hf => hA f (by simp [hf])) e he
        · intro hE e he
          rcases List.mem_cons.1 he with rfl | he
          · exact a3 (hE d (by simp))
          · exact b6 (fun f hf => hE f (by simp [hf])) e he
      · exact fun h => h
      · exact fun h => h
    · intro ⟨a1, a2, a3, a4, a5⟩
      dsimp only
      have ih := present_safe (image := image) (ev := ev) l { s1 with removed := d1 :: s1.removed } out
        (safe_remove K a1) fun e he => hl e (by simp [he])
      revert ih
      rcases sbPresent cb image ev l { s1 with removed := d1 :: s1.removed } with ⟨s2, l' | _ | _⟩
      · intro ⟨b1, b2, b3, b4, b5, b6⟩
        exact ⟨b1, b2.trans a2, b3.trans a3, b4.trans a5, fun hA => b5 fun f hf => hA f (by simp [hf]),
          fun hE => b6 fun f hf => hE f (by simp [hf])⟩
      · exact fun h => h
      · exact fun h => h
    · exact fun h => h

/-- Presenting does not look at the lists. -/
theorem present_lists {image : Bool} {ev : Event} (a b : List (SbDecoder π)) : ∀ (l : List (SbDecoder π)) (s : SbSession σ π),
    sbPresent cb image ev l { s with decoders := a, retired := b } =
      ({ (sbPresent cb image ev l s).1 with decoders := a, retired := b }, (sbPresent cb image ev l s).2)
  | [], s => rfl
  | d :: l, s => by
    unfold sbPresent
    have ha : sbApply cb image ev (.shown d.id ev) { s with decoders := a, retired := b } d =
        ({ (sbApply cb image ev (.shown d.id ev) s d).1 with decoders := a, retired := b },
          (sbApply cb image ev (.shown d.id ev) s d).2) := by
      unfold sbApply
      dsimp only
      rcases cb.apply (image && d.primary) ev s.shared d.priv with ⟨sh, pv, t | e | _⟩ <;> rfl
    rw [ha]
    rcases sbApply cb image ev (.shown d.id ev) s d with ⟨s1, d1, _ | _ | _⟩
    · dsimp only
      rw [present_lists a b l s1]
      rcases sbPresent cb image ev l s1 with ⟨s2, _ | _ | _⟩ <;> rfl
    · dsimp only
      exact present_lists a b l { s1 with removed := d1 :: s1.removed }
    · rfl

include K in
theorem round2_safe {image : Bool} {ev : Event} (h : s.Safe W N A E []) :
    match sbRound2 cb image ev s with
    | (s', .ok ()) => s'.Safe W N A E []
    | (_, .err _) => False
    | (_, .ub) => False := by
  unfold sbRound2
  have h1 := present_safe K (image := image) (ev := ev) s.decoders { s with decoders := [] } []
    ⟨by simpa [SbSession.privs] using h.shared, by simp, h.retired, h.waiting⟩ fun d hd => .inl ⟨_, h.active d hd⟩
  have e1 := present_lists (cb := cb) (image := image) (ev := ev) s.decoders s.retired s.decoders { s with decoders := [] }
  have e2 : ({ s with decoders := [] } : SbSession σ π) = { s with decoders := [], retired := s.retired } := rfl
  have e1 : sbPresent cb image ev s.decoders s = _ := e1
  rw [e1]
  revert h1
  rcases sbPresent cb image ev s.decoders { s with decoders := [] } with ⟨s1, l' | _ | _⟩
  · intro ⟨a1, a2, a3, a4, a5, _⟩
    dsimp only at a2 a3 ⊢
    have hA := a5 h.active
    have h2 := present_safe K (image := image) (ev := ev) s.retired { s1 with decoders := l', retired := [] } []
      ⟨K.perm a1.shared (perm_count fun _ p => by
          simp [SbSession.privs, List.count_append, a2, a3]; omega), hA, by simp, a1.waiting⟩ fun d hd => .inr (h.retired d hd)
    have e2 := present_lists (cb := cb) (image := image) (ev := ev) l' s.retired s.retired { s1 with decoders := l', retired := [] }
    have e2 : sbPresent cb image ev s.retired { s1 with decoders := l', retired := s.retired } = _ := e2
    rw [e2]
    revert h2
    rcases sbPresent cb image ev s.retired { s1 with decoders := l', retired := [] } with ⟨s2, r' | _ | _⟩
    · intro ⟨b1, b2, b3, b4, _, b6⟩
      dsimp only at b2 b3 ⊢
      refine ⟨K.perm b1.shared (perm_count fun _ p => by
          simp [SbSession.privs, List.count_append, b2, b3]; omega), hA, b6 h.retired, b1.waiting⟩
    · exact fun h => h
    · exact fun h => h
  · exact fun h => h
  · exact fun h => h

include K in
theorem event_safe {image stream : Bool} {ev : Event} {fuel : Nat} (h : s.Safe W N A E []) :
    match sbEvent cb image stream ev fuel s with
    | (s', .ok ()) => s'.Safe W N A E []
    | (_, .err _) => False
    | (_, .ub) => fuel ≤ turns μ s.decoders := by
  unfold sbEvent
  have h1 := round1_safe K (image := image) (stream := stream) (ev := ev) fuel s h
  revert h1
  rcases sbRound1 cb image stream ev fuel s with ⟨s1, _ | _ | _⟩
  · intro h1
    have h2 := round2_safe K (image := image) (ev := ev) h1
    dsimp only
    revert h2
    rcases sbRound2 cb image ev s1 with ⟨s2, _ | _ | _⟩
    · exact fun h => h
    · exact fun h => h
    · exact fun h => h.elim
  · exact fun h => h
  · exact fun h => h

include K in
theorem dumpTurn_safe (h : s.Safe W N A E [d.priv]) (ha : A d.tsc d.priv) : TurnSafe W N A E μ s d (sbDumpTurn cb s d) := by
  unfold sbDumpTurn
  have h1 := print_safe K h ha
  revert h1
  rcases sbPrint cb s d with ⟨s1, d1, _ | _ | _⟩
  · intro ⟨a1, a2, a3, a4⟩
    dsimp only
    have h2 := fetch_safe K a1 (.inr ⟨_, a2⟩)
    revert h2
    rcases sbFetch cb s1 d1 with ⟨s2, d2, _ | e | _⟩
    · intro ⟨b1, b2, b3, b4⟩
      refine ⟨safe_insert K b1 b2, ?_⟩
      show turns μ (sbInsert d2 s2.decoders) < _
      rw [turns_insert, b4, a4]; omega
    · intro ⟨b1, b2, b3, b4⟩
      refine ⟨safe_remove K b1, ?_⟩
      show turns μ s2.decoders < _
      rw [b4, a4]; omega
    · exact fun h => h
  · intro ⟨a1, a2⟩
    refine ⟨safe_remove K a1, ?_⟩
    show turns μ s1.decoders < _
    rw [a2]; omega
  · exact fun h => h

include K in
theorem dump_safe {tsc : Nat} : ∀ (fuel : Nat) (s : SbSession σ π), s.Safe W N A E [] →
    match sbDump cb tsc fuel s with
    | (s', .ok ()) => s'.Safe W N A E []
    | (_, .err _) => False
    | (_, .ub) => fuel ≤ turns μ s.decoders
  | 0, s, _ => Nat.zero_le _
  | fuel + 1, s, h => by
    unfold sbDump
    rcases hd : s.decoders with _ | ⟨d, l⟩
    · exact h
    dsimp only
    by_cases ht : tsc < d.tsc
    · rw [if_pos ht]; exact h
    rw [if_neg ht]
    obtain ⟨h1, h2⟩ := safe_take h hd
    have ht := dumpTurn_safe K h1 h2
    revert ht
    unfold TurnSafe
    rcases sbDumpTurn cb { s with decoders := l } d with ⟨s1, _ | _ | _⟩
    · intro ⟨a1, a2⟩
      have ih := dump_safe (tsc := tsc) fuel s1 a1
      dsimp only
      revert ih
      rcases sbDump cb tsc fuel s1 with ⟨s2, _ | _ | _⟩
      · exact fun h => h
      · exact fun h => h
      · intro (h3 : fuel ≤ _)
        show fuel + 1 ≤ turns μ (d :: l)
        have : turns μ (d :: l) = μ d.priv + 1 + turns μ l := by simp [turns]
        dsimp only at a2
        omega
    · exact fun h => h
    · exact fun h => h.elim

include K in
theorem init_safe : ∀ (l : List (SbDecoder π)) (s : SbSession σ π), s.waiting = l → s.Safe W N A E [] →
    match sbInit cb dtor l s with
    | (s', .ok ()) => s'.Safe W N A E []
    | (_, .err _) => False
    | (_, .ub) => False
  | [], s, _, h => h
  | d :: l, s, hw, h => by
    unfold sbInit
    have hN := h.waiting d (by rw [hw]; simp)
    have h0 : SbSession.Safe W N A E { s with waiting := l } [d.priv] :=
      ⟨K.perm h.shared (perm_count fun _ p => by simp [SbSession.privs, hw, List.count_append, List.count_cons]; omega),
        h.active, h.retired, fun e he => h.waiting e (by rw [hw]; simp [he])⟩
    have h1 := fetch_safe K h0 (.inl hN)
    have hwl : (sbFetch cb { s with waiting := l } d).1.waiting = l := by
      unfold sbFetch
      dsimp only
      rcases cb.fetch s.shared d.priv with ⟨sh, pv, t | e | _⟩
      · rfl
      · cases e <;> rfl
      · rfl
    revert h1 hwl
    rcases sbFetch cb { s with waiting := l } d with ⟨s1, d1, _ | e | _⟩
    · intro ⟨a1, a2, a3, a4⟩ hwl
      exact init_safe l _ hwl (safe_insert K a1 a2)
    · intro ⟨a1, a2, a3, a4⟩ hwl
      dsimp only
      have h2 := K.dtor (a3 hN) a1.shared
      revert h2
      rcases dtor s1.shared d1.priv with ⟨sh, _ | _ | _⟩
      · intro h2
        exact init_safe l { s1 with shared := sh } hwl ⟨h2, a1.active, a1.retired, a1.waiting⟩
      · intro h2
        exact init_safe l { s1 with shared := sh } hwl ⟨h2, a1.active, a1.retired, a1.waiting⟩
      · exact fun h => h
    · exact fun h => h.elim

include K in
theorem alloc_safe {id : Nat} {primary : Bool} {priv : π} (h : s.Safe W N A E []) (hN : N priv)
    (hW : W s.shared (priv :: s.privs)) : (sbAllocDecoder s id primary priv).Safe W N A E [] := by
  refine ⟨K.perm hW (perm_count fun _ p => ?_), h.active, h.retired, ?_⟩
  · simp [sbAllocDecoder, SbSession.privs, List.count_append, List.count_cons]; omega
  · intro d hd
    rcases List.mem_cons.1 hd with rfl | hd
    · exact hN
    · exact h.waiting d hd

end

end Ipt
