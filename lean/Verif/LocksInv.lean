import Verif.Locks
import Mathlib.Algebra.Order.BigOperators.Group.Finset
import Mathlib.Data.Fintype.Fin

/-!
# Proof machinery for the locking discipline
-/

namespace Ipt.Locks

open Prog

/-- The global order of the locks. -/
def Lock.rank : Lock → Nat
  | .attach _ => 0
  | .cache _ => 1
  | .sect _ => 2
  | .file _ => 3

/-- The lock that protects a field. -/
def Var.guard : Var → Lock
  | .users s => .sect s
  | .maps s => .sect s
  | .acount s => .attach s
  | .link s => .attach s
  | .table c => .cache c
  | .fpos s => .file s

/-- All locks in `h` come before rank `r`. -/
def Below (r : Nat) (h : List Lock) : Prop := ∀ x ∈ h, x.rank < r

/-- `p`, run while holding `h` (latest first), acquires locks in order, releases only what it holds,
accesses fields under their lock, and ends in `Q`. -/
def Safe : Prog → List Lock → (List Lock → Prop) → Prop
  | .skip, h, Q => Q h
  | .acq l, h, Q => Below l.rank h ∧ Q (l :: h)
  | .rel l, h, Q => ∃ h', h = l :: h' ∧ Q h'
  | .acc v w, h, Q => (v.guard ∈ h ∨ (∃ s, v = .link s) ∧ w = false) ∧ Q h
  | .seq p q, h, Q => Safe p h (fun h' => Safe q h' Q)
  | .alt p q, h, Q => Safe p h Q ∧ Safe q h Q
  | .any f, h, Q => ∀ i, Safe (f i) h Q
  | .star p, h, Q => Safe p h (fun h' => h' = h) ∧ Q h

theorem Safe.mono {p : Prog} : ∀ {h Q R}, Safe p h Q → (∀ h', Q h' → R h') → Safe p h R := by
  induction p with
  | skip => intro h Q R a b; exact b _ a
  | acq l => intro h Q R a b; exact ⟨a.1, b _ a.2⟩
  | rel l => intro h Q R a b; obtain ⟨h', e, q⟩ := a; exact ⟨h', e, b _ q⟩
  | acc v w => intro h Q R a b; exact ⟨a.1, b _ a.2⟩
  | seq p q ihp ihq => intro h Q R a b; exact ihp a (fun h' hq => ihq hq b)
  | alt p q ihp ihq => intro h Q R a b; exact ⟨ihp a.1 b, ihq a.2 b⟩
  | any f ih => intro h Q R a b i; exact ih i (a i) b
  | star p ih => intro h Q R a b; exact ⟨a.1, b _ a.2⟩

/-- The rest of a thread. -/
def SafeK : List Prog → List Lock → Prop
  | [], h => h = []
  | p :: k, h => Safe p h (fun h' => SafeK k h')

theorem Below.mono {r r' : Nat} {h : List Lock} (hb : Below r h) (hr : r ≤ r') : Below r' h :=
  fun x hx => lt_of_lt_of_le (hb x hx) hr

theorem Below.cons {r : Nat} {l : Lock} {h : List Lock} (hl : l.rank < r) (hb : Below r h) :
    Below r (l :: h) := by
  intro x hx
  rcases List.mem_cons.1 hx with e | e
  · rw [e]; exact hl
  · exact hb x e

/-! ## The skeletons are safe -/

section
variable {h : List Lock} {Q : List Lock → Prop}

theorem safe_get (s : Nat) (hb : Below 2 h) (hq : Q h) : Safe (get s) h Q := by
  simp [get, Safe, Lock.rank, Var.guard, hb, hq]

theorem safe_put (s : Nat) (hb : Below 2 h) (hq : Q h) : Safe (put s) h Q := by
  simp [put, Safe, Lock.rank, Var.guard, hb, hq]

theorem safe_memsize (s : Nat) (hb : Below 2 h) (hq : Q h) : Safe (memsize s) h Q := by
  simp [memsize, Safe, Lock.rank, Var.guard, hb, hq]

theorem safe_mapShare (s : Nat) (hb : Below 2 h) (hq : Q h) : Safe (mapShare s) h Q := by
  simp [mapShare, Safe, Lock.rank, Var.guard, hb, hq]

theorem safe_unmap (s : Nat) (hb : Below 2 h) (hq : Q h) : Safe (unmap s) h Q := by
  simp [unmap, Safe, Lock.rank, Var.guard, hb, hq]

theorem safe_attach (s : Nat) (hb : Below 0 h) (hq : Q h) : Safe (attach s) h Q := by
  have h2 : Below 2 (.attach s :: h) := .cons (by simp [Lock.rank]) (hb.mono (by omega))
  simp [attach, Safe, Lock.rank, Var.guard, hb, hq, h2]

theorem safe_detach (s : Nat) (hb : Below 0 h) (hq : Q h) : Safe (detach s) h Q := by
  have h2 : Below 2 (.attach s :: h) := .cons (by simp [Lock.rank]) (hb.mono (by omega))
  simp [detach, Safe, Lock.rank, Var.guard, hb, hq, h2]

theorem safe_read (s : Nat) (hb : Below 3 h) (hq : Q h) : Safe (read s) h Q := by
  simp [read, Safe, Lock.rank, Var.guard, hb, hq]

theorem safe_lruFree (hb : Below 2 h) (hq : Q h) : Safe lruFree h Q := by
  refine ⟨fun i => safe_unmap i hb rfl, hq⟩

theorem safe_lruPrune (c : Nat) (hc : .cache c ∈ h) (hq : Q h) : Safe (lruPrune c) h Q := by
  simp [lruPrune, Safe, Var.guard, hc, hq]

theorem safe_lruNew (c s : Nat) (hc : .cache c ∈ h) (hb : Below 2 h) (hq : Q h) :
    Safe (lruNew c s) h Q := by
  refine safe_memsize s hb ⟨hq, ⟨.inl hc, hq, ?_⟩⟩
  exact safe_mapShare s hb ⟨hq, safe_unmap s hb hq, .inl hc, hq⟩

theorem safe_lruAdd (c s : Nat) (hc : .cache c ∈ h) (hb : Below 2 h) (hq : Q h) :
    Safe (lruAdd c s) h Q :=
  ⟨.inl hc, ⟨.inl hc, hq⟩, safe_lruNew c s hc hb hq⟩

theorem safe_lruRemove (c s : Nat) (hc : .cache c ∈ h) (hb : Below 2 h) (hq : Q h) :
    Safe (lruRemove c s) h Q :=
  ⟨.inl hc, hq, .inl hc, safe_unmap s hb hq⟩

theorem safe_lruResize (c s : Nat) (hc : .cache c ∈ h) (hb : Below 2 h) (hq : Q h) :
    Safe (lruResize c s) h Q :=
  safe_lruAdd c s hc hb ⟨hq, .inl hc, hq, .inl hc, hq⟩

theorem below_cache {c : Nat} (hb : Below 1 h) : Below 2 (.cache c :: h) :=
  .cons (by simp [Lock.rank]) (hb.mono (by omega))

theorem safe_lruClear (c : Nat) (hb : Below 1 h) (hq : Q h) : Safe (lruClear c) h Q :=
  ⟨hb, .inl (by simp [Var.guard]), .inl (by simp [Var.guard]), h, rfl,
    safe_lruFree (hb.mono (by omega)) hq⟩

theorem safe_notifyMap (c s : Nat) (hb : Below 1 h) (hq : Q h) : Safe (notifyMap c s) h Q := by
  have h2 := hb.mono (show 1 ≤ 2 by omega)
  refine ⟨hb, safe_lruAdd c s (by simp) (below_cache hb) ⟨?_, ?_⟩⟩
  · exact ⟨h, rfl, hq, safe_lruFree h2 hq⟩
  · exact safe_lruPrune c (by simp) ⟨h, rfl, hq, safe_lruFree h2 hq⟩

theorem safe_notifyResize (c s : Nat) (hb : Below 1 h) (hq : Q h) :
    Safe (notifyResize c s) h Q := by
  have h2 := hb.mono (show 1 ≤ 2 by omega)
  refine ⟨hb, safe_lruResize c s (by simp) (below_cache hb) ⟨?_, ?_⟩⟩
  · exact ⟨h, rfl, hq, safe_lruFree h2 hq⟩
  · exact safe_lruPrune c (by simp) ⟨h, rfl, hq, safe_lruFree h2 hq⟩

theorem below_attach {s r : Nat} (hr : 0 < r) (hb : Below 0 h) : Below r (.attach s :: h) :=
  .cons (by simpa [Lock.rank] using hr) (hb.mono (by omega))

theorem safe_allocBcache (s : Nat) (hb : Below 0 h) (hq : Q h) : Safe (allocBcache s) h Q := by
  refine ⟨hb, below_attach (by simp [Lock.rank]) hb, .inl (by simp [Var.guard]),
    ⟨_, rfl, h, rfl, hq⟩, _, rfl, ⟨h, rfl, hq⟩, .inl (by simp [Var.guard]), ⟨h, rfl, hq⟩, ?_⟩
  intro c
  exact safe_notifyResize c s (below_attach (by omega) hb) ⟨h, rfl, hq⟩

theorem safe_onMapLock (s : Nat) (hb : Below 0 h) (hq : Q h) : Safe (onMapLock s) h Q := by
  refine ⟨hb, .inl (by simp [Var.guard]), ⟨h, rfl, hq⟩, ?_⟩
  intro c
  exact safe_notifyMap c s (below_attach (by omega) hb) ⟨h, rfl, hq⟩

theorem safe_onMap (s : Nat) (hb : Below 0 h) (hq : Q h) : Safe (onMap s) h Q :=
  ⟨.inr ⟨⟨s, rfl⟩, rfl⟩, hq, safe_onMapLock s hb hq⟩

theorem safe_mapSuccess (s : Nat) (hb : Below 0 h) (hq : Q h) :
    Safe (mapSuccess s) (.sect s :: h) Q := by
  refine ⟨⟨h, rfl, hq⟩, .inl (by simp [Var.guard]), h, rfl, safe_onMap s hb ⟨hq, ?_⟩⟩
  exact safe_unmap s (hb.mono (by omega)) hq

theorem safe_map (s : Nat) (hb : Below 0 h) (hq : Q h) : Safe (map s) h Q :=
  ⟨hb.mono (by simp [Lock.rank]), .inl (by simp [Var.guard]), safe_mapSuccess s hb hq,
    ⟨h, rfl, hq⟩, .inl (by simp [Var.guard]), safe_mapSuccess s hb hq⟩

theorem safe_outLru (c s : Nat) (hb : Below 0 h) (hq : Q h) : Safe (outLru c s) h Q :=
  safe_lruClear c (hb.mono (by omega)) (safe_put s (hb.mono (by omega)) hq)

theorem safe_outDetach (c s : Nat) (hb : Below 0 h) (hq : Q h) : Safe (outDetach c s) h Q :=
  safe_detach s hb (safe_outLru c s hb hq)

theorem safe_outUnlock (c s : Nat) (hb : Below 0 h) (hq : Q h) :
    Safe (outUnlock c s) (.cache c :: h) Q :=
  ⟨h, rfl, safe_outDetach c s hb hq⟩

theorem safe_addTurn (c s t : Nat) (hb : Below 0 h) (hq : Q (.cache c :: h)) :
    Safe (addTurn c s t) (.cache c :: h) Q := by
  have h1 : Below 1 h := hb.mono (by omega)
  refine ⟨.inl (by simp [Var.guard]), safe_get t (below_cache h1) ⟨h, rfl, ?_⟩⟩
  refine safe_detach s hb (safe_attach t hb ⟨h1, ?_⟩)
  exact safe_lruRemove c s (by simp) (below_cache h1) (safe_put s (below_cache h1) hq)

theorem safe_addExit (c s t : Nat) (hb : Below 0 h) (hq : Q h) :
    Safe (addExit c s t) (.cache c :: h) Q := by
  have h1 : Below 1 h := hb.mono (by omega)
  have h2 : Below 2 h := hb.mono (by omega)
  have hc := below_cache (c := c) h1
  refine ⟨.inl (by simp [Var.guard]), safe_outUnlock c s hb hq, ⟨h, rfl, ?_⟩, ?_, ?_, ?_, ?_,
    .inl (by simp [Var.guard]), safe_outUnlock c s hb hq, .inl (by simp [Var.guard]), h, rfl, hq⟩
  · exact safe_detach s hb ⟨safe_outLru c s hb hq, safe_put s h2 hq⟩
  · exact safe_get t hc (safe_outUnlock c s hb hq)
  · exact safe_get t hc ⟨h, rfl, safe_detach s hb (safe_put t h2 (safe_outLru c s hb hq))⟩
  · exact safe_get t hc ⟨h, rfl, safe_detach s hb
      (safe_attach t hb (safe_put t h2 (safe_outLru c s hb hq)))⟩
  · refine safe_get t hc ⟨h, rfl, safe_detach s hb (safe_attach t hb ⟨h1, ?_⟩)⟩
    exact safe_lruRemove c s (by simp) hc (safe_put s hc (safe_outUnlock c t hb hq))

theorem safe_iscAdd (c s : Nat) (hb : Below 0 h) (hq : Q h) : Safe (iscAdd c s) h Q := by
  have h1 : Below 1 h := hb.mono (by omega)
  have h2 : Below 2 h := hb.mono (by omega)
  refine safe_get s h2 ⟨hq, safe_attach s hb ⟨safe_put s h2 hq, h1, ?_, ?_⟩⟩
  · intro s t; exact safe_addTurn c s t hb rfl
  · intro s t; exact safe_addExit c s t hb hq

theorem safe_iscLookup (c s : Nat) (hb : Below 1 h) (hq : Q h) : Safe (iscLookup c s) h Q := by
  refine ⟨hb, .inl (by simp [Var.guard]), ⟨h, rfl, hq⟩, ?_⟩
  exact safe_get s (below_cache hb) ⟨h, rfl, hq⟩

theorem safe_iscClear (c : Nat) (hb : Below 0 h) (hq : Q h) : Safe (iscClear c) h Q := by
  have h1 : Below 1 h := hb.mono (by omega)
  have h2 : Below 2 h := hb.mono (by omega)
  have hf : Safe lruFree h
      (fun h' => Safe (star (any fun s => detach s ;; put s)) h' Q) :=
    safe_lruFree h2 ⟨fun s => safe_detach s hb (safe_put s h2 rfl), hq⟩
  exact ⟨h1, .inl (by simp [Var.guard]), .inl (by simp [Var.guard]), h, rfl, hf⟩

theorem safe_iscSetLimit (c : Nat) (hb : Below 1 h) (hq : Q h) : Safe (iscSetLimit c) h Q := by
  have h2 : Below 2 h := hb.mono (by omega)
  refine ⟨hb, .inl (by simp [Var.guard]), ⟨h, rfl, hq, safe_lruFree h2 hq⟩, ?_⟩
  exact safe_lruPrune c (by simp) ⟨h, rfl, hq, safe_lruFree h2 hq⟩

theorem safe_iscAddFile (c s : Nat) (hb : Below 0 h) (hq : Q h) : Safe (iscAddFile c s) h Q := by
  have h1 : Below 1 h := hb.mono (by omega)
  have h2 : Below 2 h := hb.mono (by omega)
  have hc := below_cache (c := c) h1
  have ha : Safe (iscAdd c s) h (fun h' => Safe (put s) h' Q) :=
    safe_iscAdd c s hb (safe_put s h2 hq)
  exact ⟨h1, .inl (by simp [Var.guard]), ⟨h, rfl, hq⟩, safe_get s hc ⟨h, rfl, hq⟩,
    safe_get s hc ⟨h, rfl, ha⟩, h, rfl, hq, ha⟩

theorem safe_iscRead (c s : Nat) (hb : Below 0 h) (hq : Q h) : Safe (iscRead c s) h Q := by
  have h2 : Below 2 h := hb.mono (by omega)
  refine safe_iscLookup c s (hb.mono (by omega)) ⟨hq, safe_put s h2 hq, ?_⟩
  refine safe_map s hb ⟨safe_put s h2 hq, ?_⟩
  exact safe_read s (hb.mono (by omega)) (safe_unmap s h2 (safe_put s h2 hq))

theorem safe_imgAdd (s : Nat) (hb : Below 2 h) (hq : Q h) : Safe (imgAdd s) h Q :=
  safe_get s hb ⟨fun t => ⟨safe_get t hb rfl, safe_put t hb rfl⟩, hq⟩

theorem safe_imgRead (s : Nat) (hb : Below 0 h) (hq : Q h) : Safe (imgRead s) h Q :=
  ⟨hq, safe_map s hb ⟨hq, safe_read s (hb.mono (by omega)) (safe_unmap s (hb.mono (by omega)) hq)⟩⟩

theorem safe_msecInvalidate (s : Nat) (hb : Below 2 h) (hq : Q h) :
    Safe (msecInvalidate s) h Q :=
  ⟨hq, safe_unmap s hb ⟨hq, safe_put s hb hq⟩⟩

theorem safe_msecFill (s t : Nat) (hb : Below 0 h) (hq : Q h) : Safe (msecFill s t) h Q := by
  have h2 : Below 2 h := hb.mono (by omega)
  exact safe_msecInvalidate s h2 ⟨hq, safe_get t h2 (safe_map t hb ⟨hq, safe_put t h2 hq⟩)⟩

theorem safe_decode (hb : Below 0 h) (hq : Q h) : Safe decode h Q :=
  ⟨fun s t => ⟨safe_read s (hb.mono (by omega)) rfl, safe_imgRead s hb rfl,
    safe_msecFill s t hb rfl, safe_msecInvalidate s (hb.mono (by omega)) rfl,
    safe_allocBcache s hb rfl⟩, hq⟩

end

theorem below_nil (r : Nat) : Below r [] := fun _ hx => by cases hx

theorem safe_call (c : Call) {Q : List Lock → Prop} (hq : Q []) : Safe c.prog [] Q := by
  cases c with
  | iscacheAddFile c s => exact safe_iscAddFile c s (below_nil _) hq
  | iscacheRead c s => exact safe_iscRead c s (below_nil _) hq
  | iscacheSetLimit c => exact safe_iscSetLimit c (below_nil _) hq
  | iscacheFree c => exact safe_iscClear c (below_nil _) hq
  | imageAddFile s => exact safe_imgAdd s (below_nil _) (safe_put s (below_nil _) hq)
  | imageAddCached c s =>
    exact safe_iscLookup c s (below_nil _)
      ⟨hq, safe_imgAdd s (below_nil _) (safe_put s (below_nil _) hq)⟩
  | imageCopy => exact ⟨fun s => safe_imgAdd s (below_nil _) rfl, hq⟩
  | imageRemove => exact ⟨fun s => safe_put s (below_nil _) rfl, hq⟩
  | decode => exact safe_decode (below_nil _) hq

theorem safe_calls (l : List Call) : SafeK (l.map Call.prog) [] := by
  induction l with
  | nil => rfl
  | cons c l ih => exact safe_call c ih

/-! ## The invariant -/

/-- `held t` is what thread `t` holds, in order of acquisition, latest first. -/
structure Inv {n : Nat} (σ : St n) (held : Fin n → List Lock) : Prop where
  safe : ∀ t, SafeK (σ.code t) (held t)
  own : ∀ t l, l ∈ held t ↔ σ.owner l = some t
  sorted : ∀ t, (held t).Pairwise (fun a b => b.rank < a.rank)

theorem upd_self {α β : Type} [DecidableEq α] (f : α → β) (a : α) (b : β) : upd f a b a = b := by
  simp [upd]

theorem upd_other {α β : Type} [DecidableEq α] {f : α → β} {a x : α} {b : β} (h : x ≠ a) :
    upd f a b x = f x := by simp [upd, h]

/-- A step that changes neither locks nor what is held. -/
theorem Inv.silent {n : Nat} {σ : St n} {held : Fin n → List Lock} (hi : Inv σ held) (t : Fin n)
    (k : List Prog) (hk : SafeK k (held t)) : Inv { σ with code := upd σ.code t k } held := by
  refine ⟨fun u => ?_, hi.own, hi.sorted⟩
  by_cases e : u = t
  · subst e; simpa [upd_self] using hk
  · simpa [upd_other e] using hi.safe u

theorem Inv.step {n : Nat} {σ σ' : St n} {t : Fin n} {held : Fin n → List Lock}
    (hi : Inv σ held) (hs : Step σ t σ') : ∃ held', Inv σ' held' := by
  have hsafe := hi.safe t
  cases hs with
  | skip h => rw [h] at hsafe; exact ⟨held, hi.silent t _ hsafe⟩
  | acc h => rw [h] at hsafe; exact ⟨held, hi.silent t _ hsafe.2⟩
  | seq h => rw [h] at hsafe; exact ⟨held, hi.silent t _ hsafe⟩
  | altL h => rw [h] at hsafe; exact ⟨held, hi.silent t _ hsafe.1⟩
  | altR h => rw [h] at hsafe; exact ⟨held, hi.silent t _ hsafe.2⟩
  | any i h => rw [h] at hsafe; exact ⟨held, hi.silent t _ (hsafe i)⟩
  | stop h => rw [h] at hsafe; exact ⟨held, hi.silent t _ hsafe.2⟩
  | more h =>
    rw [h] at hsafe
    refine ⟨held, hi.silent t _ ?_⟩
    exact hsafe.1.mono (fun h' e => by subst e; exact hsafe)
  | @acq l k h hl =>
    rw [h] at hsafe
    refine ⟨upd held t (l :: held t), fun u => ?_, fun u m => ?_, fun u => ?_⟩
    · by_cases e : u = t
      · subst e; simp only [upd_self]; exact hsafe.2
      · simp only [upd_other e]; exact hi.safe u
    · by_cases e : u = t
      · subst e
        by_cases em : m = l
        · subst em; simp [upd_self]
        · simp [upd_self, upd_other em, em, hi.own]
      · by_cases em : m = l
        · subst em
          simp [upd_self, upd_other e, hi.own, hl, Ne.symm e]
        · simp [upd_other e, upd_other em, hi.own]
    · by_cases e : u = t
      · subst e; simp only [upd_self]
        exact List.pairwise_cons.2 ⟨fun x hx => hsafe.1 x hx, hi.sorted u⟩
      · simp only [upd_other e]; exact hi.sorted u
  | @rel l k h hl =>
    rw [h] at hsafe
    obtain ⟨h', e', hk⟩ := hsafe
    have hp := hi.sorted t
    rw [e'] at hp
    have hn : l ∉ h' := fun hm => by
      have := (List.pairwise_cons.1 hp).1 l hm
      omega
    refine ⟨upd held t h', fun u => ?_, fun u m => ?_, fun u => ?_⟩
    · by_cases e : u = t
      · subst e; simp only [upd_self]; exact hk
      · simp only [upd_other e]; exact hi.safe u
    · by_cases e : u = t
      · subst e
        by_cases em : m = l
        · subst em; simp [upd_self, hn]
        · have := hi.own u m
          rw [e'] at this
          simpa [upd_self, upd_other em, em] using this
      · by_cases em : m = l
        · subst em
          simp [upd_self, upd_other e, hi.own, hl, Ne.symm e]
        · simp [upd_other e, upd_other em, hi.own]
    · by_cases e : u = t
      · subst e; simp only [upd_self]; exact (List.pairwise_cons.1 hp).2
      · simp only [upd_other e]; exact hi.sorted u

theorem start_inv {n : Nat} (calls : Fin n → List Call) : Inv (start calls) (fun _ => []) :=
  ⟨fun t => safe_calls (calls t), fun t l => by simp [start], fun t => List.Pairwise.nil⟩

theorem steps_inv {n : Nat} {calls : Fin n → List Call} {σ : St n}
    (h : Steps (start calls) σ) : ∃ held, Inv σ held := by
  generalize hs : start calls = σ0 at h
  induction h with
  | refl => subst hs; exact ⟨_, start_inv calls⟩
  | step _ hs ih => obtain ⟨held, hi⟩ := ih; exact hi.step hs

theorem Steps.trans {n : Nat} {a b c : St n} (h1 : Steps a b) (h2 : Steps b c) : Steps a c := by
  induction h2 with
  | refl => exact h1
  | step _ hs ih => exact .step ih hs

/-! ## Progress -/

/-- Steps a skeleton needs at least, on the way that is chosen below. -/
def cost : Prog → Nat
  | .skip => 1
  | .acq _ => 1
  | .rel _ => 1
  | .acc _ _ => 1
  | .seq p q => 1 + cost p + cost q
  | .alt p _ => 1 + cost p
  | .any f => 1 + cost (f 0)
  | .star _ => 1

/-- The same for the rest of a thread. -/
def costK : List Prog → Nat
  | [] => 0
  | p :: k => cost p + costK k

/-- A thread that is not waiting can step towards its end. -/
theorem can_step {n : Nat} {σ : St n} {held : Fin n → List Lock} (hi : Inv σ held) (t : Fin n)
    (hne : σ.code t ≠ []) (hw : ∀ l k, σ.code t = .acq l :: k → σ.owner l = none) :
    ∃ k o, Step σ t { code := upd σ.code t k, owner := o } ∧ costK k < costK (σ.code t) := by
  have hsafe := hi.safe t
  cases hc : σ.code t with
  | nil => exact absurd hc hne
  | cons p k =>
    cases p with
    | skip => exact ⟨k, _, .skip hc, by simp [costK, cost]⟩
    | acq l => exact ⟨k, _, .acq hc (hw l k hc), by simp [costK, cost]⟩
    | rel l =>
      rw [hc] at hsafe
      obtain ⟨h', e, -⟩ := hsafe
      have : σ.owner l = some t := (hi.own t l).1 (by rw [e]; simp)
      exact ⟨k, _, .rel hc this, by simp [costK, cost]⟩
    | acc v w => exact ⟨k, _, .acc hc, by simp [costK, cost]⟩
    | seq p q => exact ⟨p :: q :: k, _, .seq hc, by simp [costK, cost]; omega⟩
    | alt p q => exact ⟨p :: k, _, .altL hc, by simp [costK, cost]⟩
    | any f => exact ⟨f 0 :: k, _, .any 0 hc, by simp [costK, cost]⟩
    | star p => exact ⟨k, _, .stop hc, by simp [costK, cost]⟩

/-- Whoever waits waits, in the end, for a thread that can step. -/
theorem progress {n : Nat} {σ : St n} {held : Fin n → List Lock} (hi : Inv σ held) :
    ∀ (m : Nat) (t : Fin n), σ.code t ≠ [] →
      (∀ l k, σ.code t = .acq l :: k → 4 ≤ l.rank + m) →
      ∃ u, σ.code u ≠ [] ∧ ∀ l k, σ.code u = .acq l :: k → σ.owner l = none := by
  intro m
  induction m with
  | zero =>
    intro t hne hr
    refine ⟨t, hne, fun l k h => ?_⟩
    have := hr l k h
    cases l <;> simp [Lock.rank] at this
  | succ m ih =>
    intro t hne hr
    by_cases hw : ∀ l k, σ.code t = .acq l :: k → σ.owner l = none
    · exact ⟨t, hne, hw⟩
    · push Not at hw
      obtain ⟨l, k, hc, ho⟩ := hw
      obtain ⟨u, hu⟩ := Option.ne_none_iff_exists'.1 ho
      have hm := (hi.own u l).2 hu
      refine ih u (fun e => ?_) (fun l' k' hc' => ?_)
      · have := hi.safe u
        rw [e] at this
        rw [show held u = [] from this] at hm
        cases hm
      · have hs := hi.safe u
        rw [hc'] at hs
        have h1 := hs.1 l hm
        have h2 := hr l k hc
        omega

theorem finish {n : Nat} : ∀ (m : Nat) (σ : St n) (held : Fin n → List Lock), Inv σ held →
    (∑ t, costK (σ.code t)) ≤ m → ∃ σ', Steps σ σ' ∧ ∀ t, σ'.code t = [] := by
  intro m
  induction m with
  | zero =>
    intro σ held hi hm
    refine ⟨σ, .refl σ, fun t => ?_⟩
    have h0 : costK (σ.code t) = 0 := by
      have := Finset.single_le_sum (f := fun t => costK (σ.code t))
        (fun i _ => Nat.zero_le _) (Finset.mem_univ t)
      omega
    cases hc : σ.code t with
    | nil => rfl
    | cons p k =>
      rw [hc] at h0
      cases p <;> simp [costK, cost] at h0
  | succ m ih =>
    intro σ held hi hm
    by_cases hd : ∀ t, σ.code t = []
    · exact ⟨σ, .refl σ, hd⟩
    · push Not at hd
      obtain ⟨t, ht⟩ := hd
      obtain ⟨u, hu, hw⟩ := progress hi 4 t ht (fun l k _ => by omega)
      obtain ⟨k, o, hs, hk⟩ := can_step hi u hu hw
      obtain ⟨held', hi'⟩ := hi.step hs
      have hlt : (∑ t, costK (upd σ.code u k t)) < ∑ t, costK (σ.code t) := by
        refine Finset.sum_lt_sum (fun i _ => ?_) ⟨u, Finset.mem_univ u, ?_⟩
        · by_cases e : i = u
          · subst e; rw [upd_self]; exact hk.le
          · rw [upd_other e]
        · rw [upd_self]; exact hk
      obtain ⟨σ', h1, h2⟩ := ih _ held' hi' (by simpa using (by omega :
        (∑ t, costK (upd σ.code u k t)) ≤ m))
      exact ⟨σ', (Steps.step (.refl σ) hs).trans h1, h2⟩

/-! ## Schedules -/

/-- Run thread `t`, taking alternative, argument or repetition `i`. -/
def exec1 {n : Nat} (σ : St n) (t : Fin n) (i : Nat) : Option (St n) :=
  match σ.code t with
  | [] => none
  | .skip :: k => some { σ with code := upd σ.code t k }
  | .acq l :: k =>
    if σ.owner l = none then
      some { code := upd σ.code t k, owner := upd σ.owner l (some t) }
    else none
  | .rel l :: k =>
    if σ.owner l = some t then
      some { code := upd σ.code t k, owner := upd σ.owner l none }
    else none
  | .acc _ _ :: k => some { σ with code := upd σ.code t k }
  | .seq p q :: k => some { σ with code := upd σ.code t (p :: q :: k) }
  | .alt p q :: k => some { σ with code := upd σ.code t (if i = 0 then p :: k else q :: k) }
  | .any f :: k => some { σ with code := upd σ.code t (f i :: k) }
  | .star p :: k => some { σ with code := upd σ.code t (if i = 0 then k else p :: .star p :: k) }

theorem exec1_step {n : Nat} {σ σ' : St n} {t : Fin n} {i : Nat} (h : exec1 σ t i = some σ') :
    Step σ t σ' := by
  unfold exec1 at h
  cases hc : σ.code t with
  | nil => rw [hc] at h; cases h
  | cons p k =>
    rw [hc] at h
    cases p with
    | skip => cases h; exact .skip hc
    | acq l =>
      dsimp only at h
      split at h
      · cases h; exact .acq hc ‹_›
      · cases h
    | rel l =>
      dsimp only at h
      split at h
      · cases h; exact .rel hc ‹_›
      · cases h
    | acc v w => cases h; exact .acc hc
    | seq p q => cases h; exact .seq hc
    | alt p q =>
      dsimp only at h
      by_cases hi : i = 0
      · rw [if_pos hi] at h; cases h; exact .altL hc
      · rw [if_neg hi] at h; cases h; exact .altR hc
    | any f => cases h; exact .any i hc
    | star p =>
      dsimp only at h
      by_cases hi : i = 0
      · rw [if_pos hi] at h; cases h; exact .stop hc
      · rw [if_neg hi] at h; cases h; exact .more hc

/-- Run a whole schedule. -/
def exec {n : Nat} : St n → List (Fin n × Nat) → Option (St n)
  | σ, [] => some σ
  | σ, (t, i) :: l =>
    match exec1 σ t i with
    | some σ' => exec σ' l
    | none => none

theorem exec_steps {n : Nat} : ∀ {l : List (Fin n × Nat)} {σ σ' : St n},
    exec σ l = some σ' → Steps σ σ' := by
  intro l
  induction l with
  | nil => intro σ σ' h; cases h; exact .refl _
  | cons a l ih =>
    intro σ σ' h
    obtain ⟨t, i⟩ := a
    unfold exec at h
    cases h1 : exec1 σ t i with
    | none => rw [h1] at h; cases h
    | some σ1 =>
      rw [h1] at h
      exact (Steps.step (.refl σ) (exec1_step h1)).trans (ih h)

/-- The lock thread `t` is about to acquire. -/
def wants {n : Nat} (σ : St n) (t : Fin n) : Option Lock :=
  match σ.code t with
  | .acq l :: _ => some l
  | _ => none

/-- The access thread `t` is about to make. -/
def accesses {n : Nat} (σ : St n) (t : Fin n) : Option (Var × Bool) :=
  match σ.code t with
  | .acc v w :: _ => some (v, w)
  | _ => none

theorem accesses_code {n : Nat} {σ : St n} {t : Fin n} {v : Var} {w : Bool}
    (h : accesses σ t = some (v, w)) : ∃ k, σ.code t = .acc v w :: k := by
  unfold accesses at h
  split at h
  · cases h; exact ⟨_, ‹_›⟩
  · cases h

end Ipt.Locks
