import Verif.EventDecoder
import Verif.EventQueueLemmas
import Verif.PacketDispatch
import Verif.SyncLemmas

/-! Helper lemmas for the event decoder: the state monad, and the queue operations seen through
`Evq.Holds`. -/

set_option linter.unusedSimpArgs false

namespace Ipt

namespace EM

variable {α β : Type}

theorem bind_def (m : EM α) (f : α → EM β) (s : Evd) :
    (m >>= f) s = match m s with
      | (s', .ok a) => f a s'
      | (s', .err e) => (s', .err e)
      | (s', .ub) => (s', .ub) := rfl

theorem pure_def (a : α) (s : Evd) : (pure a : EM α) s = (s, .ok a) := rfl

/-- Partial correctness: every outcome other than undefined behaviour. -/
def wlp (m : EM α) (Q : α → Evd → Prop) (E : Err → Evd → Prop) (s : Evd) : Prop :=
  match m s with
  | (s', .ok a) => Q a s'
  | (s', .err e) => E e s'
  | (_, .ub) => True

@[simp] theorem wlp_bind (m : EM α) (f : α → EM β) (Q : β → Evd → Prop) (E : Err → Evd → Prop) (s : Evd) :
    wlp (m >>= f) Q E s ↔ wlp m (fun a s' => wlp (f a) Q E s') E s := by
  unfold wlp
  rw [bind_def]
  rcases m s with ⟨s', a | e | _⟩ <;> simp

@[simp] theorem wlp_pure (a : α) (Q : α → Evd → Prop) (E : Err → Evd → Prop) (s : Evd) :
    wlp (pure a) Q E s ↔ Q a s := by simp [wlp, pure_def]

@[simp] theorem wlp_fail (e : Err) (Q : α → Evd → Prop) (E : Err → Evd → Prop) (s : Evd) :
    wlp (fail e) Q E s ↔ E e s := by simp [wlp, fail]

@[simp] theorem wlp_undef (Q : α → Evd → Prop) (E : Err → Evd → Prop) (s : Evd) :
    wlp undef Q E s ↔ True := by simp [wlp, undef]

@[simp] theorem wlp_get (Q : Evd → Evd → Prop) (E : Err → Evd → Prop) (s : Evd) :
    wlp get Q E s ↔ Q s s := by simp [wlp, get]

@[simp] theorem wlp_modify (f : Evd → Evd) (Q : Unit → Evd → Prop) (E : Err → Evd → Prop) (s : Evd) :
    wlp (modify f) Q E s ↔ Q () (f s) := by simp [wlp, modify]

theorem wlp_of_eq {m m' : EM α} {Q : α → Evd → Prop} {E : Err → Evd → Prop} {s : Evd} (h : m s = m' s)
    (h' : wlp m' Q E s) : wlp m Q E s := by
  unfold wlp at *; rw [h]; exact h'

theorem wlp_and {m : EM α} {Q Q' : α → Evd → Prop} {E E' : Err → Evd → Prop} {s : Evd}
    (h : wlp m Q E s) (h' : wlp m Q' E' s) : wlp m (fun a s => Q a s ∧ Q' a s) (fun e s => E e s ∧ E' e s) s := by
  unfold wlp at *
  revert h h'
  rcases m s with ⟨s', a | e | _⟩ <;> intro h h'
  · exact ⟨h, h'⟩
  · exact ⟨h, h'⟩
  · trivial

theorem wlp_mono {m : EM α} {Q Q' : α → Evd → Prop} {E E' : Err → Evd → Prop} {s : Evd}
    (h : wlp m Q E s) (hq : ∀ a s', Q a s' → Q' a s') (he : ∀ e s', E e s' → E' e s') : wlp m Q' E' s := by
  unfold wlp at *
  revert h
  rcases m s with ⟨s', a | e | _⟩ <;> intro h
  · exact hq _ _ h
  · exact he _ _ h
  · trivial

theorem wlp_ite {p : Prop} [Decidable p] {m m' : EM α} {Q : α → Evd → Prop} {E : Err → Evd → Prop} {s : Evd}
    (h1 : p → wlp m Q E s) (h2 : ¬ p → wlp m' Q E s) : wlp (if p then m else m') Q E s := by
  split <;> simp_all

theorem wlp_ok {m : EM α} {Q : α → Evd → Prop} {E : Err → Evd → Prop} {s s' : Evd} {a : α}
    (h : wlp m Q E s) (hm : m s = (s', .ok a)) : Q a s' := by
  unfold wlp at h; rw [hm] at h; exact h

theorem wlp_err {m : EM α} {Q : α → Evd → Prop} {E : Err → Evd → Prop} {s s' : Evd} {e : Err}
    (h : wlp m Q E s) (hm : m s = (s', .err e)) : E e s' := by
  unfold wlp at h; rw [hm] at h; exact h

end EM

/-! ## The queue -/

section
variable {α : Type} [Inhabited α]

theorem put_get {q : Evq α} (h : q.queue.length = 16) {i : Nat} (hi : i < 16) (e : α) : (q.put i e).get i = e := by
  unfold Evq.put Evq.get Evq.entry
  dsimp only
  rw [getD_set _ _ _ _ _ (by omega), if_pos rfl]

theorem put_get_ne {q : Evq α} (h : q.queue.length = 16) {i j : Nat} (hi : i < 16) (hij : i ≠ j) (e : α) :
    (q.put i e).get j = q.get j := by
  unfold Evq.put Evq.get Evq.entry
  dsimp only
  rw [getD_set _ _ _ _ _ (by omega), if_neg hij]

/-- Writing to the slot before the first pending entry, from which an entry was dequeued, does not
affect the pending entries. -/
theorem put_free_holds {q : Evq α} {l : List (α × Nat)} (h : q.Holds l) {i : Nat} (hi : i = (q.begin + 15) % 16)
    (e : α) : (q.put i e).Holds l := by
  obtain ⟨h1, h2, h3, h4, h5⟩ := h
  refine ⟨by simp [Evq.put, h1], h2, h3, h4, ?_⟩
  intro j hj
  rw [h5 j hj]
  simp only [Evq.put, Evq.entry]
  rw [getD_set _ _ _ _ _ (by omega), if_neg (by omega)]

/-- Writing to the slot of a pending entry. -/
theorem put_in_holds {q : Evq α} {l : List (α × Nat)} (h : q.Holds l) {i j : Nat} (hj : j < l.length)
    (hi : i = (q.begin + j) % 16) (e : α) : (q.put i e).Holds (l.set j (e, (l[j]).2)) := by
  obtain ⟨h1, h2, h3, h4, h5⟩ := h
  have hb := h5 j hj
  rw [List.getElem?_eq_getElem hj, Option.some.injEq] at hb
  refine ⟨by simp [Evq.put, h1], h2, by rw [List.length_set]; exact h3, by simpa using h4, ?_⟩
  intro k hk
  rw [List.length_set] at hk
  simp only [Evq.put, Evq.entry]
  rw [getD_set _ _ _ _ _ (by omega), List.getElem?_set]
  by_cases hjk : j = k
  · subst hjk
    rw [if_pos rfl, if_pos hj, if_pos hi, hb, hi]; rfl
  · rw [if_neg hjk, if_neg (by omega), h5 k hk]; rfl

theorem get_in_holds {q : Evq α} {l : List (α × Nat)} (h : q.Holds l) {j : Nat} (hj : j < l.length) :
    q.get ((q.begin + j) % 16) = (l[j]).1 := by
  have := h.get j hj
  rw [List.getElem?_eq_getElem hj, Option.some.injEq] at this
  unfold Evq.get; rw [← this]

theorem put_holds {q : Evq α} {l : List (α × Nat)} (h : q.Holds l) (i : Nat) (e : α) :
    ∃ l', (q.put i e).Holds l' ∧ l'.length = l.length := by
  by_cases hi : i < 16
  · by_cases hr : ∃ j, j < l.length ∧ i = (q.begin + j) % 16
    · obtain ⟨j, hj, he⟩ := hr
      exact ⟨_, put_in_holds h hj he e, by simp⟩
    · obtain ⟨h1, h2, h3, h4, h5⟩ := h
      refine ⟨l, ⟨by simp [Evq.put, h1], h2, h3, h4, ?_⟩, rfl⟩
      intro j hj
      rw [h5 j hj]
      simp only [Evq.put, Evq.entry]
      rw [getD_set _ _ _ _ _ (by omega), if_neg (fun hc => hr ⟨j, hj, hc⟩)]
  · obtain ⟨h1, h2, h3, h4, h5⟩ := h
    refine ⟨l, ⟨by simp [Evq.put, h1], h2, h3, h4, ?_⟩, rfl⟩
    intro j hj
    rw [h5 j hj]
    simp only [Evq.put, Evq.entry]
    rw [List.set_eq_of_length_le (by omega)]

theorem standalone_holds {q : Evq α} {l : List (α × Nat)} (h : q.Holds l) (e : α) :
    ({ q with standalone := e } : Evq α).Holds l := ⟨h.1, h.2, h.3, h.4, h.5⟩

theorem find_holds {q : Evq α} {l : List (α × Nat)} (h : q.Holds l) (evb : Nat) (p : α → Bool) :
    (∃ j, ∃ hj : j < l.length, q.find evb p = some ((q.begin + j) % 16) ∧
      matches_ evb l[j] = true ∧ p (l[j]).1 = true ∧
      ∀ k (hk : k < l.length), k < j → ¬ (matches_ evb l[k] = true ∧ p (l[k]).1 = true)) ∨
    (q.find evb p = none ∧ ∀ e ∈ l, ¬ (matches_ evb e = true ∧ p e.1 = true)) := by
  have h2 := h.begin
  have h3 := h.end_
  have h4 := h.len
  unfold Evq.find
  rw [if_neg (by omega), if_neg (by omega)]
  have hb : (q.begin + 0) % 16 = q.begin := by omega
  rcases scan_spec h evb p 16 0 (by omega) (by omega) with ⟨j, a1, a2, a3, ⟨e, a4, a5, a7⟩, a6⟩ | ⟨a1, a2⟩
  · rw [hb] at a3
    rw [List.getElem?_eq_getElem a2, Option.some.injEq] at a4
    subst a4
    exact .inl ⟨j, a2, a3, a5, a7, fun k hk hkj => a6 k (by omega) hkj _ (List.getElem?_eq_getElem hk)⟩
  · rw [hb] at a1
    refine .inr ⟨a1, ?_⟩
    intro e he
    obtain ⟨k, hk⟩ := List.getElem?_of_mem he
    exact a2 k (by omega) e hk

end

/-! ## The packet decoder -/

/-- Bytes, roughly, that are left to decode. -/
def mu (c : PktCfg) (d : PktDec) : Nat :=
  match d.pos with
  | none => 0
  | some p => c.mem.length + 2 - p

/-- The unknown-packet callback does not claim packets of size zero. -/
def CbProgress (c : PktCfg) : Prop := ∀ f, c.cb = some f → ∀ p, f p ≠ 0

theorem readUnknown_pos {c : PktCfg} (hc : CbProgress c) {pos n : Nat} {p : Packet}
    (h : readUnknown c pos = .ok (p, n)) : 0 < n := by
  unfold readUnknown at h
  split at h
  · cases h
  · rename_i f hf
    have := hc f hf pos
    simp only at h
    split at h
    · cases h
    · split at h
      · cases h
      · split at h
        · cases h
        · cases h; omega

theorem decodeExt_pos {c : PktCfg} (hc : CbProgress c) {pos n : Nat} {p : Packet}
    (h : decodeExt c pos = .ok (p, n)) : 0 < n := by
  obtain ⟨R, h2, h | h | h | h⟩ := decodeExt_cases h
  · have := h.1.size _ _ _ _ h2 h.2.1; omega
  · have := h.1.size _ _ _ _ h.2.2.1 h.2.1; omega
  · obtain ⟨h1, h3, h4, h5⟩ := h; omega
  · exact readUnknown_pos hc h

theorem pktDecode_pos {c : PktCfg} (hc : CbProgress c) {pos n k : Nat} {p : Packet}
    (h : pktDecode c pos = .ok (p, n, k)) : 0 < n := by
  obtain ⟨hp, h | h | h | h⟩ := pktDecode_cases h
  · obtain ⟨R, hk, hR, hok, _⟩ := h
    have := hR.size _ _ _ _ (by omega) hok
    omega
  · exact decodeExt_pos hc h.2.1
  · exact readUnknown_pos hc h.2
  · omega

/-- Every decoded packet leaves fewer bytes; the position is at most one byte behind the buffer. -/
theorem next_ok {c : PktCfg} (hc : CbProgress c) {d d' : PktDec} {p : Packet} {n : Nat}
    (h : pktDecNext c d = (d', .ok (p, n))) :
    mu c d' < mu c d ∧ 0 < n ∧ n ≤ 255 ∧
      ∃ pos pos', d.pos = some pos ∧ d' = { d with pos := some pos' } ∧ pos < pos' ∧ pos + n ≤ pos' ∧
        pos' ≤ c.mem.length + 1 := by
  unfold pktDecNext at h
  unfold mu
  cases hd : d.pos with
  | none => simp [hd, pktNext] at h
  | some pos =>
    rw [hd] at h
    cases hk : pktDecode c pos with
    | err e => simp [pktNext, hk] at h
    | ub => simp [pktNext, hk] at h
    | ok r =>
      obtain ⟨p1, n1, k1⟩ := r
      have h1 := pktDecode_size hk
      have h2 := pktDecode_pos hc hk
      simp only [pktNext, hk, Res.bind_ok, Res.pure_eq] at h
      have e1 : d' = { d with pos := some (pos + k1 + n1) } := by injection h with a b; exact a.symm
      have e2 : p1 = p ∧ n1 = n := by
        injection h with a b; injection b with b; injection b with b1 b2; exact ⟨b1, b2⟩
      obtain ⟨rfl, rfl⟩ := e2
      subst e1
      dsimp only
      refine ⟨by omega, h2, h1.2.1, pos, _, rfl, rfl, by omega, by omega, by omega⟩

theorem next_safe {c : PktCfg} {d d' : PktDec} : pktDecNext c d ≠ (d', .ub) := by
  unfold pktDecNext
  have h : (pktNext c d.pos).safe := by
    cases d.pos with
    | none => simp [pktNext]
    | some pos => exact Res.bind_ne_ub (pktDecode_safe c pos) (by intro a _; simp)
  revert h
  cases pktNext c d.pos <;> simp [Res.safe]

theorem mu_le (c : PktCfg) (d : PktDec) : mu c d ≤ c.mem.length + 2 := by
  unfold mu; cases d.pos <;> simp

end Ipt
