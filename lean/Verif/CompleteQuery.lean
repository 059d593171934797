import Verif.QueryInv
import Verif.Props.QueryFlags

/-!
# Helper lemmas: what a query decoder has in store
-/

set_option linter.unusedSimpArgs false

namespace Ipt

open Spec Props

variable {c : EvtCfg} {s : Qdec}

/-- The next item is an event. -/
def evNext : List Item → Bool
  | .event _ :: _ => true
  | _ => false

/-- The flags for the items to come. -/
def flagsFor (l : List Item) : Flags := { eventPending := evNext l, eos := l.isEmpty }

/-- The query decoder has the items `l` to hand out, and then reports the end of the trace. -/
def QHas (c : EvtCfg) (s : Qdec) (l : List Item) : Prop :=
  ∃ d es bits rest, QInv c d s es bits ∧ Fails c d (es ++ rest) .eos ∧ l = bits.map .bit ++ rest.flatMap items

theorem QInv.now {d : Evd} {es rest : List Event} {bits : List Bool} (hu : Usable c) (h : QInv c d s es bits)
    (hf : Fails c d (es ++ rest) .eos) :
    match rest with
    | [] => QErr c d s es .eos
    | e :: _ => QOk c d s es e ∧ Fine True e.data := by
  cases rest with
  | nil =>
    rw [List.append_nil] at hf
    obtain ⟨s', hn⟩ := hf.next
    rcases h.cases with ⟨e, he⟩ | ⟨x, hx⟩
    · have := he.2.2; rw [hn] at this; cases this
    · have := hx.2.2; rw [hn] at this; cases this; exact hx
  | cons e r =>
    obtain ⟨e', r', s', h1, hn⟩ := h.del.next hf.delivers (by simp)
    have h2 := List.append_cancel_left h1
    simp only [List.cons.injEq] at h2
    rcases h.cases with ⟨e'', he⟩ | ⟨x, hx⟩
    · have h3 := he.2.2
      rw [hn] at h3
      cases h3
      dsimp only
      rw [h2.1]
      exact ⟨he, (h.step hu he).1⟩
    · have := hx.2.2; rw [hn] at this; cases this

theorem evNext_items {e : Event} (hf : Fine True e.data) (l : List Item) :
    evNext (items e ++ l) = decide (items e = [.event e]) ∧ (items e ++ l) ≠ [] := by
  have hne := items_ne hf
  refine ⟨?_, by simp [hne]⟩
  unfold items at *
  rcases hd : e.data <;> simp only [hd] at hne ⊢ <;> simp [evNext]
  rename_i p n
  obtain ⟨_, _, b, r, hb⟩ := fine_tnt hf hd
  simp [hb, evNext]

theorem QHas.flags {l : List Item} (hu : Usable c) (h : QHas c s l) : s.flags = .ok (flagsFor l) := by
  obtain ⟨d, es, bits, rest, h1, h2, rfl⟩ := h
  unfold Qdec.flags flagsFor
  rw [isEmpty_holds h1.tnt]
  cases bits with
  | cons b bs => simp [evNext]
  | nil =>
    rw [if_pos (by simp)]
    have := h1.now hu h2
    cases rest with
    | nil =>
      rw [if_pos this.1]
      rfl
    | cons e r =>
      obtain ⟨h3, h4⟩ := this
      rw [if_neg (by rw [h3.1]; simp), h3.2.1, pending_eq h4]
      have := evNext_items h4 (r.flatMap items)
      simp only [List.map_nil, List.nil_append, List.flatMap_cons]
      rw [this.1]
      have h5 := this.2
      cases hx : items e ++ r.flatMap items with
      | nil => exact absurd hx h5
      | cons _ _ => rfl

theorem QHas.bit {l : List Item} {b : Bool} (hu : Usable c) (h : QHas c s (.bit b :: l)) :
    ∃ s', condBranch c s = (s', .ok (b, flagsFor l)) ∧ QHas c s' l := by
  have key : ∀ {s' f}, condBranch c s = (s', .ok (b, f)) → QHas c s' l →
      ∃ s', condBranch c s = (s', .ok (b, flagsFor l)) ∧ QHas c s' l := by
    intro s' f h1 h2
    have := cond_flags h1
    rw [h2.flags hu] at this
    cases this
    exact ⟨s', h1, h2⟩
  obtain ⟨d, es, bits, rest, h1, h2, h3⟩ := h
  rcases cond_step hu h1 with ⟨b', bs, s', f, rfl, k2, k3⟩ | ⟨rfl, x, k2, k3⟩ | ⟨rfl, e, k2, k3⟩
  · simp only [List.map_cons, List.cons_append, List.cons.injEq, Item.bit.injEq] at h3
    obtain ⟨rfl, rfl⟩ := h3
    exact key k2 ⟨d, es, bs, rest, k3, h2, rfl⟩
  · have := h1.now hu h2
    cases rest with
    | nil => cases h3
    | cons e r => have k4 := k2.1; rw [this.1.1] at k4; cases k4
  · have := h1.now hu h2
    cases rest with
    | nil => cases h3
    | cons e' r =>
      have h5 := this.1.2.1
      rw [k2.2.1] at h5
      cases h5
      rcases k3 with ⟨p, n, b', bs, s', f, hd, hb, k4, k5⟩ | ⟨k4, -⟩
      · have hi : items e = (b' :: bs).map .bit := by unfold items; rw [hd, ← hb]
        simp only [List.map_nil, List.nil_append, List.flatMap_cons, hi, List.map_cons, List.cons_append, List.cons.injEq,
          Item.bit.injEq] at h3
        obtain ⟨rfl, rfl⟩ := h3
        exact key k4 ⟨d, es ++ [e], bs, r, k5, by simpa using h2, rfl⟩
      · exfalso
        simp only [List.map_nil, List.nil_append, List.flatMap_cons] at h3
        unfold items at h3
        rcases hd : e.data <;> simp only [hd] at h3 <;> first | (cases h3; done) | exact k4 _ _ hd

theorem QHas.target {l : List Item} {ip : Nat} (hu : Usable c) (h : QHas c s (.target (some ip) :: l)) :
    ∃ s', indirectBranch c s = (s', .ok (some ip, flagsFor l)) ∧ QHas c s' l := by
  obtain ⟨d, es, bits, rest, h1, h2, h3⟩ := h
  cases bits with
  | cons b bs => cases h3
  | nil =>
    have hn := h1.now hu h2
    cases rest with
    | nil => cases h3
    | cons e r =>
      simp only [List.map_nil, List.nil_append, List.flatMap_cons] at h3
      rcases indirect_step hu h1 with ⟨x, k2, -⟩ | ⟨e', k2, k3⟩
      · have k4 := k2.1; rw [hn.1.1] at k4; cases k4
      · have h5 := hn.1.2.1
        rw [k2.2.1] at h5
        cases h5
        rcases k3 with ⟨ip', s', f, hd, k4, k5⟩ | ⟨p, n, hd⟩ | ⟨hi, -⟩
        · have hi : items e = [.target (if e.ipSuppressed = true then none else some ip')] := by unfold items; rw [hd]
          simp only [hi, List.cons_append, List.nil_append, List.cons.injEq, Item.target.injEq] at h3
          obtain ⟨h6, rfl⟩ := h3
          have h7 : QHas c s' (r.flatMap items) := ⟨d, es ++ [e], [], r, k5, by simpa using h2, rfl⟩
          obtain ⟨f0, h8, h9⟩ := indirect_flags k4
          rw [h7.flags hu] at h8
          cases h8
          rw [← h6] at k4 h9
          subst h9
          exact ⟨s', k4, h7⟩
        · exfalso
          obtain ⟨_, _, b, r', hb⟩ := fine_tnt hn.2 hd
          have hi : items e = (b :: r').map .bit := by unfold items; rw [hd, ← hb]
          rw [hi] at h3
          cases h3
        · rw [hi] at h3; cases h3

/-- No outcome is next. -/
theorem QHas.noBit {l : List Item} (hu : Usable c) (h : QHas c s l) (hl : ∀ b l', l ≠ .bit b :: l') :
    ∃ s' x, condBranch c s = (s', .err x) ∧ QHas c s' l := by
  obtain ⟨d, es, bits, rest, h1, h2, h3⟩ := h
  rcases cond_step hu h1 with ⟨b', bs, s', f, rfl, k2, k3⟩ | ⟨rfl, x, k2, k3⟩ | ⟨rfl, e, k2, k3⟩
  · exact absurd h3 (hl _ _)
  · exact ⟨_, _, k3, d, es, [], rest, h1.time _, h2, h3⟩
  · rcases k3 with ⟨p, n, b', bs, s', f, hd, hb, k4, k5⟩ | ⟨-, k4⟩
    · exfalso
      have := h1.now hu h2
      cases rest with
      | nil => have k6 := k2.1; rw [this.1] at k6; cases k6
      | cons e' r =>
        have h5 := this.1.2.1
        rw [k2.2.1] at h5
        cases h5
        have hi : items e = (b' :: bs).map .bit := by unfold items; rw [hd, ← hb]
        simp only [List.map_nil, List.nil_append, List.flatMap_cons, hi, List.map_cons, List.cons_append] at h3
        exact hl _ _ h3
    · exact ⟨_, _, k4, d, es, [], rest, h1.time _, h2, h3⟩

theorem QHas.event {l : List Item} {e : Event} (hu : Usable c) (h : QHas c s (.event e :: l)) :
    ∃ s', qryEvent c s = (s', .ok (e, flagsFor l)) ∧ QHas c s' l := by
  obtain ⟨d, es, bits, rest, h1, h2, h3⟩ := h
  cases bits with
  | cons b bs => cases h3
  | nil =>
    have hn := h1.now hu h2
    cases rest with
    | nil => cases h3
    | cons e0 r =>
      simp only [List.map_nil, List.nil_append, List.flatMap_cons] at h3
      rcases event_step hu h1 with ⟨k1, -⟩ | ⟨-, x, k2, -⟩ | ⟨-, e', k2, k3⟩
      · exact absurd rfl k1
      · have k4 := k2.1; rw [hn.1.1] at k4; cases k4
      · have h5 := hn.1.2.1
        rw [k2.2.1] at h5
        cases h5
        have hi : items e0 = [.event e0] := by
          have := (evNext_items hn.2 (r.flatMap items)).1
          rw [← h3] at this
          simpa [evNext] using this.symm
        rcases k3 with ⟨-, s', f, k4, k5⟩ | ⟨k4, -⟩
        · rw [hi] at h3
          simp only [List.cons_append, List.nil_append, List.cons.injEq, Item.event.injEq] at h3
          obtain ⟨rfl, rfl⟩ := h3
          have h7 : QHas c s' (r.flatMap items) := ⟨d, es ++ [e], [], r, k5, by simpa using h2, rfl⟩
          have := event_flags k4
          rw [h7.flags hu] at this
          cases this
          exact ⟨s', k4, h7⟩
        · exact absurd hi k4

end Ipt
