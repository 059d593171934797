import Verif.EventDecoderBase

/-!
# The event queue keeps every pending event, in order (C15)
-/

namespace Ipt.Spec

/-- Operations on the queue.  `enqueue` stands for `pt_evq_enqueue` followed by filling in the
event through the returned pointer; `requeue` for `pt_evq_requeue`; `find` for `pt_evq_find`, for the events that satisfy `p`; `last` reads the event that the last
successful dequeue returned, through the pointer it returned. -/
inductive EvqOp (α : Type)
  | enqueue (ev : α) (evb : Nat)
  | requeue (ev : α) (evb : Nat)
  | find (evb : Nat) (p : α → Bool)
  | dequeue (evb : Nat)
  | peek (evb : Nat)
  | pending (evb : Nat)
  | clear
  | last

inductive EvqOut (α : Type)
  | done
  | full
  | event (ev : Option α)
  | flag (b : Bool)
deriving DecidableEq

/-- Index of the oldest entry whose binding intersects the mask. -/
def oldest {α : Type} (evb : Nat) (l : List (α × Nat)) : Option Nat :=
  l.findIdx? fun e => decide (e.2 &&& evb ≠ 0)

/-- The reference: a list of pending (event, binding) pairs, oldest first, at most 14 long,
and the event returned last. -/
def evqSpec {α : Type} (l : List (α × Nat)) (last : Option α) : List (EvqOp α) → List (EvqOut α)
  | [] => []
  | .enqueue ev evb :: t =>
    if l.length < 14 then .done :: evqSpec (l ++ [(ev, evb)]) last t
    else .full :: evqSpec l last t
  | .requeue ev evb :: t =>
    if l.length < 14 then .done :: evqSpec (l ++ [(ev, evb)]) last t
    else .full :: evqSpec l last t
  | .find evb p :: t =>
    .event ((l.find? fun e => decide (e.2 &&& evb ≠ 0) && p e.1).map (·.1)) :: evqSpec l last t
  | .dequeue evb :: t =>
    match oldest evb l with
    | none => .event none :: evqSpec l last t
    | some j =>
      .event (l[j]?.map (·.1)) :: evqSpec (l.eraseIdx j) (l[j]?.map (·.1)) t
  | .peek evb :: t =>
    .event ((oldest evb l).bind fun j => l[j]?.map (·.1)) :: evqSpec l last t
  | .pending evb :: t => .flag (l.any fun e => decide (e.2 &&& evb ≠ 0)) :: evqSpec l last t
  | .clear :: t => .done :: evqSpec [] none t
  | .last :: t => .event last :: evqSpec l last t

end Ipt.Spec

namespace Ipt
open Spec

variable {α : Type} [Inhabited α]

/-- Run the modelled code; `slot` is the pointer returned by the last successful dequeue. -/
def evqRun (q : Evq α) (slot : Option Nat) : List (EvqOp α) → Option (List (EvqOut α))
  | [] => some []
  | .enqueue ev evb :: t =>
    match q.enqueue evb with
    | (q', some i) => (evqRun (q'.put i ev) slot t).map (.done :: ·)
    | (q', none) => (evqRun q' slot t).map (.full :: ·)
  | .requeue ev evb :: t =>
    match q.requeue ev evb with
    | (q', some _) => (evqRun q' slot t).map (.done :: ·)
    | (q', none) => (evqRun q' slot t).map (.full :: ·)
  | .find evb p :: t => (evqRun q slot t).map (.event ((q.find evb p).map q.get) :: ·)
  | .dequeue evb :: t =>
    match q.dequeue evb with
    | (q', some i) => (evqRun q' (some i) t).map (.event (some (q'.get i)) :: ·)
    | (q', none) => (evqRun q' slot t).map (.event none :: ·)
  | .peek evb :: t => (evqRun q slot t).map (.event ((q.peek evb).map q.get) :: ·)
  | .pending evb :: t =>
    match q.pending evb with
    | .ok b => (evqRun q slot t).map (.flag b :: ·)
    | _ => none
  | .clear :: t => (evqRun q.clear none t).map (.done :: ·)
  | .last :: t => (evqRun q slot t).map (.event (slot.map q.get) :: ·)

end Ipt

namespace Ipt.Props
open Ipt Spec

variable {α : Type} [Inhabited α]

/-- C15: for every sequence of operations the event queue answers like a list of pending
events: a dequeue returns the oldest event whose binding intersects the mask and leaves the
order of all others alone; enqueue fails only when 14 events are pending; and the event the
last dequeue returned stays readable and unchanged until the next dequeue, whatever is
enqueued in between. -/
theorem C15_event_queue_refines_list (ops : List (EvqOp α)) :
    evqRun ({} : Evq α) none ops = some (evqSpec [] none ops) := by
  have key : ∀ ops (q : Evq α) l slot last, q.Holds l →
      (slot = none ∧ last = none ∨
        slot = some ((q.begin + 15) % 16) ∧ last = some (q.get ((q.begin + 15) % 16))) →
      evqRun q slot ops = some (evqSpec l last ops) := by
    intro ops
    induction ops with
    | nil => intros; rfl
    | cons op ops ih =>
      intro q l slot last h hs
      have hlast : slot.map q.get = last := by
        rcases hs with ⟨rfl, rfl⟩ | ⟨rfl, rfl⟩ <;> rfl
      have henq : ∀ ev evb, evqRun q slot (.enqueue ev evb :: ops) = some (evqSpec l last (.enqueue ev evb :: ops)) := by
        intro ev evb
        simp only [evqRun, evqSpec]
        obtain ⟨h1, h2⟩ := enqueue_holds h evb
        by_cases hl : l.length < 14
        · obtain ⟨q', a1, a2, a3, a4, a5⟩ := h1 hl
          rw [a1, if_pos hl]
          have he := h.end_
          have hb := h.begin
          have := ih (q'.put q.end_ ev) (l ++ [(ev, evb)]) slot last
            (put_last_holds a2 (by rw [a3]; exact he) ev) (by
              rcases hs with hs | ⟨hs1, hs2⟩
              · exact .inl hs
              · right
                have hb' : (q'.put q.end_ ev).begin = q.begin := a3
                rw [hb']
                refine ⟨hs1, ?_⟩
                rw [hs2]
                simp only [Evq.get]
                have hne : (q.begin + 15) % 16 ≠ q.end_ := by omega
                have : (q'.put q.end_ ev).entry ((q.begin + 15) % 16) = q'.entry ((q.begin + 15) % 16) := by
                  have hsz := a2.size
                  simp only [Evq.put, Evq.entry]
                  rw [getD_set _ _ _ _ _ (by omega), if_neg (by omega)]
                rw [this, a4 _ hne])
          simp only [this]
          rfl
        · rw [h2 (by have := h.len; omega), if_neg hl]
          simp only [ih q l slot last h hs]
          rfl
      cases op with
      | enqueue ev evb => exact henq ev evb
      | requeue ev evb =>
        have := henq ev evb
        simp only [evqRun, evqSpec, Evq.requeue] at this ⊢
        rcases hq : q.enqueue evb with ⟨q', _ | i⟩
        · rw [hq] at this; exact this
        · rw [hq] at this; exact this
      | find evb p =>
        simp only [evqRun, evqSpec]
        rw [ih q l slot last h hs]
        have hm : ∀ e : α × Nat, (decide (e.2 &&& evb ≠ 0) && p e.1) = true ↔ matches_ evb e = true ∧ p e.1 = true := by
          intro e; simp [matches_]
        rcases find_holds h evb p with ⟨j, hj, a1, a2, a3, a4⟩ | ⟨a1, a2⟩
        · have : l.find? (fun e => decide (e.2 &&& evb ≠ 0) && p e.1) = some l[j] := by
            rw [List.find?_eq_some_iff_getElem]
            refine ⟨(hm _).2 ⟨a2, a3⟩, j, hj, rfl, ?_⟩
            intro k hk
            have := a4 k (by omega) hk
            rw [← hm] at this
            simpa only [Bool.not_eq_true', Bool.not_eq_true] using this
          rw [this, a1]
          have hg := h.get j hj
          rw [List.getElem?_eq_getElem hj, Option.some.injEq] at hg
          simp only [Option.map_some, hg, Evq.get]
        · have : l.find? (fun e => decide (e.2 &&& evb ≠ 0) && p e.1) = none := by
            rw [List.find?_eq_none]
            intro e he h'
            exact a2 e he ((hm e).1 h')
          rw [this, a1]
          rfl
      | dequeue evb =>
        simp only [evqRun, evqSpec]
        have hd := dequeue_holds h evb
        have hfm : oldest evb l = firstMatch evb l := rfl
        rw [hfm]
        match hf : firstMatch evb l with
        | none =>
          rw [hf] at hd
          simp only [hd]
          simp only [ih q l slot last h hs]
          rfl
        | some j =>
          rw [hf] at hd
          obtain ⟨q', e, a1, a2, a3, a4, a5, a6⟩ := hd
          rw [a1]
          have hb := h.begin
          have hgb : (q'.begin + 15) % 16 = q.begin := by omega
          have hge : q'.get q.begin = e.1 := by simp only [Evq.get, a3]
          simp only [a2, Option.map_some, hge]
          rw [ih q' (l.eraseIdx j) (some q.begin) (some e.1) a4 (.inr (by rw [hgb, hge]; exact ⟨rfl, rfl⟩))]
          rfl
      | peek evb =>
        simp only [evqRun, evqSpec]
        rw [peek_holds h evb, ih q l slot last h hs]
        have hfm : oldest evb l = firstMatch evb l := rfl
        rw [hfm]
        match hf : firstMatch evb l with
        | none => rfl
        | some j =>
          have hj : j < l.length := by
            unfold firstMatch at hf
            rw [List.findIdx?_eq_some_iff_getElem] at hf
            exact hf.1
          simp only [Option.map_some, Option.bind_some, h.get j hj]
          rfl
      | pending evb =>
        simp only [evqRun, evqSpec]
        rw [pending_holds h evb]
        simp only [ih q l slot last h hs]
        rfl
      | clear =>
        simp only [evqRun, evqSpec]
        rw [ih q.clear [] none none (clear_holds h) (.inl ⟨rfl, rfl⟩)]
        rfl
      | last =>
        simp only [evqRun, evqSpec]
        rw [ih q l slot last h hs, hlast]
        rfl
  exact key ops {} [] none none init_holds (.inl ⟨rfl, rfl⟩)

example : evqRun ({} : Evq Nat) none
      ([.enqueue 7 4, .requeue 8 2, .enqueue 9 4, .find 4 (fun e => e == 9), .find 2 (fun e => e == 9), .dequeue 2, .last, .peek 6, .dequeue 2, .dequeue 4, .pending 4, .last]) =
    some [.done, .done, .done, .event (some 9), .event none, .event (some 8), .event (some 8), .event (some 7), .event none, .event (some 7),
      .flag true, .event (some 7)] ∧
    evqRun ({} : Evq Nat) none ((List.range 15).map fun i => .enqueue i 1) =
      some (List.replicate 14 .done ++ [.full]) := by
  decide +kernel

end Ipt.Props
