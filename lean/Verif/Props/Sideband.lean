import Verif.SidebandStep
import Verif.SidebandSorted

/-!
# C57: the records of all sideband channels are applied in the order of their time
-/

namespace Ipt.Props

open Spec.Sideband

variable {σ π : Type}

/-- The sessions a user can get to with given callbacks: by adding new channels, starting them, presenting events and
dumping. -/
inductive Sessions (cb : SbCallbacks σ π) (dtor : σ → π → σ × Res Unit) : SbSession σ π → Prop
  | new (sh : σ) : Sessions cb dtor { shared := sh }
  | alloc {s : SbSession σ π} (id : Nat) (primary : Bool) (priv : π) (h : Sessions cb dtor s)
      (fresh : ∀ d ∈ s.decoders ++ s.waiting ++ s.retired ++ s.removed, d.id ≠ id) (unused : status s.log id = .unknown) :
      Sessions cb dtor (sbAllocDecoder s id primary priv)
  | init {s s' : SbSession σ π} (h : Sessions cb dtor s) (r : sbInitDecoders cb dtor s = (s', .ok ())) : Sessions cb dtor s'
  | event {s s' : SbSession σ π} (image stream : Bool) (ev : Event) (fuel : Nat) (h : Sessions cb dtor s)
      (r : sbEvent cb image stream ev fuel s = (s', .ok ())) : Sessions cb dtor s'
  | dump {s s' : SbSession σ π} (tsc fuel : Nat) (h : Sessions cb dtor s) (r : sbDump cb tsc fuel s = (s', .ok ())) : Sessions cb dtor s'
  | caller {s : SbSession σ π} (h : Sessions cb dtor s) (sh : σ) : Sessions cb dtor { s with shared := sh }

variable {cb : SbCallbacks σ π} {dtor : σ → π → σ × Res Unit} {s s' : SbSession σ π}

/-- What presenting an event does to the log: `first` for the records that are due and `second` for showing the event. -/
theorem event_ok {image stream : Bool} {ev : Event} {fuel : Nat} {s : SbSession σ π} (h : s.Inv) :
    match sbEvent cb image stream ev fuel s with
    | (s', .ok ()) => s'.Inv ∧ ∃ first second, s'.log = s.log ++ first ++ second ∧
        (∀ c ∈ first, ∀ i e, c ≠ SbCall.shown i e) ∧
        (∀ id t, status (s.log ++ first) id = .pending t → ev.tsc < t) ∧
        (∀ c ∈ second, ∃ i, c = SbCall.shown i ev ∨ c = SbCall.failed i) ∧
        (shownTo ev second).Nodup ∧
        ∀ id, id ∈ shownTo ev second ↔ (∃ t, status (s.log ++ first) id = .pending t) ∨ status (s.log ++ first) id = .ended
    | (_, .err _) => False
    | (_, .ub) => True := by
  unfold sbEvent
  have h1 := round1_ok (cb := cb) (image := image) (stream := stream) (ev := ev) fuel s h
  revert h1
  rcases sbRound1 cb image stream ev fuel s with ⟨s1, _ | _ | _⟩
  · rintro ⟨⟨i1, first, e1, n1⟩, hd⟩
    have hd := hd s1 rfl
    dsimp only
    have h2 := round2_ok (cb := cb) (image := image) (ev := ev) i1
    revert h2
    rcases sbRound2 cb image ev s1 with ⟨s2, _ | _ | _⟩
    · rintro ⟨i2, second, e2, g⟩
      refine ⟨i2, first, second, by rw [e2, e1], n1, ?_, ?_, ?_, ?_⟩
      · intro id t ht
        rw [← e1] at ht
        obtain ⟨d, hm, e⟩ := List.mem_map.1 (i1.act id t ht)
        have := hd d hm
        have e' : d.tsc = t := congrArg Prod.snd e
        omega
      · intro c hc
        rcases g.only c hc with ⟨i, -, e⟩ | ⟨i, -, e⟩
        · exact ⟨i, .inl e⟩
        · exact ⟨i, .inr e⟩
      · rw [g.ids]
        refine List.Nodup.sublist ?_ i1.nodup
        simp only [List.map_append, List.map_map]
        have e : ∀ l : List (SbDecoder π), l.map ((fun x : Nat × Nat => x.1) ∘ fun x => x.key) = l.map (·.id) := fun l => rfl
        rw [e, e, e, e]
        refine List.Sublist.trans ?_ (List.sublist_append_left ..)
        exact List.Sublist.append (List.sublist_append_left ..) (List.Sublist.refl _)
      · intro id
        rw [g.ids, ← e1]
        simp only [List.mem_append, List.mem_map]
        constructor
        · rintro (⟨d, hm, rfl⟩ | ⟨d, hm, rfl⟩)
          · exact .inl ⟨d.tsc, i1.dec d.key (List.mem_map.2 ⟨d, hm, rfl⟩)⟩
          · exact .inr (i1.ret d.key (List.mem_map.2 ⟨d, hm, rfl⟩))
        · rintro (⟨t, ht⟩ | ht)
          · obtain ⟨d, hm, e⟩ := List.mem_map.1 (i1.act id t ht)
            exact .inl ⟨d, hm, congrArg Prod.fst e⟩
          · obtain ⟨t, hm⟩ := i1.retd id ht
            obtain ⟨d, hm, e⟩ := List.mem_map.1 hm
            exact .inr ⟨d, hm, congrArg Prod.fst e⟩
    · exact fun h => h
    · exact fun h => h
  · rintro ⟨h, -⟩; exact h.elim
  · exact fun _ => trivial

theorem Sessions.inv (h : Sessions cb dtor s) : s.Inv := by
  induction h with
  | new sh =>
    exact ⟨by simp, by simp, by simp, by simp, by simp, (by intro j t h; cases h), (by intro j h; cases h), List.Pairwise.nil,
      (by intro b i t e a h; simp at h), (by intro b c a h; simp at h), (by intro j h; cases h)⟩
  | alloc id primary priv h fresh unused ih => exact alloc_ok ih primary priv fresh unused
  | init h r ih =>
    have := (init_ok (cb := cb) (dtor := dtor) _ _ rfl ih).1
    unfold sbInitDecoders at r
    rw [r] at this
    exact this.1
  | event image stream ev fuel h r ih =>
    have := event_ok (cb := cb) (image := image) (stream := stream) (ev := ev) (fuel := fuel) ih
    rw [r] at this
    exact this.1
  | dump tsc fuel h r ih =>
    have := (dump_ok (cb := cb) (tsc := tsc) fuel _ ih).1
    rw [r] at this
    exact this.1
  | caller h sh ih => exact ih

/-- At any time, whenever a record was applied, it was due, it was the earliest of the current records of all channels, and all
channels had gone on to their next record.  Channels that failed are not used again. -/
theorem C57_order (h : Sessions cb dtor s) : InOrder s.log ∧ Quiet s.log := ⟨h.inv.order, h.inv.quiet⟩

/-- If each channel has its records in the order of their time, and no channel is started late, then all records have been
applied in the order of their time, across all channels. -/
theorem C57_sorted (h : Sessions cb dtor s) (steady : Steady s.log) : (appliedTimes s.log).Pairwise (· ≤ ·) :=
  (times_of_order s.log h.inv.order h.inv.quiet steady).sorted

/-- Presenting an event does not fail.  First, all records that are due are applied - `first` - until the current records of all
channels are later than the event.  Then, the event is shown - `second` - once to each channel that has a current record, or
that ran out of records and may still have something to do. -/
theorem C57_event (h : Sessions cb dtor s) {image stream : Bool} {ev : Event} {fuel : Nat} {r : Res Unit}
    (hr : sbEvent cb image stream ev fuel s = (s', r)) (nub : r ≠ .ub) :
    r = .ok () ∧ ∃ first second, s'.log = s.log ++ first ++ second ∧
      (∀ c ∈ first, ∀ id e, c ≠ .shown id e) ∧
      (∀ id t, status (s.log ++ first) id = .pending t → ev.tsc < t) ∧
      (∀ c ∈ second, ∃ id, c = .shown id ev ∨ c = .failed id) ∧
      (shownTo ev second).Nodup ∧
      ∀ id, id ∈ shownTo ev second ↔ (∃ t, status (s.log ++ first) id = .pending t) ∨ status (s.log ++ first) id = .ended := by
  have := event_ok (cb := cb) (image := image) (stream := stream) (ev := ev) (fuel := fuel) h.inv
  rw [hr] at this
  rcases r with _ | _ | _
  · exact ⟨rfl, this.2⟩
  · exact this.elim
  · exact absurd rfl nub

/-- Dumping up to a time goes through all records up to that time, and applies none. -/
theorem C57_dump (h : Sessions cb dtor s) {tsc fuel : Nat} {r : Res Unit} (hr : sbDump cb tsc fuel s = (s', r)) (nub : r ≠ .ub) :
    r = .ok () ∧ (∀ id t, status s'.log id = .pending t → tsc < t) ∧
      ∃ seg, s'.log = s.log ++ seg ∧ (∀ c ∈ seg, ∀ id t e, c ≠ .due id t e) ∧ ∀ c ∈ seg, ∀ id e, c ≠ .shown id e := by
  have hp := dump_plain (cb := cb) (tsc := tsc) fuel s
  rw [hr] at hp
  have := dump_ok (cb := cb) (tsc := tsc) fuel s h.inv
  rw [hr] at this
  rcases r with _ | _ | _
  · refine ⟨rfl, ?_, hp⟩
    intro id t ht
    obtain ⟨d, hm, e⟩ := List.mem_map.1 (this.1.1.act id t ht)
    have h2 := this.2 s' rfl d hm
    have e' : d.tsc = t := congrArg Prod.snd e
    omega
  · exact this.1.elim
  · exact absurd rfl nub

/-- Starting the channels does not fail; afterwards, each channel has a current record or is not used. -/
theorem C57_init (h : Sessions cb dtor s) {r : Res Unit} (hr : sbInitDecoders cb dtor s = (s', r)) (nub : r ≠ .ub) :
    r = .ok () ∧ s'.waiting = [] := by
  have := init_ok (cb := cb) (dtor := dtor) _ s rfl h.inv
  unfold sbInitDecoders at hr
  rw [hr] at this
  rcases r with _ | _ | _
  · exact ⟨rfl, this.2 s' rfl⟩
  · exact this.1.elim
  · exact absurd rfl nub

/-! A session with two channels, the records of which are in the private data. -/

/-- A channel is the list of the times of its records.  The shared state is not used. -/
def exCb : SbCallbacks Unit (List Nat) where
  fetch sh l := match l with | [] => (sh, [], .err .eos) | t :: l => (sh, l, .ok t)
  print sh l := (sh, l, .ok ())
  apply _ _ sh l := (sh, l, .ok ())

/-- Nothing to do. -/
def exDtor : Unit → List Nat → Unit × Res Unit := fun sh _ => (sh, .ok ())

/-- Two channels, started. -/
def exStart : SbSession Unit (List Nat) :=
  (sbInitDecoders exCb exDtor (sbAllocDecoder (sbAllocDecoder { shared := () } 1 true [10, 30, 50]) 2 false [20, 25, 40])).1

/-- An event at time 30. -/
def exEvent : Event := { data := .enabled 0x1000, tsc := 30, hasTsc := true }

theorem exStart_ok : Sessions exCb exDtor exStart :=
  .init (s := sbAllocDecoder (sbAllocDecoder { shared := () } 1 true [10, 30, 50]) 2 false [20, 25, 40])
    (.alloc 2 false _ (.alloc 1 true _ (.new ()) (by simp) rfl) (by simp [sbAllocDecoder]) rfl) rfl

example : (sbEvent exCb true false exEvent 10 exStart).2 = .ok () ∧
    (sbEvent exCb true false exEvent 10 exStart).1.log = [.fetched 2 20, .fetched 1 10, .due 1 10 exEvent, .fetched 1 30, .due 2 20 exEvent,
      .fetched 2 25, .due 2 25 exEvent, .fetched 2 40, .due 1 30 exEvent, .fetched 1 50, .shown 2 exEvent, .shown 1 exEvent] := by
  decide +kernel

example : appliedTimes (sbEvent exCb true false exEvent 10 exStart).1.log = [10, 20, 25, 30] := by decide +kernel

/-- `Steady` can be checked call by call. -/
theorem steady_check {log : List SbCall} (h : ∀ k : Fin log.length, (match log[k] with
    | .fetched id tsc => ((log.take k).all fun c => match c with | .due .. => false | _ => true) ||
        ((lastFetched (log.take k) id).any fun t => decide (t ≤ tsc))
    | _ => true) = true) : Steady log := by
  intro before id tsc after e
  have hl : before.length < log.length := by rw [e]; simp
  have := h ⟨before.length, hl⟩
  have e1 : log[before.length] = .fetched id tsc := by simp [e]
  have e2 : log.take before.length = before := by rw [e]; simp
  simp only [Fin.getElem_fin, e1, e2, Bool.or_eq_true] at this
  rcases this with h | h
  · left
    intro i t ev hm
    have := List.all_eq_true.1 h _ hm
    simp at this
  · right
    rcases hf : lastFetched before id with _ | t
    · rw [hf] at h; simp at h
    · rw [hf] at h; exact ⟨t, rfl, by simpa using h⟩

example : Steady (sbEvent exCb true false exEvent 10 exStart).1.log := steady_check (by decide +kernel)

example : (sbDump exCb 35 10 exStart).2 = .ok () := by decide +kernel

end Ipt.Props
