import Verif.Props.QuerySync

/-! # C51: the status flags of the query decoder -/

set_option linter.unusedSimpArgs false

namespace Ipt.Spec

/-- What the status flags promise about the queries that follow.
* `pts_eos`: every query will fail with -pte_eos;
* `pts_event_pending`: `pt_qry_event` will return an event, or every query will report the same error;
* neither: `pt_qry_event` will be refused. -/
structure Promise (c : EvtCfg) (s : Qdec) (f : Flags) : Prop where
  eos : f.eos = true → ∀ qs, ∀ r ∈ answers c qs s, r = .err .eos
  pending : f.eventPending = true → (∃ e g, (Query.event.run c s).2 = .ok (.event e, g)) ∨
    ∃ x, x ≠ .eos ∧ ∀ qs, ∀ r ∈ answers c qs s, r = .err x
  neither : f.eos = false → f.eventPending = false → (Query.event.run c s).2 = .err .badQuery
  both : ¬ (f.eos = true ∧ f.eventPending = true)

end Ipt.Spec

namespace Ipt

open Spec

variable {c : EvtCfg} {d : Evd} {s s' : Qdec} {es : List Event} {bits : List Bool}

theorem pending_eq {e : Event} (h : Fine True e.data) : QEv.pending (.ok e) = .ok (decide (items e = [.event e])) := by
  unfold QEv.pending items
  dsimp only
  rcases hd : e.data <;> simp only [reduceCtorEq, List.cons.injEq, and_true, decide_false, decide_true]
  rename_i p n
  obtain ⟨_, _, b, r, hb⟩ := fine_tnt h hd
  congr 1
  simp [hb]

theorem QInv.promise (hu : Usable c) (h : QInv c d s es bits) {f : Flags} (hf : s.flags = .ok f) : Promise c s f := by
  have hev := event_step hu h
  unfold Qdec.flags at hf
  rw [isEmpty_holds h.tnt] at hf
  by_cases hb : bits = []
  · subst hb
    rw [if_pos (by simp)] at hf
    rcases h.cases with ⟨e, he⟩ | ⟨x, hx⟩
    · rw [if_neg (by rw [he.1]; simp), he.2.1] at hf
      have no : ∀ x, ¬ QErr c d s es x := fun x hx => by have := he.1; rw [hx.1] at this; cases this
      have eq : ∀ e', QOk c d s es e' → e' = e := fun e' h' => by
        have := h'.2.1; rw [he.2.1] at this; cases this; rfl
      rcases hev with ⟨h1, _⟩ | ⟨_, x, h1, _⟩ | ⟨_, e', h1, h2⟩
      · exact absurd rfl h1
      · exact absurd h1 (no x)
      · obtain rfl := eq e' h1
        have hp := pending_eq (h.step hu h1).1
        rcases h2 with ⟨h2, s2, g, h3, _⟩ | ⟨h2, h3⟩
        · rw [hp, decide_eq_true h2] at hf
          cases hf
          refine ⟨by simp, fun _ => .inl ⟨e', g, by rw [run_event, h3]; rfl⟩, by simp, by simp⟩
        · rw [hp, decide_eq_false h2] at hf
          cases hf
          exact ⟨by simp, by simp, fun _ _ => by rw [run_event, h3]; rfl, by simp⟩
    · have hall := fun qs => err_forever hu qs s h hx
      by_cases he : x = .eos
      · subst he
        rw [if_pos hx.1] at hf
        cases hf
        exact ⟨fun _ => hall, by simp, by simp, by simp⟩
      · rw [if_neg (by rw [hx.1]; simpa using he), hx.2.1] at hf
        cases hf
        exact ⟨by simp, fun _ => .inr ⟨x, he, hall⟩, by simp, by simp⟩
  · rw [if_neg (by simp [hb])] at hf
    cases hf
    rcases hev with ⟨_, h1⟩ | ⟨h1, _⟩ | ⟨h1, _⟩
    · exact ⟨by simp, by simp, fun _ _ => by rw [run_event, h1]; rfl, by simp⟩
    · exact absurd h1 hb
    · exact absurd h1 hb

theorem flags_ip {f : Flags} (h : s.flags = .ok f) : f.ipSuppressed = false := by
  unfold Qdec.flags at h
  split at h
  · split at h
    · cases h; rfl
    · split at h <;> cases h
      rfl
  · cases h; rfl

theorem withFlags_ok {α : Type} {a b : α} {f : Flags} (h : withFlags s a = (s', .ok (b, f))) : s'.flags = .ok f ∧ b = a := by
  unfold withFlags at h
  split at h <;> cases h
  rename_i h
  exact ⟨h, rfl⟩

theorem cond_flags {b : Bool} {f : Flags} (h : condBranch c s = (s', .ok (b, f))) : s'.flags = .ok f := by
  unfold condBranch at h
  repeat' split at h
  all_goals first
    | exact (withFlags_ok h).1
    | cases h

theorem event_flags {e : Event} {f : Flags} (h : qryEvent c s = (s', .ok (e, f))) : s'.flags = .ok f := by
  unfold qryEvent at h
  repeat' split at h
  all_goals first
    | exact (withFlags_ok h).1
    | cases h

theorem takeTip_flags {sup : Bool} {ip : Nat} {a : Option Nat} {f : Flags} (h : takeTip c sup ip s = (s', .ok (a, f))) :
    ∃ f0, s'.flags = .ok f0 ∧ f = { f0 with ipSuppressed := a.isNone } := by
  unfold takeTip at h
  revert h
  rcases qryFetch c { s with lastTime := s.ev.tm.time } with ⟨s1, _ | e | _⟩
  · dsimp only
    cases hf : s1.flags with
    | ok f0 =>
      intro h
      cases sup <;> cases h <;> exact ⟨f0, hf, rfl⟩
    | err e => intro h; cases h
    | ub => intro h; cases h
  · intro h; cases h
  · intro h; cases h

theorem indirect_flags {a : Option Nat} {f : Flags} (h : indirectBranch c s = (s', .ok (a, f))) :
    ∃ f0, s'.flags = .ok f0 ∧ f = { f0 with ipSuppressed := a.isNone } := by
  unfold indirectBranch at h
  repeat' split at h
  all_goals first
    | exact takeTip_flags h
    | cases h

theorem run_flags {q : Query} {x : Item} {f : Flags} (h : q.run c s = (s', .ok (x, f))) :
    ∃ f0, s'.flags = .ok f0 ∧ f = { f0 with ipSuppressed := decide (x = .target none) } := by
  cases q with
  | cond =>
    rw [run_cond] at h
    rcases hx : condBranch c s with ⟨s1, ⟨b, g⟩ | e | _⟩ <;> rw [hx] at h <;> cases h
    have := cond_flags hx
    refine ⟨f, this, ?_⟩
    have h1 := flags_ip this
    obtain ⟨a, b, g⟩ := f
    dsimp only at h1
    rw [h1]; rfl
  | event =>
    rw [run_event] at h
    rcases hx : qryEvent c s with ⟨s1, ⟨b, g⟩ | e | _⟩ <;> rw [hx] at h <;> cases h
    have := event_flags hx
    refine ⟨f, this, ?_⟩
    have h1 := flags_ip this
    obtain ⟨a, b, g⟩ := f
    dsimp only at h1
    rw [h1]; rfl
  | indirect =>
    rw [run_indirect] at h
    rcases hx : indirectBranch c s with ⟨s1, ⟨b, g⟩ | e | _⟩ <;> rw [hx] at h <;> cases h
    obtain ⟨f0, h1, h2⟩ := indirect_flags hx
    refine ⟨f0, h1, ?_⟩
    rw [h2]
    cases b <;> rfl

theorem Spec.Promise.ip {f : Flags} (h : Promise c s f) (b : Bool) : Promise c s { f with ipSuppressed := b } :=
  ⟨h.eos, h.pending, h.neither, h.both⟩

theorem qryStart_flags {f : Flags} {ip : Option Nat} (h : qryStart c s = (s', .ok (f, ip))) :
    ∃ f0, s'.flags = .ok f0 ∧ f = { f0 with ipSuppressed := ip.isNone } := by
  unfold qryStart at h
  revert h
  rcases startLoop c s.ev.pd.pos evqFuel s.ev with ip' | e | _
  · dsimp only
    rcases qryFetch c { s with status := none } with ⟨s1, _ | e | _⟩
    · dsimp only
      cases hf : s1.flags with
      | ok f0 => intro h; cases h; exact ⟨f0, hf, rfl⟩
      | err e => intro h; cases h
      | ub => intro h; cases h
    · intro h; cases h
    · intro h; cases h
  · intro h; cases h
  · intro h; cases h

end Ipt

namespace Ipt.Props

open Ipt Spec

variable {c : EvtCfg} {d : Evd} {s s' : Qdec}

/-- C51: the status flags returned by a successful query keep their promise, after every sequence of queries; the flag
`pts_ip_suppressed` is returned exactly for an indirect branch without a target. -/
theorem C51_status_flags (hu : Usable c) (hs : Synchronized c d s) (qs : List Query) (q : Query) (x : Item) (f : Flags)
    (h : q.run c (afterQueries c qs s) = (s', .ok (x, f))) :
    Promise c s' f ∧ (f.ipSuppressed = true ↔ x = .target none) := by
  obtain ⟨es, bits, h1, _⟩ := seq_acc hu (sync_inv hu hs) qs
  obtain ⟨es', bits', ha⟩ := run_acc hu h1 q
  have h2 := ha.inv
  rw [h] at h2
  obtain ⟨f0, h3, h4⟩ := run_flags h
  rw [h4]
  exact ⟨(h2.promise hu h3).ip _, by simp⟩

/-- C51: the status flags returned by a successful forward synchronization or synchronization to an offset keep their
promise.  (Backward synchronization does not return any, see `C49_backward_no_flags`.) -/
theorem C51_sync_flags_partial (hu : Usable c) (o : SyncCall) (s0 : Qdec) (f : Flags) (ip : Option Nat)
    (h : o.run c s0 = (s, .ok (f, ip))) (ho : o ≠ .backward) : Promise c s f := by
  obtain ⟨d, hd, hs⟩ := C37_synchronized_own c o s0 s f ip h ho
  have h1 := sync_inv hu hs
  have key : ∀ (m : EM Unit), onEvt m (qryStart c) (qryReset s0) = (s, .ok (f, ip)) →
      ∃ f0, s.flags = .ok f0 ∧ f = { f0 with ipSuppressed := ip.isNone } := by
    intro m h
    unfold onEvt at h
    split at h
    · exact qryStart_flags h
    · cases h
    · cases h
  obtain ⟨f0, h2, h3⟩ : ∃ f0, s.flags = .ok f0 ∧ f = { f0 with ipSuppressed := ip.isNone } := by
    cases o with
    | backward => exact absurd rfl ho
    | forward => exact key _ h
    | set off => exact key _ h
  rw [h3]
  exact (h1.promise hu h2).ip _

-- The flags in a session on TNT; TIP with suppressed IP; end of trace, and on a trace that ends with an error.
example : (answers (cfgOf [6, 0x0d]) [.event, .cond, .indirect] (started (cfgOf [6, 0x0d]))) =
    [.ok (.event { data := .enabled 0x7001, statusUpdate := true }, {}), .ok (.bit true, {}),
      .ok (.target none, { ipSuppressed := true, eos := true })] ∧
    (answers (cfgOf qryTrace) [.event, .cond, .indirect, .event, .event] (started (cfgOf qryTrace))) =
    [.ok (.event { data := .enabled 0x7001, statusUpdate := true }, {}), .ok (.bit true, {}),
      .ok (.target (some 0x8020), { eventPending := true }), .ok (.event { data := .overflow 0x201 }, { eventPending := true }),
      .err .badOpc] := by decide +kernel

end Ipt.Props
