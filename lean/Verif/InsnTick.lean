import Verif.InsnFlowRun
import Verif.Spec.Tick
import Verif.EventDecoderTick

/-!
# Helper lemmas: tick events of the instruction flow decoder (C79)
-/

namespace Ipt

open Ild Spec Props

/-! ## The query decoder -/

/-- The next event is none of the decoder's own markers. -/
def Qdec.NoTick (q : Qdec) : Prop := ∀ e, q.event = .ok e → ∀ x, e.data ≠ .tick x

theorem fetch_noTick {c : EvtCfg} {q q' : Qdec} {r : Res Unit} (h : q.NoTick) (hf : qryFetch c q = (q', r)) : q'.NoTick := by
  unfold qryFetch at hf
  rcases he : evtNext c q.ev with ⟨ev, e | x | _⟩ <;> rw [he] at hf <;> cases hf
  · intro e' h'
    cases h'
    exact evtNext_tick he
  · intro e' h'
    cases h'
  · exact h

theorem withFlags_noTick {α : Type} {q q' : Qdec} {a : α} {r : Res (α × Flags)} (h : q.NoTick) (hf : withFlags q a = (q', r)) :
    q'.NoTick := by
  unfold withFlags at hf
  split at hf <;> cases hf <;> exact h

theorem cacheTnt_noTick {c : EvtCfg} {q q' : Qdec} {r : Res Unit} (h : q.NoTick) (hf : cacheTnt c q = (q', r)) : q'.NoTick := by
  unfold cacheTnt at hf
  split at hf
  · cases hf; exact h
  · split at hf
    · cases hf; exact h
    · cases hf; exact h
    · split at hf
      · split at hf
        · exact fetch_noTick (by exact h) hf
        · cases hf; exact h
        · cases hf; exact h
      · cases hf; exact h

theorem cond_noTick {c : EvtCfg} {q q' : Qdec} {r : Res (Bool × Flags)} (h : q.NoTick) (hf : condBranch c q = (q', r)) :
    q'.NoTick := by
  unfold condBranch at hf
  split at hf
  · exact withFlags_noTick (by exact h) hf
  · cases hf; exact h
  · rcases h1 : cacheTnt c { q with lastTime := q.ev.tm.time } with ⟨q1, _ | e | _⟩
    all_goals
      rw [h1] at hf
      have h2 := cacheTnt_noTick (q := { q with lastTime := q.ev.tm.time }) h h1
      dsimp only at hf
    · split at hf
      · exact withFlags_noTick (by exact h2) hf
      · cases hf; exact h2
      · split at hf <;> cases hf <;> exact h2
      · cases hf; exact h2
    · cases hf; exact h2
    · cases hf; exact h2
  · cases hf; exact h

theorem takeTip_noTick {c : EvtCfg} {q q' : Qdec} {b : Bool} {x : Nat} {r : Res (Option Nat × Flags)} (h : q.NoTick)
    (hf : takeTip c b x q = (q', r)) : q'.NoTick := by
  unfold takeTip at hf
  rcases h1 : qryFetch c { q with lastTime := q.ev.tm.time } with ⟨q1, _ | e | _⟩
  all_goals
    rw [h1] at hf
    have h2 := fetch_noTick (q := { q with lastTime := q.ev.tm.time }) h h1
    dsimp only at hf
  · split at hf <;> cases hf <;> exact h2
  · cases hf; exact h2
  · cases hf; exact h2

theorem indirect_noTick {c : EvtCfg} {q q' : Qdec} {r : Res (Option Nat × Flags)} (h : q.NoTick)
    (hf : indirectBranch c q = (q', r)) : q'.NoTick := by
  unfold indirectBranch at hf
  split at hf
  · cases hf; exact h
  · split at hf
    · cases hf; exact h
    · cases hf; exact h
    · exact takeTip_noTick h hf
    · rcases h1 : cacheTnt c q with ⟨q1, _ | e | _⟩
      all_goals
        rw [h1] at hf
        have h2 := cacheTnt_noTick h h1
        dsimp only at hf
      · split at hf
        · cases hf; exact h2
        · cases hf; exact h2
        · exact takeTip_noTick h2 hf
        · split at hf <;> cases hf <;> exact h2
      · cases hf; exact h2
      · cases hf; exact h2

theorem event_noTick {c : EvtCfg} {q q' : Qdec} {e : Event} {fl : Flags} (h : q.NoTick) (hf : qryEvent c q = (q', .ok (e, fl))) :
    q'.NoTick ∧ ∀ x, e.data ≠ .tick x := by
  unfold qryEvent at hf
  split at hf
  · cases hf
  · split at hf
    · cases hf
    · split at hf
      · cases hf
      · cases hf
      · cases hf
      · split at hf
        · rename_i e' he
          rcases h1 : qryFetch c { q with lastTime := q.ev.tm.time } with ⟨q1, _ | e2 | _⟩
          all_goals
            rw [h1] at hf
            have h2 := fetch_noTick (q := { q with lastTime := q.ev.tm.time }) h h1
            dsimp only at hf
          · refine ⟨withFlags_noTick h2 hf, ?_⟩
            unfold withFlags at hf
            split at hf <;> cases hf
            exact h _ he
          · cases hf
          · cases hf
        · cases hf

theorem start_noTick {c : EvtCfg} {q q' : Qdec} {a : Flags × Option Nat} (hf : qryStart c q = (q', .ok a)) : q'.NoTick := by
  unfold qryStart at hf
  split at hf
  · cases hf
  · cases hf
  · unfold qryFetch at hf
    dsimp only at hf
    rcases he : evtNext c q.ev with ⟨ev, e | x | _⟩ <;> rw [he] at hf <;> dsimp only at hf
    · split at hf <;> cases hf
      intro e' h'
      cases h'
      exact evtNext_tick he
    · split at hf <;> cases hf
      intro e' h'
      cases h'
    · cases hf

theorem sync_noTick {c : EvtCfg} {o : SyncCall} {q q' : Qdec} {a : Flags × Option Nat} (hf : o.run c q = (q', .ok a)) :
    q'.NoTick := by
  have key : ∀ m : EM Unit, onEvt m (qryStart c) (qryReset q) = (q', .ok a) → q'.NoTick := by
    intro m h
    unfold onEvt at h
    split at h
    · exact start_noTick h
    · cases h
    · cases h
  cases o with
  | forward => exact key _ hf
  | set off => exact key _ hf
  | backward =>
    replace hf : qrySyncBackward c q = (q', .ok a) := hf
    unfold qrySyncBackward at hf
    revert hf
    generalize c.fuel = n
    generalize q.ev.pd.pos.getD c.pkt.mem.length = start
    generalize hs : start = sync
    rw [← hs]
    clear hs
    revert sync
    suffices h : ∀ (n sync : Nat) (ip : Option Nat) (q : Qdec), qrySyncBackLoop c start n sync ip q = (q', .ok a) → q'.NoTick from
      fun sync h' => h _ _ _ _ h'
    intro n
    induction n with
    | zero => intro _ _ _ h; cases h
    | succ n ih =>
      intro sync ip q h
      unfold qrySyncBackLoop at h
      split at h
      · cases h
      · cases h
      · split at h
        · cases h
        · exact ih _ _ _ h
        · cases h
        · rename_i q2 f ip' h2
          split at h
          · cases h; exact start_noTick h2
          · exact ih _ _ _ h

/-! ## The instruction flow decoder -/

variable {c : InsnCfg} {s s' s'' : Idec} {f f' : Flow}

/-- No tick event is pending. -/
def Idec.Good (s : Idec) : Prop :=
  s.q.NoTick ∧ (s.processEvent = true → ∀ e, s.event = some e → ∀ x, e.data ≠ .tick x)

/-- There are no new tick events, and the event that was shown last is kept as long as there is no new event. -/
def Quiet (s s' : Idec) : Prop :=
  (s.Good → s'.Good) ∧ (s'.processEvent = false → s.processEvent = false ∧ s'.event = s.event)

theorem Quiet.trans (h1 : Quiet s s') (h2 : Quiet s' s'') : Quiet s s'' :=
  ⟨fun h => h2.1 (h1.1 h), fun h => ⟨(h1.2 (h2.2 h).1).1, (h2.2 h).2.trans (h1.2 (h2.2 h).1).2⟩⟩

theorem Quiet.same (h1 : s'.q = s.q) (h2 : s'.processEvent = s.processEvent) (h3 : s'.event = s.event) : Quiet s s' := by
  refine ⟨fun h => ?_, fun h => ⟨by rw [← h2, h], h3⟩⟩
  unfold Idec.Good
  rw [h1, h2, h3]
  exact h

theorem Quiet.refl (s : Idec) : Quiet s s := .same rfl rfl rfl

theorem pending_quiet {r : Option Event} (h : eventPending c s = (s', .ok r)) :
    Quiet s s' ∧ s' = { s with q := s'.q, event := s'.event, processEvent := s'.processEvent, status := s'.status } ∧
      (∀ e, r = some e → s'.processEvent = true ∧ s'.event = some e) ∧
      (s.processEvent = true → s' = s) ∧ (r = none → s' = s) := by
  unfold eventPending at h
  simp only [IM.get_bind, IM.ite_ok, IM.pure_ok] at h
  rcases h with ⟨h1, h⟩ | ⟨h1, ⟨_, rfl, rfl⟩ | ⟨_, h⟩⟩
  · rcases he : s.event with _ | e <;> simp only [he] at h
    · rw [IM.undef_ok] at h; exact h.elim
    · rw [IM.pure_ok] at h
      obtain ⟨rfl, rfl⟩ := h
      exact ⟨.refl _, rfl, fun e' h' => ⟨h1, by rw [he, h']⟩, fun _ => rfl, fun _ => rfl⟩
  · exact ⟨.refl _, rfl, (fun e' h' => by cases h'), fun _ => rfl, fun _ => rfl⟩
  · simp only [IM.bind_ok, IM.query_ok, IM.modify_ok, IM.pure_ok] at h
    obtain ⟨_, ⟨e, fl⟩, ⟨q, hq, rfl⟩, _, _, rfl, rfl, rfl⟩ := h
    refine ⟨⟨fun hg => ?_, fun h' => by cases h'⟩, rfl, fun e' h' => ⟨rfl, h'⟩, fun h' => absurd h' h1, fun h' => by cases h'⟩
    obtain ⟨a1, a2⟩ := event_noTick hg.1 hq
    exact ⟨a1, fun _ e' h' => by cases h'; exact a2⟩

theorem postpone_same {i : Insn} {r : Option Flags} (h : postpone i s = (s', .ok r)) :
    s' = { s with insn := some (s.insn.getD i) } ∧ r ≠ none := by
  unfold postpone at h
  simp only [IM.modify_bind, IM.bind_ok, IM.pure_ok, insnStatus_ok] at h
  obtain ⟨_, _, ⟨rfl, -⟩, rfl, rfl⟩ := h
  exact ⟨rfl, by simp⟩

theorem resume_same {i : Insn} {u : Unit} (h : resumeIp i s = (s', .ok u)) : s' = { s with ip := s'.ip } := by
  unfold resumeIp at h
  rcases hn : nextIp i with x | e | _ <;> simp only [hn] at h
  · rw [IM.modify_ok] at h; rw [h]
  · rw [IM.modify_bind, IM.ite_ok, IM.fail_ok] at h
    rcases h with ⟨-, h⟩ | ⟨-, h⟩
    · exact h.elim
    · cases hc : i.ext.cls <;> simp only [hc, IM.modify_ok, IM.pure_ok] at h <;> first | rw [h] | rw [h.1]
  · rw [IM.undef_ok] at h; exact h.elim

/-- A decoder whose postponed instruction, address and bindings may have changed. -/
def KeepTick (s s' : Idec) (i : Insn) (r : Option Flags) : Prop :=
  s'.q = s.q ∧ s'.processEvent = s.processEvent ∧ s'.event = s.event ∧
    (s'.insn = s.insn ∨ s'.insn = some (s.insn.getD i)) ∧ (r = none → s' = s)

theorem bindOnce_same {b k : Bool} {ev : Event} {x : Nat} {mark : Idec → Idec} {i : Insn} {r : Option Flags}
    (hm : ∀ s, (mark s).q = s.q ∧ (mark s).processEvent = s.processEvent ∧ (mark s).event = s.event ∧ (mark s).insn = s.insn)
    (h : bindOnce b ev k x mark i s = (s', .ok r)) : KeepTick s s' i r := by
  unfold bindOnce at h
  simp only [IM.ite_ok, IM.get_bind, IM.pure_ok, IM.modify_bind] at h
  rcases h with ⟨_, rfl, rfl⟩ | ⟨_, ⟨_, rfl, rfl⟩ | ⟨_, ⟨_, rfl, rfl⟩ | ⟨_, h⟩⟩⟩
  · exact ⟨rfl, rfl, rfl, .inl rfl, fun _ => rfl⟩
  · exact ⟨rfl, rfl, rfl, .inl rfl, fun _ => rfl⟩
  · exact ⟨rfl, rfl, rfl, .inl rfl, fun _ => rfl⟩
  · obtain ⟨rfl, h2⟩ := postpone_same h
    obtain ⟨a1, a2, a3, a4⟩ := hm s
    exact ⟨a1, a2, a3, .inr (by rw [a4]), fun hn => absurd hn h2⟩

theorem checkInsn_tick {i : Insn} {r : Option Flags} (h : checkInsnEvent c i s = (s', .ok r)) :
    Quiet s s' ∧ (s'.insn = s.insn ∨ s'.insn = some (s.insn.getD i)) ∧
      (r = none → s'.ip = s.ip ∧ s'.enabled = s.enabled ∧ s'.insn = s.insn) := by
  unfold checkInsnEvent at h
  rw [IM.bind_ok] at h
  obtain ⟨s1, o, h1, h⟩ := h
  obtain ⟨k1, k2, -⟩ := pending_quiet h1
  have e1 : s1.insn = s.insn ∧ s1.ip = s.ip ∧ s1.enabled = s.enabled := by rw [k2]; exact ⟨rfl, rfl, rfl⟩
  clear k2
  have fin : KeepTick s1 s' i r → Quiet s s' ∧ (s'.insn = s.insn ∨ s'.insn = some (s.insn.getD i)) ∧
      (r = none → s'.ip = s.ip ∧ s'.enabled = s.enabled ∧ s'.insn = s.insn) := by
    rintro ⟨b1, b2, b3, b4, b5⟩
    refine ⟨k1.trans (.same b1 b2 b3), by rw [← e1.1]; exact b4, fun hr => ?_⟩
    rw [b5 hr]
    exact ⟨e1.2.1, e1.2.2, e1.1⟩
  have keep : s' = s1 → KeepTick s1 s' i r := by rintro rfl; exact ⟨rfl, rfl, rfl, .inl rfl, fun _ => rfl⟩
  rcases o with _ | ev
  · dsimp only at h
    rw [IM.pure_ok] at h
    exact fin (keep h.1)
  dsimp only at h
  rw [IM.get_bind] at h
  have bound : ∀ {m : Idec → Idec} {b k : Bool}, (∀ s, (m s).q = s.q ∧ (m s).processEvent = s.processEvent ∧ (m s).event = s.event ∧
      (m s).insn = s.insn) → (if b = true then pure none else if k = false then pure none else do
        IM.modify m
        postpone i : IM (Option Flags)) s1 = (s', .ok r) → KeepTick s1 s' i r := by
    intro m b k hm h
    simp only [IM.ite_ok, IM.pure_ok, IM.modify_bind] at h
    rcases h with ⟨_, rfl, rfl⟩ | ⟨_, ⟨_, rfl, rfl⟩ | ⟨_, h⟩⟩
    · exact keep rfl
    · exact keep rfl
    · obtain ⟨rfl, h2⟩ := postpone_same h
      obtain ⟨a1, a2, a3, a4⟩ := hm s1
      exact ⟨a1, a2, a3, .inr (by rw [a4]), fun hn => absurd hn h2⟩
  rcases hd : ev.data <;> simp only [hd] at h
  case tip | tnt => rw [IM.fail_ok] at h; exact h.elim
  case disabled =>
    rw [IM.ite_ok] at h
    rcases h with ⟨_, h⟩ | ⟨_, h⟩
    · rw [IM.pure_ok] at h; exact fin (keep h.1)
    · simp only [IM.bind_ok, IM.lift_ok] at h
      obtain ⟨_, b, ⟨rfl, hb⟩, h⟩ := h
      cases b
      · dsimp only at h
        rw [IM.pure_ok] at h; exact fin (keep h.1)
      · dsimp only at h
        simp only [IM.bind_ok, insnStatus_ok, IM.pure_ok] at h
        obtain ⟨s2, _, h2, _, _, ⟨rfl, -⟩, rfl, rfl⟩ := h
        have := resume_same h2
        refine fin ?_
        rw [this]
        exact ⟨rfl, rfl, rfl, .inl rfl, fun hn => by cases hn⟩
  case paging => exact fin (bound (m := fun s => { s with boundPaging := true }) (fun _ => ⟨rfl, rfl, rfl, rfl⟩) h)
  case vmcs => exact fin (bound (m := fun s => { s with boundVmcs := true }) (fun _ => ⟨rfl, rfl, rfl, rfl⟩) h)
  case ptwrite | iret | vmentry | uiret =>
    refine fin (bindOnce_same ?_ h)
    exact fun _ => ⟨rfl, rfl, rfl, rfl⟩
  all_goals
    rw [IM.pure_ok] at h; exact fin (keep h.1)

/-! ## Ticks -/

/-- A new tick event at `x`: the time changed since the last event. -/
def NewTick (c : InsnCfg) (s s' : Idec) (x : Nat) : Prop :=
  c.tick = true ∧ s.processEvent = false ∧ s'.processEvent = true ∧ s'.q.NoTick ∧ ∃ e0 e, s.event = some e0 ∧ s'.event = some e ∧
    e.data = .tick x ∧ TimedBy e s'.q.lastTime ∧ e0.tsc ≠ e.tsc

/-- No tick event, since the time did not change. -/
def SameTime (c : InsnCfg) (s : Idec) : Prop :=
  c.tick = true → s.processEvent = false → ∃ e, s.event = some e ∧ e.tsc = s.q.lastTime.tsc

theorem tick_cases {x : Nat} {u : Unit} (h : IM.when c.tick (insnTick x) s = (s', .ok u)) :
    (s' = s ∧ SameTime c s) ∨ (c.tick = true ∧ s.processEvent = false ∧ ∃ e0 e, s.event = some e0 ∧
      s' = { s with event := some e, processEvent := true } ∧ e.data = .tick x ∧ TimedBy e s.q.lastTime ∧ e0.tsc ≠ e.tsc) := by
  rw [IM.when_ok] at h
  rcases h with ⟨ht, h⟩ | ⟨ht, rfl⟩
  · unfold insnTick at h
    simp only [IM.get_bind, IM.ite_ok, IM.fail_ok, IM.pure_ok, and_false, false_or] at h
    rcases h with ⟨h0, ⟨h1, rfl, -⟩ | ⟨h1, h⟩⟩
    · exact .inl ⟨rfl, fun _ h => by rw [h1] at h; cases h⟩
    · rcases he : s.event with _ | e <;> simp only [he] at h
      · rw [IM.undef_ok] at h; exact h.elim
      · simp only [IM.ite_ok, IM.pure_ok, IM.modify_ok] at h
        rcases h with ⟨h2, rfl, -⟩ | ⟨h2, rfl⟩
        · exact .inl ⟨rfl, fun _ _ => ⟨e, he, h2.symm⟩⟩
        · exact .inr ⟨ht, by simpa using h1, e, _, rfl, rfl, rfl, ⟨rfl, rfl, rfl, rfl⟩, fun hn => h2 hn.symm⟩
  · exact .inl ⟨rfl, fun h => by rw [ht] at h; cases h⟩

/-- The effect of a query for an outcome or a target, followed by a tick. -/
def Asked (c : InsnCfg) (s s' : Idec) : Prop :=
  (Quiet s s' ∧ SameTime c s') ∨ (s.Good → NewTick c s s' s.ip)

theorem Asked.of {q : Qdec} {y : Nat} {u : Unit} (hq : s.q.NoTick → q.NoTick)
    (h : IM.when c.tick (insnTick s.ip) { s with q := q, ip := y } = (s', .ok u)) : Asked c s s' ∧
      s' = { s with q := q, ip := y, event := s'.event, processEvent := s'.processEvent } := by
  rcases tick_cases h with ⟨rfl, h1⟩ | ⟨h1, h2, e0, e, h3, rfl, h4, h5, h6⟩
  · refine ⟨.inl ⟨⟨fun hg => ⟨hq hg.1, hg.2⟩, fun h => ⟨h, rfl⟩⟩, h1⟩, rfl⟩
  · exact ⟨.inr fun hg => ⟨h1, h2, rfl, hq hg.1, e0, e, h3, rfl, h4, h5, h6⟩, rfl⟩

theorem cond_asked {r : Bool × Flags} (h : insnCond c s = (s', .ok r)) : Asked c s s' ∧ s'.ip = s.ip := by
  unfold insnCond at h
  simp only [IM.bind_ok, IM.query_ok, IM.get_ok, IM.pure_ok] at h
  obtain ⟨_, ⟨b', fl'⟩, ⟨q, hq, rfl⟩, _, _, ⟨rfl, rfl⟩, s2, _, h2, rfl, h3⟩ := h
  have := Asked.of (s := s) (fun h => cond_noTick h hq) h2
  refine ⟨this.1, ?_⟩
  rw [this.2]

theorem indirect_asked {fl : Flags} (h : insnIndirect c s = (s', .ok fl)) : Asked c s s' := by
  unfold insnIndirect at h
  simp only [IM.get_bind, IM.bind_ok, IM.query_ok] at h
  obtain ⟨_, ⟨ip, fl'⟩, ⟨q, hq, rfl⟩, h⟩ := h
  simp only [IM.bind_ok, IM.pure_ok, IM.modify_ok] at h
  obtain ⟨_, _, rfl, s2, _, h2, rfl, rfl⟩ := h
  exact (Asked.of (s := s) (fun h => indirect_noTick h hq) h2).1

theorem trig_quiet {x : Nat} {u : Unit} (h : updateTrig x s = (s', .ok u)) : Quiet s s' := by
  unfold updateTrig at h
  simp only [IM.get_bind, IM.modify_bind, IM.ite_ok, IM.fail_ok, IM.pure_ok, and_false, false_or] at h
  rcases h with ⟨h0, rfl, -⟩ | ⟨h0, h1, h2, h⟩
  · exact .refl _
  · rcases h with ⟨h3, h⟩ | ⟨h3, rfl, -⟩
    · rcases he : s.event with _ | ev <;> simp only [he] at h
      · rw [IM.undef_ok] at h; exact h.elim
      · rcases hd : ev.data <;> simp only [hd] at h
        case trig =>
          simp only [IM.ite_ok, IM.fail_ok, and_false, false_or, IM.modify_ok, IM.pure_ok] at h
          rcases h with ⟨_, h4, rfl⟩ | ⟨h4, rfl, -⟩
          · refine ⟨fun hg => ⟨hg.1, fun _ e' h' => ?_⟩, fun h' => ?_⟩
            · cases h'; simp
            · replace h' : s.processEvent = false := h'
              rw [h3] at h'; cases h'
          · exact .same rfl rfl he.symm
        all_goals
          rw [IM.pure_ok] at h
          obtain ⟨rfl, -⟩ := h
          exact .same rfl rfl he.symm
    · exact .same rfl rfl rfl

/-- Executing an instruction. -/
def Did (c : InsnCfg) (i : Insn) (x : Nat) (s s' : Idec) : Prop :=
  (Quiet s s' ∧ (ByTrace i → SameTime c s')) ∨ ((ByTrace i ∨ i.ext.cls = .return) ∧ (s.Good → NewTick c s s' x))

theorem Did.after {i : Insn} {x : Nat} (hq : Quiet s s') (h : Did c i x s' s'') : Did c i x s s'' := by
  rcases h with ⟨h1, h2⟩ | ⟨h1, h2⟩
  · exact .inl ⟨hq.trans h1, h2⟩
  · refine .inr ⟨h1, fun hg => ?_⟩
    obtain ⟨a1, a2, a3, a4, e0, e, a5, a6⟩ := h2 (hq.1 hg)
    exact ⟨a1, (hq.2 a2).1, a3, a4, e0, e, (hq.2 a2).2 ▸ a5, a6⟩

theorem NewTick.keep {x : Nat} (h : NewTick c s s' x) (h1 : s''.q = s'.q) (h2 : s''.processEvent = s'.processEvent)
    (h3 : s''.event = s'.event) : NewTick c s s'' x := by
  unfold NewTick at h ⊢
  rw [h1, h2, h3]
  exact h

theorem SameTime.keep (h : SameTime c s') (h1 : s''.q = s'.q) (h2 : s''.processEvent = s'.processEvent)
    (h3 : s''.event = s'.event) : SameTime c s'' := by
  unfold SameTime at h ⊢
  rw [h1, h2, h3]
  exact h

theorem Asked.did {i : Insn} (ha : Asked c s s') (hi : ByTrace i ∨ i.ext.cls = .return) (h1 : s''.q = s'.q)
    (h2 : s''.processEvent = s'.processEvent) (h3 : s''.event = s'.event) : Did c i s.ip s s'' := by
  rcases ha with ⟨a3, a4⟩ | a3
  · exact .inl ⟨a3.trans (.same h1 h2 h3), fun _ => a4.keep h1 h2 h3⟩
  · exact .inr ⟨hi, fun h => (a3 h).keep h1 h2 h3⟩

theorem branch_did {i : Insn} {u : Unit} (hi : i.ext.cls ≠ .other ∧ i.ext.cls ≠ .ptwrite ∧ i.ext.cls ≠ .unknown ∧ i.ext.cls ≠ .condJump)
    (h : proceedBranch c i s = (s', .ok u)) : Did c i s.ip s s' := by
  unfold proceedBranch at h
  rw [IM.ite_ok] at h
  rcases h with ⟨h1, h⟩ | ⟨h1, h⟩
  · rw [IM.modify_bind] at h
    have hq := trig_quiet h
    refine .inl ⟨(Quiet.same rfl rfl rfl : Quiet s { s with ip := addDisp s.ip i.ext.displacement }).trans hq, fun ha => ?_⟩
    rcases ha with ha | ⟨-, -, -, ha⟩
    · exact absurd ha hi.2.2.2
    · rcases ha with ha | ha
      · rw [ha] at h1; cases h1.1
      · exact absurd ha h1.2
  · simp only [IM.bind_ok, IM.modify_ok, IM.ite_ok, IM.fail_ok, and_false, false_or] at h
    obtain ⟨s1, fl, h2, _, _, rfl, -, rfl⟩ := h
    have hask : ByTrace i := by
      refine .inr ⟨hi.1, hi.2.1, hi.2.2.1, ?_⟩
      rcases Bool.eq_false_or_eq_true i.ext.isDirect with hd | hd
      · right
        by_contra hne
        exact h1 ⟨hd, hne⟩
      · exact .inl hd
    exact (indirect_asked h2).did (.inl hask) rfl rfl rfl

theorem proceed_did {i : Insn} {u : Unit} (hen : s.enabled = true) (hip : s.ip = i.ip) (h : proceed c i s = (s', .ok u)) :
    Did c i ((i.ip + i.size) % 2 ^ 64) s s' := by
  unfold proceed at h
  rw [IM.modify_bind] at h
  rw [← hip]
  refine Did.after (s' := { s with ip := (s.ip + i.size) % 2 ^ 64 }) (.same rfl rfl rfl) ?_
  revert h
  generalize hs1 : ({ s with ip := (s.ip + i.size) % 2 ^ 64 } : Idec) = s1
  intro h
  have e1 : s1.ip = (s.ip + i.size) % 2 ^ 64 := by rw [← hs1]
  have e2 : s1.enabled = true := by rw [← hs1]; exact hen
  rw [← e1]
  clear hs1 e1
  have plain : (i.ext.cls = .other ∨ i.ext.cls = .ptwrite) → updateTrig i.ip s1 = (s', .ok u) → Did c i s1.ip s1 s' := by
    intro hc h
    refine .inl ⟨trig_quiet h, fun ha => ?_⟩
    rcases ha with ha | ⟨h1, h2, -⟩
    · rcases hc with hc | hc <;> rw [hc] at ha <;> cases ha
    · rcases hc with hc | hc
      · exact absurd hc h1
      · exact absurd hc h2
  rcases hc : i.ext.cls <;> simp only [hc] at h
  case ptwrite => exact plain (.inr hc) h
  case other => exact plain (.inl hc) h
  case unknown => rw [IM.fail_ok] at h; exact h.elim
  case condJump =>
    simp only [IM.bind_ok, IM.modify_ok] at h
    obtain ⟨s2, ⟨b, fl⟩, h1, _, _, rfl, _, _, h2, rfl⟩ := h
    have h1 := (cond_asked h1).1
    have ha : ByTrace i ∨ i.ext.cls = .return := .inl (.inl hc)
    rw [IM.when_ok, IM.modify_ok] at h2
    rcases h2 with ⟨-, rfl⟩ | ⟨-, rfl⟩
    · exact h1.did ha rfl rfl rfl
    · exact h1.did ha rfl rfl rfl
  case call =>
    rw [IM.get_bind, IM.bind_ok] at h
    obtain ⟨s2, _, h1, h⟩ := h
    have h2 : s2 = { s1 with retstack := s2.retstack } := by
      rw [IM.when_ok] at h1
      rcases h1 with ⟨-, h1⟩ | ⟨-, rfl⟩
      · unfold pushRet at h1
        have h4 := (congrArg Prod.fst h1).symm
        dsimp only at h4
        subst h4
        rfl
      · rfl
    have h3 := branch_did (by simp [hc]) h
    have e3 : s2.ip = s1.ip := by rw [h2]
    rw [e3] at h3
    refine h3.after ?_
    rw [h2]
    exact .same rfl rfl rfl
  case «return» =>
    rw [IM.bind_ok] at h
    obtain ⟨s2, r, h1, h⟩ := h
    rw [IM.try_ok] at h1
    rcases h1 with ⟨⟨b, fl⟩, h1, rfl⟩ | ⟨e, h1, rfl⟩
    · dsimp only at h
      simp only [IM.modify_bind, IM.ite_ok, IM.fail_ok, and_false, false_or, IM.bind_ok, IM.modify_ok] at h
      obtain ⟨-, s3, x, h2, rfl⟩ := h
      unfold popRet at h2
      have h3 := (congrArg Prod.fst h2).symm
      dsimp only at h3
      subst h3
      have h1 := (cond_asked h1).1
      exact h1.did (.inr hc) rfl rfl rfl
    · dsimp only at h
      have h2 := branch_did (by simp [hc]) h
      unfold insnCond at h1
      rw [IM.bind_err] at h1
      obtain ⟨q, hq, rfl⟩ : ∃ q, (s1.q.NoTick → q.NoTick) ∧ s2 = { s1 with q := q } := by
        rcases h1 with h1 | ⟨s4, r, h1, h3⟩
        · unfold IM.query at h1
          rcases hq : condBranch c.evt s1.q with ⟨q, r⟩
          rw [hq] at h1
          cases h1
          exact ⟨q, fun h => cond_noTick h hq, rfl⟩
        · exfalso
          rw [IM.query_ok] at h1
          obtain ⟨q, -, rfl⟩ := h1
          rw [IM.get_bind, IM.bind_err] at h3
          rcases h3 with h3 | ⟨_, _, _, h3⟩
          · unfold IM.when at h3
            split at h3
            · exact insnTick_err (by exact e2) h3
            · cases h3
          · cases h3
      exact Did.after (s' := { s1 with q := q }) ⟨fun hg => ⟨hq hg.1, hg.2⟩, fun h => ⟨h, rfl⟩⟩ h2
  all_goals exact branch_did (by simp [hc]) h

theorem status_same {b : Bool} {fl : Flags} (h : insnStatus b s = (s', .ok fl)) : s' = s := (insnStatus_ok.1 h).1

theorem try_image_same {α : Type} {m : Img × List (Res Unit) → (Img × List (Res Unit)) × Res α} {r : Option α × Option Err}
    (h : IM.try_ (IM.image m) s = (s', .ok r)) : s' = { s with sc := s'.sc, maps := s'.maps } := by
  rw [IM.try_ok] at h
  unfold IM.image at h
  rcases h with ⟨a, h, -⟩ | ⟨a, h, -⟩ <;>
  · have h1 := (congrArg Prod.fst h).symm
    dsimp only at h1
    subst h1
    rfl

/-- What checks at the current address may change. -/
def Looks (s s' : Idec) : Prop :=
  s' = { s with sc := s'.sc, maps := s'.maps, ip := s'.ip }

theorem Looks.quiet (h : Looks s s') : Quiet s s' ∧ s'.insn = s.insn := by
  rw [h]; exact ⟨.same rfl rfl rfl, rfl⟩

theorem Looks.trans (h1 : Looks s s') (h2 : Looks s' s'') : Looks s s'' := by
  unfold Looks at *
  rw [h2, h1]

theorem skd022_looks {b : Bool} (h : checkSkd022 c s = (s', .ok b)) : Looks s s' := by
  unfold checkSkd022 at h
  rw [IM.get_bind, IM.bind_ok] at h
  obtain ⟨s1, ⟨o, e⟩, h1, h⟩ := h
  have h2 := try_image_same h1
  have h3 : s' = s1 := by
    cases o <;> dsimp only at h <;> rw [IM.pure_ok] at h <;> exact h.1
  subst h3
  unfold Looks
  rw [h2]

theorem bdm64_looks {a : Bool} {x : Nat} {i : Insn} {u : Unit} (h : handleBdm64 c a x i s = (s', .ok u)) : Looks s s' := by
  unfold handleBdm64 at h
  simp only [IM.ite_ok, IM.pure_ok, IM.get_bind, IM.bind_ok] at h
  rcases h with ⟨_, rfl, -⟩ | ⟨_, ⟨_, rfl, -⟩ | ⟨_, s1, r, h1, h⟩⟩
  · rfl
  · rfl
  · have h2 := try_image_same h1
    split at h
    · rw [IM.pure_ok] at h
      obtain ⟨rfl, -⟩ := h
      unfold Looks
      rw [h2]
    · rw [IM.modify_ok] at h
      subst h
      unfold Looks
      rw [h2]

theorem tsx_looks {ev : Event} {a b : Bool} {x : Nat} {i : Option Insn} (h : postponeTsx c ev a x i s = (s', .ok b)) : Looks s s' := by
  unfold postponeTsx at h
  rw [IM.ite_ok, IM.pure_ok] at h
  rcases h with ⟨_, rfl, -⟩ | ⟨_, h⟩
  · rfl
  · cases i with
    | none =>
      dsimp only at h
      rw [IM.get_bind, IM.pure_ok] at h
      rw [h.1]; rfl
    | some i =>
      dsimp only at h
      rw [IM.bind_ok] at h
      obtain ⟨s1, _, h1, h⟩ := h
      rw [IM.get_bind, IM.pure_ok] at h
      obtain ⟨rfl, -⟩ := h
      rw [IM.when_ok] at h1
      rcases h1 with ⟨_, h1⟩ | ⟨_, rfl⟩
      · exact bdm64_looks h1
      · rfl

theorem checkTrig_quiet {ev : Event} {t n x : Nat} {m : Bool} {fl : Flags} (hp : s.processEvent = true)
    (h : checkTrig ev t n m x s = (s', .ok fl)) : Quiet s s' ∧ s'.insn = s.insn := by
  unfold checkTrig at h
  rw [IM.ite_ok] at h
  rcases h with ⟨_, h⟩ | ⟨_, h⟩
  · rw [status_same h]; exact ⟨.refl _, rfl⟩
  · rw [IM.get_bind, IM.bind_ok] at h
    obtain ⟨s1, ⟨a, b⟩, h1, h⟩ := h
    have h2 : s' = s1 := by
      simp only [IM.ite_ok] at h
      rcases h with ⟨_, h⟩ | ⟨_, ⟨_, h⟩ | ⟨_, h⟩⟩ <;> exact status_same h
    subst h2
    unfold locateTrig at h1
    simp only [IM.get_bind, IM.ite_ok, IM.fail_ok, and_false, false_or, IM.modify_bind, IM.pure_ok] at h1
    rcases h1 with ⟨_, _, _, rfl, -⟩ | ⟨_, rfl, -⟩
    · refine ⟨⟨fun hg => ⟨hg.1, fun _ e he => ?_⟩, fun h' => ?_⟩, rfl⟩
      · cases he; simp
      · replace h' : s.processEvent = false := h'
        rw [hp] at h'; cases h'
    · exact ⟨.refl _, rfl⟩

theorem checkIp_tick {i : Option Insn} {fl : Flags} (h : checkIpEvent c i s = (s', .ok fl)) :
    Quiet s s' ∧ s'.insn = s.insn ∧
      (s.processEvent = true → ∀ e x, s.event = some e → e.data = .tick x → s' = s ∧ fl.eventPending = true) ∧
      (s'.processEvent = false → s'.q = s.q) := by
  unfold checkIpEvent at h
  rw [IM.bind_ok] at h
  obtain ⟨s1, o, h1, h⟩ := h
  obtain ⟨k1, k2, k3, k4, k5⟩ := pending_quiet h1
  have e1 : s1.insn = s.insn := by rw [k2]
  clear k2
  have fin : Quiet s1 s' ∧ s'.insn = s1.insn → (∀ x, ∀ e, o = some e → e.data ≠ .tick x) → Quiet s s' ∧ s'.insn = s.insn ∧
      (s.processEvent = true → ∀ e x, s.event = some e → e.data = .tick x → s' = s ∧ fl.eventPending = true) ∧
      (s'.processEvent = false → s'.q = s.q) := by
    rintro ⟨a1, a2⟩ a3
    refine ⟨k1.trans a1, a2.trans e1, fun hp e x he hd => ?_, fun hp => ?_⟩
    rotate_left
    · cases o with
      | none =>
        dsimp only at h
        rw [status_same h, k5 rfl]
      | some e =>
        have := (k3 e rfl).1
        rw [(a1.2 hp).1] at this
        cases this
    exfalso
    obtain rfl := k4 hp
    cases o with
    | none =>
      unfold eventPending at h1
      rw [IM.get_bind, if_pos hp, he] at h1
      cases h1
    | some e' =>
      have := (k3 e' rfl).2
      rw [he] at this
      cases this
      exact a3 x e rfl hd
  have keep : s' = s1 → Quiet s1 s' ∧ s'.insn = s1.insn := by rintro rfl; exact ⟨.refl _, rfl⟩
  rcases o with _ | ev
  · dsimp only at h
    exact fin (keep (status_same h)) (by intro x e he; cases he)
  dsimp only at h
  rw [IM.get_bind] at h
  obtain ⟨hp1, he1⟩ := k3 ev rfl
  have other : Quiet s1 s' ∧ s'.insn = s1.insn → (∀ x, ev.data ≠ .tick x) → Quiet s s' ∧ s'.insn = s.insn ∧
      (s.processEvent = true → ∀ e x, s.event = some e → e.data = .tick x → s' = s ∧ fl.eventPending = true) ∧
      (s'.processEvent = false → s'.q = s.q) :=
    fun a b => fin a (by intro x e he; cases he; exact b x)
  rcases hd : ev.data <;> simp only [hd] at h
  case tip | tnt => rw [IM.fail_ok] at h; exact h.elim
  case tick x =>
    have hs := status_same h
    rw [insnStatus_ok] at h
    refine ⟨?_, ?_, fun hp e y he hd => ⟨?_, by rw [h.2]⟩, fun hp => ?_⟩
    · rw [hs]; exact k1
    · rw [hs]; exact e1
    · rw [hs]; exact k4 hp
    · rw [hs, hp1] at hp; cases hp
  case asyncDisabled =>
    refine other ?_ (by simp [hd])
    simp only [IM.ite_ok] at h
    rcases h with ⟨_, h⟩ | ⟨_, ⟨_, h⟩ | ⟨_, h⟩⟩
    · exact keep (status_same h)
    · rw [IM.bind_ok] at h
      obtain ⟨s2, b, h2, h⟩ := h
      have l2 := skd022_looks h2
      rw [IM.ite_ok, IM.modify_bind] at h
      have l3 := l2.quiet
      rcases h with ⟨_, h⟩ | ⟨_, h⟩
      · rw [status_same h]
        have hp2 : s2.processEvent = true := by rw [l2]; exact hp1
        refine ⟨l3.1.trans ⟨fun hg => ⟨hg.1, fun _ e he => ?_⟩, fun h' => ?_⟩, l3.2⟩
        · cases he; simp
        · replace h' : s2.processEvent = false := h'
          rw [hp2] at h'; cases h'
      · rw [status_same h]; exact l3
    · exact keep (status_same h)
  case tsx =>
    refine other ?_ (by simp [hd])
    rw [IM.bind_ok] at h
    obtain ⟨s2, b, h2, h⟩ := h
    rw [status_same h]
    exact (tsx_looks h2).quiet
  case trig =>
    exact other (checkTrig_quiet hp1 h) (by simp [hd])
  case rsm | sipi =>
    rw [IM.ite_ok, IM.fail_ok] at h
    rcases h with ⟨_, h⟩ | ⟨_, h⟩
    · exact h.elim
    · exact other (keep (status_same h)) (by simp [hd])
  all_goals exact other (keep (status_same h)) (by simp [hd])

/-! ## Steps -/

/-- A tick event is pending that tells about the instruction `i`; `le` is the event that was shown last. -/
def TickPending (c : InsnCfg) (s : Idec) (le : Option Event) (li : Option Insn) : Prop :=
  c.tick = true ∧ s.processEvent = true ∧ ∃ e i, s.event = some e ∧ li = some i ∧ (ByTrace i ∨ i.ext.cls = .return) ∧
    e.data = .tick ((i.ip + i.size) % 2 ^ 64) ∧ TimedBy e s.q.lastTime ∧ ∀ e0, le = some e0 → e0.tsc ≠ e.tsc

/-- What we know between two calls. -/
structure TickInv (c : InsnCfg) (s : Idec) (fl : Flags) (le : Option Event) (li : Option Insn) : Prop where
  noTick : s.q.NoTick
  last : s.processEvent = false → ∀ e, le = some e → s.event = some e
  tick : s.Good ∨ (fl.eventPending = true ∧ TickPending c s le li)
  insn : ∀ i, s.insn = some i → li = some i

/-- After an instruction was executed. -/
theorem after_proceed {i : Insn} {o : Option Insn} {fl : Flags} {le : Option Event} (hg : s.Good)
    (hl : s.processEvent = false → ∀ e, le = some e → s.event = some e) (hi : ∀ j, s'.insn = some j → some i = some j)
    (hd : Did c i ((i.ip + i.size) % 2 ^ 64) s s') (h : checkIpEvent c o s' = (s'', .ok fl)) :
    TickInv c s'' fl le (some i) ∧ (ByTrace i → SameTime c s'') := by
  obtain ⟨k1, k2, k3, k4⟩ := checkIp_tick h
  rcases hd with ⟨hq, hst⟩ | ⟨ha, hn⟩
  · have hg2 := k1.1 (hq.1 hg)
    refine ⟨⟨hg2.1, fun hp e he => ?_, .inl hg2, fun j hj => hi j (k2 ▸ hj)⟩, fun ha ht hp => ?_⟩
    · obtain ⟨a1, a2⟩ := k1.2 hp
      obtain ⟨b1, b2⟩ := hq.2 a1
      rw [a2, b2]
      exact hl b1 e he
    · obtain ⟨a1, a2⟩ := k1.2 hp
      have := hst ha ht a1
      rw [a2, k4 hp]
      exact this
  · obtain ⟨a1, a2, a3, a4, e0, e, a5, a6, a7, a8, a9⟩ := hn hg
    obtain ⟨rfl, hfl⟩ := k3 a3 e _ a6 a7
    refine ⟨⟨a4, fun hp => ?_, .inr ⟨hfl, a1, a3, e, i, a6, rfl, ha, a7, a8, ?_⟩, fun j hj => hi j hj⟩, fun _ _ hp => ?_⟩
    · rw [a3] at hp; cases hp
    rotate_left
    · rw [a3] at hp; cases hp
    intro e1 h1
    have := hl a2 e1 h1
    rw [a5] at this
    cases this
    exact a9

theorem next_tick (henv : c.env.Ok) {fl : Flags} {o : NextOut} {le : Option Event} {li : Option Insn} (hp : FlowIdle c s f)
    (hi : TickInv c s fl le li) (hfl : fl.eventPending = false) (h : insnNext c s = (s', .ok o)) :
    TickInv c s' o.flags le (some o.insn) ∧
      (ByTrace o.insn → o.flags.eventPending = false → SameTime c s') := by
  have hg : s.Good := by
    rcases hi.tick with h | ⟨h, -⟩
    · exact h
    · rw [hfl] at h; cases h
  unfold insnNext at h
  rw [IM.get_bind, IM.ite_ok, IM.ite_ok] at h
  simp only [IM.fail_ok, and_false, or_false, false_or] at h
  obtain ⟨hen, h⟩ := h
  have hen : s.enabled = true := by simpa using hen
  rw [IM.bind_ok] at h
  obtain ⟨s1, i, h1, h⟩ := h
  obtain ⟨hc1, hat, sc, mp, hs1⟩ := fetch_flow henv hp.core hp.ip h1
  have hip : i.ip = s.ip := hat.ip.trans hp.ip
  have e1 : s1.ip = s.ip ∧ s1.insn = s.insn ∧ s1.enabled = s.enabled ∧ Quiet s s1 ∧ ∀ k, s1.boundTo k = s.boundTo k := by
    subst hs1; exact ⟨rfl, rfl, rfl, .same rfl rfl rfl, fun _ => rfl⟩
  clear hs1
  have m1 : FlowMid c s1 { f with cur := some i, bound := [] } i := by
    refine ⟨hc1.only (x := f.ip), hp.ip.trans e1.1.symm, rfl, .inr ⟨e1.2.1.trans hp.insn, fun k => ?_⟩, fun k => ?_, fun _ => ?_⟩
    · rw [e1.2.2.2.2]; exact hp.bound k
    · rw [e1.2.2.2.2, hp.bound k]; simp
    · rw [e1.1, ← hp.ip]; exact hat.ip.symm
  rw [IM.bind_ok] at h
  obtain ⟨s2, r, h2, h⟩ := h
  obtain ⟨k1, k2, k3⟩ := checkInsn_tick h2
  obtain ⟨f2, -, h3⟩ := checkInsn_flow m1 h2
  have q2 : Quiet s s2 := e1.2.2.2.1.trans k1
  have l2 : s2.processEvent = false → ∀ e, le = some e → s2.event = some e := fun hp e he => by
    rw [(q2.2 hp).2]; exact hi.last (q2.2 hp).1 e he
  rcases r with _ | fl
  · obtain ⟨a1, a2, a3⟩ := k3 rfl
    dsimp only at h
    rw [IM.bind_ok] at h
    obtain ⟨s3, _, h4, h⟩ := h
    rw [IM.bind_ok] at h
    obtain ⟨s4, fl, h5, h⟩ := h
    rw [IM.pure_ok] at h
    obtain ⟨rfl, rfl⟩ := h
    have hd := proceed_did (by rw [a2, e1.2.2.1, hen]) (by rw [a1, e1.1, hip]) h4
    have hi3 : ∀ j, s3.insn = some j → some i = some j := by
      obtain ⟨m2, q2, d2, i2, en2⟩ := h3
      have hen2 : s2.enabled = true := by rw [en2, e1.2.2.1, hen]
      obtain ⟨f3, x3⟩ := proceed_flow m2.core hen2 (m2.loc hen2) m2.cur q2 (d2 hen2) h4
      intro j hj
      rw [x3.insn, i2, e1.2.1, hp.insn] at hj
      cases hj
    obtain ⟨b1, b2⟩ := after_proceed (q2.1 hg) l2 hi3 hd h5
    exact ⟨b1, fun ha _ => b2 ha⟩
  · dsimp only at h
    rw [IM.pure_ok] at h
    obtain ⟨rfl, rfl⟩ := h
    have hg2 := q2.1 hg
    refine ⟨⟨hg2.1, l2, .inl hg2, fun j hj => ?_⟩, fun _ hf => ?_⟩
    · rw [e1.2.1, hp.insn] at k2
      rcases k2 with k2 | k2
      · rw [hj] at k2; cases k2
      · rw [hj] at k2; exact k2.symm
    · rw [h3.2.1] at hf; cases hf

theorem process_event {e : Event} (h : processEvent e s = (s', .ok ())) : s'.event = s.event := by
  unfold processEvent at h
  rw [IM.get_bind] at h
  have paging : ∀ {x : Nat}, processPaging x s = (s', .ok ()) → s'.event = s.event := by
    intro x h
    unfold processPaging at h
    rw [IM.mapped_bind] at h
    obtain ⟨rfl, -⟩ := IM.cache_run h
    rfl
  have vmcs : ∀ {x : Nat}, processVmcs e x s = (s', .ok ()) → s'.event = s.event := by
    intro x h
    unfold processVmcs at h
    rw [IM.mapped_bind, IM.bind_ok] at h
    obtain ⟨s2, _, h2, h⟩ := h
    obtain ⟨rfl, -⟩ := IM.cache_run h2
    rw [IM.when_ok, IM.modify_ok] at h
    rcases h with ⟨_, rfl⟩ | ⟨_, rfl⟩ <;> rfl
  rcases hdata : e.data <;>
    simp only [hdata, IM.pure_ok, IM.fail_ok, IM.ite_ok, and_false, false_or, or_false, processEnabled, processDisabled,
      processAsyncBranch, processOverflow, processExecMode, processTsx, processStop, mustBeAt, IM.get_bind, IM.modify_ok, IM.modify_bind] at h
  case enabled =>
    rcases h with ⟨h1, h2, rfl, -⟩ | ⟨h1, h2, h3, rfl⟩ <;> rfl
  case disabled =>
    rcases h with ⟨h1, h2, rfl, -⟩ | ⟨h1, h2, rfl⟩ <;> rfl
  case asyncDisabled =>
    rcases h with ⟨h0, ⟨h1, h2, rfl, -⟩ | ⟨h1, h2, rfl⟩⟩ <;> rfl
  case asyncBranch =>
    obtain ⟨h0, h1, h2, rfl⟩ := h
    rfl
  case overflow =>
    obtain ⟨h0, rfl⟩ := h
    by_cases hs : e.ipSuppressed = true
    · simp only [hs, if_true]
    · simp only [hs, if_false, Bool.false_eq_true]
      rfl
  case execMode md x =>
    obtain ⟨h0, rfl⟩ := h
    rfl
  case tsx =>
    subst h
    rfl
  case stop =>
    obtain ⟨h0, h1, rfl, -⟩ := h
    rfl
  case rsm | sipi =>
    obtain ⟨h0, rfl, -⟩ := h
    rfl
  case mwait =>
    obtain ⟨h0, rfl, -⟩ := h
    rfl
  case pwre | pwrx | ptwrite | tick | cbr | mnt | iret | vmentry | uiret =>
    obtain ⟨rfl, -⟩ := h
    rfl
  case exstop | iflags | interrupt | smi | init | vmexit | shutdown | uintr =>
    rcases h with ⟨h0, h1, rfl⟩ | ⟨h0, rfl, -⟩ <;> rfl
  case trig =>
    rcases h with ⟨h0, rfl, -⟩ | ⟨h0, h1, h2, rfl⟩ <;> rfl
  case paging cr3 nr => exact paging h
  case asyncPaging cr3 nr x => exact paging h.2
  case vmcs v => exact vmcs h
  case asyncVmcs v x => exact vmcs h.2

theorem event_tick (henv : c.env.Ok) {fl : Flags} {o : EventOut} {le : Option Event} {li : Option Insn} (hp : FlowPost c s f)
    (hi : TickInv c s fl le li) (h : insnEvent c s = (s', .ok o)) : TickInv c s' o.flags (some o.event) li := by
  have hcore : Core c s f := by cases hp with
    | between e h => exact h.core
    | belongs e k l i h => exact h
    | disable e ip i h => exact h
  unfold insnEvent at h
  rw [IM.get_bind, IM.ite_ok, IM.fail_ok] at h
  rcases h with ⟨-, h⟩ | ⟨h0, h⟩
  · exact h.elim
  have h0 : s.processEvent = true := by simpa using h0
  rcases he : s.event with _ | ev <;> simp only [he] at h
  · rw [IM.undef_ok] at h; exact h.elim
  rw [IM.bind_ok] at h
  obtain ⟨s1, _, h3, h⟩ := h
  rw [IM.modify_bind] at h
  have p1 := processEvent_flow hcore h3
  have e1 : s1.event = some ev := by rw [process_event h3, he]
  have hq : s1.q = s.q := p1.q
  revert h
  generalize hs2 : ({ s1 with processEvent := false } : Idec) = s2
  intro h
  have b1 : s2.q = s.q ∧ s2.processEvent = false ∧ s2.event = some ev ∧ s2.insn = s.insn ∧ s2.enabled = s1.enabled ∧ s2.ip = s1.ip := by
    rw [← hs2]; exact ⟨hq, rfl, e1, p1.insn, rfl, rfl⟩
  have hg2 : s2.Good := ⟨by rw [b1.1]; exact hi.noTick, fun h => by rw [b1.2.1] at h; cases h⟩
  have l2 : s2.processEvent = false → ∀ e, some ev = some e → s2.event = some e := fun _ e he => by rw [b1.2.2.1, he]
  rcases hin : s.insn with _ | i <;> simp only [hin] at h
  · rw [IM.bind_ok] at h
    obtain ⟨s3, fl', h4, h⟩ := h
    rw [IM.pure_ok] at h
    obtain ⟨rfl, rfl⟩ := h
    obtain ⟨k1, k2, -, -⟩ := checkIp_tick h4
    have hg3 := k1.1 hg2
    refine ⟨hg3.1, fun hp e he => ?_, .inl hg3, fun j hj => ?_⟩
    · rw [(k1.2 hp).2]; exact l2 (k1.2 hp).1 e he
    · rw [k2, b1.2.2.2.1, hin] at hj; cases hj
  · have hli := hi.insn i hin
    subst hli
    have hloc : s1.enabled = true → s1.ip = i.ip := by
      intro hen
      cases hp with
      | between e h => rw [h.insn] at hin; cases hin
      | belongs e k l i' a1 a2 a3 a4 a5 a6 a7 a8 a9 a10 =>
        rw [hin] at a4
        cases a4
        have := (a1.pending a5).2
        rw [he] at this
        cases this
        obtain ⟨c1, c2⟩ := p1.kind k l a6
        rw [c1]
        exact a10 (by rw [← c2]; exact hen)
      | disable e ip i' a1 a2 a3 a4 =>
        have := (a1.pending a3).2
        rw [he] at this
        cases this
        rw [(p1.disabled ip a4).2] at hen
        cases hen
    rw [IM.bind_ok] at h
    obtain ⟨s3, r, h4, h⟩ := h
    obtain ⟨k1, k2, k3⟩ := checkInsn_tick h4
    have hg3 := k1.1 hg2
    have l3 : s3.processEvent = false → ∀ e, some ev = some e → s3.event = some e := fun hp e he => by
      rw [(k1.2 hp).2]; exact l2 (k1.2 hp).1 e he
    rcases r with _ | fl'
    · obtain ⟨a1, a2, a3⟩ := k3 rfl
      dsimp only at h
      rw [IM.bind_ok] at h
      obtain ⟨s4, _, h5, h⟩ := h
      rw [IM.bind_ok] at h
      obtain ⟨s5, fl', h6, h⟩ := h
      rw [IM.pure_ok] at h
      obtain ⟨rfl, rfl⟩ := h
      unfold proceedPostponed at h5
      rw [IM.get_bind, a3, b1.2.2.2.1, hin] at h5
      dsimp only at h5
      rw [IM.ite_ok] at h5
      rcases h5 with ⟨h7, h5⟩ | ⟨h7, h5⟩
      · rw [IM.modify_ok] at h5
        subst h5
        obtain ⟨m1, m2, -, -⟩ := checkIp_tick h6
        have q4 : Quiet s3 (clearPostponed s3) := .same rfl rfl rfl
        have q5 := q4.trans m1
        have hg5 := q5.1 hg3
        refine ⟨hg5.1, fun hp e he => ?_, .inl hg5, fun j hj => ?_⟩
        · rw [(q5.2 hp).2]; exact l3 (q5.2 hp).1 e he
        · rw [m2] at hj; cases hj
      · rw [IM.bind_ok] at h5
        obtain ⟨s6, _, h8, h5⟩ := h5
        rw [IM.modify_ok] at h5
        subst h5
        have hen3 : s3.enabled = true := by simpa using h7
        have hd := proceed_did hen3 (by rw [a1, b1.2.2.2.2.2]; exact hloc (by rw [← b1.2.2.2.2.1, ← a2]; exact hen3)) h8
        have hd' : Did c i ((i.ip + i.size) % 2 ^ 64) s3 (clearPostponed s6) := by
          rcases hd with ⟨d1, d2⟩ | ⟨d1, d2⟩
          · exact .inl ⟨d1.trans (.same rfl rfl rfl), d2⟩
          · exact .inr ⟨d1, d2⟩
        exact (after_proceed hg3 l3 (fun j hj => by cases hj) hd' h6).1
    · dsimp only at h
      rw [IM.pure_ok] at h
      obtain ⟨rfl, rfl⟩ := h
      refine ⟨hg3.1, l3, .inl hg3, fun j hj => ?_⟩
      rw [b1.2.2.2.1, hin] at k2
      rcases k2 with k2 | k2 <;> rw [hj] at k2 <;> exact k2.symm

theorem follows_tick (henv : c.env.Ok) {fl fl' : Flags} {out : List Seen} (h : Follows c s fl out s' fl') :
    ∀ f le li, FlowOut c s f fl → TickInv c s fl le li →
      ∃ f', FlowOut c s' f' fl' ∧ TickInv c s' fl' (lastEvent le out) (lastInsn li out) := by
  induction h with
  | done s fl => exact fun f le li ho hi => ⟨f, ho, hi⟩
  | next hp hn _ ih =>
    intro f le li ho hi
    obtain ⟨f1, t1, o1⟩ := next_flow henv (ho.idle hp) hn
    exact ih f1 _ _ o1 (next_tick henv (ho.idle hp) hi hp hn).1
  | event hp hn _ ih =>
    intro f le li ho hi
    obtain ⟨f1, t1, o1⟩ := event_flow henv (ho.pending hp) hn
    exact ih f1 _ _ o1 (event_tick henv (ho.pending hp) hi hn)
  | image hw _ ih =>
    intro f le li ho hi
    obtain ⟨t1, o1⟩ := image_flow ho hw
    exact ih _ _ _ o1 ⟨hi.1, hi.2, hi.3, hi.4⟩

theorem start_tick {o : SyncCall} {fl : Flags} (h : o.insn c s = (s', .ok fl)) : TickInv c s' fl none none := by
  obtain ⟨q, fq, ip, h1, h2⟩ := sync_insn h
  obtain ⟨k1, k2, -, -⟩ := checkIp_tick h2
  have hg := k1.1 ⟨sync_noTick h1, fun h => by cases h⟩
  refine ⟨hg.1, fun _ e he => ?_, .inl hg, fun i hi => ?_⟩
  · cases he
  · rw [k2] at hi; cases hi

end Ipt
