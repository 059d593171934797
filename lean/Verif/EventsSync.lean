import Verif.EventsNext
import Verif.QueryInv

/-! Helper lemmas: the event decoder follows `Spec.trace`.  Synchronization, and sequences of `pt_evt_next`. -/

namespace Ipt.Events

open Ipt Ipt.Spec

variable {c : EvtCfg} {fin : Err} {s : Evd} {t : List Event × Bool}

/-- Reading packets comes to an end. -/
theorem left_exists (hc : CbProgress c.pkt) : ∀ (n : Nat) (d : PktDec), mu c.pkt d < n → ∃ ps fin, Left c fin d ps := by
  intro n
  induction n with
  | zero => intro d h; omega
  | succ n ih =>
    intro d h
    rcases hn : pktDecNext c.pkt d with ⟨d1, ⟨p, size⟩ | e | _⟩
    · obtain ⟨ps, fin, d', d'', h1, h2⟩ := ih d1 (by have := next_ok hc hn; omega)
      exact ⟨p :: ps, fin, d', d'', .cons _ _ _ _ _ _ hn h1, h2⟩
    · exact ⟨[], e, d, d1, .nil _, hn⟩
    · exact absurd hn next_safe

/-- After `pt_evt_reset`. -/
structure New (s : Evd) : Prop where
  ip : s.ip = {}
  tm : s.tm = {}
  mode : s.modeValid = false
  en : s.enabled = false
  q : s.q.Holds []
  ev : s.event = none
  bd : s.bound = false

theorem new_reset (s : Evd) : New (evtReset s) := ⟨rfl, rfl, rfl, rfl, init_holds, rfl, rfl⟩

/-- At the start of the packets of a trace. -/
def AtTrace (c : EvtCfg) (d : Evd) (P : Nat → Prop) : Prop :=
  ∃ off k rest fin, P off ∧ Left c fin ⟨some off, some off⟩ (List.replicate k .pad ++ .psb :: rest) ∧
    Todo c fin d (trace c fin {} (List.replicate k .pad ++ .psb :: rest)) ∧ d.event = none ∧ ∃ l, d.q.Holds l

theorem start_trace {o : Nat} {P : Nat → Prop} (hc : CbProgress c.pkt) (ho : P o) (h : New s)
    (hp : s.pd = ⟨some o, some o⟩) : EM.wlp (evtStart c) (fun _ s' => AtTrace c s' P) (fun _ _ => True) s := by
  obtain ⟨ps, fin, hl⟩ := left_exists hc _ s.pd (Nat.lt_succ_self _)
  unfold evtStart
  rw [EM.wlp_bind, EM.wlp_modify, EM.wlp_bind]
  refine wlp_fetch_left (s := { s with status := none }) hl ?_ ?_
  · intro pd p size k rest hk _ hl1
    rw [EM.wlp_bind, EM.wlp_get]
    dsimp only
    split
    · refine EM.wlp_mono (decodePsb_go (v := {}) (rest := rest) (fin := fin)
        (t := trace c fin {} (.psb :: rest)) ?_ ?_) ?_ (fun _ _ _ => trivial)
      · refine ⟨⟨⟨h.ip, h.tm, h.en, ?_, h.q, by simp, rfl, rfl, rfl⟩, ord_nil, hl1, h.ev⟩, h.bd⟩
        dsimp only
        rw [h.mode]; rfl
      · rw [trace_cons rfl]
        rfl
      · rintro _ s' ⟨v, l, rest', k1, k2, k3⟩
        refine ⟨o, k, rest, fin, ho, ?_, ?_, k2, _, k1.q⟩
        · rw [← hp, ← hk]; exact hl
        · rw [trace_pads rfl]
          exact .inr (.inr ⟨v, l, rest', k1, k3⟩)
    · exact (EM.wlp_fail _ _ _ _).2 trivial
    · exact (EM.wlp_fail _ _ _ _).2 trivial
  · intro pd k _
    rw [EM.wlp_bind, EM.wlp_get]
    exact (EM.wlp_fail _ _ _ _).2 trivial

theorem syncForward_trace (hc : CbProgress c.pkt) :
    EM.wlp (evtSyncForward c) (fun _ s' => AtTrace c s' fun _ => True) (fun _ _ => True) s := by
  unfold evtSyncForward
  rw [EM.wlp_bind, EM.wlp_modify, EM.wlp_bind]
  exact wlp_onPkt_at forward_at fun o => start_trace hc trivial ⟨rfl, rfl, rfl, rfl, init_holds, rfl, rfl⟩ rfl

theorem syncSet_trace {offset : Nat} (hc : CbProgress c.pkt) :
    EM.wlp (evtSyncSet c offset) (fun _ s' => AtTrace c s' fun o => o = offset) (fun _ _ => True) s := by
  unfold evtSyncSet
  rw [EM.wlp_bind, EM.wlp_modify, EM.wlp_bind]
  unfold EM.wlp onPkt
  dsimp only
  rcases hx : pktSyncSet c.pkt (evtReset s).pd offset with ⟨d, _ | _ | _⟩
  · have := set_at _ _ hx
    subst this
    exact start_trace hc rfl ⟨rfl, rfl, rfl, rfl, init_holds, rfl, rfl⟩ rfl
  · trivial
  · trivial

theorem backInner_trace {sync : Nat} : ∀ (n : Nat) (s : Evd), New s →
    EM.wlp (evtSyncBackInner c sync n) (fun _ s' => New s' ∧ ∃ o, s'.pd = ⟨some o, some o⟩) (fun _ _ => True) s := by
  intro n
  induction n with
  | zero => intro _ _; exact wlp_Un
  | succ n ih =>
    intro s h
    unfold evtSyncBackInner
    rw [EM.wlp_bind]
    refine wlp_onPkt_at backward_at fun o => ?_
    rw [EM.wlp_bind, EM.wlp_get]
    have h' : New { s with pd := ⟨some o, some o⟩ } := ⟨h.ip, h.tm, h.mode, h.en, h.q, h.ev, h.bd⟩
    exact EM.wlp_ite (fun _ => ih _ h') (fun _ => (EM.wlp_pure _ _ _ _).2 ⟨h', o, rfl⟩)

theorem backLoop_trace {start : Nat} (hc : CbProgress c.pkt) : ∀ (n sync : Nat) (s : Evd),
    EM.wlp (evtSyncBackLoop c start n sync) (fun _ s' => AtTrace c s' fun _ => True) (fun _ _ => True) s := by
  intro n
  induction n with
  | zero => intro _ _; exact wlp_Un
  | succ n ih =>
    intro sync s
    unfold evtSyncBackLoop
    rw [EM.wlp_bind, EM.wlp_modify, EM.wlp_bind]
    refine EM.wlp_mono (backInner_trace _ _ (new_reset s)) ?_ (fun _ _ h => h)
    rintro sync' s1 ⟨h1, o, ho⟩
    rw [EM.wlp_bind]
    have h2 := start_trace (P := fun _ => True) hc trivial h1 ho
    unfold EM.wlp tryStart
    revert h2
    unfold EM.wlp
    rcases evtStart c s1 with ⟨s2, _ | e | _⟩
    · intro h2
      refine (?_ : EM.wlp _ _ _ _)
      rw [EM.wlp_bind, EM.wlp_get]
      refine EM.wlp_ite (fun _ => ?_) (fun _ => ih _ _)
      exact h2
    · intro _
      refine (?_ : EM.wlp _ _ _ _)
      rw [EM.wlp_bind, EM.wlp_get]
      refine EM.wlp_ite (fun _ => ?_) (fun _ => ih _ _)
      trivial
    · intro _; trivial

theorem syncBackward_trace (hc : CbProgress c.pkt) :
    EM.wlp (evtSyncBackward c) (fun _ s' => AtTrace c s' fun _ => True) (fun _ _ => True) s := by
  unfold evtSyncBackward
  rw [EM.wlp_bind, EM.wlp_get]
  exact backLoop_trace hc _ _ _

theorem run_sync_trace {s' : Evd} {o : EvtCall} (hc : CbProgress c.pkt) (h : o.run c s = (s', .ok none)) :
    AtTrace c s' fun off => ∀ x, o = .syncSet x → off = x := by
  have fin : ∀ (m : EM Unit) (P : Nat → Prop), EM.wlp m (fun _ s' => AtTrace c s' P) (fun _ _ => True) s →
      ((m s).1, (m s).2.bind fun _ => Res.ok (none : Option Event)) = (s', .ok none) → AtTrace c s' P := by
    intro m P hm h
    unfold EM.wlp at hm
    revert hm h
    rcases m s with ⟨s1, _ | e | _⟩
    · intro h1 h2; injection h2 with h2; rw [← h2]; exact h1
    · intro _ h2; simp [Res.bind] at h2
    · intro _ h2; simp [Res.bind] at h2
  have imp : ∀ {P Q : Nat → Prop}, (∀ o, P o → Q o) → AtTrace c s' P → AtTrace c s' Q := by
    rintro P Q hi ⟨o, k, rest, fin, h1, h2⟩
    exact ⟨o, k, rest, fin, hi o h1, h2⟩
  cases o with
  | syncForward => exact imp (by simp) (fin _ _ (syncForward_trace hc) h)
  | syncBackward => exact imp (by simp) (fin _ _ (syncBackward_trace hc) h)
  | syncSet off => exact imp (by intro o ho x hx; injection hx with hx; rw [ho, hx]) (fin _ _ (syncSet_trace hc) h)
  | next =>
    unfold EvtCall.run at h
    revert h
    rcases hx : evtNext c s with ⟨s1, a | a | _⟩ <;> intro h <;> simp [hx, Res.bind] at h

theorem run_todo (hu : Usable c) (es : List Event) : ∀ (s : Evd) (b : Bool), Todo c fin s (es, b) → s.event = none →
    (∃ l, s.q.Holds l) → ∃ x, Fails c s es x ∧ (b = true → x = fin) := by
  induction es with
  | nil =>
    intro s b h hev hq
    have h1 := next_go hu.cb h hev
    have h2 := evtNext_pres hu.sane s (top_wf c s hq)
    unfold EM.wlp at h1
    unfold Fails
    rw [show nexts (([] : List Event).length + 1) = [EvtCall.next] from rfl]
    unfold evtResults
    revert h1 h2
    rcases hx : evtNext c s with ⟨s1, a | x | _⟩
    · rintro ⟨es, h3, _⟩ _; cases h3
    · rintro h3 _
      exact ⟨x, by rw [next_run_err hx]; rfl, h3.2⟩
    · intro _ h3; exact absurd rfl h3.1
  | cons e es ih =>
    intro s b h hev hq
    have h1 := next_go hu.cb h hev
    have h2 := evtNext_pres hu.sane s (top_wf c s hq)
    unfold EM.wlp at h1
    revert h1 h2
    rcases hx : evtNext c s with ⟨s1, a | x | _⟩
    · rintro ⟨es', h3, h4, h5⟩ h6
      injection h3 with h7 h8
      subst h7 h8
      obtain ⟨x, h9, h10⟩ := ih s1 b h4 h5 h6.2.1
      refine ⟨x, ?_, h10⟩
      unfold Fails at h9 ⊢
      rw [show nexts ((e :: es).length + 1) = .next :: nexts (es.length + 1) from rfl]
      unfold evtResults
      rw [next_run hx, h9]
      rfl
    · rintro h3 _
      exact absurd h3.1 (by simp)
    · intro _ h3; exact absurd rfl h3.1

end Ipt.Events
