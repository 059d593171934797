import Verif.QueryDecoder
import Verif.EventDecoderTnt
import Verif.Props.Psb

/-! Helper lemmas: synchronization of the query decoder terminates. -/

set_option linter.unusedSimpArgs false

namespace Ipt

open Spec

variable {c : EvtCfg} {s : Evd}

/-! ## The event at an OVF is not a status update -/

/-- The current event is not a status update. -/
def NoStat (s : Evd) : Prop := s.event = some .alone ∧ s.q.standalone.statusUpdate = false

/-- If the function reports that it created an event then it is not a status update, otherwise there is none. -/
def NSQ (b : Bool) (s : Evd) : Prop := if b = true then s.event = none else NoStat s

/-- From a state without event, `m` does not deliver a status update. -/
def NS (m : EM Bool) : Prop := ∀ s, s.event = none → EM.wlp m NSQ (fun _ _ => True) s

theorem alone_ns {e : Event} (he : e.statusUpdate = false) {Q : Unit → Evd → Prop}
    (hq : ∀ s', NoStat s' → Q () s') : EM.wlp (alone e) Q (fun _ _ => True) s := by
  unfold alone
  rw [EM.wlp_modify]
  exact hq _ ⟨rfl, he⟩

theorem updEv_ns {f : Evd → Event → Event} {Q : Unit → Evd → Prop} (h : NoStat s)
    (hf : ∀ s e, (f s e).statusUpdate = e.statusUpdate)
    (hq : ∀ s', NoStat s' → Q () s') : EM.wlp (updEv .alone f) Q (fun _ _ => True) s := by
  unfold updEv
  rw [EM.wlp_modify]
  exact hq _ ⟨h.1, (hf _ _).trans h.2⟩

theorem withIp_stat (e : Event) (l : LastIp) : (e.withIp l).statusUpdate = e.statusUpdate := by
  unfold Event.withIp; split <;> rfl

theorem timeEv_ns {Q : Bool → Evd → Prop} (h : NoStat s) (hq : ∀ b s', NoStat s' → Q b s') :
    EM.wlp (timeEv .alone) Q (fun _ _ => True) s := by
  unfold timeEv
  rw [EM.wlp_bind]
  refine updEv_ns h (fun _ _ => rfl) fun s' h => ?_
  rw [EM.wlp_pure]
  exact hq _ _ h

theorem fetchLoop_ns : ∀ n s, NoStat s → EM.wlp (fetchLoop c n) (fun _ s' => NoStat s') (fun _ _ => True) s := by
  intro n
  induction n with
  | zero => intro s _; exact (EM.wlp_undef _ _ _).2 trivial
  | succ n ih =>
    intro s hs
    unfold EM.wlp fetchLoop
    rcases pktDecNext c.pkt s.pd with ⟨pd, ⟨p, size⟩ | e | _⟩
    · dsimp only
      by_cases hp : p = .pad
      · rw [if_pos hp]
        exact ih { s with pd := pd, packet := p, size := size } hs
      · rw [if_neg hp]; exact hs
    · exact hs
    · trivial

theorem fetchDone_ns (h : NoStat s) : EM.wlp (fetchDone c) NSQ (fun _ _ => True) s := by
  unfold fetchDone
  rw [EM.wlp_bind]
  refine EM.wlp_mono (fetchLoop_ns _ s h) (fun _ s' h => ?_) (fun _ _ h => h)
  rw [EM.wlp_pure]; exact h

theorem recoverOvfAtIp_ns {d : PktDec} {p : Packet} {size ipc ip : Nat} {tm : Timing} {Q : Bool → Evd → Prop}
    (hq : ∀ s', NoStat s' → Q false s') : EM.wlp (recoverOvfAtIp d p size ipc ip tm) Q (fun _ _ => True) s := by
  unfold recoverOvfAtIp
  rw [EM.wlp_bind]
  apply wlp_true
  intro _ s
  rw [EM.wlp_bind]
  refine alone_ns rfl fun s h => ?_
  rw [EM.wlp_bind]
  refine timeEv_ns h fun _ s h => ?_
  rw [EM.wlp_bind, EM.wlp_modify, EM.wlp_bind]
  refine updEv_ns (s := { s with pd := d, packet := p, size := size, tm := tm, enabled := true }) h
    (fun _ _ => withIp_stat _ _) fun s' h => ?_
  rw [EM.wlp_pure]
  exact hq _ h

theorem recoverOvfDisabled_ns (d : PktDec) (p : Packet) (size : Nat) (tm : Timing) :
    NS (recoverOvfDisabled c d p size tm) := by
  intro s _
  unfold recoverOvfDisabled
  rw [EM.wlp_bind]
  refine alone_ns rfl fun s h => ?_
  rw [EM.wlp_bind]
  refine timeEv_ns h fun _ s h => ?_
  rw [EM.wlp_bind, EM.wlp_modify]
  exact fetchDone_ns (s := { s with pd := d, packet := p, size := size, tm := tm }) h

theorem aloneDone_ns {e : Event} (he : e.statusUpdate = false) : NS (aloneDone c e) := by
  intro s _
  unfold aloneDone
  rw [EM.wlp_bind]
  refine alone_ns he fun s h => ?_
  rw [EM.wlp_bind]
  exact timeEv_ns h fun _ s h => fetchDone_ns h

theorem fail_ns (e : Err) : NS (EM.fail e) := fun _ _ => fail_good

theorem undef_ns : NS EM.undef := fun _ _ => by rw [EM.wlp_undef]; trivial

theorem more_ns : NS (pure true) := fun s h => by rw [EM.wlp_pure]; exact h

theorem recoverAtOffset_ns (off : Nat) : NS (recoverOvfAtOffset c off) := by
  unfold recoverOvfAtOffset
  split
  · exact fail_ns _
  · intro s _
    rw [EM.wlp_bind]
    apply wlp_true
    intro _ s
    unfold aloneDone
    rw [EM.wlp_bind]
    refine alone_ns rfl fun s h => ?_
    rw [EM.wlp_bind]
    exact timeEv_ns h fun _ s h => fetchDone_ns h

theorem skd010Fup_ns (d : PktDec) (size ipc ip : Nat) (tm : Timing) (tsx : Option (Bool × Bool)) :
    NS (skd010Fup d size ipc ip tm tsx) := by
  intro s _
  unfold skd010Fup
  rw [EM.wlp_bind, EM.wlp_modify]
  cases tsx with
  | none => exact recoverOvfAtIp_ns fun s h => h
  | some p =>
    rw [EM.wlp_bind]
    apply wlp_true
    intro _ s
    exact recoverOvfAtIp_ns fun s h => h

theorem skd010Loop_ns : ∀ n d tm tsx, NS (skd010Loop c n d tm tsx) := by
  intro n
  induction n with
  | zero => intro _ _ _; exact undef_ns
  | succ n ih =>
    intro d tm tsx
    unfold skd010Loop
    repeat' split
    all_goals first
      | exact ih _ _ _
      | exact more_ns
      | exact fail_ns _
      | exact undef_ns
      | exact recoverOvfDisabled_ns _ _ _ _
      | exact fun _ _ => recoverOvfAtIp_ns fun s h => h
      | exact skd010Fup_ns _ _ _ _ _ _
      | skip
    intro s _
    rw [EM.wlp_bind]
    exact recoverOvfAtIp_ns fun s h => fetchDone_ns h

theorem apl11Loop_ns : ∀ n d tm, NS (apl11Loop c n d tm) := by
  intro n
  induction n with
  | zero => intro _ _; exact undef_ns
  | succ n ih =>
    intro d tm
    unfold apl11Loop
    repeat' split
    all_goals first
      | exact ih _ _
      | exact more_ns
      | exact fail_ns _
      | exact undef_ns
      | exact recoverOvfDisabled_ns _ _ _ _

theorem apl12Loop_ns (off : Nat) : ∀ n d, NS (apl12Loop c off n d) := by
  intro n
  induction n with
  | zero => intro _; exact undef_ns
  | succ n ih =>
    intro d
    unfold apl12Loop
    repeat' split
    all_goals first
      | exact ih _
      | exact more_ns
      | exact fail_ns _
      | exact undef_ns
      | exact recoverAtOffset_ns _

theorem orElse_ns {f g : EM Bool} (h1 : NS f) (h2 : NS g) : NS (orElse f g) := by
  intro s hs
  unfold orElse
  rw [EM.wlp_bind]
  refine EM.wlp_mono (h1 s hs) (fun b s' h => ?_) (fun _ _ h => h)
  cases b with
  | true => exact h2 s' h
  | false => exact h

theorem ovfFup_ns : NS ovfFup := by
  intro s hs
  unfold ovfFup
  rw [EM.wlp_bind]
  have h1 : EM.wlp (enqSlot evbFupBound) (fun _ s' => s'.event = none) (fun _ _ => True) s := by
    unfold EM.wlp enqSlot
    rcases s.q.enqueue evbFupBound with ⟨q, _ | i⟩
    · trivial
    · exact hs
  refine EM.wlp_mono h1 (fun i s' hs => ?_) (fun _ _ h => h)
  unfold updEv
  rw [EM.wlp_bind, EM.wlp_modify, EM.wlp_pure]
  unfold NSQ
  rw [if_pos rfl, setEv_event]; exact hs

theorem ovfEvent_ns : NS (ovfEvent c) := by
  intro s hs
  unfold ovfEvent
  rw [EM.wlp_bind, EM.wlp_modify, EM.wlp_bind, EM.wlp_get]
  have hr : (ovfReset c s).event = none := rfl
  generalize ovfReset c s = s1 at hr ⊢
  split
  · exact undef_ns _ hr
  · refine orElse_ns ?_ ovfFup_ns _ hr
    split
    · intro s _
      unfold handleApl12
      rw [EM.wlp_bind, EM.wlp_get]
      dsimp only
      split
      · exact fail_good
      · exact apl12Loop_ns _ _ _ _ ‹_›
    · exact more_ns
  · unfold ovfNoFup
    rw [EM.wlp_bind, EM.wlp_get]
    refine orElse_ns ?_ ?_ _ hr
    · split
      · exact skd010Loop_ns _ _ _ _
      · exact more_ns
    · intro s hs
      rw [EM.wlp_bind, EM.wlp_get]
      refine orElse_ns ?_ ?_ _ hs
      · split
        · exact apl11Loop_ns _ _ _
        · exact more_ns
      · split
        · exact undef_ns
        · exact aloneDone_ns rfl
        · exact aloneDone_ns rfl
        · exact fail_ns _

/-! ## The loop of `pt_qry_start` -/

theorem hdr_empty (hq : s.q.Holds []) : decodePsbend s = (s, .ok true) := by
  rcases deq_cases hq evbPsbend with ⟨_, h⟩ | ⟨j, e, q', h1, h2, _⟩
  · unfold decodePsbend
    rw [EM.bind_def, h]
    rfl
  · simp at h2

theorem hdr_empty_ns (hq : s.q.Holds []) (hp : s.packet = .psbend ∨ s.packet = .ovf) (he : s.event = none) :
    EM.wlp (decodePacket c) NSQ (fun _ _ => True) s := by
  rcases hp with hp | hp
  · refine EM.wlp_of_eq (m' := pure true) ?_ (more_ns s he)
    unfold decodePacket decodeOther
    rw [hp]; dsimp only
    rw [hdr_empty hq]; rfl
  · refine EM.wlp_of_eq (m' := ovfEvent c) ?_ (ovfEvent_ns s he)
    unfold decodePacket decodeOther
    rw [hp]; dsimp only
    unfold decodeOvf orElse
    rw [EM.bind_def, hdr_empty hq]
    dsimp only
    rw [if_pos rfl]

/-- Once the events of PSB+ are delivered, the next event is not a status update or the decoder has moved. -/
theorem next_empty (h : c.Sane) (hq : s.q.Holds []) (hp : s.packet = .psbend ∨ s.packet = .ovf) (he : s.event = none)
    {s' : Evd} {e : Event} (hn : evtNext c s = (s', .ok e)) : e.statusUpdate = false ∨ s'.pd.pos ≠ s.pd.pos := by
  have hns := hdr_empty_ns (c := c) hq hp he
  have hpr := decodePacket_pres (k := mu c.pkt s.pd) h s ⟨⟨[], hq⟩, Nat.le_refl _⟩
  unfold evtNext at hn
  rw [EM.bind_def] at hn
  rw [show c.fuel = (c.pkt.mem.length + 3) + 1 from rfl] at hn
  unfold fetchEventLoop at hn
  rw [EM.bind_def] at hn
  unfold EM.wlp at hns
  revert hns hpr hn
  rcases decodePacket c s with ⟨s1, b | x | _⟩
  · intro hns hpr hn
    dsimp only at hns hpr hn
    cases b with
    | false =>
      left
      rw [if_neg (by simp)] at hn
      simp only [EM.pure_def, EM.bind_def, EM.get, EM.modify] at hn
      obtain ⟨h1, h2⟩ := hns
      rw [h1] at hn
      simp only [EM.pure_def, Prod.mk.injEq, Res.ok.injEq] at hn
      rw [← hn.2]; exact h2
    | true =>
      right
      have h1 : s1.event = none := hns
      rw [if_pos rfl] at hn
      simp only [EM.bind_def, EM.get, EM.modify, h1] at hn
      rw [if_neg (by simp)] at hn
      simp only [EM.bind_def, EM.modify] at hn
      obtain ⟨pd, p, size, st, e1, e2⟩ := fetchPacket_spec h.cb { s1 with bound := false }
      rw [e1] at hn
      dsimp only at hn e2
      rcases e2 with e2 | e2
      · have hs := fetchEventLoop_safe (k := mu c.pkt pd) h (c.pkt.mem.length + 3)
          { s1 with pd := pd, packet := p, size := size, status := st, bound := false } ⟨hpr.2.1, Nat.le_refl _⟩
          (.inl (by dsimp only; have := mu_le c.pkt s1.pd; omega))
        revert hn hs
        rcases fetchEventLoop c (c.pkt.mem.length + 3) _ with ⟨s2, b | x | _⟩
        · intro hn hs
          simp only at hn hs
          intro hpos
          have hm : mu c.pkt s2.pd ≤ mu c.pkt pd := hs.2.2
          have hm2 : mu c.pkt s1.pd ≤ mu c.pkt s.pd := hpr.2.2
          have hpd : s'.pd = s2.pd := by
            revert hn
            cases s2.event with
            | none => intro hn; simp [EM.fail] at hn
            | some p => intro hn; simp only [EM.pure_def, Prod.mk.injEq] at hn; rw [← hn.1]
          have : mu c.pkt s'.pd = mu c.pkt s.pd := by unfold mu; rw [hpos]
          rw [hpd] at this
          omega
        · intro hn _; simp at hn
        · intro hn _; simp at hn
      · obtain ⟨_, h5, _, h7⟩ := e2
        obtain ⟨x, hx⟩ := Option.isSome_iff_exists.1 h7
        rw [h5, hx] at hn
        unfold fetchEventLoop at hn
        rw [EM.bind_def] at hn
        unfold decodePacket decodeOther decodeInvalid at hn
        simp at hn
  · intro _ _ hn; simp at hn
  · intro _ _ hn; simp at hn

theorem startLoop_total (h : c.Sane) {pos : Option Nat} : ∀ (l : List (Event × Nat)) (n : Nat) (s : Evd),
    s.q.Holds l → (∀ x ∈ l, x.2 = 1 ∧ x.1.data.inHeader = true) → (s.packet = .psbend ∨ s.packet = .ovf) →
    s.event = none → l.length + 1 < n → s.pd.pos = pos → startLoop c pos n s ≠ .ub := by
  intro l
  induction l with
  | nil =>
    intro n s hq _ hp he hn hpos
    obtain ⟨n, rfl⟩ : ∃ m, n = m + 2 := ⟨n - 2, by simp at hn; omega⟩
    unfold startLoop
    rw [if_neg (by rw [hpos]; simp)]
    have hpr := evtNext_pres (k := mu c.pkt s.pd) h s ⟨⟨[], hq⟩, Nat.le_refl _⟩
    have hne := fun s' e => next_empty (s' := s') (e := e) h hq hp he
    revert hpr hne
    rcases evtNext c s with ⟨s', e | x | _⟩
    · intro _ hne
      dsimp only
      split
      · simp
      · rename_i hs
        rcases hne s' e rfl with h1 | h1
        · exact absurd h1 hs
        · split
          · simp
          · unfold startLoop
            rw [if_pos (by rw [← hpos]; exact h1)]
            simp
    · intro _ _; cases x <;> simp
    · intro h _; exact absurd rfl h.1
  | cons x l ih =>
    intro n s hq hx hp he hn hpos
    obtain ⟨n, rfl⟩ : ∃ m, n = m + 1 := ⟨n - 1, by simp at hn; omega⟩
    obtain ⟨x, b⟩ := x
    have hb : b = 1 := (hx (x, b) (by simp)).1
    subst hb
    obtain ⟨s', h1, h2, h3⟩ := next_deliver (c := c) hq (hx (x, 1) (by simp)).2 hp
    unfold startLoop
    rw [if_neg (by rw [hpos]; simp), h1]
    dsimp only
    split
    · simp
    · split
      · simp
      · exact ih n s' h2 (fun y hy => hx y (by simp [hy])) (by rw [h3.packet]; exact hp) h3.event
          (by simp at hn; omega) (by rw [h3.pd]; exact hpos)

theorem Hdr.inHeader {t : Bool} {l : List (Event × Nat)} (h : Hdr c t s l) : ∀ x ∈ l, x.2 = 1 ∧ x.1.data.inHeader = true := by
  intro x hx
  refine ⟨h.bind x hx, ?_⟩
  have : x.1.data.isEnabled = true ∨ x.1.data.isDisabled = true ∨ x.1.data.isStatus = true := by
    cases l with
    | nil => cases hx
    | cons y l =>
      rcases List.mem_cons.1 hx with rfl | hx
      · rcases h.head x rfl with h | h | h
        · exact .inl h
        · exact .inr (.inl h.1)
        · exact .inr (.inr h)
      · exact .inr (.inr (h.tail x hx))
  revert this
  cases x.1.data <;> simp [EvData.isEnabled, EvData.isDisabled, EvData.isStatus, EvData.inHeader]

theorem start_total (h : c.Sane) (hs : Synced c s) : startLoop c s.pd.pos evqFuel s ≠ .ub := by
  obtain ⟨he, l, hh⟩ := hs
  exact startLoop_total h l _ s hh.holds hh.inHeader hh.pack he (by have := hh.holds.len; unfold evqFuel; omega) rfl

end Ipt
