import Verif.EventDecoderInv6

/-! Helper lemmas: the invariant of the event decoder for whole calls. -/

set_option linter.unusedSimpArgs false

namespace Ipt

open Spec

variable {c : EvtCfg} {t : Bool} {s : Evd} {l : List (Event × Nat)}

theorem norm_of (h : Norm c t s l ∨ Hdr c t s l) (h1 : s.packet ≠ .psbend) (h2 : s.packet ≠ .ovf) : Norm c t s l := by
  rcases h with h | h
  · exact h
  · rcases h.pack with h3 | h3 <;> contradiction

theorem decodeOther_inv (hc : c.time.Sane) (h : Norm c t s l ∨ Hdr c t s l)
    (he : s.event = none) : EM.wlp (decodeOther c) (Post c t) (ExA c) s := by
  by_cases hov : s.packet = .ovf
  · exact EM.wlp_of_eq (m' := decodeOvf c) (by unfold decodeOther; rw [hov]) (decodeOvf_inv hc h he hov)
  refine ExA.mono ?_
  have hk : PktOk c s.packet := by rcases h with h | h <;> exact h.pk
  have hr := hk.range
  cases hp : s.packet
  case psbend =>
    refine EM.wlp_of_eq (m' := decodePsbend) (by unfold decodeOther; rw [hp]) ?_
    refine EM.wlp_mono (decodePsbend_inv h he (.inl hp)) ?_ (fun _ _ h => h)
    intro b s' hb
    cases b with
    | true => rw [if_pos rfl] at hb; rw [hb.1]; exact hb.2.more
    | false => exact hb
  case ovf => exact absurd hp hov
  all_goals have hn : Norm c t s l := norm_of h (by rw [hp]; simp) (by rw [hp]; simp)
  case fup a b =>
    exact EM.wlp_of_eq (m' := decodeFup a b evqFuel) (by unfold decodeOther; rw [hp]) (decodeFup_inv _ _ _ hn he hp)
  case tip a b =>
    exact EM.wlp_of_eq (m' := decodeTip a b evqFuel) (by unfold decodeOther; rw [hp]) (decodeTip_inv _ _ _ hn he hp)
  case tipPge a b =>
    exact EM.wlp_of_eq (m' := decodeTipPge a b evqFuel) (by unfold decodeOther; rw [hp]) (decodeTipPge_inv _ _ _ hn he hp)
  case tipPgd a b =>
    exact EM.wlp_of_eq (m' := decodeTipPgd c a b) (by unfold decodeOther; rw [hp]) (decodeTipPgd_inv hn he hp)
  all_goals have hs : Start c t s l := hn.start he (by rw [hp]; rfl) (by rw [hp]; rfl)
  all_goals rw [hp] at hr
  case psb => exact EM.wlp_of_eq (m' := EM.undef) (by unfold decodeOther; rw [hp]; rfl) wlp_Un
  case modeOther a =>
    exact EM.wlp_of_eq (m' := EM.fail .badOpc) (by unfold decodeOther; rw [hp]; rfl) (wlp_Ex (by simp))
  case pad => exact EM.wlp_of_eq (m' := pure true) (by unfold decodeOther; rw [hp]; rfl) ((EM.wlp_pure _ _ _ _).2 hs.more)
  case unknown =>
    exact EM.wlp_of_eq (m' := pure true) (by unfold decodeOther; rw [hp]; rfl) ((EM.wlp_pure _ _ _ _).2 hs.more)
  case tnt8 a b => exact EM.wlp_of_eq (m' := decodeTnt c b a) (by unfold decodeOther; rw [hp]) (decodeTnt_inv hs)
  case tnt64 a b => exact EM.wlp_of_eq (m' := decodeTnt c b a) (by unfold decodeOther; rw [hp]) (decodeTnt_inv hs)
  case cyc v =>
    exact EM.wlp_of_eq (m' := decodeTiming c (.cyc v)) (by unfold decodeOther; rw [hp])
      (decodeTiming_inv hc hs (timing_range hk (by rw [hp]; rfl)))
  case mtc v =>
    exact EM.wlp_of_eq (m' := decodeTiming c (.mtc v)) (by unfold decodeOther; rw [hp])
      (decodeTiming_inv hc hs (timing_range hk (by rw [hp]; rfl)))
  case tsc v =>
    exact EM.wlp_of_eq (m' := decodeTiming c (.tsc v)) (by unfold decodeOther; rw [hp])
      (decodeTiming_inv hc hs (timing_range hk (by rw [hp]; rfl)))
  case tma a b =>
    exact EM.wlp_of_eq (m' := decodeTiming c (.tma a b)) (by unfold decodeOther; rw [hp])
      (decodeTiming_inv hc hs (timing_range hk (by rw [hp]; rfl)))
  case cbr v =>
    exact EM.wlp_of_eq (m' := decodeCbr c v) (by unfold decodeOther; rw [hp])
      (decodeCbr_inv hc hs (timing_range (tp := .cbr v) hk (by rw [hp]; rfl)))
  case modeExec a b i =>
    exact EM.wlp_of_eq (m' := decodeModeExec c a b i) (by unfold decodeOther; rw [hp]) (decodeModeExec_inv hs)
  case modeTsx a b => exact EM.wlp_of_eq (m' := decodeModeTsx c a b) (by unfold decodeOther; rw [hp]) (decodeModeTsx_inv hs)
  case pip a b => exact EM.wlp_of_eq (m' := decodePip c a b) (by unfold decodeOther; rw [hp]) (decodePip_inv hs)
  case vmcs a => exact EM.wlp_of_eq (m' := decodeVmcs c a) (by unfold decodeOther; rw [hp]) (decodeVmcs_inv hs)
  case exstop a => exact EM.wlp_of_eq (m' := decodeExstop c a) (by unfold decodeOther; rw [hp]) (decodeExstop_inv hs)
  case mwait a b => exact EM.wlp_of_eq (m' := decodeMwait a b) (by unfold decodeOther; rw [hp]) (decodeMwait_inv hs)
  case pwre a b d =>
    exact EM.wlp_of_eq (m' := aloneDone c { data := .pwre a b d }) (by unfold decodeOther; rw [hp]) (hs.alone rfl)
  case pwrx a b d i e =>
    exact EM.wlp_of_eq (m' := aloneDone c { data := .pwrx a b d i e }) (by unfold decodeOther; rw [hp]) (hs.alone rfl)
  case stop => exact EM.wlp_of_eq (m' := aloneDone c { data := .stop }) (by unfold decodeOther; rw [hp]) (hs.alone rfl)
  case mnt a => exact EM.wlp_of_eq (m' := aloneDone c { data := .mnt a }) (by unfold decodeOther; rw [hp]) (hs.alone rfl)
  case ptw a b i =>
    refine EM.wlp_of_eq (m' := decodePtw c a b i) (by unfold decodeOther; rw [hp]) (decodePtw_inv hs ?_)
    rcases hr with hr | hr | hr
    · cases hr
    · cases hr
    · exact hr.imp And.left And.left
  case cfe a b i => exact EM.wlp_of_eq (m' := decodeCfe c a b i) (by unfold decodeOther; rw [hp]) (decodeCfe_inv hs hp)
  case evd a b => exact EM.wlp_of_eq (m' := decodeEvd a b) (by unfold decodeOther; rw [hp]) (decodeEvd_inv hs)
  case trig a b i e => exact EM.wlp_of_eq (m' := decodeTrig c a b i e) (by unfold decodeOther; rw [hp]) (decodeTrig_inv hs)
  case invalid => exact EM.wlp_of_eq (m' := decodeInvalid) (by unfold decodeOther; rw [hp]) (decodeInvalid_inv hs)

theorem decodePacket_inv (hc : c.time.Sane) (h : Norm c t s l ∨ Hdr c t s l)
    (he : s.event = none) : EM.wlp (decodePacket c) (Post c t) (ExA c) s := by
  by_cases hp : s.packet = .psb
  · refine EM.wlp_of_eq (m' := do decodePsb c; decodeOther c) (by unfold decodePacket; rw [hp]) ?_
    rw [EM.wlp_bind]
    have hn : Norm c t s l := norm_of h (by rw [hp]; simp) (by rw [hp]; simp)
    refine EM.wlp_mono (decodePsb_inv (t' := t) hc (hn.start he (by rw [hp]; rfl) (by rw [hp]; rfl))) ?_ (fun _ _ h => .inr (Ex.of h))
    rintro _ s' ⟨h1, l', h2⟩
    exact decodeOther_inv hc (.inr h2) h1
  · refine EM.wlp_of_eq (m' := decodeOther c) ?_ (decodeOther_inv hc h he)
    unfold decodePacket
    split
    · contradiction
    · rfl

theorem fetchEventLoop_inv (hc : c.time.Sane) : ∀ (n : Nat) (s : Evd) (l : List (Event × Nat)),
    (Norm c t s l ∨ Hdr c t s l) → s.event = none → EM.wlp (fetchEventLoop c n) (fun _ s' => Post c t false s') (ExA c) s := by
  intro n
  induction n with
  | zero => intro s l _ _; exact wlp_Un
  | succ n ih =>
    intro s l h he
    unfold fetchEventLoop
    rw [EM.wlp_bind]
    refine EM.wlp_mono (decodePacket_inv hc h he) ?_ (fun _ _ h => h)
    intro b s' hb
    cases b with
    | false => rw [if_neg (by simp)]; exact (EM.wlp_pure _ _ _ _).2 hb
    | true =>
      obtain ⟨l', h1, h2, h3⟩ := hb
      rw [if_pos rfl, EM.wlp_bind, EM.wlp_get]
      rw [if_neg (by rw [h3]; simp), EM.wlp_bind, EM.wlp_modify, EM.wlp_bind]
      refine wlp_fetch (s := { s' with bound := false }) h1.st fun pd p size st a1 a2 _ => ?_
      refine ih _ l' (.inl ⟨h1.holds, h1.typ, fun _ => h2, h1.en, a2, h1.tm, a1, fun hb => ?_⟩) h3
      cases hb

theorem Inv.event (h : Inv c t s) (x : Option EvPtr) : Inv c t { s with event := x } := by
  obtain ⟨l, h | h⟩ := h
  · exact ⟨l, .inl (h.event x)⟩
  · exact ⟨l, .inr ⟨h.holds, h.pack, h.pk, h.bind, h.en, h.head, h.tail, h.st, h.tm, h.bd⟩⟩

theorem evtNext_inv (hc : c.time.Sane) (h : Inv c t s) (he : s.event = none) :
    EM.wlp (evtNext c) (fun e s' => (isBranch e = true → t = true) ∧ Inv c (upd c t e s') s' ∧ s'.event = none) (ExA c) s := by
  obtain ⟨l, h⟩ := h
  unfold evtNext
  rw [EM.wlp_bind]
  refine EM.wlp_mono (fetchEventLoop_inv hc _ s l h he) ?_ (fun _ _ h => h)
  intro _ s' hb
  obtain ⟨p, h1, h2, h3⟩ := hb
  rw [EM.wlp_bind, EM.wlp_get, EM.wlp_bind, EM.wlp_modify, h1]
  exact (EM.wlp_pure _ _ _ _).2 ⟨h2, h3.event none, rfl⟩

/-! ## Synchronization -/

/-- The decoder after a successful synchronization. -/
def Synced (c : EvtCfg) (s : Evd) : Prop := s.event = none ∧ ∃ l, Hdr c false s l

theorem Synced.inv (h : Synced c s) : Inv c false s := by
  obtain ⟨_, l, h⟩ := h; exact ⟨l, .inr h⟩

/-- The decoder after `pt_evt_reset`, up to the packet and the status. -/
structure Fresh (c : EvtCfg) (s : Evd) : Prop where
  q : s.q.Holds []
  ev : s.event = none
  en : s.enabled = false
  bd : s.bound = false
  tm : s.tm.Ok

theorem fresh_reset (s : Evd) : Fresh c (evtReset s) := ⟨init_holds, rfl, rfl, rfl, Timing.ok_init⟩

theorem evtStart_inv (hc : c.time.Sane) (h : Fresh c s) : EM.wlp (evtStart c) (fun _ s' => Synced c s') (fun _ _ => True) s := by
  unfold evtStart
  rw [EM.wlp_bind, EM.wlp_modify, EM.wlp_bind]
  refine wlp_fetch (s := { s with status := none }) (by simp) fun pd p size st a1 a2 _ => ?_
  rw [EM.wlp_bind, EM.wlp_get]
  dsimp only
  split
  · rename_i hp
    refine EM.wlp_mono (decodePsb_inv (t := false) (t' := false) (l := []) hc ?_) (fun _ _ h => h) (fun _ _ _ => trivial)
    refine ⟨⟨h.q, by simp, fun _ => ordL_nil, fun he => ?_, a2, h.tm, a1, fun hb => ?_⟩, ordL_nil, h.ev, h.bd⟩
    · have he : s.enabled = true := he
      rw [h.en] at he; cases he
    · have hb : s.bound = true := hb
      rw [h.bd] at hb; cases hb
  · split <;> exact (EM.wlp_fail _ _ _ _).2 trivial
  · exact (EM.wlp_fail _ _ _ _).2 trivial

theorem wlp_onPkt {f : PktDec → PktDec × Res Unit} {Q : Unit → Evd → Prop}
    (h : ∀ pd, Q () { s with pd := pd }) : EM.wlp (onPkt f) Q (fun _ _ => True) s := by
  unfold EM.wlp onPkt
  rcases f s.pd with ⟨d, _ | _ | _⟩
  · exact h d
  · trivial
  · trivial

theorem syncForward_inv (hc : c.time.Sane) : EM.wlp (evtSyncForward c) (fun _ s' => Synced c s') (fun _ _ => True) s := by
  unfold evtSyncForward
  rw [EM.wlp_bind, EM.wlp_modify, EM.wlp_bind]
  refine wlp_onPkt fun pd => evtStart_inv hc ⟨init_holds, rfl, rfl, rfl, Timing.ok_init⟩

theorem syncSet_inv {offset : Nat} (hc : c.time.Sane) :
    EM.wlp (evtSyncSet c offset) (fun _ s' => Synced c s') (fun _ _ => True) s := by
  unfold evtSyncSet
  rw [EM.wlp_bind, EM.wlp_modify, EM.wlp_bind]
  refine wlp_onPkt fun pd => evtStart_inv hc ⟨init_holds, rfl, rfl, rfl, Timing.ok_init⟩

theorem backInner_inv {sync : Nat} : ∀ (n : Nat) (s : Evd), Fresh c s →
    EM.wlp (evtSyncBackInner c sync n) (fun _ s' => Fresh c s') (fun _ _ => True) s := by
  intro n
  induction n with
  | zero => intro _ _; exact wlp_Un
  | succ n ih =>
    intro s h
    unfold evtSyncBackInner
    rw [EM.wlp_bind]
    refine wlp_onPkt fun pd => ?_
    rw [EM.wlp_bind, EM.wlp_get]
    have h' : Fresh c { s with pd := pd } := ⟨h.q, h.ev, h.en, h.bd, h.tm⟩
    refine EM.wlp_ite (fun _ => ih _ h') (fun _ => (EM.wlp_pure _ _ _ _).2 h')

theorem backLoop_inv {start : Nat} (hc : c.time.Sane) : ∀ (n sync : Nat) (s : Evd),
    EM.wlp (evtSyncBackLoop c start n sync) (fun _ s' => Synced c s') (fun _ _ => True) s := by
  intro n
  induction n with
  | zero => intro _ _; exact wlp_Un
  | succ n ih =>
    intro sync s
    unfold evtSyncBackLoop
    rw [EM.wlp_bind, EM.wlp_modify, EM.wlp_bind]
    refine EM.wlp_mono (backInner_inv _ _ (fresh_reset s)) ?_ (fun _ _ h => h)
    intro sync' s1 h1
    rw [EM.wlp_bind]
    have h2 := evtStart_inv hc h1
    unfold EM.wlp tryStart
    revert h2
    unfold EM.wlp
    rcases evtStart c s1 with ⟨s2, _ | e | _⟩
    · intro h2
      refine (?_ : EM.wlp _ _ _ _)
      rw [EM.wlp_bind, EM.wlp_get]
      refine EM.wlp_ite (fun _ => ?_) (fun _ => ih _ _)
      exact h2
    · intro _
      refine (?_ : EM.wlp _ _ _ _)
      rw [EM.wlp_bind, EM.wlp_get]
      refine EM.wlp_ite (fun _ => ?_) (fun _ => ih _ _)
      trivial
    · intro _; trivial

theorem syncBackward_inv (hc : c.time.Sane) : EM.wlp (evtSyncBackward c) (fun _ s' => Synced c s') (fun _ _ => True) s := by
  unfold evtSyncBackward
  rw [EM.wlp_bind, EM.wlp_get]
  exact backLoop_inv hc _ _ _

end Ipt
