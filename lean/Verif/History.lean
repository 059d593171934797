import Verif.EventDecoder

/-!
# What the event decoder keeps when it is reset

`pt_evt_reset` does not clear the execution mode bits; they are not read until they are set again.
-/

namespace Ipt

/-- Two states that differ at most in the execution mode bits that are not in use. -/
def EAlike (c : EvtCfg) (s t : Evd) : Prop :=
  ∃ a b d, t = { s with iflag := a, csd := b, csl := d } ∧
    (s.modeValid = true → b = s.csd ∧ d = s.csl ∧ (c.enableIflags = true → a = s.iflag))

theorem EAlike.refl (c : EvtCfg) (s : Evd) : EAlike c s s := ⟨s.iflag, s.csd, s.csl, rfl, fun _ => ⟨rfl, rfl, fun _ => rfl⟩⟩

/-- The function takes states that are alike to states that are alike, with the same result. -/
structure Sim (c : EvtCfg) (m : EM α) : Prop where
  run : ∀ s t, EAlike c s t → (m t).2 = (m s).2 ∧ EAlike c (m s).1 (m t).1

theorem Sim.pure {c : EvtCfg} (a : α) : Sim c (pure a : EM α) := ⟨fun _ _ h => ⟨rfl, h⟩⟩

theorem Sim.fail {c : EvtCfg} (e : Err) : Sim c (EM.fail e : EM α) := ⟨fun _ _ h => ⟨rfl, h⟩⟩

theorem Sim.undef {c : EvtCfg} : Sim c (EM.undef : EM α) := ⟨fun _ _ h => ⟨rfl, h⟩⟩

theorem Sim.lift {c : EvtCfg} (r : Res α) : Sim c (EM.lift r : EM α) := ⟨fun _ _ h => ⟨rfl, h⟩⟩

theorem Sim.bind {c : EvtCfg} {m : EM α} {f : α → EM β} (hm : Sim c m) (hf : ∀ a, Sim c (f a)) : Sim c (m >>= f) := by
  refine ⟨fun s t h => ?_⟩
  obtain ⟨h1, h2⟩ := hm.run s t h
  show (EM.bind m f t).2 = (EM.bind m f s).2 ∧ EAlike c (EM.bind m f s).1 (EM.bind m f t).1
  unfold EM.bind
  rcases hs : m s with ⟨s', r⟩
  rcases ht : m t with ⟨t', r'⟩
  rw [hs, ht] at h1 h2
  dsimp only at h1 h2
  subst h1
  cases r' with
  | ok a => exact (hf a).run s' t' h2
  | err e => exact ⟨rfl, h2⟩
  | ub => exact ⟨rfl, h2⟩

theorem Sim.get {c : EvtCfg} {k : Evd → EM β} (hk : ∀ s, Sim c (k s))
    (he : ∀ s a b d, k { s with iflag := a, csd := b, csl := d } = k s) : Sim c (EM.get >>= k) := by
  refine ⟨fun s t h => ?_⟩
  obtain ⟨a, b, d, rfl, h'⟩ := id h
  show (k _ _).2 = (k _ _).2 ∧ EAlike c (k _ _).1 (k _ _).1
  rw [he]
  exact (hk s).run _ _ h

theorem Sim.modify {c : EvtCfg} {f : Evd → Evd}
    (he : ∀ s a b d, f { s with iflag := a, csd := b, csl := d } = { f s with iflag := a, csd := b, csl := d })
    (hm : ∀ s, (f s).modeValid = true →
      s.modeValid = true ∧ (f s).iflag = s.iflag ∧ (f s).csd = s.csd ∧ (f s).csl = s.csl) : Sim c (EM.modify f) := by
  refine ⟨fun s t h => ?_⟩
  obtain ⟨a, b, d, rfl, h'⟩ := h
  refine ⟨rfl, a, b, d, he s a b d, fun hv => ?_⟩
  obtain ⟨h1, h2, h3, h4⟩ := hm s hv
  obtain ⟨k1, k2, k3⟩ := h' h1
  exact ⟨k1.trans h3.symm, k2.trans h4.symm, fun hi => (k3 hi).trans h2.symm⟩

/-- Functions of the rest of the state. -/
theorem Sim.of {c : EvtCfg} {m : EM α}
    (he : ∀ s a b d, m { s with iflag := a, csd := b, csl := d } =
      ({ (m s).1 with iflag := a, csd := b, csl := d }, (m s).2))
    (hm : ∀ s, (m s).1.modeValid = true →
      s.modeValid = true ∧ (m s).1.iflag = s.iflag ∧ (m s).1.csd = s.csd ∧ (m s).1.csl = s.csl) : Sim c m := by
  refine ⟨fun s t h => ?_⟩
  obtain ⟨a, b, d, rfl, h'⟩ := h
  rw [he]
  refine ⟨rfl, a, b, d, rfl, fun hv => ?_⟩
  obtain ⟨h1, h2, h3, h4⟩ := hm s hv
  obtain ⟨k1, k2, k3⟩ := h' h1
  exact ⟨k1.trans h3.symm, k2.trans h4.symm, fun hi => (k3 hi).trans h2.symm⟩

theorem Sim.ite {c : EvtCfg} {p : Prop} [Decidable p] {m n : EM α} (hm : Sim c m) (hn : Sim c n) :
    Sim c (if p then m else n) := by
  split
  · exact hm
  · exact hn

/-- A step of a proof of `Sim`. -/
syntax "sim1" : tactic

macro_rules | `(tactic| sim1) => `(tactic| dsimp only)
macro_rules | `(tactic| sim1) => `(tactic| split)
macro_rules | `(tactic| sim1) => `(tactic| with_reducible exact Sim.pure _)
macro_rules | `(tactic| sim1) => `(tactic| with_reducible exact Sim.fail _)
macro_rules | `(tactic| sim1) => `(tactic| with_reducible exact Sim.undef)
macro_rules | `(tactic| sim1) => `(tactic| with_reducible exact Sim.lift _)
macro_rules | `(tactic| sim1) => `(tactic| ((with_reducible refine Sim.modify ?_ ?_); (intros; rfl); (intro _ h; exact ⟨h, rfl, rfl, rfl⟩)))
macro_rules | `(tactic| sim1) => `(tactic| with_reducible apply Sim.bind)
macro_rules | `(tactic| sim1) => `(tactic| with_reducible apply Sim.ite)
macro_rules | `(tactic| sim1) => `(tactic| ((with_reducible refine Sim.get ?_ ?_); rotate_left; (intros; rfl)))
macro_rules | `(tactic| sim1) => `(tactic| assumption)
macro_rules | `(tactic| sim1) => `(tactic| intro _)

/-- All steps. -/
macro "sim" : tactic => `(tactic| repeat' sim1)

variable {c : EvtCfg}

theorem fetchLoop_sim (n : Nat) : Sim c (fetchLoop c n) := by
  induction n with
  | zero => exact Sim.undef
  | succ n ih =>
    refine ⟨fun s t h => ?_⟩
    obtain ⟨a, b, d, rfl, h'⟩ := id h
    unfold fetchLoop
    dsimp only
    rcases pktDecNext c.pkt s.pd with ⟨pd, ⟨p, size⟩ | e | _⟩
    · dsimp only
      split
      · exact ih.run _ _ ⟨a, b, d, rfl, h'⟩
      · exact ⟨rfl, a, b, d, rfl, h'⟩
    · exact ⟨rfl, a, b, d, rfl, h'⟩
    · exact ⟨rfl, a, b, d, rfl, h'⟩

theorem fetchPacket_sim : Sim c (fetchPacket c) := fetchLoop_sim _
macro_rules | `(tactic| sim1) => `(tactic| with_reducible exact fetchPacket_sim)

theorem fetchDone_sim : Sim c (fetchDone c) := by unfold fetchDone; sim
macro_rules | `(tactic| sim1) => `(tactic| with_reducible exact fetchDone_sim)

theorem enqSlot_sim (evb : Nat) : Sim c (enqSlot evb) := by
  refine Sim.of (fun s a b d => ?_) (fun s => ?_)
  · unfold enqSlot
    dsimp only
    rcases s.q.enqueue evb with ⟨q, _ | i⟩ <;> rfl
  · unfold enqSlot
    rcases s.q.enqueue evb with ⟨q, _ | i⟩ <;> exact fun h => ⟨h, rfl, rfl, rfl⟩
macro_rules | `(tactic| sim1) => `(tactic| with_reducible exact enqSlot_sim _)

theorem updEv_sim {p : EvPtr} {f : Evd → Event → Event}
    (hf : ∀ s a b d e, f { s with iflag := a, csd := b, csl := d } e = f s e) : Sim c (updEv p f) := by
  unfold updEv
  refine Sim.modify (fun s a b d => ?_) (fun s => ?_)
  · cases p
    · show Evd.setEv _ _ (f _ (s.ev .alone)) = _
      rw [hf]; rfl
    · rename_i i
      show Evd.setEv _ _ (f _ (s.ev (.slot i))) = _
      rw [hf]; rfl
  · cases p <;> exact fun h => ⟨h, rfl, rfl, rfl⟩
macro_rules | `(tactic| sim1) => `(tactic| ((with_reducible refine updEv_sim ?_); intros; rfl))

theorem enq_sim (evb : Nat) (e : Event) : Sim c (enq evb e) := by unfold enq; sim
macro_rules | `(tactic| sim1) => `(tactic| with_reducible exact enq_sim _ _)

theorem enqMore_sim (evb : Nat) (e : Event) : Sim c (enqMore evb e) := by unfold enqMore; sim
macro_rules | `(tactic| sim1) => `(tactic| with_reducible exact enqMore_sim _ _)

theorem deq_sim (evb : Nat) : Sim c (deq evb) := Sim.of (fun _ _ _ _ => rfl) (fun _ h => ⟨h, rfl, rfl, rfl⟩)
macro_rules | `(tactic| sim1) => `(tactic| with_reducible exact deq_sim _)

theorem setEvent_sim (p : Option EvPtr) : Sim c (setEvent p) := by unfold setEvent; sim
macro_rules | `(tactic| sim1) => `(tactic| with_reducible exact setEvent_sim _)

theorem timeEv_sim (p : EvPtr) : Sim c (timeEv p) := by unfold timeEv; sim
macro_rules | `(tactic| sim1) => `(tactic| with_reducible exact timeEv_sim _)

theorem ipTimeEv_sim (p : EvPtr) : Sim c (ipTimeEv p) := by unfold ipTimeEv; sim
macro_rules | `(tactic| sim1) => `(tactic| with_reducible exact ipTimeEv_sim _)

theorem alone_sim (e : Event) : Sim c (alone e) := by unfold alone; sim
macro_rules | `(tactic| sim1) => `(tactic| with_reducible exact alone_sim _)

theorem aloneDone_sim (e : Event) : Sim c (aloneDone c e) := by unfold aloneDone; sim
macro_rules | `(tactic| sim1) => `(tactic| with_reducible exact aloneDone_sim _)

theorem updIp_sim (ipc ip : Nat) : Sim c (updIp ipc ip) := Sim.of (fun _ _ _ _ => rfl) (fun _ h => ⟨h, rfl, rfl, rfl⟩)
macro_rules | `(tactic| sim1) => `(tactic| with_reducible exact updIp_sim _ _)

theorem applyTm_sim (p : TimePkt) : Sim c (applyTm c p) := Sim.of (fun _ _ _ _ => rfl) (fun _ h => ⟨h, rfl, rfl, rfl⟩)
macro_rules | `(tactic| sim1) => `(tactic| with_reducible exact applyTm_sim _)

theorem decodeTiming_sim (p : TimePkt) : Sim c (decodeTiming c p) := by unfold decodeTiming; sim
macro_rules | `(tactic| sim1) => `(tactic| with_reducible exact decodeTiming_sim _)

theorem decodeCbr_sim (r : Nat) : Sim c (decodeCbr c r) := by unfold decodeCbr; sim
macro_rules | `(tactic| sim1) => `(tactic| with_reducible exact decodeCbr_sim _)

theorem checkBdm70_sim : Sim c (checkBdm70 c) := by
  refine Sim.of (fun s a b d => ?_) (fun s => ?_) <;> unfold checkBdm70 <;> split <;>
    first | rfl | exact fun h => ⟨h, rfl, rfl, rfl⟩
macro_rules | `(tactic| sim1) => `(tactic| with_reducible exact checkBdm70_sim)

theorem headerFup_sim (ipc ip : Nat) : Sim c (headerFup c ipc ip) := by unfold headerFup; sim
macro_rules | `(tactic| sim1) => `(tactic| with_reducible exact headerFup_sim _ _)

theorem checkModeExec_sim (x y z : Bool) : Sim c (checkModeExec c x y z) := by
  refine ⟨fun s t h => ?_⟩
  obtain ⟨a, b, d, rfl, h'⟩ := id h
  unfold checkModeExec
  dsimp only
  by_cases hv : s.modeValid = true
  · obtain ⟨rfl, rfl, h3⟩ := h' hv
    rw [if_pos hv, if_pos hv]
    have e : (c.enableIflags = true ∧ a ≠ z) = (c.enableIflags = true ∧ s.iflag ≠ z) :=
      propext ⟨fun x => ⟨x.1, by rw [← h3 x.1]; exact x.2⟩, fun x => ⟨x.1, by rw [h3 x.1]; exact x.2⟩⟩
    simp only [e]
    split
    · exact ⟨rfl, h⟩
    · split
      · exact ⟨rfl, h⟩
      · split <;> exact ⟨rfl, h⟩
  · rw [if_neg hv, if_neg hv]
    exact ⟨rfl, EAlike.refl _ _⟩
macro_rules | `(tactic| sim1) => `(tactic| with_reducible exact checkModeExec_sim _ _ _)

theorem headerModeExec_sim (x y z : Bool) : Sim c (headerModeExec c x y z) := by unfold headerModeExec; sim
macro_rules | `(tactic| sim1) => `(tactic| with_reducible exact headerModeExec_sim _ _ _)

theorem decodeModeTsx_sim (i a : Bool) : Sim c (decodeModeTsx c i a) := by unfold decodeModeTsx; sim
macro_rules | `(tactic| sim1) => `(tactic| with_reducible exact decodeModeTsx_sim _ _)

theorem decodePip_sim (cr3 : Nat) (nr : Bool) : Sim c (decodePip c cr3 nr) := by unfold decodePip; sim
macro_rules | `(tactic| sim1) => `(tactic| with_reducible exact decodePip_sim _ _)

theorem vmcsBeforePaging_sim (base i : Nat) : Sim c (vmcsBeforePaging base i) := by unfold vmcsBeforePaging; sim
macro_rules | `(tactic| sim1) => `(tactic| with_reducible exact vmcsBeforePaging_sim _ _)

theorem decodeVmcs_sim (base : Nat) : Sim c (decodeVmcs c base) := by unfold decodeVmcs; sim
macro_rules | `(tactic| sim1) => `(tactic| with_reducible exact decodeVmcs_sim _)

theorem exstopEvent_sim (ip : Bool) : Sim c (exstopEvent c ip) := by unfold exstopEvent; sim
macro_rules | `(tactic| sim1) => `(tactic| with_reducible exact exstopEvent_sim _)

theorem decodeExstop_sim (ip : Bool) : Sim c (decodeExstop c ip) := by unfold decodeExstop; sim
macro_rules | `(tactic| sim1) => `(tactic| with_reducible exact decodeExstop_sim _)

theorem decodeMwait_sim (h x : Nat) : Sim c (decodeMwait h x) := by unfold decodeMwait; sim
macro_rules | `(tactic| sim1) => `(tactic| with_reducible exact decodeMwait_sim _ _)

theorem decodePtw_sim (p l : Nat) (ip : Bool) : Sim c (decodePtw c p l ip) := by unfold decodePtw; sim
macro_rules | `(tactic| sim1) => `(tactic| with_reducible exact decodePtw_sim _ _ _)

theorem psbDropHead_sim (i : Nat) : Sim c (psbDropHead i) := by unfold psbDropHead; sim
macro_rules | `(tactic| sim1) => `(tactic| with_reducible exact psbDropHead_sim _)

theorem EAlike.packet {s t : Evd} (h : EAlike c s t) : t.packet = s.packet := by
  obtain ⟨_, _, _, rfl, _⟩ := h; rfl

theorem EAlike.enabled {s t : Evd} (h : EAlike c s t) : t.enabled = s.enabled := by
  obtain ⟨_, _, _, rfl, _⟩ := h; rfl

theorem EAlike.status {s t : Evd} (h : EAlike c s t) : t.status = s.status := by
  obtain ⟨_, _, _, rfl, _⟩ := h; rfl

theorem psbPacket_sim (i : Nat) : Sim c (psbPacket c i) := by
  refine ⟨fun s t h => ?_⟩
  unfold psbPacket
  rw [h.packet, h.enabled, h.status]
  cases s.packet <;> dsimp only
  all_goals first
    | exact ⟨rfl, h⟩
    | (refine Sim.run ?_ _ _ h; sim; done)
    | (split <;> first | exact ⟨rfl, h⟩ | (refine Sim.run ?_ _ _ h; sim; done))
macro_rules | `(tactic| sim1) => `(tactic| with_reducible exact psbPacket_sim _)

theorem psbLoop_sim (i n : Nat) : Sim c (psbLoop c i n) := by
  induction n with
  | zero => exact Sim.undef
  | succ n ih => unfold psbLoop; sim
macro_rules | `(tactic| sim1) => `(tactic| with_reducible exact psbLoop_sim _ _)

theorem psbPending_sim : Sim c psbPending := by
  refine Sim.of (fun s a b d => ?_) (fun s => ?_) <;> unfold psbPending <;>
    rcases s.q.pending (2 ^ 32 - 1) with (_ | _) | _ | _ <;> first | rfl | exact fun h => ⟨h, rfl, rfl, rfl⟩
macro_rules | `(tactic| sim1) => `(tactic| with_reducible exact psbPending_sim)

theorem decodePsb_sim : Sim c (decodePsb c) := by unfold decodePsb; sim
macro_rules | `(tactic| sim1) => `(tactic| with_reducible exact decodePsb_sim)

theorem evtStart_sim : Sim c (evtStart c) := by unfold evtStart; sim
macro_rules | `(tactic| sim1) => `(tactic| with_reducible exact evtStart_sim)

theorem onPkt_sim (f : PktDec → PktDec × Res Unit) : Sim c (onPkt f) :=
  Sim.of (fun _ _ _ _ => rfl) (fun _ h => ⟨h, rfl, rfl, rfl⟩)
macro_rules | `(tactic| sim1) => `(tactic| with_reducible exact onPkt_sim _)

theorem evtReset_sim : Sim c (EM.modify evtReset) := Sim.modify (fun _ _ _ _ => rfl) (fun _ h => by cases h)
macro_rules | `(tactic| sim1) => `(tactic| with_reducible exact evtReset_sim)

theorem evtSyncForward_sim : Sim c (evtSyncForward c) := by unfold evtSyncForward; sim
macro_rules | `(tactic| sim1) => `(tactic| with_reducible exact evtSyncForward_sim)

theorem evtSyncBackInner_sim (k n : Nat) : Sim c (evtSyncBackInner c k n) := by
  induction n with
  | zero => exact Sim.undef
  | succ n ih => unfold evtSyncBackInner; sim
macro_rules | `(tactic| sim1) => `(tactic| with_reducible exact evtSyncBackInner_sim _ _)

theorem tryStart_sim : Sim c (tryStart c) := by
  refine ⟨fun s t h => ?_⟩
  obtain ⟨h1, h2⟩ := (evtStart_sim (c := c)).run s t h
  unfold tryStart
  rcases hs : evtStart c s with ⟨s', r⟩
  rcases ht : evtStart c t with ⟨t', r'⟩
  rw [hs, ht] at h1 h2
  dsimp only at h1 h2
  subst h1
  cases r' <;> exact ⟨rfl, h2⟩
macro_rules | `(tactic| sim1) => `(tactic| with_reducible exact tryStart_sim)

theorem evtSyncBackLoop_sim (k n m : Nat) : Sim c (evtSyncBackLoop c k n m) := by
  induction n generalizing m with
  | zero => exact Sim.undef
  | succ n ih => unfold evtSyncBackLoop; sim; exact ih _
macro_rules | `(tactic| sim1) => `(tactic| with_reducible exact evtSyncBackLoop_sim _ _ _)

theorem evtSyncBackward_sim : Sim c (evtSyncBackward c) := by unfold evtSyncBackward; sim
macro_rules | `(tactic| sim1) => `(tactic| with_reducible exact evtSyncBackward_sim)

theorem evtSyncSet_sim (o : Nat) : Sim c (evtSyncSet c o) := by unfold evtSyncSet; sim
macro_rules | `(tactic| sim1) => `(tactic| with_reducible exact evtSyncSet_sim _)

theorem publish_sim {i : Nat} {f : Event → EM Bool} (hf : ∀ e, Sim c (f e)) : Sim c (publish i f) := by
  unfold publish; sim; exact hf _
macro_rules | `(tactic| sim1) => `(tactic| with_reducible apply publish_sim)

theorem psbendEvent_sim (i : Nat) (e : Event) : Sim c (psbendEvent i e) := by unfold psbendEvent; sim
macro_rules | `(tactic| sim1) => `(tactic| with_reducible exact psbendEvent_sim _ _)

theorem decodePsbend_sim : Sim c (decodePsbend) := by unfold decodePsbend; sim
macro_rules | `(tactic| sim1) => `(tactic| with_reducible exact decodePsbend_sim)

theorem fupPending_sim : Sim c fupPending := by
  refine Sim.of (fun s a b d => ?_) (fun s => ?_) <;> unfold fupPending <;>
    rcases s.q.pending evbFupBound with (_ | _) | _ | _ <;> first | rfl | exact fun h => ⟨h, rfl, rfl, rfl⟩
macro_rules | `(tactic| sim1) => `(tactic| with_reducible exact fupPending_sim)

theorem fupUnbound_sim : Sim c (fupUnbound) := by unfold fupUnbound; sim
macro_rules | `(tactic| sim1) => `(tactic| with_reducible exact fupUnbound_sim)

theorem fupEvent_sim {i : Nat} {m : EM Bool} (hm : Sim c m) (e : Event) : Sim c (fupEvent i m e) := by
  unfold fupEvent; sim
macro_rules | `(tactic| sim1) => `(tactic| with_reducible refine fupEvent_sim ?_ _)

theorem decodeFup_sim (x y n : Nat) : Sim c (decodeFup x y n) := by
  induction n with
  | zero => exact Sim.undef
  | succ n ih => unfold decodeFup; sim
macro_rules | `(tactic| sim1) => `(tactic| with_reducible exact decodeFup_sim _ _ _)

theorem recoverOvfAtIp_sim (d : PktDec) (p : Packet) (x y z : Nat) (tm : Timing) : Sim c (recoverOvfAtIp d p x y z tm) := by unfold recoverOvfAtIp; sim
macro_rules | `(tactic| sim1) => `(tactic| with_reducible exact recoverOvfAtIp_sim _ _ _ _ _ _)

theorem recoverOvfDisabled_sim (d : PktDec) (p : Packet) (x : Nat) (tm : Timing) : Sim c (recoverOvfDisabled c d p x tm) := by unfold recoverOvfDisabled; sim
macro_rules | `(tactic| sim1) => `(tactic| with_reducible exact recoverOvfDisabled_sim _ _ _ _)

theorem recoverAtOffsetLoop_sim (n o : Nat) : Sim c (recoverAtOffsetLoop c n o) := by
  induction n generalizing o with
  | zero => exact Sim.undef
  | succ n ih =>
    refine ⟨fun s t h => ?_⟩
    obtain ⟨a, b, d, rfl, h'⟩ := id h
    unfold recoverAtOffsetLoop
    dsimp only
    rcases pktDecNext c.pkt s.pd with ⟨pd, ⟨p, size⟩ | e | _⟩
    · dsimp only
      have hn : EAlike c { s with pd := pd, packet := p, size := size }
        { s with pd := pd, packet := p, size := size, iflag := a, csd := b, csl := d } := ⟨a, b, d, rfl, h'⟩
      split
      · exact ⟨rfl, hn⟩
      · split
        · exact ⟨rfl, hn⟩
        · cases p.timing with
          | some t => exact (Sim.bind (applyTm_sim _) (fun _ => ih _)).run _ _ hn
          | none =>
            cases p <;> first | exact ⟨rfl, hn⟩ | exact (ih _).run _ _ hn
    · exact ⟨rfl, h⟩
    · exact ⟨rfl, h⟩
macro_rules | `(tactic| sim1) => `(tactic| with_reducible exact recoverAtOffsetLoop_sim _ _)

theorem recoverOvfAtOffset_sim (o : Nat) : Sim c (recoverOvfAtOffset c o) := by unfold recoverOvfAtOffset; sim
macro_rules | `(tactic| sim1) => `(tactic| with_reducible exact recoverOvfAtOffset_sim _)

theorem skd010Fup_sim (d : PktDec) (x y z : Nat) (tm : Timing) (k : Option (Bool × Bool)) : Sim c (skd010Fup d x y z tm k) := by unfold skd010Fup; sim
macro_rules | `(tactic| sim1) => `(tactic| with_reducible exact skd010Fup_sim _ _ _ _ _ _)

theorem skd010Loop_sim (n : Nat) (d : PktDec) (tm : Timing) (k : Option (Bool × Bool)) :
    Sim c (skd010Loop c n d tm k) := by
  induction n generalizing d tm k with
  | zero => exact Sim.undef
  | succ n ih => unfold skd010Loop; sim <;> exact ih _ _ _
macro_rules | `(tactic| sim1) => `(tactic| with_reducible exact skd010Loop_sim _ _ _ _)

theorem apl11Loop_sim (n : Nat) (d : PktDec) (tm : Timing) : Sim c (apl11Loop c n d tm) := by
  induction n generalizing d tm with
  | zero => exact Sim.undef
  | succ n ih => unfold apl11Loop; sim <;> exact ih _ _
macro_rules | `(tactic| sim1) => `(tactic| with_reducible exact apl11Loop_sim _ _ _)

theorem apl12Loop_sim (o n : Nat) (d : PktDec) : Sim c (apl12Loop c o n d) := by
  induction n generalizing d with
  | zero => exact Sim.undef
  | succ n ih => unfold apl12Loop; sim <;> exact ih _
macro_rules | `(tactic| sim1) => `(tactic| with_reducible exact apl12Loop_sim _ _ _)

theorem handleApl12_sim (o : Nat) : Sim c (handleApl12 c o) := by unfold handleApl12; sim
macro_rules | `(tactic| sim1) => `(tactic| with_reducible exact handleApl12_sim _)

theorem orElse_sim {f g : EM Bool} (hf : Sim c f) (hg : Sim c g) : Sim c (orElse f g) := by unfold orElse; sim
macro_rules | `(tactic| sim1) => `(tactic| with_reducible apply orElse_sim)

theorem ovfReset_sim : Sim c (EM.modify (ovfReset c)) := Sim.modify (fun _ _ _ _ => rfl) (fun _ h => by cases h)
macro_rules | `(tactic| sim1) => `(tactic| with_reducible exact ovfReset_sim)

theorem ovfNoFup_sim (r : Res Nat) : Sim c (ovfNoFup c r) := by unfold ovfNoFup; sim
macro_rules | `(tactic| sim1) => `(tactic| with_reducible exact ovfNoFup_sim _)

theorem ovfFup_sim : Sim c (ovfFup) := by unfold ovfFup; sim
macro_rules | `(tactic| sim1) => `(tactic| with_reducible exact ovfFup_sim)

theorem ovfEvent_sim : Sim c (ovfEvent c) := by unfold ovfEvent; sim
macro_rules | `(tactic| sim1) => `(tactic| with_reducible exact ovfEvent_sim)

theorem decodeOvf_sim : Sim c (decodeOvf c) := by unfold decodeOvf; sim
macro_rules | `(tactic| sim1) => `(tactic| with_reducible exact decodeOvf_sim)

theorem tipSwap_sim (i j : Nat) :
    Sim c (EM.modify fun s => (s.setEv (.slot j) (s.q.get i)).setEv (.slot i) (s.q.get j)) :=
  Sim.modify (fun _ _ _ _ => rfl) (fun _ h => ⟨h, rfl, rfl, rfl⟩)
macro_rules | `(tactic| sim1) => `(tactic| with_reducible exact tipSwap_sim _ _)

theorem tipAsync_sim (j : Nat) : Sim c (tipAsync j) := by unfold tipAsync; sim
macro_rules | `(tactic| sim1) => `(tactic| with_reducible exact tipAsync_sim _)

theorem tipBranch_sim : Sim c (tipBranch) := by unfold tipBranch; sim
macro_rules | `(tactic| sim1) => `(tactic| with_reducible exact tipBranch_sim)

theorem tipEvent_sim {i : Nat} {m : EM Bool} (hm : Sim c m) (e : Event) : Sim c (tipEvent i m e) := by
  unfold tipEvent; sim
macro_rules | `(tactic| sim1) => `(tactic| with_reducible refine tipEvent_sim ?_ _)

theorem decodeTip_sim (x y n : Nat) : Sim c (decodeTip x y n) := by
  induction n with
  | zero => exact Sim.undef
  | succ n ih => unfold decodeTip; sim
macro_rules | `(tactic| sim1) => `(tactic| with_reducible exact decodeTip_sim _ _ _)

theorem tipPgeEvent_sim {i : Nat} {m : EM Bool} (hm : Sim c m) (e : Event) : Sim c (tipPgeEvent i m e) := by
  unfold tipPgeEvent; sim
macro_rules | `(tactic| sim1) => `(tactic| with_reducible refine tipPgeEvent_sim ?_ _)

theorem tipPgeEnable_sim : Sim c (tipPgeEnable) := by unfold tipPgeEnable; sim
macro_rules | `(tactic| sim1) => `(tactic| with_reducible exact tipPgeEnable_sim)

theorem decodeTipPge_sim (x y n : Nat) : Sim c (decodeTipPge x y n) := by
  induction n with
  | zero => exact Sim.undef
  | succ n ih => unfold decodeTipPge; sim
macro_rules | `(tactic| sim1) => `(tactic| with_reducible exact decodeTipPge_sim _ _ _)

theorem tipPgdAlone_sim : Sim c (tipPgdAlone c) := by unfold tipPgdAlone; sim
macro_rules | `(tactic| sim1) => `(tactic| with_reducible exact tipPgdAlone_sim)

theorem tipPgdEvent_sim (i : Nat) (e : Event) : Sim c (tipPgdEvent i e) := by unfold tipPgdEvent; dsimp only; sim
macro_rules | `(tactic| sim1) => `(tactic| with_reducible exact tipPgdEvent_sim _ _)

theorem decodeTipPgd_sim (x y : Nat) : Sim c (decodeTipPgd c x y) := by unfold decodeTipPgd; sim
macro_rules | `(tactic| sim1) => `(tactic| with_reducible exact decodeTipPgd_sim _ _)

theorem decodeTnt_sim (x y : Nat) : Sim c (decodeTnt c x y) := by unfold decodeTnt; sim
macro_rules | `(tactic| sim1) => `(tactic| with_reducible exact decodeTnt_sim _ _)

theorem cfeFresh_sim (x y z : Bool) (d : EvData) : Sim c (cfeFresh c x y z d) := by unfold cfeFresh; sim
macro_rules | `(tactic| sim1) => `(tactic| with_reducible exact cfeFresh_sim _ _ _ _)

theorem requeueMore_sim (p : EvPtr) (e : Nat) : Sim c (requeueMore p e) := by cases p <;> (unfold requeueMore; sim)
macro_rules | `(tactic| sim1) => `(tactic| with_reducible exact requeueMore_sim _ _)

theorem cfeQueued_sim (ip : Bool) (p : EvPtr) : Sim c (cfeQueued c ip p) := by unfold cfeQueued; sim
macro_rules | `(tactic| sim1) => `(tactic| with_reducible exact cfeQueued_sim _ _)

theorem cfeIntr_sim (v : Nat) (ip : Bool) (p : EvPtr) : Sim c (cfeIntr c v ip p) := by cases p <;> (unfold cfeIntr; sim)
macro_rules | `(tactic| sim1) => `(tactic| with_reducible exact cfeIntr_sim _ _ _)

theorem cfeVmexit_sim (i : Bool) (v : Nat) (ip : Bool) (p : EvPtr) : Sim c (cfeVmexit c i v ip p) := by cases p <;> (unfold cfeVmexit; sim)
macro_rules | `(tactic| sim1) => `(tactic| with_reducible exact cfeVmexit_sim _ _ _ _)

theorem orAlone_sim (i : Option Nat) (e : Event) : Sim c (orAlone i e) := by unfold orAlone; sim
macro_rules | `(tactic| sim1) => `(tactic| with_reducible exact orAlone_sim _ _)

theorem decodeCfe_sim (x y : Nat) (ip : Bool) : Sim c (decodeCfe c x y ip) := by unfold decodeCfe; sim
macro_rules | `(tactic| sim1) => `(tactic| with_reducible exact decodeCfe_sim _ _ _)

theorem evdVmexit_sim (i : Option Nat) : Sim c (evdVmexit i) := by unfold evdVmexit; sim
macro_rules | `(tactic| sim1) => `(tactic| with_reducible exact evdVmexit_sim _)

theorem decodeEvd_sim (x y : Nat) : Sim c (decodeEvd x y) := by unfold decodeEvd; sim
macro_rules | `(tactic| sim1) => `(tactic| with_reducible exact decodeEvd_sim _ _)

theorem trigAlone_sim (x : Nat) (i : Option Nat) (m : Bool) : Sim c (trigAlone c x i m) := by unfold trigAlone; sim
macro_rules | `(tactic| sim1) => `(tactic| with_reducible exact trigAlone_sim _ _ _)

theorem decodeTrig_sim (x : Nat) (i : Option Nat) (ip m : Bool) : Sim c (decodeTrig c x i ip m) := by unfold decodeTrig; sim
macro_rules | `(tactic| sim1) => `(tactic| with_reducible exact decodeTrig_sim _ _ _ _)

theorem decodeInvalid_sim : Sim c decodeInvalid := by
  refine ⟨fun s t h => ?_⟩
  unfold decodeInvalid
  rw [h.status]
  cases s.status <;> exact ⟨rfl, h⟩
macro_rules | `(tactic| sim1) => `(tactic| with_reducible exact decodeInvalid_sim)

theorem enq_eq (evb : Nat) (e : Event) (s : Evd) : enq evb e s =
    match s.q.enqueue evb with
    | (q, some i) => ({ s with q := q.put i e }, .ok ())
    | (q, none) => ({ s with q := q }, .err .nomem) := by
  show EM.bind _ _ _ = _
  unfold EM.bind enqSlot
  rcases s.q.enqueue evb with ⟨q, _ | i⟩ <;> rfl

theorem setMode_sim (x y : Bool) : Sim c (EM.modify fun s => { s with csl := x, csd := y }) := by
  refine ⟨fun s t h => ?_⟩
  obtain ⟨a, b, d, rfl, h'⟩ := h
  exact ⟨rfl, a, y, x, rfl, fun hv => ⟨rfl, rfl, (h' hv).2.2⟩⟩
macro_rules | `(tactic| sim1) => `(tactic| with_reducible exact setMode_sim _ _)

theorem setFlag_sim (z : Bool) : Sim c (EM.modify fun s => { s with iflag := z }) := by
  refine ⟨fun s t h => ?_⟩
  obtain ⟨a, b, d, rfl, h'⟩ := h
  exact ⟨rfl, z, b, d, rfl, fun hv => ⟨(h' hv).1, (h' hv).2.1, fun _ => rfl⟩⟩
macro_rules | `(tactic| sim1) => `(tactic| with_reducible exact setFlag_sim _)

theorem modeExecEvents_sim (m i x y z : Bool) : Sim c (modeExecEvents m i x y z) := by unfold modeExecEvents; sim

/-- The bits after the events of MODE.EXEC. -/
theorem modeExecEvents_bits (m i x y z : Bool) (s s' : Evd) (h : modeExecEvents m i x y z s = (s', .ok ())) :
    s'.csl = (if m = true then x else s.csl) ∧ s'.csd = (if m = true then y else s.csd) ∧
      s'.iflag = (if i = true then z else s.iflag) := by
  unfold modeExecEvents at h
  cases m <;> cases i <;> simp only [bind, EM.bind, enq_eq, EM.modify, pure, if_true, if_false, Bool.false_eq_true, and_self, and_false, false_and, reduceCtorEq] at h ⊢
  · revert h
    show (enq (evbTip ||| evbFupBound) { data := .tick 0 } s = _) → _
    rw [enq_eq]
    rcases s.q.enqueue (evbTip ||| evbFupBound) with ⟨q, _ | j⟩ <;> intro h <;> cases h
    exact ⟨rfl, rfl, rfl⟩
  · revert h
    rcases s.q.enqueue (evbTip ||| evbFupBound) with ⟨q, _ | j⟩ <;> intro h <;> cases h
    exact ⟨rfl, rfl, rfl⟩
  · revert h
    rcases s.q.enqueue (evbTip ||| evbFupBound) with ⟨q, _ | j⟩ <;> intro h <;> cases h
    exact ⟨rfl, rfl, rfl⟩
  · revert h
    rcases s.q.enqueue (evbTip ||| evbFupBound) with ⟨q, _ | j⟩ <;> dsimp only
    · intro h; cases h
    · rcases (q.put j _).enqueue (evbTip ||| evbFupBound) with ⟨q', _ | j'⟩ <;> intro h <;> cases h
      exact ⟨rfl, rfl, rfl⟩

theorem decodeModeExec_sim (x y z : Bool) : Sim c (decodeModeExec c x y z) := by
  refine ⟨fun s t h => ?_⟩
  have hM : decide (t.modeValid = false ∨ t.csl ≠ x ∨ t.csd ≠ y) = decide (s.modeValid = false ∨ s.csl ≠ x ∨ s.csd ≠ y) := by
    obtain ⟨a, b, d, rfl, h'⟩ := id h
    dsimp only
    cases hv : s.modeValid with
    | false => simp
    | true => obtain ⟨rfl, rfl, -⟩ := h' hv; rfl
  have hI : decide (c.enableIflags = true ∧ (t.modeValid = false ∨ t.iflag ≠ z)) =
      decide (c.enableIflags = true ∧ (s.modeValid = false ∨ s.iflag ≠ z)) := by
    obtain ⟨a, b, d, rfl, h'⟩ := id h
    dsimp only
    cases hv : s.modeValid with
    | false => simp
    | true =>
      cases hc : c.enableIflags with
      | false => simp
      | true => obtain ⟨-, -, h3⟩ := h' hv; rw [h3 hc]
  show (EM.bind (modeExecEvents (decide (t.modeValid = false ∨ t.csl ≠ x ∨ t.csd ≠ y)) _ x y z) _ t).2 = _ ∧
    EAlike c _ (EM.bind (modeExecEvents (decide (t.modeValid = false ∨ t.csl ≠ x ∨ t.csd ≠ y)) _ x y z) _ t).1
  show (EM.bind _ _ t).2 = (EM.bind (modeExecEvents _ _ x y z) _ s).2 ∧
    EAlike c (EM.bind (modeExecEvents _ _ x y z) _ s).1 (EM.bind _ _ t).1
  rw [hM, hI]
  generalize hm : decide (s.modeValid = false ∨ s.csl ≠ x ∨ s.csd ≠ y) = m
  generalize hi : decide (c.enableIflags = true ∧ (s.modeValid = false ∨ s.iflag ≠ z)) = i
  obtain ⟨k1, k2⟩ := (modeExecEvents_sim (c := c) m i x y z).run s t h
  unfold EM.bind
  rcases hs : modeExecEvents m i x y z s with ⟨s', r⟩
  rcases ht : modeExecEvents m i x y z t with ⟨t', r'⟩
  rw [hs, ht] at k1 k2
  dsimp only at k1 k2
  subst k1
  cases r' with
  | err e => exact ⟨rfl, k2⟩
  | ub => exact ⟨rfl, k2⟩
  | ok u =>
    obtain ⟨m1, m2, m3⟩ := modeExecEvents_bits m i x y z s s' hs
    obtain ⟨n1, n2, n3⟩ := modeExecEvents_bits m i x y z t t' ht
    obtain ⟨a, b, d, rfl, h'⟩ := h
    obtain ⟨a', b', d', rfl, h''⟩ := k2
    refine ⟨rfl, a', b', d', rfl, fun _ => ?_⟩
    dsimp only at n1 n2 n3 ⊢
    have hf : m = false → s.modeValid = true := by
      rintro rfl
      have := of_decide_eq_false hm
      cases hv : s.modeValid with
      | true => rfl
      | false => exact absurd (Or.inl hv) this
    have hg : c.enableIflags = true → i = false → s.modeValid = true := by
      rintro hc rfl
      have := of_decide_eq_false hi
      cases hv : s.modeValid with
      | true => rfl
      | false => exact absurd ⟨hc, Or.inl hv⟩ this
    refine ⟨?_, ?_, fun hc => ?_⟩
    · rw [n2]; show _ = s'.csd; rw [m2]
      cases m with
      | true => rfl
      | false => simpa using (h' (hf rfl)).1
    · rw [n1]; show _ = s'.csl; rw [m1]
      cases m with
      | true => rfl
      | false => simpa using (h' (hf rfl)).2.1
    · rw [n3]; show _ = s'.iflag; rw [m3]
      cases i with
      | true => rfl
      | false => simpa using (h' (hg hc rfl)).2.2 hc
macro_rules | `(tactic| sim1) => `(tactic| with_reducible exact decodeModeExec_sim _ _ _)

theorem decodeOther_sim : Sim c (decodeOther c) := by
  refine ⟨fun s t h => ?_⟩
  unfold decodeOther
  rw [h.packet]
  cases s.packet <;> dsimp only
  all_goals first
    | exact ⟨rfl, h⟩
    | (refine Sim.run ?_ _ _ h; sim; done)
macro_rules | `(tactic| sim1) => `(tactic| with_reducible exact decodeOther_sim)

theorem decodePacket_sim : Sim c (decodePacket c) := by
  refine ⟨fun s t h => ?_⟩
  unfold decodePacket
  rw [h.packet]
  cases s.packet <;> dsimp only <;> exact Sim.run (by sim) _ _ h
macro_rules | `(tactic| sim1) => `(tactic| with_reducible exact decodePacket_sim)

theorem fetchEventLoop_sim (n : Nat) : Sim c (fetchEventLoop c n) := by
  induction n with
  | zero => exact Sim.undef
  | succ n ih => unfold fetchEventLoop; sim
macro_rules | `(tactic| sim1) => `(tactic| with_reducible exact fetchEventLoop_sim _)

theorem evtNext_sim : Sim c (evtNext c) := by
  unfold evtNext
  refine Sim.bind (fetchEventLoop_sim _) fun _ => Sim.get (fun s => by sim) (fun s a b d => ?_)
  rcases s.event with _ | _ | _ <;> rfl


end Ipt
