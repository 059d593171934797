import Verif.EventDecoderSafe
import Verif.PacketErr

/-! Helper lemmas: the packet the event decoder is at lies within the trace. -/

namespace Ipt

/-- The current packet ends where the packet decoder is, and begins inside the trace. -/
def InTrace (c : EvtCfg) (s : Evd) : Prop := ∀ p, s.pd.pos = some p → s.size ≤ p ∧ p ≤ c.pkt.mem.length + 1

/-- `m` keeps the current packet inside the trace. -/
def Offs {α : Type} (c : EvtCfg) (m : EM α) : Prop := CbProgress c.pkt → ∀ s, InTrace c s → InTrace c (m s).1

namespace Offs

variable {α β : Type} {c : EvtCfg}

theorem pure (a : α) : Offs c (Pure.pure a : EM α) := fun _ _ h => h

theorem fail (e : Err) : Offs c (EM.fail e : EM α) := fun _ _ h => h

theorem undef : Offs c (EM.undef : EM α) := fun _ _ h => h

theorem get : Offs c EM.get := fun _ _ h => h

theorem lift {r : Res α} : Offs c (EM.lift r) := fun _ _ h => h

theorem bind {m : EM α} {f : α → EM β} (h1 : Offs c m) (h2 : ∀ a, Offs c (f a)) : Offs c (m >>= f) := by
  intro hc s hs
  have := h1 hc s hs
  rw [EM.bind_def]
  revert this
  rcases m s with ⟨s', a | e | _⟩
  · intro h; exact h2 a hc s' h
  · exact fun h => h
  · exact fun h => h

theorem ite {p : Prop} [Decidable p] {m m' : EM α} (h1 : Offs c m) (h2 : Offs c m') :
    Offs c (if p then m else m') := by split <;> assumption

theorem modify {f : Evd → Evd} (h : ∀ s, (f s).size = s.size ∧ (f s).pd = s.pd) : Offs c (EM.modify f) := by
  intro _ s hs
  unfold InTrace EM.modify at *
  rw [(h s).1, (h s).2]; exact hs

/-- Something that neither reads a packet nor changes the size of the current one. -/
theorem same {m : EM α} (h : ∀ s, (m s).1.size = s.size ∧ (m s).1.pd = s.pd) : Offs c m := by
  intro _ s hs
  unfold InTrace at *
  rw [(h s).1, (h s).2]; exact hs

theorem app {m : EM α} (h : Offs c m) (hc : CbProgress c.pkt) {s : Evd} (hs : InTrace c s) : InTrace c (m s).1 := h hc s hs

/-- A computation that depends on the state. -/
theorem of {m : EM α} (f : Evd → EM α) (h : ∀ s, m s = f s s) (hf : ∀ s, Offs c (f s)) : Offs c m := by
  intro hc s hs; rw [h s]; exact hf s hc s hs

end Offs

variable {c : EvtCfg}

theorem setEv_same (s : Evd) (p : EvPtr) (e : Event) : (s.setEv p e).size = s.size ∧ (s.setEv p e).pd = s.pd := by
  cases p <;> exact ⟨rfl, rfl⟩

/-- Fetching a packet makes it the current packet. -/
theorem fetchLoop_inTrace (hc : CbProgress c.pkt) : ∀ (n : Nat) (s : Evd), 
    (∀ p, s.pd.pos = some p → p ≤ c.pkt.mem.length + 1) → mu c.pkt s.pd < n → InTrace c (fetchLoop c n s).1 := by
  intro n
  induction n with
  | zero => intro s h1 h; omega
  | succ n ih =>
    intro s h1 h
    unfold fetchLoop
    rcases hn : pktDecNext c.pkt s.pd with ⟨d, ⟨p, size⟩ | e | _⟩
    · obtain ⟨hm, _, _, pos, pos', e1, e2, e3, e4, e5⟩ := next_ok hc hn
      dsimp only
      split
      · apply ih
        · intro q hq
          subst e2
          simp only [Option.some.injEq] at hq
          omega
        · dsimp only; omega
      · intro q hq
        subst e2
        simp only [Option.some.injEq] at hq
        dsimp only
        omega
    · intro q hq; exact ⟨Nat.zero_le _, h1 q hq⟩
    · exact absurd hn next_safe

theorem fetchPacket_inTrace (hc : CbProgress c.pkt) (s : Evd) (h1 : ∀ p, s.pd.pos = some p → p ≤ c.pkt.mem.length + 1) :
    InTrace c (fetchPacket c s).1 := fetchLoop_inTrace hc _ s h1 (by have := fuel_gt (c := c) s.pd; omega)

theorem fetchPacket_offs : Offs c (fetchPacket c) := fun hc s hs => fetchPacket_inTrace hc s fun p hp => (hs p hp).2

/-- Prove `Offs` for a composite computation. -/
syntax "offs1" : tactic
macro "offs" : tactic => `(tactic| repeat' (first | assumption | offs1 | split))
macro_rules | `(tactic| offs1) => `(tactic| with_reducible refine Offs.ite ?_ ?_)
macro_rules | `(tactic| offs1) => `(tactic| with_reducible refine Offs.bind ?_ (fun _ => ?_))
macro_rules | `(tactic| offs1) => `(tactic| (with_reducible apply Offs.modify; intro _; exact ⟨rfl, rfl⟩))
macro_rules | `(tactic| offs1) => `(tactic| with_reducible exact Offs.pure _)
macro_rules | `(tactic| offs1) => `(tactic| with_reducible exact Offs.fail _)
macro_rules | `(tactic| offs1) => `(tactic| with_reducible exact Offs.undef)
macro_rules | `(tactic| offs1) => `(tactic| with_reducible exact Offs.get)
macro_rules | `(tactic| offs1) => `(tactic| with_reducible exact Offs.lift)
macro_rules | `(tactic| offs1) => `(tactic| with_reducible exact fetchPacket_offs)

theorem updEv_offs (p : EvPtr) (f : Evd → Event → Event) : Offs c (updEv p f) := Offs.modify fun _ => setEv_same _ _ _
macro_rules | `(tactic| offs1) => `(tactic| with_reducible exact updEv_offs _ _)

theorem enqSlot_offs (evb : Nat) : Offs c (enqSlot evb) := by
  apply Offs.same
  intro s
  unfold enqSlot
  split <;> exact ⟨rfl, rfl⟩
macro_rules | `(tactic| offs1) => `(tactic| with_reducible exact enqSlot_offs _)

theorem deq_offs (evb : Nat) : Offs c (deq evb) := by
  apply Offs.same
  intro s
  exact ⟨rfl, rfl⟩
macro_rules | `(tactic| offs1) => `(tactic| with_reducible exact deq_offs _)

theorem enq_offs (evb : Nat) (e : Event) : Offs c (enq evb e) := by unfold enq; offs
macro_rules | `(tactic| offs1) => `(tactic| with_reducible exact enq_offs _ _)
theorem enqMore_offs (evb : Nat) (e : Event) : Offs c (enqMore evb e) := by unfold enqMore; offs
macro_rules | `(tactic| offs1) => `(tactic| with_reducible exact enqMore_offs _ _)
theorem setEvent_offs (p : Option EvPtr) : Offs c (setEvent p) := Offs.modify fun _ => ⟨rfl, rfl⟩
macro_rules | `(tactic| offs1) => `(tactic| with_reducible exact setEvent_offs _)
theorem timeEv_offs (p : EvPtr) : Offs c (timeEv p) := by unfold timeEv; offs
macro_rules | `(tactic| offs1) => `(tactic| with_reducible exact timeEv_offs _)
theorem ipTimeEv_offs (p : EvPtr) : Offs c (ipTimeEv p) := by unfold ipTimeEv; offs
macro_rules | `(tactic| offs1) => `(tactic| with_reducible exact ipTimeEv_offs _)
theorem alone_offs (e : Event) : Offs c (alone e) := Offs.modify fun _ => ⟨rfl, rfl⟩
macro_rules | `(tactic| offs1) => `(tactic| with_reducible exact alone_offs _)
theorem fetchDone_offs : Offs c (fetchDone c) := by unfold fetchDone; offs
macro_rules | `(tactic| offs1) => `(tactic| with_reducible exact fetchDone_offs)
theorem aloneDone_offs (e : Event) : Offs c (aloneDone c e) := by unfold aloneDone; offs
macro_rules | `(tactic| offs1) => `(tactic| with_reducible exact aloneDone_offs _)
theorem updIp_offs (ipc ip : Nat) : Offs c (updIp ipc ip) := Offs.same fun _ => ⟨rfl, rfl⟩
macro_rules | `(tactic| offs1) => `(tactic| with_reducible exact updIp_offs _ _)
theorem applyTm_offs (p : TimePkt) : Offs c (applyTm c p) := Offs.same fun _ => ⟨rfl, rfl⟩
macro_rules | `(tactic| offs1) => `(tactic| with_reducible exact applyTm_offs _)
theorem decodeTiming_offs (p : TimePkt) : Offs c (decodeTiming c p) := by unfold decodeTiming; offs
theorem decodeCbr_offs (r : Nat) : Offs c (decodeCbr c r) := by unfold decodeCbr; offs
theorem checkBdm70_offs : Offs c (checkBdm70 c) := by
  apply Offs.same; intro s; unfold checkBdm70; split <;> exact ⟨rfl, rfl⟩
macro_rules | `(tactic| offs1) => `(tactic| with_reducible exact checkBdm70_offs)
theorem headerFup_offs (ipc ip : Nat) : Offs c (headerFup c ipc ip) := by unfold headerFup; offs
theorem checkModeExec_offs (a b d : Bool) : Offs c (checkModeExec c a b d) := by
  apply Offs.same; intro s; unfold checkModeExec; repeat' split
  all_goals exact ⟨rfl, rfl⟩
macro_rules | `(tactic| offs1) => `(tactic| with_reducible exact checkModeExec_offs _ _ _)
theorem headerModeExec_offs (a b d : Bool) : Offs c (headerModeExec c a b d) := by unfold headerModeExec; offs
macro_rules | `(tactic| offs1) => `(tactic| with_reducible exact headerFup_offs _ _)
macro_rules | `(tactic| offs1) => `(tactic| with_reducible exact headerModeExec_offs _ _ _)
theorem modeExecEvents_offs (m i a b d : Bool) : Offs c (modeExecEvents m i a b d) := by unfold modeExecEvents; offs
macro_rules | `(tactic| offs1) => `(tactic| with_reducible exact modeExecEvents_offs _ _ _ _ _)
theorem decodeModeExec_offs (a b d : Bool) : Offs c (decodeModeExec c a b d) := by unfold decodeModeExec; offs
theorem decodeModeTsx_offs (a b : Bool) : Offs c (decodeModeTsx c a b) := by unfold decodeModeTsx; offs
theorem decodePip_offs (a : Nat) (b : Bool) : Offs c (decodePip c a b) := by unfold decodePip; offs
theorem vmcsBeforePaging_offs (a b : Nat) : Offs c (vmcsBeforePaging a b) := by unfold vmcsBeforePaging; offs
macro_rules | `(tactic| offs1) => `(tactic| with_reducible exact vmcsBeforePaging_offs _ _)
theorem decodeVmcs_offs (b : Nat) : Offs c (decodeVmcs c b) := by unfold decodeVmcs; offs
theorem exstopEvent_offs (b : Bool) : Offs c (exstopEvent c b) := by unfold exstopEvent; offs
macro_rules | `(tactic| offs1) => `(tactic| with_reducible exact exstopEvent_offs _)
theorem decodeExstop_offs (b : Bool) : Offs c (decodeExstop c b) := by unfold decodeExstop; offs
theorem decodePtw_offs (a b : Nat) (d : Bool) : Offs c (decodePtw c a b d) := by unfold decodePtw; offs
theorem psbDropHead_offs (i : Nat) : Offs c (psbDropHead i) := by unfold psbDropHead; offs
macro_rules | `(tactic| offs1) => `(tactic| with_reducible exact psbDropHead_offs _)

theorem psbPacket_offs (i : Nat) : Offs c (psbPacket c i) := by
  intro hc s hs
  unfold psbPacket
  repeat' split
  all_goals first
    | exact hs
    | (refine (?_ : Offs c _) hc s hs; offs; done)
macro_rules | `(tactic| offs1) => `(tactic| with_reducible exact psbPacket_offs _)

theorem psbLoop_offs (i : Nat) : ∀ n, Offs c (psbLoop c i n) := by
  intro n
  induction n with
  | zero => exact Offs.undef
  | succ n ih => unfold psbLoop; offs
macro_rules | `(tactic| offs1) => `(tactic| with_reducible exact psbLoop_offs _ _)

theorem psbPending_offs : Offs c psbPending := by
  apply Offs.same; intro s; unfold psbPending; repeat' split
  all_goals exact ⟨rfl, rfl⟩
macro_rules | `(tactic| offs1) => `(tactic| with_reducible exact psbPending_offs)
theorem decodePsb_offs : Offs c (decodePsb c) := by unfold decodePsb; offs
macro_rules | `(tactic| offs1) => `(tactic| with_reducible exact decodePsb_offs)

theorem evtStart_offs : Offs c (evtStart c) := by unfold evtStart; offs

/-- However the decoder got to where it is: having started, the current packet lies inside the trace. -/
theorem evtStart_inTrace (hc : CbProgress c.pkt) (s : Evd) (h : ∀ p, s.pd.pos = some p → p ≤ c.pkt.mem.length + 1) :
    InTrace c (evtStart c s).1 := by
  unfold evtStart
  rw [EM.bind_def]
  simp only [EM.modify]
  have h0 := fetchPacket_inTrace (c := c) hc { s with status := none } h
  rw [EM.bind_def]
  revert h0
  rcases fetchPacket c { s with status := none } with ⟨s', a | e | _⟩
  · intro h0
    refine (?_ : Offs c _) hc s' h0
    offs
  · exact fun h => h
  · exact fun h => h

theorem publish_offs {i : Nat} {f : Event → EM Bool} (h : ∀ e, Offs c (f e)) : Offs c (publish i f) :=
  (setEvent_offs _).bind fun _ => Offs.get.bind fun _ => h _
macro_rules | `(tactic| offs1) => `(tactic| (with_reducible apply publish_offs; intro _))
theorem psbendEvent_offs (i : Nat) (e : Event) : Offs c (psbendEvent i e) := by unfold psbendEvent; offs
macro_rules | `(tactic| offs1) => `(tactic| with_reducible exact psbendEvent_offs _ _)
theorem decodePsbend_offs : Offs c decodePsbend := by unfold decodePsbend; offs
macro_rules | `(tactic| offs1) => `(tactic| with_reducible exact decodePsbend_offs)
theorem fupPending_offs : Offs c fupPending := by
  apply Offs.same; intro s; unfold fupPending; repeat' split
  all_goals exact ⟨rfl, rfl⟩
macro_rules | `(tactic| offs1) => `(tactic| with_reducible exact fupPending_offs)
theorem fupUnbound_offs : Offs c fupUnbound := by unfold fupUnbound; offs
macro_rules | `(tactic| offs1) => `(tactic| with_reducible exact fupUnbound_offs)
theorem fupEvent_offs {i : Nat} {again : EM Bool} (h : Offs c again) (e : Event) : Offs c (fupEvent i again e) := by
  unfold fupEvent; offs
theorem decodeFup_offs (ipc ip : Nat) : ∀ n, Offs c (decodeFup ipc ip n) := by
  intro n
  induction n with
  | zero => exact Offs.undef
  | succ n ih =>
    have := fun i e => fupEvent_offs (i := i) ih e
    unfold decodeFup; offs
    exact this _ _

theorem tipAsync_offs (j : Nat) : Offs c (tipAsync j) := by
  have : ∀ i, Offs c (EM.modify fun s => (s.setEv (.slot j) (s.q.get i)).setEv (.slot i) (s.q.get j)) :=
    fun i => Offs.modify fun _ => ⟨rfl, rfl⟩
  unfold tipAsync; offs
macro_rules | `(tactic| offs1) => `(tactic| with_reducible exact tipAsync_offs _)
theorem tipBranch_offs : Offs c tipBranch := by unfold tipBranch; offs
macro_rules | `(tactic| offs1) => `(tactic| with_reducible exact tipBranch_offs)
theorem tipEvent_offs {i : Nat} {again : EM Bool} (h : Offs c again) (e : Event) : Offs c (tipEvent i again e) := by
  unfold tipEvent; offs
theorem decodeTip_offs (ipc ip : Nat) : ∀ n, Offs c (decodeTip ipc ip n) := by
  intro n
  induction n with
  | zero => exact Offs.undef
  | succ n ih =>
    have := fun i e => tipEvent_offs (i := i) ih e
    unfold decodeTip; offs
    exact this _ _
theorem tipPgeEvent_offs {i : Nat} {again : EM Bool} (h : Offs c again) (e : Event) : Offs c (tipPgeEvent i again e) := by
  unfold tipPgeEvent; offs
theorem tipPgeEnable_offs : Offs c tipPgeEnable := by unfold tipPgeEnable; offs
macro_rules | `(tactic| offs1) => `(tactic| with_reducible exact tipPgeEnable_offs)
theorem decodeTipPge_offs (ipc ip : Nat) : ∀ n, Offs c (decodeTipPge ipc ip n) := by
  intro n
  induction n with
  | zero => exact Offs.undef
  | succ n ih =>
    have := fun i e => tipPgeEvent_offs (i := i) ih e
    unfold decodeTipPge; offs
    exact this _ _
theorem tipPgdAlone_offs : Offs c (tipPgdAlone c) := by unfold tipPgdAlone; offs
macro_rules | `(tactic| offs1) => `(tactic| with_reducible exact tipPgdAlone_offs)
theorem tipPgdEvent_offs (i : Nat) (e : Event) : Offs c (tipPgdEvent i e) := by unfold tipPgdEvent; offs
macro_rules | `(tactic| offs1) => `(tactic| with_reducible exact tipPgdEvent_offs _ _)
theorem decodeTipPgd_offs (ipc ip : Nat) : Offs c (decodeTipPgd c ipc ip) := by unfold decodeTipPgd; offs
theorem decodeTnt_offs (a b : Nat) : Offs c (decodeTnt c a b) := by unfold decodeTnt; offs
theorem cfeFresh_offs (a b d : Bool) (e : EvData) : Offs c (cfeFresh c a b d e) := by unfold cfeFresh; offs
macro_rules | `(tactic| offs1) => `(tactic| with_reducible exact cfeFresh_offs _ _ _ _)
theorem requeueMore_offs (p : EvPtr) (e : Nat) : Offs c (requeueMore p e) := by unfold requeueMore; offs
macro_rules | `(tactic| offs1) => `(tactic| with_reducible exact requeueMore_offs _ _)
theorem cfeQueued_offs (b : Bool) (p : EvPtr) : Offs c (cfeQueued c b p) := by unfold cfeQueued; offs
macro_rules | `(tactic| offs1) => `(tactic| with_reducible exact cfeQueued_offs _ _)
theorem cfeIntr_offs (v : Nat) (b : Bool) (p : EvPtr) : Offs c (cfeIntr c v b p) := by unfold cfeIntr; offs
macro_rules | `(tactic| offs1) => `(tactic| with_reducible exact cfeIntr_offs _ _ _)
theorem cfeVmexit_offs (i : Bool) (v : Nat) (b : Bool) (p : EvPtr) : Offs c (cfeVmexit c i v b p) := by unfold cfeVmexit; offs
macro_rules | `(tactic| offs1) => `(tactic| with_reducible exact cfeVmexit_offs _ _ _ _)
theorem orAlone_offs (i : Option Nat) (e : Event) : Offs c (orAlone i e) := by unfold orAlone; offs
macro_rules | `(tactic| offs1) => `(tactic| with_reducible exact orAlone_offs _ _)
theorem decodeCfe_offs (t v : Nat) (ip : Bool) : Offs c (decodeCfe c t v ip) := by unfold decodeCfe; offs
theorem evdVmexit_offs (i : Option Nat) : Offs c (evdVmexit i) := by unfold evdVmexit; offs
macro_rules | `(tactic| offs1) => `(tactic| with_reducible exact evdVmexit_offs _)
theorem decodeEvd_offs (t p : Nat) : Offs c (decodeEvd t p) := by unfold decodeEvd; offs
theorem trigAlone_offs (a : Nat) (b : Option Nat) (d : Bool) : Offs c (trigAlone c a b d) := by unfold trigAlone; offs
macro_rules | `(tactic| offs1) => `(tactic| with_reducible exact trigAlone_offs _ _ _)
theorem decodeTrig_offs (a : Nat) (b : Option Nat) (d e : Bool) : Offs c (decodeTrig c a b d e) := by unfold decodeTrig; offs
theorem decodeInvalid_offs : Offs c decodeInvalid := by
  apply Offs.same; intro s; unfold decodeInvalid; split <;> exact ⟨rfl, rfl⟩

theorem orElse_offs {f g : EM Bool} (hf : Offs c f) (hg : Offs c g) : Offs c (orElse f g) := by
  unfold orElse; offs

theorem recoverAtOffsetLoop_offs : ∀ n off, Offs c (recoverAtOffsetLoop c n off) := by
  intro n
  induction n with
  | zero => intro _; exact Offs.undef
  | succ n ih =>
    intro off hc s hs
    unfold recoverAtOffsetLoop
    rcases hn : pktDecNext c.pkt s.pd with ⟨d, ⟨p, size⟩ | e | _⟩
    · obtain ⟨hm, _, _, pos, pos', e1, e2, e3, e4, e5⟩ := next_ok hc hn
      have h1 : InTrace c { s with pd := d, packet := p, size := size } := by
        intro q hq
        subst e2
        simp only [Option.some.injEq] at hq
        dsimp only
        omega
      dsimp only
      repeat' split
      all_goals first
        | exact h1
        | exact ih _ hc _ h1
        | exact ((applyTm_offs _).bind fun _ => ih _) hc _ h1
    · exact hs
    · exact hs
macro_rules | `(tactic| offs1) => `(tactic| with_reducible exact recoverAtOffsetLoop_offs _ _)
theorem recoverOvfAtOffset_offs (o : Nat) : Offs c (recoverOvfAtOffset c o) := by unfold recoverOvfAtOffset; offs
macro_rules | `(tactic| offs1) => `(tactic| with_reducible exact recoverOvfAtOffset_offs _)

theorem apl12Loop_offs (o : Nat) : ∀ n d, Offs c (apl12Loop c o n d) := by
  intro n
  induction n with
  | zero => intro _; exact Offs.undef
  | succ n ih =>
    intro d
    unfold apl12Loop
    repeat' split
    all_goals first
      | exact ih _
      | (offs; done)
macro_rules | `(tactic| offs1) => `(tactic| with_reducible exact apl12Loop_offs _ _ _)
theorem handleApl12_offs (o : Nat) : Offs c (handleApl12 c o) := by unfold handleApl12; offs
macro_rules | `(tactic| offs1) => `(tactic| with_reducible exact handleApl12_offs _)

/-- Setting the packet decoder to behind a packet it read. -/
theorem recoverOvfDisabled_offs {d d' : PktDec} {p : Packet} {size : Nat} (hc : CbProgress c.pkt)
    (hn : pktDecNext c.pkt d = (d', .ok (p, size))) (tm : Timing) : Offs c (recoverOvfDisabled c d' p size tm) := by
  have : Offs c (EM.modify fun s => { s with pd := d', packet := p, size := size, tm := tm }) := by
    obtain ⟨hm, _, _, pos, pos', e1, e2, e3, e4, e5⟩ := next_ok hc hn
    intro _ s _ q hq
    subst e2
    simp only [EM.modify, Option.some.injEq] at hq ⊢
    omega
  unfold recoverOvfDisabled; offs

theorem apl11Loop_offs (hc : CbProgress c.pkt) : ∀ n d tm, Offs c (apl11Loop c n d tm) := by
  intro n
  induction n with
  | zero => intro _ _; exact Offs.undef
  | succ n ih =>
    intro d tm
    unfold apl11Loop
    rcases hn : pktDecNext c.pkt d with ⟨d', ⟨p, size⟩ | e | _⟩
    · dsimp only
      repeat' split
      all_goals first
        | exact ih _ _
        | exact recoverOvfDisabled_offs hc hn _
        | (offs; done)
    · exact Offs.fail _
    · exact Offs.undef

theorem recoverOvfAtIp_offs {d d' : PktDec} {p : Packet} {size : Nat} (hc : CbProgress c.pkt)
    (hn : pktDecNext c.pkt d = (d', .ok (p, size))) (ipc ip : Nat) (tm : Timing) :
    Offs c (recoverOvfAtIp d' p size ipc ip tm) := by
  have : Offs c (EM.modify fun s => { s with pd := d', packet := p, size := size, tm := tm, enabled := true }) := by
    obtain ⟨hm, _, _, pos, pos', e1, e2, e3, e4, e5⟩ := next_ok hc hn
    intro _ s _ q hq
    subst e2
    simp only [EM.modify, Option.some.injEq] at hq ⊢
    omega
  unfold recoverOvfAtIp; offs

theorem ovfFup_offs : Offs c ovfFup := by unfold ovfFup; offs
macro_rules | `(tactic| offs1) => `(tactic| with_reducible exact ovfFup_offs)

theorem update_valid {ipc : Nat} (h : ipc = 0 ∨ ipc = 1 ∨ ipc = 2 ∨ ipc = 3 ∨ ipc = 4 ∨ ipc = 6) (l : LastIp) (ip : Nat) :
    (l.update ipc ip).2 = .ok () := by
  rcases h with rfl | rfl | rfl | rfl | rfl | rfl <;> rfl

theorem recoverOvfAtIp_inTrace {d d' : PktDec} {p : Packet} {size ipc : Nat} (hc : CbProgress c.pkt)
    (hn : pktDecNext c.pkt d = (d', .ok (p, size))) (h : ipc = 0 ∨ ipc = 1 ∨ ipc = 2 ∨ ipc = 3 ∨ ipc = 4 ∨ ipc = 6)
    (ip : Nat) (tm : Timing) (s : Evd) : InTrace c (recoverOvfAtIp d' p size ipc ip tm s).1 := by
  obtain ⟨hm, _, _, pos, pos', e1, e2, e3, e4, e5⟩ := next_ok hc hn
  unfold recoverOvfAtIp
  rw [EM.bind_def]
  simp only [updIp, update_valid h]
  simp only [EM.bind_def, alone, timeEv, updEv, EM.modify, EM.pure_def]
  intro q hq
  subst e2
  simp only [Evd.setEv, Option.some.injEq] at hq ⊢
  omega

theorem skd010Fup_inTrace {d d' : PktDec} {size ipc ip : Nat} (hc : CbProgress c.pkt)
    (hn : pktDecNext c.pkt d = (d', .ok (.fup ipc ip, size))) (tm : Timing) (tsx : Option (Bool × Bool)) {s : Evd}
    (hq : s.q.Holds []) : InTrace c (skd010Fup d' size ipc ip tm tsx s).1 := by
  have hv : ipc = 0 ∨ ipc = 1 ∨ ipc = 2 ∨ ipc = 3 ∨ ipc = 4 ∨ ipc = 6 := by
    rcases next_range hn with h | h | h
    · cases h
    · cases h
    · simp only [Spec.Representable, Spec.IpFits] at h; omega
  unfold skd010Fup
  rw [EM.bind_def]
  simp only [EM.modify]
  cases tsx with
  | none =>
    exact recoverOvfAtIp_inTrace hc hn hv _ _ _
  | some x =>
    obtain ⟨a, b⟩ := x
    dsimp only
    obtain ⟨q', h1, -⟩ := (enqueue_holds hq evbFupBound).1 (by simp)
    rw [EM.bind_def, enq, EM.bind_def, enqSlot]
    dsimp only
    rw [h1]
    simp only [updEv, EM.modify]
    exact recoverOvfAtIp_inTrace hc hn hv _ _ _

/-- `m` keeps the current packet inside the trace when no events are pending. -/
def OffsE {α : Type} (c : EvtCfg) (m : EM α) : Prop := ∀ s, s.q.Holds [] → InTrace c s → InTrace c (m s).1

theorem Offs.weak {α : Type} {m : EM α} (h : Offs c m) (hc : CbProgress c.pkt) : OffsE c m := fun s _ hs => h hc s hs

theorem OffsE.app {α : Type} {m : EM α} {s : Evd} (hq : s.q.Holds []) (hs : InTrace c s) (h : OffsE c m) : InTrace c (m s).1 :=
  h s hq hs

theorem skd010Loop_inTrace (hc : CbProgress c.pkt) : ∀ (n : Nat) (d : PktDec) (tm : Timing) (tsx : Option (Bool × Bool)),
    OffsE c (skd010Loop c n d tm tsx) := by
  intro n
  induction n with
  | zero => intro _ _ _; exact Offs.undef.weak hc
  | succ n ih =>
    intro d tm tsx
    unfold skd010Loop
    rcases hn : pktDecNext c.pkt d with ⟨d', ⟨p, size⟩ | e | _⟩
    · dsimp only
      repeat' split
      all_goals first
        | exact ih _ _ _
        | exact (Offs.pure _).weak hc
        | exact (Offs.fail _).weak hc
        | exact Offs.undef.weak hc
        | exact fun s hq _ => skd010Fup_inTrace hc hn _ _ hq
        | exact (recoverOvfDisabled_offs hc hn _).weak hc
        | exact (recoverOvfAtIp_offs hc hn _ _ _).weak hc
        | exact ((recoverOvfAtIp_offs hc hn _ _ _).bind fun _ => fetchDone_offs).weak hc
    · cases e
      all_goals first
        | exact (Offs.fail _).weak hc
        | exact (Offs.pure _).weak hc
    · exact Offs.undef.weak hc

theorem ovfNoFup_inTrace (hc : CbProgress c.pkt) (r : Res Nat) {s : Evd} (hq : s.q.Holds []) (hs : InTrace c s) :
    InTrace c (ovfNoFup c r s).1 := by
  have h11 := fun n d tm => apl11Loop_offs hc n d tm
  have hrest : ∀ b : Bool, Offs c (if b = true then (do
      let s ← EM.get
      orElse (if c.pkt.errata.apl11 = true ∧ r = .err .badContext then apl11Loop c c.fuel s.pd s.tm else pure true) <|
      match r with
      | .ub => EM.undef
      | .err .eos | .ok _ => aloneDone c { data := .overflow 0, ipSuppressed := true }
      | .err e => EM.fail e) else return false) := by
    intro b
    refine Offs.ite (Offs.get.bind fun _ => orElse_offs (Offs.ite (h11 _ _ _) (Offs.pure _)) ?_) (Offs.pure _)
    offs
  have h1 : InTrace c ((if c.pkt.errata.skd010 = true then skd010Loop c c.fuel s.pd s.tm none else pure true : EM Bool) s).1 := by
    split
    · exact skd010Loop_inTrace hc _ _ _ _ _ hq hs
    · exact hs
  unfold ovfNoFup
  rw [EM.bind_def]
  simp only [EM.get]
  unfold orElse
  rw [EM.bind_def]
  revert h1
  rcases (if c.pkt.errata.skd010 = true then skd010Loop c c.fuel s.pd s.tm none else pure true : EM Bool) s with ⟨s', b | e | _⟩
  · intro h1; exact hrest b hc s' h1
  · exact fun h => h
  · exact fun h => h

theorem ovfEvent_offs : Offs c (ovfEvent c) := by
  have h3 : ∀ o, Offs c (orElse (if c.pkt.errata.apl12 = true then handleApl12 c (o + 1) else pure true) ovfFup) := 
    fun o => orElse_offs (by offs) ovfFup_offs
  intro hc s hs
  unfold ovfEvent
  rw [EM.bind_def]
  simp only [EM.modify]
  rw [EM.bind_def]
  simp only [EM.get]
  have h1 : InTrace c (ovfReset c s) := hs
  have h2 : (ovfReset c s).q.Holds [] := init_holds
  refine OffsE.app h2 h1 ?_
  split
  · exact Offs.undef.weak hc
  · exact (h3 _).weak hc
  · exact fun _ hq hs => ovfNoFup_inTrace hc _ hq hs

theorem decodeOvf_offs : Offs c (decodeOvf c) :=
  orElse_offs decodePsbend_offs (ovfEvent_offs)

theorem decodeOther_offs : Offs c (decodeOther c) := by
  intro hc s hs
  unfold decodeOther
  split
  all_goals first
    | with_reducible exact Offs.app (decodeTnt_offs _ _) hc hs
    | with_reducible exact Offs.app (decodeTiming_offs _) hc hs
    | with_reducible exact Offs.app (decodeFup_offs _ _ _) hc hs
    | with_reducible exact Offs.app (decodeTip_offs _ _ _) hc hs
    | with_reducible exact Offs.app (decodeCbr_offs _) hc hs
    | with_reducible exact Offs.app (decodeModeExec_offs _ _ _) hc hs
    | with_reducible exact Offs.app (decodeModeTsx_offs _ _) hc hs
    | with_reducible exact Offs.app (decodePip_offs _ _) hc hs
    | with_reducible exact Offs.app (decodePtw_offs _ _ _) hc hs
    | with_reducible exact Offs.app (decodePsbend_offs) hc hs
    | with_reducible exact Offs.app (decodeTipPge_offs _ _ _) hc hs
    | with_reducible exact Offs.app (decodeTipPgd_offs _ _) hc hs
    | with_reducible exact Offs.app (decodeExstop_offs _) hc hs
    | with_reducible exact Offs.app (aloneDone_offs _) hc hs
    | (unfold decodeMwait; with_reducible exact Offs.app (enqMore_offs _ _) hc hs)
    | with_reducible exact Offs.app (decodeVmcs_offs _) hc hs
    | with_reducible exact Offs.app (decodeOvf_offs) hc hs
    | with_reducible exact Offs.app (decodeCfe_offs _ _ _) hc hs
    | with_reducible exact Offs.app (decodeEvd_offs _ _) hc hs
    | with_reducible exact Offs.app (decodeTrig_offs _ _ _ _) hc hs
    | with_reducible exact Offs.app (decodeInvalid_offs) hc hs
    | exact hs

theorem decodePacket_offs : Offs c (decodePacket c) := by
  intro hc s hs
  unfold decodePacket
  split
  · exact (decodePsb_offs.bind fun _ => decodeOther_offs) hc s hs
  · exact decodeOther_offs hc s hs

theorem fetchEventLoop_offs : ∀ n, Offs c (fetchEventLoop c n) := by
  intro n
  induction n with
  | zero => exact Offs.undef
  | succ n ih =>
    have := decodePacket_offs (c := c)
    unfold fetchEventLoop; offs

theorem evtNext_offs : Offs c (evtNext c) := by
  have := fun n => fetchEventLoop_offs (c := c) n
  unfold evtNext
  refine (this _).bind fun _ => ?_
  offs

end Ipt
