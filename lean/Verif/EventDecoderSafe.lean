import Verif.EventDecoderBase
import Verif.Props.Time

/-! Helper lemmas: the event decoder performs no undefined operation and terminates. -/

set_option linter.unusedSimpArgs false

namespace Ipt

/-- What the event decoder relies on: an MTC frequency the configuration's field can be used with, an
unknown-packet callback that makes progress, and a trace buffer of less than 2 GB. -/
structure EvtCfg.Sane (c : EvtCfg) : Prop where
  freq : c.time.mtcFreq < 24
  cb : CbProgress c.pkt
  len : c.pkt.mem.length + 1 < 2 ^ 31

/-- The state is well-formed and at most `k` bytes are left. -/
def WF (c : EvtCfg) (k : Nat) (s : Evd) : Prop := (∃ l, s.q.Holds l) ∧ mu c.pkt s.pd ≤ k

/-- `m` is defined on well-formed states and preserves them. -/
def Pres {α : Type} (c : EvtCfg) (k : Nat) (m : EM α) : Prop :=
  ∀ s, WF c k s → (m s).2 ≠ .ub ∧ WF c k (m s).1

namespace Pres

variable {α β : Type} {c : EvtCfg} {k : Nat}

theorem pure (a : α) : Pres c k (Pure.pure a : EM α) := fun _ h => ⟨by simp [EM.pure_def], h⟩

theorem fail (e : Err) : Pres c k (EM.fail e : EM α) := fun _ h => ⟨by simp [EM.fail], h⟩

theorem get : Pres c k EM.get := fun _ h => ⟨by simp [EM.get], h⟩

theorem lift {r : Res α} (h : r ≠ .ub) : Pres c k (EM.lift r) := fun _ hs => ⟨h, hs⟩

theorem bind {m : EM α} {f : α → EM β} (h1 : Pres c k m) (h2 : ∀ a, Pres c k (f a)) : Pres c k (m >>= f) := by
  intro s hs
  have := h1 s hs
  rw [EM.bind_def]
  revert this
  rcases m s with ⟨s', a | e | _⟩
  · intro h; exact h2 a s' h.2
  · intro h; exact ⟨by simp, h.2⟩
  · intro h; exact absurd rfl h.1

theorem ite {p : Prop} [Decidable p] {m m' : EM α} (h1 : Pres c k m) (h2 : Pres c k m') :
    Pres c k (if p then m else m') := by split <;> assumption

/-- An update of anything but the queue and the packet decoder. -/
theorem modify {f : Evd → Evd} (h : ∀ s, (f s).q = s.q ∧ (f s).pd = s.pd) : Pres c k (EM.modify f) := by
  intro s hs
  refine ⟨by simp [EM.modify], ?_⟩
  unfold WF EM.modify at *
  rw [(h s).1, (h s).2]; exact hs

end Pres

variable {c : EvtCfg} {k : Nat}

theorem setEv_wf {s : Evd} (h : WF c k s) (p : EvPtr) (e : Event) : WF c k (s.setEv p e) := by
  obtain ⟨⟨l, hl⟩, hm⟩ := h
  cases p with
  | alone => exact ⟨⟨l, standalone_holds hl e⟩, hm⟩
  | slot i =>
    obtain ⟨l', h', _⟩ := put_holds hl i e
    exact ⟨⟨l', h'⟩, hm⟩

theorem updEv_pres (p : EvPtr) (f : Evd → Event → Event) : Pres c k (updEv p f) :=
  fun _ h => ⟨by simp [updEv, EM.modify], setEv_wf h _ _⟩

theorem enqSlot_pres (evb : Nat) : Pres c k (enqSlot evb) := by
  rintro s ⟨⟨l, hl⟩, hm⟩
  unfold enqSlot
  by_cases h : l.length < 14
  · obtain ⟨q', e1, e2, _⟩ := (enqueue_holds hl evb).1 h
    rw [e1]
    exact ⟨by simp, ⟨_, e2⟩, hm⟩
  · have := (enqueue_holds hl evb).2 (by have := hl.len; omega)
    rw [this]
    exact ⟨by simp, ⟨l, hl⟩, hm⟩

theorem enq_pres (evb : Nat) (e : Event) : Pres c k (enq evb e) :=
  (enqSlot_pres evb).bind fun _ => updEv_pres _ _

theorem enqMore_pres (evb : Nat) (e : Event) : Pres c k (enqMore evb e) :=
  (enq_pres evb e).bind fun _ => Pres.pure _

theorem deq_cases {s : Evd} {l : List (Event × Nat)} (h : s.q.Holds l) (evb : Nat) :
    (firstMatch evb l = none ∧ deq evb s = (s, .ok none)) ∨
    (∃ j e q', firstMatch evb l = some j ∧ l[j]? = some e ∧
      deq evb s = ({ s with q := q' }, .ok (some s.q.begin)) ∧ q'.Holds (l.eraseIdx j) ∧ q'.get s.q.begin = e.1 ∧
      q'.begin = (s.q.begin + 1) % 16 ∧ q'.standalone = s.q.standalone) := by
  have := dequeue_holds h evb
  unfold deq
  cases hm : firstMatch evb l with
  | none => rw [hm] at this; simp only at this; rw [this]; exact .inl ⟨rfl, rfl⟩
  | some j =>
    rw [hm] at this
    obtain ⟨q', e, h1, h2, h3, h4, h5, h6⟩ := this
    rw [h1]
    exact .inr ⟨j, e, q', rfl, h2, rfl, h4, by unfold Evq.get; rw [h3], h5, h6⟩

theorem deq_pres (evb : Nat) : Pres c k (deq evb) := by
  rintro s ⟨⟨l, hl⟩, hm⟩
  rcases deq_cases hl evb with ⟨_, h⟩ | ⟨j, e, q', _, _, h, h', _⟩
  · rw [h]; exact ⟨by simp, ⟨l, hl⟩, hm⟩
  · rw [h]; exact ⟨by simp, ⟨_, h'⟩, hm⟩

theorem setEvent_pres (p : Option EvPtr) : Pres c k (setEvent p) := Pres.modify fun _ => ⟨rfl, rfl⟩

theorem timeEv_pres (p : EvPtr) : Pres c k (timeEv p) := (updEv_pres _ _).bind fun _ => Pres.pure _

theorem ipTimeEv_pres (p : EvPtr) : Pres c k (ipTimeEv p) := (updEv_pres _ _).bind fun _ => timeEv_pres _

theorem alone_pres (e : Event) : Pres c k (alone e) := by
  rintro s ⟨⟨l, hl⟩, hm⟩
  exact ⟨by simp [alone, EM.modify], ⟨l, standalone_holds hl e⟩, hm⟩

/-- Fetching a packet leaves fewer bytes or stores an error. -/
theorem fetchLoop_spec (hc : CbProgress c.pkt) : ∀ (n : Nat) (s : Evd), mu c.pkt s.pd < n →
    ∃ pd p size st, fetchLoop c n s = ({ s with pd := pd, packet := p, size := size, status := st }, .ok ()) ∧
      ((mu c.pkt pd < mu c.pkt s.pd ∧ st = s.status ∧ p ≠ .pad) ∨
       (mu c.pkt pd ≤ mu c.pkt s.pd ∧ p = .invalid ∧ size = 0 ∧ st.isSome = true)) := by
  intro n
  induction n with
  | zero => intro s h; omega
  | succ n ih =>
    intro s h
    unfold fetchLoop
    rcases hn : pktDecNext c.pkt s.pd with ⟨d, ⟨p, size⟩ | e | _⟩
    · have hm := next_ok hc hn
      dsimp only
      by_cases hp : p = .pad
      · rw [if_pos hp]
        obtain ⟨pd, p', size', st, e1, e2⟩ :=
          ih { s with pd := d, packet := p, size := size } (by dsimp only; omega)
        refine ⟨pd, p', size', st, e1, ?_⟩
        dsimp only at e2
        rcases e2 with e2 | e2
        · exact .inl ⟨by omega, e2.2⟩
        · exact .inr ⟨by omega, e2.2⟩
      · rw [if_neg hp]
        exact ⟨d, p, size, s.status, rfl, .inl ⟨hm.1, rfl, hp⟩⟩
    · exact ⟨s.pd, .invalid, 0, some e, rfl, .inr ⟨Nat.le_refl _, rfl, rfl, rfl⟩⟩
    · exact absurd hn next_safe

theorem fetchPacket_spec (hc : CbProgress c.pkt) (s : Evd) :
    ∃ pd p size st, fetchPacket c s = ({ s with pd := pd, packet := p, size := size, status := st }, .ok ()) ∧
      ((mu c.pkt pd < mu c.pkt s.pd ∧ st = s.status ∧ p ≠ .pad) ∨
       (mu c.pkt pd ≤ mu c.pkt s.pd ∧ p = .invalid ∧ size = 0 ∧ st.isSome = true)) :=
  fetchLoop_spec hc _ _ (by have := mu_le c.pkt s.pd; unfold EvtCfg.fuel; omega)

theorem fetchPacket_pres (hc : CbProgress c.pkt) : Pres c k (fetchPacket c) := by
  rintro s ⟨hl, hm⟩
  obtain ⟨pd, p, size, st, e1, e2⟩ := fetchPacket_spec hc s
  rw [e1]
  exact ⟨by simp, hl, by dsimp only; omega⟩

theorem fetchDone_pres (hc : CbProgress c.pkt) : Pres c k (fetchDone c) :=
  (fetchPacket_pres hc).bind fun _ => Pres.pure _

theorem aloneDone_pres (hc : CbProgress c.pkt) (e : Event) : Pres c k (aloneDone c e) :=
  (alone_pres e).bind fun _ => (timeEv_pres _).bind fun _ => fetchDone_pres hc

theorem update_safe (l : LastIp) (ipc ip : Nat) : (l.update ipc ip).2 ≠ .ub := by
  unfold LastIp.update
  repeat' split
  all_goals simp

theorem updIp_pres (ipc ip : Nat) : Pres c k (updIp ipc ip) :=
  fun s h => ⟨update_safe s.ip ipc ip, h⟩

theorem applyTm_pres (hf : c.time.mtcFreq < 24) (p : TimePkt) : Pres c k (applyTm c p) :=
  fun s h => ⟨timing_apply_safe hf s.tm p, h⟩


/-- Prove `Pres` for a composite computation. -/
macro "pres" : tactic => `(tactic| repeat' (first
  | assumption
  | with_reducible exact Pres.pure _
  | with_reducible exact Pres.fail _
  | with_reducible exact Pres.get
  | with_reducible exact updEv_pres _ _
  | with_reducible exact enqSlot_pres _
  | with_reducible exact enq_pres _ _
  | with_reducible exact enqMore_pres _ _
  | with_reducible exact deq_pres _
  | with_reducible exact setEvent_pres _
  | with_reducible exact timeEv_pres _
  | with_reducible exact ipTimeEv_pres _
  | with_reducible exact alone_pres _
  | with_reducible exact updIp_pres _ _
  | (with_reducible apply fetchPacket_pres; assumption)
  | (with_reducible apply fetchDone_pres; assumption)
  | (with_reducible apply aloneDone_pres; assumption)
  | (with_reducible apply applyTm_pres; assumption)
  | (with_reducible apply Pres.modify; intro _; exact ⟨rfl, rfl⟩)
  | with_reducible refine Pres.bind ?_ (fun _ => ?_)
  | with_reducible refine Pres.ite ?_ ?_
  | split))

theorem decodeTiming_pres (hf : c.time.mtcFreq < 24) (p : TimePkt) : Pres c k (decodeTiming c p) :=
  (applyTm_pres hf p).bind fun _ => Pres.pure _

theorem decodeCbr_pres (h : c.Sane) (r : Nat) : Pres c k (decodeCbr c r) :=
  (applyTm_pres h.freq _).bind fun _ => aloneDone_pres h.cb _

theorem headerFupLoop_safe (hc : CbProgress c.pkt) : ∀ (n : Nat) (d : PktDec), mu c.pkt d < n →
    headerFupLoop c n d ≠ .ub := by
  intro n
  induction n with
  | zero => intro d h; omega
  | succ n ih =>
    intro d h
    unfold headerFupLoop
    rcases hn : pktDecNext c.pkt d with ⟨d', ⟨p, size⟩ | e | _⟩
    · have hm := next_ok hc hn
      have := ih d' (by omega)
      cases p <;> simp_all
    · simp
    · exact absurd hn next_safe

theorem bdm70Loop_safe (hc : CbProgress c.pkt) : ∀ (n : Nat) (d : PktDec), mu c.pkt d < n →
    bdm70Loop c n d ≠ .ub := by
  intro n
  induction n with
  | zero => intro d h; omega
  | succ n ih =>
    intro d h
    unfold bdm70Loop
    rcases hn : pktDecNext c.pkt d with ⟨d', ⟨p, size⟩ | e | _⟩
    · have hm := next_ok hc hn
      have := ih d' (by omega)
      cases p <;> simp_all
    · cases e <;> simp
    · exact absurd hn next_safe

theorem fuel_gt (d : PktDec) : mu c.pkt d + 1 < c.fuel := by
  have := mu_le c.pkt d; unfold EvtCfg.fuel; omega

theorem checkBdm70_pres (hc : CbProgress c.pkt) : Pres c k (checkBdm70 c) := by
  intro s hs
  unfold checkBdm70
  split
  · exact ⟨bdm70Loop_safe hc _ _ (by have := fuel_gt (c := c) s.pd; omega), hs⟩
  · exact ⟨by simp, hs⟩

theorem headerFup_pres (hc : CbProgress c.pkt) (ipc ip : Nat) : Pres c k (headerFup c ipc ip) :=
  (checkBdm70_pres hc).bind fun _ => Pres.ite (Pres.modify fun _ => ⟨rfl, rfl⟩)
    ((Pres.modify fun _ => ⟨rfl, rfl⟩).bind fun _ => updIp_pres _ _)

theorem checkModeExec_pres (csl csd iflag : Bool) : Pres c k (checkModeExec c csl csd iflag) := by
  intro s hs
  unfold checkModeExec
  repeat' split
  all_goals exact ⟨by simp, hs⟩

theorem headerModeExec_pres (csl csd iflag : Bool) : Pres c k (headerModeExec c csl csd iflag) :=
  (checkModeExec_pres _ _ _).bind fun _ => (enq_pres _ _).bind fun _ => Pres.ite (enq_pres _ _) (Pres.pure _)

theorem modeExecEvents_pres (m i csl csd iflag : Bool) : Pres c k (modeExecEvents m i csl csd iflag) := by
  unfold modeExecEvents; pres

theorem decodeModeExec_pres (csl csd iflag : Bool) : Pres c k (decodeModeExec c csl csd iflag) := by
  unfold decodeModeExec
  refine Pres.get.bind fun _ => (modeExecEvents_pres _ _ _ _ _).bind fun _ => ?_
  pres

theorem decodeModeTsx_pres (hc : CbProgress c.pkt) (a b : Bool) : Pres c k (decodeModeTsx c a b) := by
  unfold decodeModeTsx; pres

theorem decodePip_pres (hc : CbProgress c.pkt) (a : Nat) (b : Bool) : Pres c k (decodePip c a b) := by
  unfold decodePip; pres

theorem vmcsBeforePaging_pres (base i : Nat) : Pres c k (vmcsBeforePaging base i) := by
  unfold vmcsBeforePaging; pres

theorem decodeVmcs_pres (hc : CbProgress c.pkt) (base : Nat) : Pres c k (decodeVmcs c base) := by
  have := vmcsBeforePaging_pres (c := c) (k := k) base
  unfold decodeVmcs
  refine Pres.get.bind fun s => ?_
  split
  · exact this _
  · pres

theorem exstopEvent_pres (hc : CbProgress c.pkt) (ip : Bool) : Pres c k (exstopEvent c ip) := by
  unfold exstopEvent; pres

theorem decodeExstop_pres (hc : CbProgress c.pkt) (ip : Bool) : Pres c k (decodeExstop c ip) := by
  have := exstopEvent_pres (k := k) hc ip
  unfold decodeExstop; pres

theorem decodePtw_pres (hc : CbProgress c.pkt) (a b : Nat) (ip : Bool) : Pres c k (decodePtw c a b ip) := by
  unfold decodePtw
  have : Pres c k (EM.lift (ptwSize b)) := by
    refine Pres.lift ?_
    unfold ptwSize
    repeat' split
    all_goals simp
  pres

theorem psbDropHead_pres (i : Nat) : Pres c k (psbDropHead i) := by
  refine (deq_pres _).bind fun j => ?_
  cases j with
  | none => exact Pres.fail _
  | some j => exact Pres.ite (Pres.pure _) (Pres.fail _)

/-- A computation that depends on the state. -/
theorem Pres.of {α : Type} {m : EM α} (f : Evd → EM α) (h : ∀ s, m s = f s s) (hf : ∀ s, Pres c k (f s)) : Pres c k m := by
  intro s hs; rw [h s]; exact hf s s hs

theorem psbPacket_pres (h : c.Sane) (i : Nat) : Pres c k (psbPacket c i) := by
  have hc := h.cb
  have hf := h.freq
  intro s hs
  unfold psbPacket
  cases s.packet
  case fup => exact ((headerFup_pres hc _ _).bind fun _ => Pres.pure _) s hs
  case modeExec => exact ((headerModeExec_pres _ _ _).bind fun _ => Pres.pure _) s hs
  case modeTsx => exact ((enq_pres _ _).bind fun _ => Pres.pure _) s hs
  case pip => exact ((enq_pres _ _).bind fun _ => Pres.pure _) s hs
  case vmcs => exact ((enq_pres _ _).bind fun _ => Pres.pure _) s hs
  case mnt => exact ((enq_pres _ _).bind fun _ => Pres.pure _) s hs
  case tsc => exact ((applyTm_pres hf _).bind fun _ => Pres.pure _) s hs
  case tma => exact ((applyTm_pres hf _).bind fun _ => Pres.pure _) s hs
  case mtc => exact ((applyTm_pres hf _).bind fun _ => Pres.pure _) s hs
  case cyc => exact ((applyTm_pres hf _).bind fun _ => Pres.pure _) s hs
  case cbr => exact ((applyTm_pres hf _).bind fun _ => (enq_pres _ _).bind fun _ => Pres.pure _) s hs
  case psbend =>
    dsimp only
    split
    · exact ((updEv_pres _ _).bind fun _ => Pres.pure _) s hs
    · exact ((updEv_pres _ _).bind fun _ => Pres.pure _) s hs
  case ovf =>
    dsimp only
    split
    · exact ((updEv_pres _ _).bind fun _ => Pres.pure _) s hs
    · exact ((psbDropHead_pres _).bind fun _ => Pres.pure _) s hs
  case invalid =>
    dsimp only
    split
    · exact ⟨by simp, hs⟩
    · exact ⟨by simp, hs⟩
  all_goals exact ⟨by simp, hs⟩

theorem psbPacket_bad {i : Nat} {s : Evd} (h1 : s.packet = .invalid) (h2 : s.status.isSome = true) :
    ∃ e, psbPacket c i s = (s, .err e) := by
  obtain ⟨e, he⟩ := Option.isSome_iff_exists.1 h2
  exact ⟨e, by unfold psbPacket; rw [h1]; dsimp only; rw [he]⟩

theorem psbPacket_true {i : Nat} {s s' : Evd} (h : psbPacket c i s = (s', .ok true)) :
    s.packet = .psbend ∨ s.packet = .ovf := by
  unfold psbPacket at h
  revert h
  cases s.packet
  case psbend => simp
  case ovf => simp
  case invalid => cases s.status <;> simp
  all_goals
    try dsimp only
    try simp only [EM.bind_def, EM.pure_def, EM.wlp]
    intro h
    exfalso
    repeat' split at h
    all_goals simp_all

theorem psbLoop_pres (h : c.Sane) (i : Nat) : ∀ (n k : Nat) (s : Evd), mu c.pkt s.pd < n → WF c k s →
    (psbLoop c i n s).2 ≠ .ub ∧ WF c k (psbLoop c i n s).1 := by
  intro n
  induction n with
  | zero => intro k s h; omega
  | succ n ih =>
    intro k s hn hs
    obtain ⟨pd, p, size, st, e1, e2⟩ := fetchPacket_spec h.cb s
    have hw : WF c k { s with pd := pd, packet := p, size := size, status := st } :=
      ⟨hs.1, by have := hs.2; dsimp only; omega⟩
    unfold psbLoop
    rw [EM.bind_def, e1]
    dsimp only
    rcases e2 with e2 | e2
    · have h3 := psbPacket_pres h i _ hw
      have h4 := psbPacket_pres (k := mu c.pkt pd) h i { s with pd := pd, packet := p, size := size, status := st }
        ⟨hs.1, Nat.le_refl _⟩
      rw [EM.bind_def]
      revert h3 h4
      rcases psbPacket c i { s with pd := pd, packet := p, size := size, status := st } with ⟨s', b | e | _⟩
      · intro h3 h4
        dsimp only
        split
        · exact ⟨by simp [EM.pure_def], h3.2⟩
        · exact ih k s' (by have := h4.2.2; dsimp only at this; omega) h3.2
      · intro h3 h4; exact ⟨by simp, h3.2⟩
      · intro h3; exact absurd rfl h3.1
    · obtain ⟨e, he⟩ := psbPacket_bad (c := c) (i := i)
        (s := { s with pd := pd, packet := p, size := size, status := st }) e2.2.1 e2.2.2.2
      rw [EM.bind_def, he]
      exact ⟨by simp, hw⟩

theorem psbPending_pres : Pres c k psbPending := by
  intro s hs
  unfold psbPending
  repeat' split
  all_goals exact ⟨by simp, hs⟩

theorem decodePsb_pres (h : c.Sane) : Pres c k (decodePsb c) := by
  have : ∀ i, Pres c k (psbLoop c i c.fuel) := fun i s hs =>
    psbLoop_pres h i _ k s (by have := fuel_gt (c := c) s.pd; omega) hs
  have h2 := psbPending_pres (c := c) (k := k)
  unfold decodePsb
  pres
  exact this _

theorem evtStart_pres (h : c.Sane) : Pres c k (evtStart c) := by
  have hc := h.cb
  have := decodePsb_pres (k := k) h
  unfold evtStart; pres

theorem publish_pres {i : Nat} {f : Event → EM Bool} (h : ∀ e, Pres c k (f e)) : Pres c k (publish i f) :=
  (setEvent_pres _).bind fun _ => Pres.get.bind fun _ => h _

theorem psbendEvent_pres (i : Nat) (e : Event) : Pres c k (psbendEvent i e) := by
  unfold psbendEvent
  cases e.data
  all_goals first | exact ipTimeEv_pres _ | exact timeEv_pres _ | exact Pres.fail _

theorem decodePsbend_pres : Pres c k decodePsbend := by
  refine (deq_pres _).bind fun i => ?_
  cases i with
  | none => exact Pres.pure _
  | some i => exact publish_pres (psbendEvent_pres i)

theorem fupPending_pres : Pres c k fupPending := by
  rintro s ⟨⟨l, hl⟩, hm⟩
  unfold fupPending
  rw [pending_holds hl]
  split
  · exact ⟨by simp, ⟨l, hl⟩, hm⟩
  · exact ⟨by simp, ⟨l, hl⟩, hm⟩
  · rename_i h; cases h
  · rename_i h; cases h

theorem query_safe (l : LastIp) : l.query ≠ .ub := by
  unfold LastIp.query
  repeat' split
  all_goals simp

theorem fupUnbound_pres : Pres c k fupUnbound :=
  Pres.get.bind fun s => Pres.ite (Pres.pure _) ((Pres.lift (query_safe _)).bind fun _ => enqMore_pres _ _)


theorem again_safe {s : Evd} {again : EM Bool}
    (ha : (again { s with event := none }).2 ≠ .ub ∧ WF c k (again { s with event := none }).1) :
    ((do setEvent none; again : EM Bool) s).2 ≠ .ub ∧ WF c k ((do setEvent none; again : EM Bool) s).1 := by
  rw [EM.bind_def]; exact ha

theorem fupEvent_safe {s : Evd} (hs : WF c k s) {i : Nat} {again : EM Bool} {e : Event}
    (ha : (again { s with event := none }).2 ≠ .ub ∧ WF c k (again { s with event := none }).1) :
    (fupEvent i again e s).2 ≠ .ub ∧ WF c k (fupEvent i again e s).1 := by
  unfold fupEvent
  cases e.data
  case tick => exact again_safe ha
  all_goals
    refine Pres.pure (c := c) (k := k) () |> fun _ => ?_
    revert s
    intro s hs _
    refine (?_ : Pres c k _) s hs
    pres

theorem deq_bind {α : Type} {s : Evd} {evb : Nat} {f : Option Nat → EM α} {l : List (Event × Nat)} (hl : s.q.Holds l)
    (hm : mu c.pkt s.pd ≤ k)
    (h0 : (f none s).2 ≠ .ub ∧ WF c k (f none s).1)
    (h1 : ∀ i l' q', q'.Holds l' → l'.length < l.length →
      (f (some i) { s with q := q' }).2 ≠ .ub ∧ WF c k (f (some i) { s with q := q' }).1) :
    ((deq evb >>= f) s).2 ≠ .ub ∧ WF c k ((deq evb >>= f) s).1 := by
  rcases deq_cases hl evb with ⟨_, h⟩ | ⟨j, e, q', hj, hj', h, h', _⟩
  · rw [EM.bind_def, h]; exact h0
  · rw [EM.bind_def, h]
    refine h1 _ _ _ h' ?_
    have := (List.getElem?_eq_some_iff.1 hj').1
    rw [List.length_eraseIdx]
    split <;> omega

theorem decodeFup_safe (ipc ip : Nat) : ∀ (n : Nat) (s : Evd) (l : List (Event × Nat)), s.q.Holds l → l.length < n →
    mu c.pkt s.pd ≤ k → (decodeFup ipc ip n s).2 ≠ .ub ∧ WF c k (decodeFup ipc ip n s).1 := by
  intro n
  induction n with
  | zero => intro s l _ h; omega
  | succ n ih =>
    intro s l hl hn hm
    unfold decodeFup
    rw [EM.bind_def]
    unfold updIp
    have hu := update_safe s.ip ipc ip
    revert hu
    rcases (s.ip.update ipc ip).2 with a | e | _
    · intro _
      dsimp only
      have : ∀ b, ((do
          match ← deq (evbFup ||| evbFupBound) with
          | none => fupUnbound
          | some i => publish i (fupEvent i (decodeFup ipc ip n)) : EM Bool)
            { s with ip := (s.ip.update ipc ip).1, bound := b }).2 ≠ .ub ∧ WF c k ((do
          match ← deq (evbFup ||| evbFupBound) with
          | none => fupUnbound
          | some i => publish i (fupEvent i (decodeFup ipc ip n)) : EM Bool)
            { s with ip := (s.ip.update ipc ip).1, bound := b }).1 := by
        intro b
        refine deq_bind (l := l) hl hm ?_ ?_
        · exact fupUnbound_pres _ ⟨⟨l, hl⟩, hm⟩
        · intro i l' q' h' hlt
          dsimp only
          exact fupEvent_safe (c := c) (k := k) (i := i) (again := decodeFup ipc ip n) (e := q'.get i)
            (s := { s with ip := (s.ip.update ipc ip).1, bound := b, q := q', event := some (.slot i) })
            ⟨⟨l', h'⟩, hm⟩ (ih _ l' h' (by omega) hm)
      rw [EM.bind_def]
      unfold fupPending
      dsimp only
      rw [pending_holds hl]
      cases l.any (matches_ evbFupBound)
      · have := this s.bound; exact this
      · have := this true; exact this
    · intro _; exact ⟨by simp, ⟨l, hl⟩, hm⟩
    · intro h; exact absurd rfl h


theorem findOvfFup_safe (h : c.Sane) : ∀ (n : Nat) (d : PktDec) (off : Nat), mu c.pkt d < n →
    (∀ p, d.pos = some p → off ≤ p) → findOvfFup c n d off ≠ .ub := by
  intro n
  induction n with
  | zero => intro d off h; omega
  | succ n ih =>
    intro d off hn ho
    unfold findOvfFup
    rcases hx : pktDecNext c.pkt d with ⟨d', ⟨p, size⟩ | e | _⟩
    · obtain ⟨h1, h2, h3, pos, pos', h4, h5, h6, h7, h8⟩ := next_ok h.cb hx
      have h9 := ho pos h4
      have h10 := h.len
      have h11 := ih d' (off + size) (by omega) (by
        intro q hq; rw [h5] at hq; dsimp only at hq; cases hq; omega)
      dsimp only
      rw [if_neg (by omega), if_neg (by omega)]
      cases p <;> simp_all
    · simp
    · exact absurd hx next_safe

theorem recoverOvfAtIp_pres {d : PktDec} (hd : mu c.pkt d ≤ k) (p : Packet) (size ipc ip : Nat) (tm : Timing) :
    Pres c k (recoverOvfAtIp d p size ipc ip tm) := by
  unfold recoverOvfAtIp
  pres
  exact fun s hs => ⟨by simp [EM.modify], hs.1, hd⟩

theorem recoverOvfDisabled_pres (hc : CbProgress c.pkt) {d : PktDec} (hd : mu c.pkt d ≤ k) (p : Packet) (size : Nat)
    (tm : Timing) : Pres c k (recoverOvfDisabled c d p size tm) := by
  unfold recoverOvfDisabled
  pres
  exact fun s hs => ⟨by simp [EM.modify], hs.1, hd⟩

theorem recoverAtOffsetLoop_safe (h : c.Sane) : ∀ (n off : Nat) (s : Evd), mu c.pkt s.pd < n → WF c k s →
    (recoverAtOffsetLoop c n off s).2 ≠ .ub ∧ WF c k (recoverAtOffsetLoop c n off s).1 := by
  intro n
  induction n with
  | zero => intro off s h; omega
  | succ n ih =>
    intro off s hn hs
    unfold recoverAtOffsetLoop
    rcases hx : pktDecNext c.pkt s.pd with ⟨d', ⟨p, size⟩ | e | _⟩
    · obtain ⟨h1, _⟩ := next_ok h.cb hx
      have hw : WF c k { s with pd := d', packet := p, size := size } :=
        ⟨hs.1, by have := hs.2; dsimp only; omega⟩
      dsimp only
      split
      · exact ⟨by simp, hw⟩
      · split
        · exact ⟨by simp, hw⟩
        · cases hp : p.timing with
          | some t =>
            dsimp only
            rw [EM.bind_def]
            unfold applyTm
            have hu := timing_apply_safe h.freq s.tm t
            revert hu
            dsimp only
            rcases (s.tm.apply c.time t) with ⟨tm, a | e | _⟩
            · intro _
              exact ih _ { s with pd := d', packet := p, size := size, tm := tm } (by dsimp only; omega) hw
            · intro _; exact ⟨by simp, hw⟩
            · intro h; exact absurd rfl h
          | none =>
            have := ih (off - size) { s with pd := d', packet := p, size := size } (by dsimp only; omega) hw
            cases p <;> first | exact ⟨by simp, hw⟩ | exact this
    · exact ⟨by simp, hs⟩
    · exact absurd hx next_safe

theorem recoverOvfAtOffset_pres (h : c.Sane) (off : Nat) : Pres c k (recoverOvfAtOffset c off) := by
  have hc := h.cb
  have : Pres c k (recoverAtOffsetLoop c c.fuel off) := fun s hs =>
    recoverAtOffsetLoop_safe h _ _ s (by have := fuel_gt (c := c) s.pd; omega) hs
  unfold recoverOvfAtOffset
  pres

theorem skd010Fup_pres {d : PktDec} (hd : mu c.pkt d ≤ k) (size ipc ip : Nat) (tm : Timing) (tsx : Option (Bool × Bool)) :
    Pres c k (skd010Fup d size ipc ip tm tsx) := by
  have := recoverOvfAtIp_pres hd (.fup ipc ip) size ipc ip tm
  unfold skd010Fup
  pres

theorem skd010Loop_pres (h : c.Sane) : ∀ (n : Nat) (d : PktDec) (tm : Timing) (tsx : Option (Bool × Bool)),
    mu c.pkt d < n → mu c.pkt d ≤ k → Pres c k (skd010Loop c n d tm tsx) := by
  intro n
  have hc := h.cb
  induction n with
  | zero => intro d _ _ h; omega
  | succ n ih =>
    intro d tm tsx hn hk
    unfold skd010Loop
    rcases hx : pktDecNext c.pkt d with ⟨d', ⟨p, size⟩ | e | _⟩
    · obtain ⟨h1, _⟩ := next_ok hc hx
      have ih' := fun tm tsx => ih d' tm tsx (by omega) (by omega)
      have h2 := fun p size ipc ip tm => recoverOvfAtIp_pres (c := c) (k := k) (d := d') (by omega) p size ipc ip tm
      have h3 := fun p size tm => recoverOvfDisabled_pres (c := c) (k := k) hc (d := d') (by omega) p size tm
      have h4 := fun size ipc ip tm tsx => skd010Fup_pres (c := c) (k := k) (d := d') (by omega) size ipc ip tm tsx
      have h5 := headerFupLoop_safe hc c.fuel d' (by have := fuel_gt (c := c) d'; omega)
      dsimp only
      cases hp : p.timing with
      | some t =>
        dsimp only
        have hu := timing_apply_safe h.freq tm t
        revert hu
        rcases (tm.apply c.time t) with ⟨tm', a | e | _⟩
        · intro _; exact ih' _ _
        · intro _; exact Pres.fail _
        · intro h; exact absurd rfl h
      | none =>
        cases p
        case tip => exact (h2 _ _ _ _ _).bind fun _ => fetchDone_pres hc
        case psb =>
          dsimp only
          revert h5
          rcases headerFupLoop c c.fuel d' with (_ | ⟨a, b⟩) | e | _
          · intro _; exact Pres.pure _
          · intro _; exact h2 _ _ _ _ _
          · intro _; cases e <;> first | exact Pres.pure _ | exact Pres.fail _
          · intro h; exact absurd rfl h
        all_goals
          dsimp only
          first
          | exact Pres.pure _ | exact Pres.fail _ | exact ih' _ _ | exact h3 _ _ _ | exact h4 _ _ _ _ _
          | (split <;> first | exact Pres.pure _ | exact ih' _ _)
    · cases e <;> first | exact Pres.pure _ | exact Pres.fail _
    · exact absurd hx next_safe

theorem apl11Loop_pres (h : c.Sane) : ∀ (n : Nat) (d : PktDec) (tm : Timing),
    mu c.pkt d < n → mu c.pkt d ≤ k → Pres c k (apl11Loop c n d tm) := by
  intro n
  have hc := h.cb
  induction n with
  | zero => intro d _ h; omega
  | succ n ih =>
    intro d tm hn hk
    unfold apl11Loop
    rcases hx : pktDecNext c.pkt d with ⟨d', ⟨p, size⟩ | e | _⟩
    · obtain ⟨h1, _⟩ := next_ok hc hx
      have ih' := fun tm => ih d' tm (by omega) (by omega)
      have h3 := fun p size tm => recoverOvfDisabled_pres (c := c) (k := k) hc (d := d') (by omega) p size tm
      dsimp only
      cases hp : p.timing with
      | some t =>
        dsimp only
        have hu := timing_apply_safe h.freq tm t
        revert hu
        rcases (tm.apply c.time t) with ⟨tm', a | e | _⟩
        · intro _; exact ih' _
        · intro _; exact Pres.fail _
        · intro h; exact absurd rfl h
      | none =>
        cases p <;> first | exact Pres.pure _ | exact ih' _ | exact h3 _ _ _
    · exact Pres.fail _
    · exact absurd hx next_safe

theorem apl12Loop_pres (h : c.Sane) (off : Nat) : ∀ (n : Nat) (d : PktDec),
    mu c.pkt d < n → Pres c k (apl12Loop c off n d) := by
  intro n
  have hc := h.cb
  induction n with
  | zero => intro d h; omega
  | succ n ih =>
    intro d hn
    unfold apl12Loop
    rcases hx : pktDecNext c.pkt d with ⟨d', ⟨p, size⟩ | e | _⟩
    · obtain ⟨h1, _⟩ := next_ok hc hx
      have ih' := ih d' (by omega)
      have h3 := recoverOvfAtOffset_pres (k := k) h off
      have h5 := headerFupLoop_safe hc c.fuel d' (by have := fuel_gt (c := c) d'; omega)
      cases p
      case psb =>
        dsimp only
        revert h5
        rcases headerFupLoop c c.fuel d' with (_ | ⟨a, b⟩) | e | _
        · intro _; exact h3
        · intro _; exact Pres.pure _
        · intro _; cases e <;> first | exact Pres.pure _ | exact Pres.fail _
        · intro h; exact absurd rfl h
      all_goals first | exact Pres.pure _ | exact ih' | exact h3
    · cases e <;> first | exact Pres.pure _ | exact Pres.fail _
    · exact absurd hx next_safe

theorem handleApl12_pres (h : c.Sane) (off : Nat) : Pres c k (handleApl12 c off) := by
  unfold handleApl12
  refine Pres.get.bind fun s => ?_
  refine Pres.ite (Pres.fail _) ?_
  exact apl12Loop_pres h off _ _ (by have := fuel_gt (c := c) { s.pd with pos := some (s.pd.pos.getD 0 + off) }; omega)

theorem orElse_pres {f g : EM Bool} (hf : Pres c k f) (hg : Pres c k g) : Pres c k (orElse f g) := by
  unfold orElse; pres

theorem Pres.get_bind {α : Type} {f : Evd → EM α} (h : ∀ s, WF c k s → (f s s).2 ≠ .ub ∧ WF c k (f s s).1) :
    Pres c k (EM.get >>= f) := by
  intro s hs; exact h s hs

theorem ovfNoFup_pres (h : c.Sane) {r : Res Nat} (hr : r ≠ .ub) : Pres c k (ovfNoFup c r) := by
  have hc := h.cb
  unfold ovfNoFup
  refine Pres.get_bind fun s hs => ?_
  refine orElse_pres ?_ ?_ s hs
  · refine Pres.ite (skd010Loop_pres h _ _ _ _ ?_ hs.2) (Pres.pure _)
    have := fuel_gt (c := c) s.pd; omega
  · refine Pres.get_bind fun s hs => ?_
    refine orElse_pres ?_ ?_ s hs
    · refine Pres.ite (apl11Loop_pres h _ _ _ ?_ hs.2) (Pres.pure _)
      have := fuel_gt (c := c) s.pd; omega
    · rcases r with a | e | _
      · pres
      · cases e <;> pres
      · exact absurd rfl hr

theorem ovfFup_pres : Pres c k ovfFup := by unfold ovfFup; pres

theorem ovfReset_pres : Pres c k (EM.modify (ovfReset c)) :=
  fun s hs => ⟨by simp [EM.modify], ⟨[], init_holds⟩, hs.2⟩

theorem ovfEvent_pres (h : c.Sane) : Pres c k (ovfEvent c) := by
  unfold ovfEvent
  refine ovfReset_pres.bind fun _ => Pres.get_bind fun s hs => ?_
  have hx := findOvfFup_safe h c.fuel s.pd 0 (by have := fuel_gt (c := c) s.pd; omega) (by intros; omega)
  rcases hy : findOvfFup c c.fuel s.pd 0 with (_ | off) | e | _
  · exact ovfNoFup_pres h (by simp) s hs
  · exact orElse_pres (Pres.ite (handleApl12_pres h _) (Pres.pure _)) ovfFup_pres s hs
  · exact ovfNoFup_pres h (by simp) s hs
  · exact absurd hy hx

theorem decodeOvf_pres (h : c.Sane) : Pres c k (decodeOvf c) := orElse_pres decodePsbend_pres (ovfEvent_pres h)

theorem tipAsync_pres (j : Nat) : Pres c k (tipAsync j) := by
  unfold tipAsync
  pres
  exact fun s hs => ⟨by simp [EM.modify], setEv_wf (setEv_wf hs _ _) _ _⟩

theorem tipBranch_pres : Pres c k tipBranch := by
  have := fun j => tipAsync_pres (c := c) (k := k) j
  unfold tipBranch
  pres
  exact this _

theorem tipEvent_safe {s : Evd} (hs : WF c k s) {i : Nat} {again : EM Bool} {e : Event}
    (ha : (again { s with event := none }).2 ≠ .ub ∧ WF c k (again { s with event := none }).1) :
    (tipEvent i again e s).2 ≠ .ub ∧ WF c k (tipEvent i again e s).1 := by
  unfold tipEvent
  cases e.data
  case tick => exact again_safe ha
  all_goals
    refine (?_ : Pres c k _) s hs
    pres

theorem tipPgeEvent_safe {s : Evd} (hs : WF c k s) {i : Nat} {again : EM Bool} {e : Event}
    (ha : (again { s with event := none }).2 ≠ .ub ∧ WF c k (again { s with event := none }).1) :
    (tipPgeEvent i again e s).2 ≠ .ub ∧ WF c k (tipPgeEvent i again e s).1 := by
  unfold tipPgeEvent
  cases e.data
  case tick => exact again_safe ha
  all_goals
    refine (?_ : Pres c k _) s hs
    pres

theorem decodeTip_safe (ipc ip : Nat) : ∀ (n : Nat) (s : Evd) (l : List (Event × Nat)), s.q.Holds l → l.length < n →
    mu c.pkt s.pd ≤ k → (decodeTip ipc ip n s).2 ≠ .ub ∧ WF c k (decodeTip ipc ip n s).1 := by
  intro n
  induction n with
  | zero => intro s l _ h; omega
  | succ n ih =>
    intro s l hl hn hm
    unfold decodeTip
    rw [EM.bind_def]
    simp only [EM.get]
    split
    · exact Pres.fail _ s ⟨⟨l, hl⟩, hm⟩
    · rw [EM.bind_def]
      unfold updIp
      have hu := update_safe s.ip ipc ip
      revert hu
      rcases (s.ip.update ipc ip).2 with a | e | _
      · intro _
        dsimp only
        split
        · exact tipBranch_pres _ ⟨⟨l, hl⟩, hm⟩
        · refine deq_bind (l := l) hl hm ?_ ?_
          · exact ⟨by simp [EM.pure_def], ⟨l, hl⟩, hm⟩
          · intro i l' q' h' hlt
            exact tipEvent_safe (c := c) (k := k) (i := i) (again := decodeTip ipc ip n) (e := q'.get i)
              (s := { s with ip := (s.ip.update ipc ip).1, q := q', event := some (.slot i) })
              ⟨⟨l', h'⟩, hm⟩ (ih _ l' h' (by omega) hm)
      · intro _; exact ⟨by simp, ⟨l, hl⟩, hm⟩
      · intro h; exact absurd rfl h

theorem tipPgeEnable_pres : Pres c k tipPgeEnable := by unfold tipPgeEnable; pres

theorem decodeTipPge_safe (ipc ip : Nat) : ∀ (n : Nat) (s : Evd) (l : List (Event × Nat)), s.q.Holds l → l.length < n →
    mu c.pkt s.pd ≤ k → (decodeTipPge ipc ip n s).2 ≠ .ub ∧ WF c k (decodeTipPge ipc ip n s).1 := by
  intro n
  induction n with
  | zero => intro s l _ h; omega
  | succ n ih =>
    intro s l hl hn hm
    unfold decodeTipPge
    rw [EM.bind_def]
    unfold updIp
    have hu := update_safe s.ip ipc ip
    revert hu
    rcases (s.ip.update ipc ip).2 with a | e | _
    · intro _
      dsimp only
      rw [EM.bind_def]
      simp only [EM.get]
      split
      · exact tipPgeEnable_pres _ ⟨⟨l, hl⟩, hm⟩
      · refine deq_bind (l := l) hl hm ?_ ?_
        · exact ⟨by simp [EM.pure_def], ⟨l, hl⟩, hm⟩
        · intro i l' q' h' hlt
          exact tipPgeEvent_safe (c := c) (k := k) (i := i) (again := decodeTipPge ipc ip n) (e := q'.get i)
            (s := { s with ip := (s.ip.update ipc ip).1, q := q', event := some (.slot i) })
            ⟨⟨l', h'⟩, hm⟩ (ih _ l' h' (by omega) hm)
    · intro _; exact ⟨by simp, ⟨l, hl⟩, hm⟩
    · intro h; exact absurd rfl h

theorem tipPgdAlone_pres (hc : CbProgress c.pkt) : Pres c k (tipPgdAlone c) := by unfold tipPgdAlone; pres

theorem tipPgdEvent_pres (i : Nat) (e : Event) : Pres c k (tipPgdEvent i e) := by
  unfold tipPgdEvent
  refine Pres.get.bind fun s => ?_
  dsimp only
  pres

theorem decodeTipPgd_pres (hc : CbProgress c.pkt) (ipc ip : Nat) : Pres c k (decodeTipPgd c ipc ip) := by
  have := tipPgdAlone_pres (k := k) hc
  unfold decodeTipPgd
  pres
  exact publish_pres (tipPgdEvent_pres _)

theorem decodeTnt_pres (hc : CbProgress c.pkt) (a b : Nat) : Pres c k (decodeTnt c a b) := by
  unfold decodeTnt; pres

theorem cfeFresh_pres (hc : CbProgress c.pkt) (a b d : Bool) (e : EvData) : Pres c k (cfeFresh c a b d e) := by
  unfold cfeFresh; pres

theorem requeueMore_pres (p : EvPtr) (evb : Nat) : Pres c k (requeueMore p evb) := by unfold requeueMore; pres

theorem cfeQueued_pres (hc : CbProgress c.pkt) (ip : Bool) (p : EvPtr) : Pres c k (cfeQueued c ip p) := by
  have := requeueMore_pres (c := c) (k := k) p
  unfold cfeQueued
  refine Pres.get.bind fun s => Pres.ite (this _) (Pres.ite (this _) ?_)
  pres

theorem cfeIntr_pres (hc : CbProgress c.pkt) (v : Nat) (ip : Bool) (p : EvPtr) : Pres c k (cfeIntr c v ip p) := by
  have := cfeQueued_pres (k := k) hc ip p
  unfold cfeIntr; pres

theorem cfeVmexit_pres (hc : CbProgress c.pkt) (i : Bool) (v : Nat) (ip : Bool) (p : EvPtr) :
    Pres c k (cfeVmexit c i v ip p) := by
  have := cfeQueued_pres (k := k) hc ip p
  unfold cfeVmexit; pres

theorem orAlone_pres (i : Option Nat) (e : Event) : Pres c k (orAlone i e) := by
  unfold orAlone
  pres
  exact fun s hs => ⟨by simp [EM.modify], ⟨_, standalone_holds hs.1.choose_spec e⟩, hs.2⟩

theorem decodeCfe_pres (hc : CbProgress c.pkt) (t v : Nat) (ip : Bool) : Pres c k (decodeCfe c t v ip) := by
  have h1 := fun i e => orAlone_pres (c := c) (k := k) i e
  have h2 := fun p => cfeIntr_pres (k := k) hc v ip p
  have h3 := fun i p => cfeVmexit_pres (k := k) hc i v ip p
  have h4 := fun b d e => cfeFresh_pres (k := k) hc ip b d e
  unfold decodeCfe
  pres
  all_goals first | exact h1 _ _ | exact h2 _ | exact h3 _ _ | exact h4 _ _ _

theorem evdVmexit_pres (i : Option Nat) : Pres c k (evdVmexit i) := by unfold evdVmexit; pres

theorem decodeEvd_pres (t p : Nat) : Pres c k (decodeEvd t p) := by
  have := fun i => evdVmexit_pres (c := c) (k := k) i
  unfold decodeEvd
  pres
  exact this _

theorem trigAlone_pres (hc : CbProgress c.pkt) (a : Nat) (b : Option Nat) (d : Bool) : Pres c k (trigAlone c a b d) := by
  unfold trigAlone; pres

theorem decodeTrig_pres (hc : CbProgress c.pkt) (a : Nat) (b : Option Nat) (d e : Bool) :
    Pres c k (decodeTrig c a b d e) := by
  have := trigAlone_pres (k := k) hc a b e
  unfold decodeTrig; pres

theorem decodeInvalid_pres : Pres c k decodeInvalid := by
  intro s hs
  unfold decodeInvalid
  split <;> exact ⟨by simp, hs⟩

theorem decodeOther_safe (h : c.Sane) {s : Evd} (hs : WF c k s) (hp : s.packet ≠ .psb) :
    (decodeOther c s).2 ≠ .ub ∧ WF c k (decodeOther c s).1 := by
  have hc := h.cb
  have hf := h.freq
  obtain ⟨⟨l, hl⟩, hm⟩ := hs
  have hlen := hl.len
  have hs : WF c k s := ⟨⟨l, hl⟩, hm⟩
  unfold decodeOther
  cases hq : s.packet
  case psb => exact absurd hq hp
  case fup => exact decodeFup_safe _ _ _ s l hl (by unfold evqFuel; omega) hm
  case tip => exact decodeTip_safe _ _ _ s l hl (by unfold evqFuel; omega) hm
  case tipPge => exact decodeTipPge_safe _ _ _ s l hl (by unfold evqFuel; omega) hm
  case tnt8 => exact decodeTnt_pres hc _ _ s hs
  case tnt64 => exact decodeTnt_pres hc _ _ s hs
  case cyc => exact decodeTiming_pres hf _ s hs
  case mtc => exact decodeTiming_pres hf _ s hs
  case tsc => exact decodeTiming_pres hf _ s hs
  case tma => exact decodeTiming_pres hf _ s hs
  case cbr => exact decodeCbr_pres h _ s hs
  case modeExec => exact decodeModeExec_pres _ _ _ s hs
  case modeTsx => exact decodeModeTsx_pres hc _ _ s hs
  case pip => exact decodePip_pres hc _ _ s hs
  case ptw => exact decodePtw_pres hc _ _ _ s hs
  case psbend => exact decodePsbend_pres s hs
  case tipPgd => exact decodeTipPgd_pres hc _ _ s hs
  case exstop => exact decodeExstop_pres hc _ s hs
  case pwre => exact aloneDone_pres hc _ s hs
  case pwrx => exact aloneDone_pres hc _ s hs
  case stop => exact aloneDone_pres hc _ s hs
  case mnt => exact aloneDone_pres hc _ s hs
  case mwait => exact enqMore_pres _ _ s hs
  case vmcs => exact decodeVmcs_pres hc _ s hs
  case ovf => exact decodeOvf_pres h s hs
  case cfe => exact decodeCfe_pres hc _ _ _ s hs
  case evd => exact decodeEvd_pres _ _ s hs
  case trig => exact decodeTrig_pres hc _ _ _ _ s hs
  case invalid => exact decodeInvalid_pres s hs
  all_goals exact ⟨by simp, hs⟩


theorem psbLoop_post {i n : Nat} {s s' : Evd} (h : psbLoop c i n s = (s', .ok ())) :
    ∃ s0, (s0.packet = .psbend ∨ s0.packet = .ovf) ∧ psbPacket c i s0 = (s', .ok true) := by
  induction n generalizing s with
  | zero => simp [psbLoop, EM.undef] at h
  | succ n ih =>
    unfold psbLoop at h
    rw [EM.bind_def] at h
    revert h
    rcases fetchPacket c s with ⟨s1, a | e | _⟩
    · dsimp only
      rw [EM.bind_def]
      rcases hb : psbPacket c i s1 with ⟨s2, b | e | _⟩
      · dsimp only
        split
        · rename_i hb'
          intro h
          subst hb'
          cases h
          exact ⟨s1, psbPacket_true hb, hb⟩
        · exact ih
      · intro h; cases h
      · intro h; cases h
    · intro h; cases h
    · intro h; cases h

/-- The last packet of PSB+ is not changed by decoding it. -/
theorem psbPacket_packet {i : Nat} {s s' : Evd} (h0 : s.packet = .psbend ∨ s.packet = .ovf)
    (h : psbPacket c i s = (s', .ok true)) : s'.packet = s.packet := by
  have hset : ∀ (s : Evd) p e, (s.setEv p e).packet = s.packet := by intro s p e; cases p <;> rfl
  unfold psbPacket at h
  rcases h0 with h0 | h0
  · rw [h0] at h ⊢
    dsimp only at h
    split at h <;> (cases h; rw [hset]; exact h0)
  · rw [h0] at h ⊢
    dsimp only at h
    split at h
    · cases h; rw [hset]; exact h0
    · unfold psbDropHead at h
      rw [EM.bind_def, EM.bind_def] at h
      unfold deq at h
      revert h
      dsimp only
      cases (s.q.dequeue evbPsbend).2 with
      | none => intro h; cases h
      | some j =>
        dsimp only
        by_cases hj : j = i
        · rw [if_pos hj]; intro h; cases h; exact h0
        · rw [if_neg hj]; intro h; cases h

theorem decodePsb_packet {s s' : Evd} (h : decodePsb c s = (s', .ok ())) :
    s'.packet = .psbend ∨ s'.packet = .ovf := by
  unfold decodePsb at h
  simp only [EM.bind_def] at h
  revert h
  rcases psbPending s with ⟨s1, a | e | _⟩
  · dsimp only [EM.modify]
    rcases enqSlot evbPsbend { s1 with ip := {}, enabled := false } with ⟨s2, i | e | _⟩
    · dsimp only
      intro h
      obtain ⟨s0, h0, h1⟩ := psbLoop_post h
      rw [psbPacket_packet h0 h1]; exact h0
    · intro h; cases h
    · intro h; cases h
  · intro h; cases h
  · intro h; cases h

theorem decodePacket_pres (h : c.Sane) : Pres c k (decodePacket c) := by
  intro s hs
  unfold decodePacket
  cases hp : s.packet
  case psb =>
    dsimp only
    rw [EM.bind_def]
    have h1 := decodePsb_pres h s hs
    have h2 := fun s' => decodePsb_packet (c := c) (s := s) (s' := s')
    revert h1 h2
    rcases decodePsb c s with ⟨s', a | e | _⟩
    · intro h1 h2
      exact decodeOther_safe h h1.2 (by rcases h2 s' rfl with h | h <;> rw [h] <;> simp)
    · intro h1 _; exact ⟨by simp, h1.2⟩
    · intro h1; exact absurd rfl h1.1
  all_goals exact decodeOther_safe h hs (by rw [hp]; simp)

theorem fetchEventLoop_safe (h : c.Sane) : ∀ (n : Nat) (s : Evd), WF c k s →
    (mu c.pkt s.pd + 1 < n ∨ (0 < n ∧ s.packet = .invalid ∧ s.status.isSome = true)) →
    (fetchEventLoop c n s).2 ≠ .ub ∧ WF c k (fetchEventLoop c n s).1 := by
  intro n
  induction n with
  | zero => intro s _ h; omega
  | succ n ih =>
    intro s hs hn
    unfold fetchEventLoop
    rw [EM.bind_def]
    rcases hn with hn | ⟨_, hp, hst⟩
    · have h1 := decodePacket_pres h s hs
      have h2 := decodePacket_pres (k := mu c.pkt s.pd) h s ⟨hs.1, Nat.le_refl _⟩
      revert h1 h2
      rcases decodePacket c s with ⟨s', b | e | _⟩
      · intro h1 h2
        dsimp only
        split
        · rw [EM.bind_def]
          simp only [EM.get]
          split
          · exact Pres.fail _ _ h1.2
          · rw [EM.bind_def]
            simp only [EM.modify]
            rw [EM.bind_def]
            obtain ⟨pd, p, size, st, e1, e2⟩ := fetchPacket_spec h.cb { s' with bound := false }
            have h3 := h2.2.2
            have h4 := h1.2.2
            rw [e1]
            dsimp only at e2 h3 h4 ⊢
            refine ih _ ⟨h1.2.1, by dsimp only; omega⟩ ?_
            dsimp only
            rcases e2 with e2 | e2
            · exact .inl (by omega)
            · exact .inr ⟨by omega, e2.2.1, e2.2.2.2⟩
        · exact ⟨by simp [EM.pure_def], h1.2⟩
      · intro h1 _; exact ⟨by simp, h1.2⟩
      · intro h1; exact absurd rfl h1.1
    · obtain ⟨e, he⟩ := Option.isSome_iff_exists.1 hst
      have : decodePacket c s = (s, .err e) := by
        unfold decodePacket decodeOther; rw [hp]; dsimp only; unfold decodeInvalid; rw [he]
      rw [this]
      exact ⟨by simp, hs⟩

theorem evtNext_pres (h : c.Sane) : Pres c k (evtNext c) := by
  have : Pres c k (fetchEventLoop c c.fuel) := fun s hs => fetchEventLoop_safe h _ s hs (.inl (fuel_gt s.pd))
  unfold evtNext
  pres

end Ipt
