import Verif.EventDecoderSafe
import Verif.Props.Sync

/-! # C32 (event decoder: total, memory safe), and the termination part of C11 -/

namespace Ipt

theorem top_wf (c : EvtCfg) (s : Evd) (h : ∃ l, s.q.Holds l) : WF c (c.pkt.mem.length + 2) s := ⟨h, mu_le _ _⟩

theorem onPkt_top {c : EvtCfg} {f : PktDec → PktDec × Res Unit} (hf : ∀ d, (f d).2 ≠ .ub) :
    Pres c (c.pkt.mem.length + 2) (onPkt f) := fun s hs => ⟨hf s.pd, hs.1, mu_le _ _⟩

theorem evtReset_pres {c : EvtCfg} {k : Nat} : Pres c k (EM.modify evtReset) :=
  fun _ hs => ⟨by simp [EM.modify], ⟨[], init_holds⟩, hs.2⟩

theorem evtSyncForward_top {c : EvtCfg} (h : c.Sane) : Pres c (c.pkt.mem.length + 2) (evtSyncForward c) := by
  refine evtReset_pres.bind fun _ => (onPkt_top ?_).bind fun _ => evtStart_pres h
  intro d
  have := Props.C08_sync_forward_safe c.pkt.mem c.base
  unfold pktSyncForward
  dsimp only
  generalize (if d.sync = some (d.pos.getD 0) then d.pos.getD 0 + 16 else d.pos.getD 0) = pos
  have := this (pos - if 16 ≤ pos then 16 - 1 else pos)
  revert this
  rcases syncForward c.pkt.mem c.base (pos - if 16 ≤ pos then 16 - 1 else pos) with q | e | _ <;> simp

theorem evtSyncSet_top {c : EvtCfg} (h : c.Sane) (off : Nat) : Pres c (c.pkt.mem.length + 2) (evtSyncSet c off) := by
  refine evtReset_pres.bind fun _ => (onPkt_top ?_).bind fun _ => evtStart_pres h
  intro d
  unfold pktSyncSet
  split <;> simp

theorem pktBack_cases {c : PktCfg} {base : Nat} {d : PktDec} :
    (∃ q, pktSyncBackward c base d = ({ pos := some q, sync := some q }, .ok ()) ∧ Spec.IsPsb c.mem q ∧
      q + 16 ≤ c.mem.length ∧ d.pos.getD c.mem.length ≤ c.mem.length) ∨
    (∃ e, pktSyncBackward c base d = (d, .err e)) := by
  cases hs : syncBackward c.mem base (d.pos.getD c.mem.length) with
  | ub => exact absurd hs (Props.C09_sync_backward_safe _ _ _)
  | err e => exact .inr ⟨e, by unfold pktSyncBackward; rw [hs]⟩
  | ok q =>
    refine .inl ⟨q, by unfold pktSyncBackward; rw [hs], (Props.C09_sync_backward_sound _ _ _ _ hs).1,
      isPsb_bound (Props.C09_sync_backward_sound _ _ _ _ hs).1, ?_⟩
    unfold syncBackward at hs
    split at hs
    · cases hs
    · omega

theorem backInner_psb {c : EvtCfg} (hi : Props.IsolatedPsbs c.pkt.mem) {sync : Nat} :
    ∀ (n p : Nat) (s : Evd), s.pd.pos = some p → Spec.IsPsb c.pkt.mem p → p < n → (∃ l, s.q.Holds l) →
    ∃ s', (∃ l, s'.q.Holds l) ∧
      ((∃ q, evtSyncBackInner c sync n s = (s', .ok q) ∧ q < sync ∧ q ≤ c.pkt.mem.length) ∨
       (∃ e, evtSyncBackInner c sync n s = (s', .err e))) := by
  intro n
  induction n with
  | zero => intro p s _ _ h; omega
  | succ n ih =>
    intro p s hp hpsb hn hl
    unfold evtSyncBackInner
    rw [EM.bind_def]
    unfold onPkt
    rcases Props.C11_sync_backward_progress_partial c.pkt c.base s.pd (pktSyncBackward c.pkt c.base s.pd).1
      (pktSyncBackward c.pkt c.base s.pd).2 p hi hp hpsb rfl with
      ⟨h1, q, h2, h3, h4⟩ | ⟨h1, h2⟩
    · rw [h1, h2]
      dsimp only
      rw [EM.bind_def]
      simp only [EM.get, Option.getD_some]
      split
      · exact ih q { s with pd := { pos := some q, sync := some q } } rfl h3 (by omega) hl
      · exact ⟨{ s with pd := { pos := some q, sync := some q } }, hl, .inl ⟨q, rfl, by omega, by have := isPsb_bound h3; omega⟩⟩
    · rw [h1]
      exact ⟨{ s with pd := (pktSyncBackward c.pkt c.base s.pd).1 }, hl, .inr ⟨_, rfl⟩⟩

theorem backInner_safe {c : EvtCfg} (hi : Props.IsolatedPsbs c.pkt.mem) (sync : Nat) (s : Evd) (hl : ∃ l, s.q.Holds l) :
    ∃ s', (∃ l, s'.q.Holds l) ∧
      ((∃ q, evtSyncBackInner c sync c.fuel s = (s', .ok q) ∧ q < sync ∧ q ≤ c.pkt.mem.length ∧
          s.pd.pos.getD c.pkt.mem.length ≤ c.pkt.mem.length) ∨
       (∃ e, evtSyncBackInner c sync c.fuel s = (s', .err e))) := by
  unfold EvtCfg.fuel evtSyncBackInner
  rw [EM.bind_def]
  unfold onPkt
  rcases pktBack_cases (c := c.pkt) (base := c.base) (d := s.pd) with ⟨q, h1, h2, h3, h4⟩ | ⟨e, h1⟩
  · rw [h1]
    dsimp only
    rw [EM.bind_def]
    simp only [EM.get, Option.getD_some]
    split
    · obtain ⟨s', hl', h | h⟩ := backInner_psb (c := c) hi (sync := sync) (c.pkt.mem.length + 3) q
        { s with pd := { pos := some q, sync := some q } } rfl h2 (by omega) hl
      · obtain ⟨q', a, b, d⟩ := h
        exact ⟨s', hl', .inl ⟨q', a, b, d, h4⟩⟩
      · exact ⟨s', hl', .inr h⟩
    · exact ⟨{ s with pd := { pos := some q, sync := some q } }, hl, .inl ⟨q, rfl, by omega, by omega, h4⟩⟩
  · rw [h1]
    exact ⟨_, hl, .inr ⟨e, rfl⟩⟩

theorem backLoop_safe {c : EvtCfg} (h : c.Sane) (hi : Props.IsolatedPsbs c.pkt.mem) (start : Nat) :
    ∀ (n sync : Nat) (s : Evd), (∃ l, s.q.Holds l) → 0 < n →
    (c.pkt.mem.length < s.pd.pos.getD c.pkt.mem.length ∨ sync < n) →
    (evtSyncBackLoop c start n sync s).2 ≠ .ub ∧ ∃ l, (evtSyncBackLoop c start n sync s).1.q.Holds l := by
  intro n
  induction n with
  | zero => intro sync s _ h0; omega
  | succ n ih =>
    intro sync s hl _ hn
    unfold evtSyncBackLoop
    rw [EM.bind_def]
    simp only [EM.modify]
    rw [EM.bind_def]
    obtain ⟨s', hl', ⟨q, h1, h2, h3, h4⟩ | ⟨e, h1⟩⟩ := backInner_safe (c := c) hi sync (evtReset s) ⟨[], init_holds⟩
    · rw [h1]
      dsimp only
      rw [EM.bind_def]
      have h5 := evtStart_pres h s' (top_wf c s' hl')
      unfold tryStart
      revert h5
      have h4' : s.pd.pos.getD c.pkt.mem.length ≤ c.pkt.mem.length := h4
      have hsync : sync < n + 1 := by omega
      rcases evtStart c s' with ⟨s2, a | e | _⟩
      · intro h5
        dsimp only
        rw [EM.bind_def]
        simp only [EM.get]
        split
        · exact ⟨by simp [EM.lift], h5.2.1⟩
        · exact ih q s2 h5.2.1 (by omega) (.inr (by omega))
      · intro h5
        dsimp only
        rw [EM.bind_def]
        simp only [EM.get]
        split
        · exact ⟨by simp [EM.lift], h5.2.1⟩
        · exact ih q s2 h5.2.1 (by omega) (.inr (by omega))
      · intro h5; exact absurd rfl h5.1
    · rw [h1]
      exact ⟨by simp, hl'⟩

theorem evtSyncBackward_top {c : EvtCfg} (h : c.Sane) (hi : Props.IsolatedPsbs c.pkt.mem) :
    Pres c (c.pkt.mem.length + 2) (evtSyncBackward c) := by
  intro s hs
  unfold evtSyncBackward
  rw [EM.bind_def]
  simp only [EM.get]
  have := backLoop_safe h hi (s.pd.pos.getD c.pkt.mem.length) c.fuel (s.pd.pos.getD c.pkt.mem.length) s hs.1
    (by unfold EvtCfg.fuel; omega) (by unfold EvtCfg.fuel; omega)
  exact ⟨this.1, this.2, mu_le _ _⟩

end Ipt

namespace Ipt.Spec

/-- The public operations of an event decoder, libipt/include/intel-pt.h.in. -/
inductive EvtCall
  | syncForward | syncBackward | syncSet (offset : Nat) | next
deriving DecidableEq, Repr

/-- Run one call; the result of `pt_evt_next` is an event. -/
def EvtCall.run (c : EvtCfg) : EvtCall → Evd → Evd × Res (Option Event)
  | .syncForward, s => match evtSyncForward c s with | (s', r) => (s', r.bind fun _ => .ok none)
  | .syncBackward, s => match evtSyncBackward c s with | (s', r) => (s', r.bind fun _ => .ok none)
  | .syncSet o, s => match evtSyncSet c o s with | (s', r) => (s', r.bind fun _ => .ok none)
  | .next, s => match evtNext c s with | (s', r) => (s', r.bind fun e => .ok (some e))

/-- The results of a sequence of calls.  The user may go on after an error. -/
def evtResults (c : EvtCfg) : List EvtCall → Evd → List (Res (Option Event))
  | [], _ => []
  | o :: os, s => (o.run c s).2 :: evtResults c os (o.run c s).1

end Ipt.Spec

namespace Ipt.Props
open Ipt Spec

/-- C32: an event decoder never performs an undefined operation and every call terminates with an event or
an error, for every trace buffer, every sequence of calls, and also when the user ignores errors.

Requirements: the MTC frequency is below 24 (cf. `C21_mtc_freq_not_validated`); the user's callback for
unknown packets does not return zero (cf. `C32_zero_size_callback_hangs`); the buffer is smaller than 2 GB;
and, if `pt_evt_sync_backward` is used, no two PSBs are adjacent (cf. `C11_evt_sync_backward_hangs`). -/
theorem C32_event_decoder_total_partial (c : EvtCfg) (hf : c.time.mtcFreq < 24)
    (hcb : ∀ f, c.pkt.cb = some f → ∀ pos, f pos ≠ 0) (hl : c.pkt.mem.length + 1 < 2 ^ 31)
    (calls : List EvtCall) (hb : EvtCall.syncBackward ∈ calls → IsolatedPsbs c.pkt.mem) :
    ∀ r ∈ evtResults c calls evtInit, r ≠ .ub := by
  have hs : c.Sane := ⟨hf, hcb, hl⟩
  have key : ∀ s, (∃ l, s.q.Holds l) → ∀ r ∈ evtResults c calls s, r ≠ .ub := by
    induction calls with
    | nil => intro s _ r hr; simp [evtResults] at hr
    | cons o os ih =>
      intro s hl
      have step : (o.run c s).2 ≠ .ub ∧ ∃ l, (o.run c s).1.q.Holds l := by
        have fin : ∀ {α β : Type} (m : EM α) (g : α → β), Pres c (c.pkt.mem.length + 2) m →
            (m s).2.bind (fun a => .ok (g a)) ≠ .ub ∧ ∃ l, (m s).1.q.Holds l := by
          intro α β m g hm
          have := hm s (top_wf c s hl)
          refine ⟨?_, this.2.1⟩
          revert this
          rcases m s with ⟨s', a | e | _⟩
          · intro _; simp [Res.bind]
          · intro _; simp [Res.bind]
          · intro h; exact absurd rfl h.1
        cases o with
        | syncForward => exact fin _ _ (evtSyncForward_top hs)
        | syncBackward => exact fin _ _ (evtSyncBackward_top hs (hb (by simp)))
        | syncSet off => exact fin _ _ (evtSyncSet_top hs off)
        | next => exact fin _ _ (evtNext_pres hs)
      intro r hr
      rcases List.mem_cons.1 hr with rfl | hr
      · exact step.1
      · exact ih (fun h => hb (by simp [h])) _ step.2 r hr
  exact key _ ⟨[], init_holds⟩

/-- PSB; FUP with IP 0x7001; PSBEND; TNT; MODE.EXEC; TIP; FUP; PIP; TIP; OVF; FUP; TIP.PGD. -/
def someTrace : List UInt8 :=
  [2, 0x82, 2, 0x82, 2, 0x82, 2, 0x82, 2, 0x82, 2, 0x82, 2, 0x82, 2, 0x82, 0x7d, 1, 0x70, 0, 0, 0, 0, 2, 0x23,
   6, 0x99, 1, 0x2d, 0x20, 0x80, 0x3d, 5, 0, 2, 0x43, 2, 0, 0, 0, 0, 0, 0x2d, 0x30, 0, 2, 0xf3, 0x3d, 7, 7, 0x21, 9, 9]

example : (evtResults { pkt := { mem := someTrace } } [.next, .syncForward, .next, .next, .next, .next, .next, .next,
      .next, .next, .next] evtInit).map (fun r => match r with | .ok (some e) => some e.data | _ => none) =
    [none, none, some (.enabled 0x7001), some (.tnt 1 1), some (.tip 0x8020), some (.execMode 3 0x8020),
     some (.asyncBranch 5 0x30), some (.asyncPaging 0x20 false 0x30), some (.overflow 0x707), some (.disabled 0x909),
     none] := by decide +kernel


theorem fetch_one {c : EvtCfg} {s : Evd} {d : PktDec} {p : Packet} {n : Nat}
    (h : pktDecNext c.pkt s.pd = (d, .ok (p, n))) (hp : p ≠ .pad) :
    fetchPacket c s = ({ s with pd := d, packet := p, size := n }, .ok ()) := by
  unfold fetchPacket EvtCfg.fuel fetchLoop
  rw [h]
  simp only
  rw [if_neg hp]

theorem event_loop_step {c : EvtCfg} {n : Nat} {s s1 s2 : Evd} (h1 : decodePacket c s = (s1, .ok true))
    (h2 : s1.event = none) (h3 : fetchPacket c { s1 with bound := false } = (s2, .ok ())) :
    fetchEventLoop c (n + 1) s = fetchEventLoop c n s2 := by
  have h4 : ((do EM.modify fun s => { s with bound := false }
                 fetchPacket c
                 fetchEventLoop c n : EM Unit) s1) = fetchEventLoop c n s2 := by
    rw [EM.bind_def]
    simp only [EM.modify]
    rw [EM.bind_def, h3]
  rw [fetchEventLoop, EM.bind_def, h1]
  simp only
  rw [if_pos trivial, EM.bind_def]
  simp only [EM.get]
  rw [h2, if_neg (by simp)]
  exact h4

/-- The loop of `pt_evt_next` does not end if the packet decoder stays at an unknown packet. -/
theorem unknown_hang {c : EvtCfg} : ∀ (n : Nat) (s : Evd), s.packet = .unknown → s.event = none →
    pktDecNext c.pkt s.pd = (s.pd, .ok (.unknown, 0)) → (fetchEventLoop c n s).2 = .ub := by
  intro n
  induction n with
  | zero => intros; rfl
  | succ n ih =>
    intro s h1 h2 h3
    rw [event_loop_step (s1 := s) (by unfold decodePacket decodeOther; rw [h1]) h2
      (fetch_one (s := { s with bound := false }) h3 (by simp))]
    exact ih _ rfl h2 h3

/-- PSB; PSBEND; a byte of an unknown packet. -/
def unknownTrace : List UInt8 :=
  [2, 0x82, 2, 0x82, 2, 0x82, 2, 0x82, 2, 0x82, 2, 0x82, 2, 0x82, 2, 0x82, 2, 0x23, 0x05]

/-- A callback that returns zero. -/
def zeroCb : EvtCfg := { pkt := { mem := unknownTrace, cb := some fun _ => 0 } }

/-- C32 fails without the requirement on the callback: an unknown packet of size zero, which the packet
decoder accepts, makes `pt_evt_next` loop forever: no number `n` of iterations is enough. -/
theorem C32_zero_size_callback_hangs :
    ∃ c calls, .ub ∈ evtResults c calls evtInit ∧
      ∃ s, (EvtCall.syncForward.run c evtInit).2 = .ok none ∧
        s = (EvtCall.next.run c (EvtCall.syncForward.run c evtInit).1).1 ∧
        ∀ n, (fetchEventLoop c n s).2 = .ub := by
  refine ⟨zeroCb, [.syncForward, .next, .next], by decide +kernel, _, by decide +kernel, rfl, ?_⟩
  generalize hs : (EvtCall.next.run zeroCb (EvtCall.syncForward.run zeroCb evtInit).1).1 = s
  have h1 : s.packet = .psbend := by rw [← hs]; decide +kernel
  have h2 : s.event = none := by rw [← hs]; decide +kernel
  have h3 : (s.q.dequeue evbPsbend).2 = none := by rw [← hs]; decide +kernel
  have h4 : pktDecNext zeroCb.pkt s.pd = (s.pd, .ok (.unknown, 0)) := by rw [← hs]; decide +kernel
  intro n
  cases n with
  | zero => rfl
  | succ n =>
    have h6 : decodePsbend s = ({ s with q := (s.q.dequeue evbPsbend).1 }, .ok true) := by
      have : deq evbPsbend s = ({ s with q := (s.q.dequeue evbPsbend).1 }, .ok none) := by unfold deq; rw [h3]
      unfold decodePsbend
      rw [EM.bind_def, this]
      rfl
    have h5 : decodePacket zeroCb s = ({ s with q := (s.q.dequeue evbPsbend).1 }, .ok true) := by
      rw [← h6]
      unfold decodePacket decodeOther
      rw [h1]
    rw [event_loop_step h5 h2 (fetch_one (s := { s with q := (s.q.dequeue evbPsbend).1, bound := false }) h4 (by simp))]
    exact unknown_hang _ _ rfl h2 h4

/-- C11 fails for adjacent PSBs also in the event decoder: `pt_evt_sync_backward` does not terminate.  The
decoder gets to the second PSB, and from there the inner loop does not end: no number `n` of iterations is
enough. -/
theorem C11_evt_sync_backward_hangs :
    ∃ c, .ub ∈ evtResults c [.syncBackward] evtInit ∧
      ∀ n s, s.pd = ⟨some 16, some 16⟩ → (evtSyncBackInner c 16 n s).2 = .ub := by
  refine ⟨{ pkt := { mem := adjacentPsbs } }, by decide +kernel, ?_⟩
  intro n
  induction n with
  | zero => intros; rfl
  | succ n ih =>
    intro s hs
    have h1 : pktSyncBackward { mem := adjacentPsbs } 0 s.pd = (⟨some 16, some 16⟩, .ok ()) := by
      rw [hs]; decide +kernel
    have h2 : onPkt (pktSyncBackward { mem := adjacentPsbs } 0) s = ({ s with pd := ⟨some 16, some 16⟩ }, .ok ()) := by
      unfold onPkt; rw [h1]
    rw [evtSyncBackInner, EM.bind_def, h2]
    exact ih _ rfl

end Ipt.Props
