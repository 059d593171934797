import Verif.PsbLemmas
import Verif.Props.EventInv

/-! # C36: the status after synchronization and at PSB -/

namespace Ipt.Spec

/-- The decoder after a sequence of calls. -/
def evtFinal (c : EvtCfg) : List EvtCall → Evd → Evd
  | [], s => s
  | o :: os, s => evtFinal c os (o.run c s).1

/-- The calls that deliver `n` events. -/
def nexts (n : Nat) : List EvtCall := List.replicate n .next

/-- `AtHeader c d0 d t s ps term`: between the positions `d0` and `d`, the trace contains the packets `ps` of a header,
without the PSB, and then the packet `term`, which ends the header.  If `pt_evt_next` is called in state `s`, it delivers the
events of the header, one by one; the decoder is at `d` while it does so.  `t` is the time before the header. -/
structure AtHeader (c : EvtCfg) (d0 d : PktDec) (t : Timing) (s : Evd) (ps : List Packet) (term : Packet) : Prop where
  /-- The header ends at the first PSBEND or OVF. -/
  ends : term = .psbend ∨ term = .ovf
  inner : Packet.psbend ∉ ps ∧ Packet.ovf ∉ ps
  /-- These are the packets in the trace buffer. -/
  reads : Reads c.pkt d0 (ps ++ [term]) d
  /-- The events. -/
  events : evtResults c (nexts (headerEvents c t ps (decide (term = .psbend))).length) s =
    (headerEvents c t ps (decide (term = .psbend))).map fun e => .ok (some e)
  /-- The position. -/
  stays : ∀ n ≤ (headerEvents c t ps (decide (term = .psbend))).length, 0 < n → (evtFinal c (nexts n) s).pd = d

end Ipt.Spec

namespace Ipt

open Spec

variable {c : EvtCfg} {s : Evd}

/-- The kinds of events in PSB+. -/
def EvData.inHeader : EvData → Bool
  | .enabled .. | .execMode .. | .iflags .. | .tsx .. | .asyncPaging .. | .asyncVmcs .. | .disabled .. | .cbr .. | .mnt .. =>
    true
  | _ => false

theorem raw_inHeader {b : Bool} {p : Packet} {e : Event} (h : e ∈ rawEvents b p) : e.data.inHeader = true := by
  cases p <;> simp only [rawEvents, List.mem_cons, List.not_mem_nil, or_false] at h <;>
    first | (rw [h]; rfl) | (rcases h with h | h; (rw [h]; rfl); (split at h <;> simp at h; rw [h]; rfl)) | cases h

/-- `s'` differs from `s` only in the queue. -/
structure SameHdr (s s' : Evd) : Prop where
  pd : s'.pd = s.pd
  packet : s'.packet = s.packet
  ip : s'.ip = s.ip
  tm : s'.tm = s.tm
  event : s'.event = none

/-- Delivery of one event of PSB+. -/
theorem decode_deliver {x : Event} {l : List (Event × Nat)} (hq : s.q.Holds ((x, 1) :: l))
    (hx : x.data.inHeader = true) : ∃ s', decodePsbend s = (s', .ok false) ∧ s'.q.Holds l ∧
      s'.event = some (.slot s.q.begin) ∧ s'.ev (.slot s.q.begin) = complete s.ip s.tm.time x ∧
      s'.pd = s.pd ∧ s'.packet = s.packet ∧ s'.ip = s.ip ∧ s'.tm = s.tm := by
  have hb := hq.begin
  rcases deq_cases hq evbPsbend with ⟨h1, _⟩ | ⟨j, e, q', h1, h2, h3, h4, h5, h6, _⟩
  · rw [firstMatch_cons_bind rfl] at h1; cases h1
  · rw [firstMatch_cons_bind rfl, Option.some.injEq] at h1
    subst h1
    simp only [List.getElem?_cons_zero, Option.some.injEq] at h2
    subst h2
    simp only [List.eraseIdx_cons_zero] at h4
    have hfree : s.q.begin = (q'.begin + 15) % 16 := by rw [h6]; omega
    have hlen := h4.size
    have f1 : ∀ e1, ((q'.put s.q.begin e1).Holds l) := fun e1 => put_free_holds h4 hfree e1
    have g1 : ∀ e1, (q'.put s.q.begin e1).get s.q.begin = e1 := fun e1 => put_get hlen hb e1
    have g2 : ∀ e1 e2, ((q'.put s.q.begin e1).put s.q.begin e2).get s.q.begin = e2 := fun e1 e2 => put_get (f1 e1).size hb e2
    have f2 : ∀ e1 e2, (((q'.put s.q.begin e1).put s.q.begin e2).Holds l) := fun e1 e2 =>
      put_free_holds (f1 e1) hfree e2
    have run : decodePsbend s = psbendEvent s.q.begin x { s with q := q', event := some (.slot s.q.begin) } := by
      unfold decodePsbend
      rw [EM.bind_def, h3]
      dsimp only
      unfold publish setEvent
      simp only [EM.bind_def, EM.modify, EM.get]
      rw [h5]
    have ipT : ipTimeEv (.slot s.q.begin) { s with q := q', event := some (.slot s.q.begin) } =
        ({ s with q := (q'.put s.q.begin (x.withIp s.ip)).put s.q.begin ((x.withIp s.ip).timed s.tm.time),
                  event := some (.slot s.q.begin) }, .ok false) := by
      unfold ipTimeEv timeEv updEv
      simp only [EM.bind_def, EM.modify, EM.pure_def, Evd.setEv, Evd.ev]
      rw [h5, g1]
    have tT : timeEv (.slot s.q.begin) { s with q := q', event := some (.slot s.q.begin) } =
        ({ s with q := q'.put s.q.begin (x.timed s.tm.time), event := some (.slot s.q.begin) }, .ok false) := by
      unfold timeEv updEv
      simp only [EM.bind_def, EM.modify, EM.pure_def, Evd.setEv, Evd.ev]
      rw [h5]
    rw [run]
    unfold psbendEvent complete
    cases hd : x.data <;> rw [hd] at hx <;> first | exact (Bool.false_ne_true hx).elim | skip
    all_goals first
      | exact ⟨_, ipT, f2 _ _, rfl, g2 _ _, rfl, rfl, rfl, rfl⟩
      | exact ⟨_, tT, f1 _, rfl, g1 _, rfl, rfl, rfl, rfl⟩

/-- `pt_evt_next` delivers the first event of PSB+ without moving. -/
theorem next_deliver {x : Event} {l : List (Event × Nat)} (hq : s.q.Holds ((x, 1) :: l))
    (hx : x.data.inHeader = true) (hp : s.packet = .psbend ∨ s.packet = .ovf) :
    ∃ s', evtNext c s = (s', .ok (complete s.ip s.tm.time x)) ∧ s'.q.Holds l ∧ SameHdr s s' := by
  obtain ⟨s1, h1, h2, h3, h4, h5, h6, h7, h8⟩ := decode_deliver hq hx
  have hd : decodePacket c s = (s1, .ok false) := by
    unfold decodePacket
    rcases hp with hp | hp
    · rw [hp]; dsimp only; unfold decodeOther; rw [hp]; exact h1
    · rw [hp]; dsimp only; unfold decodeOther; rw [hp]; dsimp only; unfold decodeOvf orElse; rw [EM.bind_def, h1]; rfl
  refine ⟨{ s1 with event := none }, ?_, h2, h5, h6, h7, h8, rfl⟩
  unfold evtNext
  rw [EM.bind_def, show c.fuel = (c.pkt.mem.length + 3) + 1 from rfl]
  unfold fetchEventLoop
  rw [EM.bind_def, hd]
  dsimp only
  rw [if_neg (by simp)]
  simp only [EM.pure_def, EM.bind_def, EM.get, EM.modify]
  rw [h3]
  dsimp only
  rw [EM.pure_def, h4]

theorem deliver_all : ∀ (es : List Event) (s : Evd), s.q.Holds (es.map (·, 1)) → (∀ e ∈ es, e.data.inHeader = true) →
    (s.packet = .psbend ∨ s.packet = .ovf) → s.event = none →
    evtResults c (nexts es.length) s = es.map (fun e => .ok (some (complete s.ip s.tm.time e))) ∧
    ∀ n ≤ es.length, (evtFinal c (nexts n) s).pd = s.pd := by
  intro es
  induction es with
  | nil => intro s _ _ _ _; exact ⟨rfl, fun n hn => by rw [Nat.le_zero.1 hn]; rfl⟩
  | cons e es ih =>
    intro s hq hk hp he
    obtain ⟨s', h1, h2, h3⟩ := next_deliver (c := c) hq (hk e (by simp)) hp
    have hr : EvtCall.next.run c s = (s', .ok (some (complete s.ip s.tm.time e))) := by
      unfold EvtCall.run; dsimp only; rw [h1]; rfl
    obtain ⟨i1, i2⟩ := ih s' h2 (fun e he => hk e (by simp [he])) (by rw [h3.packet]; exact hp) h3.event
    refine ⟨?_, fun n hn => ?_⟩
    · rw [List.length_cons, nexts, List.replicate_succ, evtResults, hr, ← nexts, i1, h3.ip, h3.tm]; rfl
    · cases n with
      | zero => rfl
      | succ n =>
        rw [nexts, List.replicate_succ, evtFinal, hr, ← nexts]
        rw [i2 n (by simpa using hn)]; exact h3.pd

section
variable {s0 : Evd} {ps : List Packet} {term : Packet}

/-- The events in the queue after PSB+. -/
def queued (c : EvtCfg) (ps : List Packet) (term : Packet) : List Event :=
  (if headerEnabled ps = true then [({ data := .enabled 0, statusUpdate := true } : Event)]
    else if term = .psbend then [{ data := .disabled 0, ipSuppressed := true, statusUpdate := true }] else []) ++
      ps.flatMap (rawEvents c.enableIflags)

theorem map_complete (l : LastIp) (t : Time) (b : Bool) : ∀ ps : List Packet,
    (ps.flatMap (rawEvents b)).map (complete l t) = ps.flatMap (statusEvents b (ipOf l) t) := by
  intro ps
  induction ps with
  | nil => rfl
  | cons p ps ih => rw [List.flatMap_cons, List.flatMap_cons, List.map_append, ih, complete_raw]

theorem queued_complete (t : Timing) : (queued c ps term).map (complete (headerIp ps) (headerTime c.time t ps).time) =
    headerEvents c t ps (decide (term = .psbend)) := by
  unfold queued headerEvents
  rw [List.map_append, map_complete]
  congr 1
  unfold firstEvents
  have ht : ∀ t : Time, (if t.haveTsc = true then true else false) = t.haveTsc := by intro t; cases t.haveTsc <;> rfl
  cases headerEnabled ps
  · by_cases h : term = .psbend
    · simp [h, complete, Event.timed, ht]
    · simp [h]
  · cases hq : (headerIp ps).query <;> simp [complete, Event.timed, Event.withIp, ipOf, hq, ht, EvData.setIp]

theorem queued_inHeader : ∀ e ∈ queued c ps term, e.data.inHeader = true := by
  intro e he
  unfold queued at he
  rcases List.mem_append.1 he with he | he
  · split at he
    · rw [List.mem_singleton.1 he]; rfl
    · split at he
      · rw [List.mem_singleton.1 he]; rfl
      · cases he
  · obtain ⟨p, _, hp⟩ := List.mem_flatMap.1 he
    exact raw_inHeader hp

theorem AfterPsb.inner' (h : AfterPsb c s0 s ps term) : Packet.psbend ∉ ps ∧ Packet.ovf ∉ ps :=
  ⟨fun hm => Bool.false_ne_true (h.inner _ hm).symm, fun hm => Bool.false_ne_true (h.inner _ hm).symm⟩

theorem AfterPsb.atHeader (h : AfterPsb c s0 s ps term) (he : s0.event = none) :
    AtHeader c s0.pd s.pd s0.tm s ps term := by
  have hq : s.q.Holds ((queued c ps term).map (·, 1)) := h.q
  obtain ⟨h1, h2⟩ := deliver_all (c := c) _ s hq queued_inHeader (by rw [h.pk]; exact h.term) (by rw [h.ev]; exact he)
  have hl : (headerEvents c s0.tm ps (decide (term = .psbend))).length = (queued c ps term).length := by
    rw [← queued_complete, List.length_map]
  refine ⟨h.term, h.inner', h.reads, ?_, ?_⟩
  · rw [hl, h1, ← queued_complete, h.ip, h.tm, List.map_map]; rfl
  · rw [hl]; exact fun n hn _ => h2 n hn

theorem evtStart_events (hb : c.pkt.errata.bdm70 = false) (h : Fresh c s) (ht : s.tm = {}) :
    EM.wlp (evtStart c) (fun _ s' => ∃ k d1 ps term, Reads c.pkt s.pd (List.replicate k .pad ++ [.psb]) d1 ∧
      AtHeader c d1 s'.pd {} s' ps term) (fun _ _ => True) s := by
  unfold evtStart
  rw [EM.wlp_bind, EM.wlp_modify, EM.wlp_bind]
  refine wlp_fetch_reads (s := { s with status := none }) (fun pd p size k a1 a2 => ?_) fun pd e => ?_
  · rw [EM.wlp_bind, EM.wlp_get]
    dsimp only
    split
    · refine EM.wlp_mono (decodePsb_events hb ⟨[], h.q, by simp⟩) ?_ (fun _ _ h => h)
      rintro _ s' ⟨ps, term, h1⟩
      have h2 := h1.atHeader h.ev
      rw [show ({ s with status := none, pd := pd, packet := Packet.psb, size := size } : Evd).tm = {} from ht] at h2
      exact ⟨k, pd, ps, term, a1, h2⟩
    · exact (EM.wlp_fail _ _ _ _).2 trivial
    · exact (EM.wlp_fail _ _ _ _).2 trivial
  · rw [EM.wlp_bind, EM.wlp_get]
    exact (EM.wlp_fail _ _ _ _).2 trivial

theorem wlp_onPkt_at {f : PktDec → PktDec × Res Unit} {Q : Unit → Evd → Prop}
    (hf : ∀ d d', f d = (d', .ok ()) → ∃ o, d' = ⟨some o, some o⟩)
    (h : ∀ o, Q () { s with pd := ⟨some o, some o⟩ }) : EM.wlp (onPkt f) Q (fun _ _ => True) s := by
  unfold EM.wlp onPkt
  rcases hx : f s.pd with ⟨d, _ | _ | _⟩
  · obtain ⟨o, rfl⟩ := hf _ _ hx
    exact h o
  · trivial
  · trivial

theorem forward_at {c : PktCfg} {b : Nat} (d d' : PktDec) (h : pktSyncForward c b d = (d', .ok ())) :
    ∃ o, d' = ⟨some o, some o⟩ := by
  unfold pktSyncForward at h
  dsimp only at h
  split at h
  · injection h with h _; exact ⟨_, h.symm⟩
  · cases h
  · cases h

theorem backward_at {c : PktCfg} {b : Nat} (d d' : PktDec) (h : pktSyncBackward c b d = (d', .ok ())) :
    ∃ o, d' = ⟨some o, some o⟩ := by
  unfold pktSyncBackward at h
  split at h
  · injection h with h _; exact ⟨_, h.symm⟩
  · cases h
  · cases h

theorem set_at {c : PktCfg} {o : Nat} (d d' : PktDec) (h : pktSyncSet c d o = (d', .ok ())) :
    d' = ⟨some o, some o⟩ := by
  unfold pktSyncSet at h
  split at h
  · cases h
  · injection h with h _; exact h.symm

/-- The result of synchronization. -/
def AtPsbPlus (c : EvtCfg) (s' : Evd) (P : Nat → Prop) : Prop :=
  ∃ o k d1 ps term, P o ∧ Reads c.pkt ⟨some o, some o⟩ (List.replicate k .pad ++ [.psb]) d1 ∧
    AtHeader c d1 s'.pd {} s' ps term

theorem start_at {o : Nat} {P : Nat → Prop} (hb : c.pkt.errata.bdm70 = false) (ho : P o) (h : Fresh c s) (ht : s.tm = {})
    (hp : s.pd = ⟨some o, some o⟩) : EM.wlp (evtStart c) (fun _ s' => AtPsbPlus c s' P) (fun _ _ => True) s := by
  refine EM.wlp_mono (evtStart_events hb h ht) ?_ (fun _ _ h => h)
  rintro _ s' ⟨k, d1, ps, term, h1, h2⟩
  rw [hp] at h1
  exact ⟨o, k, d1, ps, term, ho, h1, h2⟩

theorem syncForward_events (hb : c.pkt.errata.bdm70 = false) :
    EM.wlp (evtSyncForward c) (fun _ s' => AtPsbPlus c s' fun _ => True) (fun _ _ => True) s := by
  unfold evtSyncForward
  rw [EM.wlp_bind, EM.wlp_modify, EM.wlp_bind]
  exact wlp_onPkt_at forward_at fun o => start_at hb trivial ⟨init_holds, rfl, rfl, rfl, Timing.ok_init⟩ rfl rfl

theorem syncSet_events {offset : Nat} (hb : c.pkt.errata.bdm70 = false) :
    EM.wlp (evtSyncSet c offset) (fun _ s' => AtPsbPlus c s' fun o => o = offset) (fun _ _ => True) s := by
  unfold evtSyncSet
  rw [EM.wlp_bind, EM.wlp_modify, EM.wlp_bind]
  unfold EM.wlp onPkt
  dsimp only
  rcases hx : pktSyncSet c.pkt (evtReset s).pd offset with ⟨d, _ | _ | _⟩
  · have := set_at _ _ hx
    subst this
    exact start_at hb rfl ⟨init_holds, rfl, rfl, rfl, Timing.ok_init⟩ rfl rfl
  · trivial
  · trivial

theorem backInner_events {sync : Nat} : ∀ (n : Nat) (s : Evd), Fresh c s → s.tm = {} →
    EM.wlp (evtSyncBackInner c sync n) (fun _ s' => Fresh c s' ∧ s'.tm = {} ∧ ∃ o, s'.pd = ⟨some o, some o⟩)
      (fun _ _ => True) s := by
  intro n
  induction n with
  | zero => intro _ _ _; exact wlp_Un
  | succ n ih =>
    intro s h ht
    unfold evtSyncBackInner
    rw [EM.wlp_bind]
    refine wlp_onPkt_at backward_at fun o => ?_
    rw [EM.wlp_bind, EM.wlp_get]
    have h' : Fresh c { s with pd := ⟨some o, some o⟩ } := ⟨h.q, h.ev, h.en, h.bd, h.tm⟩
    refine EM.wlp_ite (fun _ => ih _ h' ht) (fun _ => (EM.wlp_pure _ _ _ _).2 ⟨h', ht, o, rfl⟩)

theorem backLoop_events {start : Nat} (hb : c.pkt.errata.bdm70 = false) : ∀ (n sync : Nat) (s : Evd),
    EM.wlp (evtSyncBackLoop c start n sync) (fun _ s' => AtPsbPlus c s' fun _ => True) (fun _ _ => True) s := by
  intro n
  induction n with
  | zero => intro _ _; exact wlp_Un
  | succ n ih =>
    intro sync s
    unfold evtSyncBackLoop
    rw [EM.wlp_bind, EM.wlp_modify, EM.wlp_bind]
    refine EM.wlp_mono (backInner_events _ _ (fresh_reset s) rfl) ?_ (fun _ _ h => h)
    rintro sync' s1 ⟨h1, ht, o, ho⟩
    rw [EM.wlp_bind]
    have h2 := start_at (P := fun _ => True) hb trivial h1 ht ho
    unfold EM.wlp tryStart
    revert h2
    unfold EM.wlp
    rcases evtStart c s1 with ⟨s2, _ | e | _⟩
    · intro h2
      refine (?_ : EM.wlp _ _ _ _)
      rw [EM.wlp_bind, EM.wlp_get]
      refine EM.wlp_ite (fun _ => ?_) (fun _ => ih _ _)
      exact h2
    · intro _
      refine (?_ : EM.wlp _ _ _ _)
      rw [EM.wlp_bind, EM.wlp_get]
      refine EM.wlp_ite (fun _ => ?_) (fun _ => ih _ _)
      trivial
    · intro _; trivial

theorem syncBackward_events (hb : c.pkt.errata.bdm70 = false) :
    EM.wlp (evtSyncBackward c) (fun _ s' => AtPsbPlus c s' fun _ => True) (fun _ _ => True) s := by
  unfold evtSyncBackward
  rw [EM.wlp_bind, EM.wlp_get]
  exact backLoop_events hb _ _ _

theorem run_sync_events {s' : Evd} {o : EvtCall} (hb : c.pkt.errata.bdm70 = false) (h : o.run c s = (s', .ok none)) :
    AtPsbPlus c s' fun off => ∀ x, o = .syncSet x → off = x := by
  have fin : ∀ (m : EM Unit) (P : Nat → Prop), EM.wlp m (fun _ s' => AtPsbPlus c s' P) (fun _ _ => True) s →
      ((m s).1, (m s).2.bind fun _ => Res.ok (none : Option Event)) = (s', .ok none) → AtPsbPlus c s' P := by
    intro m P hm h
    unfold EM.wlp at hm
    revert hm h
    rcases m s with ⟨s1, _ | e | _⟩
    · intro h1 h2; injection h2 with h2; rw [← h2]; exact h1
    · intro _ h2; simp [Res.bind] at h2
    · intro _ h2; simp [Res.bind] at h2
  have imp : ∀ {P Q : Nat → Prop}, (∀ o, P o → Q o) → AtPsbPlus c s' P → AtPsbPlus c s' Q := by
    rintro P Q hi ⟨o, k, d1, ps, term, h1, h2⟩
    exact ⟨o, k, d1, ps, term, hi o h1, h2⟩
  cases o with
  | syncForward => exact imp (by simp) (fin _ _ (syncForward_events hb) h)
  | syncBackward => exact imp (by simp) (fin _ _ (syncBackward_events hb) h)
  | syncSet off => exact imp (by intro o ho x hx; injection hx with hx; rw [ho, hx]) (fin _ _ (syncSet_events hb) h)
  | next =>
    unfold EvtCall.run at h
    revert h
    rcases hx : evtNext c s with ⟨s1, a | a | _⟩ <;> intro h <;> simp [hx, Res.bind] at h

end

end Ipt

namespace Ipt.Props

open Ipt Spec

/-- C36, synchronization: after a successful synchronization, whatever happened before, the decoder has read a PSB at the
synchronization point, maybe after padding, and its header, up to the first PSBEND or OVF; it next delivers the status events
of the header: whether tracing is enabled, and then one event per status packet in the order of the packets.  Each has the IP
and the time that are known at the end of the header.  The decoder does not move in between. -/
theorem C36_status_after_sync (c : EvtCfg) (hb : c.pkt.errata.bdm70 = false) (o : EvtCall) (s s' : Evd)
    (h : o.run c s = (s', .ok none)) :
    ∃ off k d1 ps term, (∀ x, o = .syncSet x → off = x) ∧
      Reads c.pkt ⟨some off, some off⟩ (List.replicate k .pad ++ [.psb]) d1 ∧ AtHeader c d1 s'.pd {} s' ps term := by
  obtain ⟨off, k, d1, ps, term, h1, h2, h3⟩ := run_sync_events hb h
  exact ⟨off, k, d1, ps, term, h1, h2, h3⟩

/-- PSB; TSC; CBR; MODE.EXEC (64-bit); PIP; FUP with IP 0x7001; PSBEND. -/
def headerTrace : List UInt8 :=
  [2, 0x82, 2, 0x82, 2, 0x82, 2, 0x82, 2, 0x82, 2, 0x82, 2, 0x82, 2, 0x82, 0x19, 9, 0, 0, 0, 0, 0, 0, 2, 3, 0x20, 0, 0x99, 1,
   2, 0x43, 0, 8, 0, 0, 0, 0, 0x7d, 1, 0x70, 0, 0, 0, 0, 2, 0x23]

-- A case with four events that meets the hypotheses.
example : evtResults { pkt := { mem := headerTrace } } (.syncForward :: nexts 4) evtInit =
    [.ok none,
     .ok (some { data := .enabled 0x7001, statusUpdate := true, hasTsc := true, tsc := 9 }),
     .ok (some { data := .cbr 0x20, statusUpdate := true, hasTsc := true, tsc := 9 }),
     .ok (some { data := .execMode 3 0x7001, statusUpdate := true, hasTsc := true, tsc := 9 }),
     .ok (some { data := .asyncPaging 0x8000 false 0x7001, statusUpdate := true, hasTsc := true, tsc := 9 })] := by
  decide +kernel

example : headerEvents { pkt := { mem := headerTrace } } {}
    [.tsc 9, .cbr 0x20, .modeExec true false false, .pip 0x8000 false, .fup 3 0x7001] true =
    [{ data := .enabled 0x7001, statusUpdate := true, hasTsc := true, tsc := 9 },
     { data := .cbr 0x20, statusUpdate := true, hasTsc := true, tsc := 9 },
     { data := .execMode 3 0x7001, statusUpdate := true, hasTsc := true, tsc := 9 },
     { data := .asyncPaging 0x8000 false 0x7001, statusUpdate := true, hasTsc := true, tsc := 9 }] := by
  decide +kernel

/-- C36, within the trace: if the decoder reaches a PSB then, unless `pt_evt_next` fails, the next events are the ones of the
header; the IP is taken from the header alone, time continues. -/
theorem C36_status_at_psb (c : EvtCfg) (hc : c.time.Sane) (hb : c.pkt.errata.bdm70 = false) (s : Evd) (es : List Event)
    (h : Session c s es) (hp : s.packet = .psb) (s' : Evd) (e : Event) (hn : EvtCall.next.run c s = (s', .ok (some e))) :
    ∃ d ps term, AtHeader c s.pd d s.tm s ps term := by
  obtain ⟨t, ⟨l, hi⟩, he, _⟩ := session_inv hc (Q := fun _ => True) (fun _ _ _ _ _ _ => trivial) h
  have hs : Start c t s l :=
    (norm_of hi (by rw [hp]; simp) (by rw [hp]; simp)).start he (by rw [hp]; rfl) (by rw [hp]; rfl)
  have hd := decodePsb_events (c := c) hb ⟨l, hs.holds, fun x hx => (hs.typ x hx).any⟩
  have hn' := run_next hn
  have hpk : decodePacket c s = (do decodePsb c; decodeOther c : EM Bool) s := by unfold decodePacket; rw [hp]
  rcases hx : decodePsb c s with ⟨s1, _ | e1 | _⟩
  · obtain ⟨ps, term, ha⟩ := EM.wlp_ok hd hx
    have h1 := ha.atHeader he
    have hpk1 : decodePacket c s1 = decodePacket c s := by
      rw [hpk, EM.bind_def, hx]
      unfold decodePacket
      rw [ha.pk]
      rcases ha.term with h | h <;> rw [h]
    have heq : evtNext c s = evtNext c s1 := by
      unfold evtNext
      rw [EM.bind_def, EM.bind_def, show c.fuel = (c.pkt.mem.length + 3) + 1 from rfl]
      unfold fetchEventLoop
      rw [EM.bind_def, EM.bind_def, hpk1]
    have hr : EvtCall.next.run c s = EvtCall.next.run c s1 := by
      unfold EvtCall.run; dsimp only; rw [heq]
    refine ⟨s1.pd, ps, term, h1.ends, h1.inner, h1.reads, ?_, fun n hn hpos => ?_⟩
    · have := h1.events
      cases hl : headerEvents c s.tm ps (decide (term = .psbend)) with
      | nil => rfl
      | cons x xs =>
        rw [hl] at this
        rw [← this, List.length_cons, nexts, List.replicate_succ, evtResults, evtResults, hr]
    · rw [← h1.stays n hn hpos]
      cases n with
      | zero => cases hpos
      | succ n => rw [nexts, List.replicate_succ, evtFinal, evtFinal, hr]
  · exfalso
    unfold evtNext at hn'
    rw [EM.bind_def, show c.fuel = (c.pkt.mem.length + 3) + 1 from rfl] at hn'
    unfold fetchEventLoop at hn'
    rw [EM.bind_def, hpk, EM.bind_def, hx] at hn'
    cases hn'
  · exfalso
    unfold evtNext at hn'
    rw [EM.bind_def, show c.fuel = (c.pkt.mem.length + 3) + 1 from rfl] at hn'
    unfold fetchEventLoop at hn'
    rw [EM.bind_def, hpk, EM.bind_def, hx] at hn'
    cases hn'

/-- PSB; FUP; PSBEND; TNT; PSB; MODE.EXEC; PSBEND: tracing was disabled when the second PSB was generated. -/
def secondTrace : List UInt8 :=
  [6, 2, 0x82, 2, 0x82, 2, 0x82, 2, 0x82, 2, 0x82, 2, 0x82, 2, 0x82, 2, 0x82, 0x99, 1, 2, 0x23]

-- A case that meets the hypotheses: the decoder is at the second PSB after delivering the TNT.
example : (evtFinal (cfgOf secondTrace) (.syncForward :: nexts 2) evtInit).packet = .psb ∧
    evtResults (cfgOf secondTrace) (.syncForward :: nexts 4) evtInit =
      [.ok none, .ok (some { data := .enabled 0x7001, statusUpdate := true }), .ok (some { data := .tnt 1 1 }),
       .ok (some { data := .disabled 0, ipSuppressed := true, statusUpdate := true }),
       .ok (some { data := .execMode 3 0, ipSuppressed := true, statusUpdate := true })] := by
  decide +kernel

end Ipt.Props
