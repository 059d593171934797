import Verif.EventDecoderInv7
import Verif.Spec.Psb

/-! Helper lemmas: the events of PSB+. -/

set_option linter.unusedSimpArgs false

namespace Ipt

open Spec

variable {c : EvtCfg} {s : Evd}

theorem Reads.snoc {c : PktCfg} {d d1 d2 : PktDec} {ps : List Packet} {p : Packet} {n : Nat} (h : Reads c d ps d1)
    (hp : pktDecNext c d1 = (d2, .ok (p, n))) : Reads c d (ps ++ [p]) d2 := by
  induction h with
  | nil d => exact .cons _ _ _ _ _ _ hp (.nil _)
  | cons d d1 d' p' n' ps h _ ih => exact .cons _ _ _ _ _ _ h (ih hp)

theorem Reads.append {c : PktCfg} {d d1 d2 : PktDec} {ps qs : List Packet} (h : Reads c d ps d1)
    (hq : Reads c d1 qs d2) : Reads c d (ps ++ qs) d2 := by
  induction h with
  | nil d => exact hq
  | cons d d1 d' p' n' ps h _ ih => exact .cons _ _ _ _ _ _ h (ih hq)

/-- The packets before and including the one fetched. -/
theorem wlp_fetch_reads {Q : Unit → Evd → Prop} {E : Err → Evd → Prop}
    (h1 : ∀ pd p size k, Reads c.pkt s.pd (List.replicate k .pad ++ [p]) pd → p ≠ .pad →
      Q () { s with pd := pd, packet := p, size := size })
    (h2 : ∀ pd e, Q () { s with pd := pd, packet := .invalid, size := 0, status := some e }) :
    EM.wlp (fetchPacket c) Q E s := by
  have key : ∀ n pd0 p0 sz0 k, Reads c.pkt s.pd (List.replicate k .pad) pd0 →
      EM.wlp (fetchLoop c n) Q E { s with pd := pd0, packet := p0, size := sz0 } := by
    intro n
    induction n with
    | zero => intro _ _ _ _ _; exact (EM.wlp_undef _ _ _).2 trivial
    | succ n ih =>
      intro pd0 p0 sz0 k hk
      unfold EM.wlp fetchLoop
      dsimp only
      rcases hx : pktDecNext c.pkt pd0 with ⟨pd, ⟨p, size⟩ | e | _⟩
      · dsimp only
        by_cases hp : p = .pad
        · rw [if_pos hp]
          refine ih pd p size (k + 1) ?_
          rw [List.replicate_succ']
          rw [hp] at hx
          exact Reads.snoc hk hx
        · rw [if_neg hp]; exact h1 pd p size k (Reads.snoc hk hx) hp
      · dsimp only
        exact h2 pd0 e
      · trivial
  exact key c.fuel s.pd s.packet s.size 0 (.nil _)

/-- The events of a packet as they are queued. -/
def rawEvents (iflags : Bool) : Packet → List Event
  | .modeExec csl csd iflag =>
    { data := .execMode (execMode csl csd) 0, statusUpdate := true } ::
      if iflags = true then [{ data := .iflags iflag 0, statusUpdate := true }] else []
  | .modeTsx intx abrt => [{ data := .tsx intx abrt 0, statusUpdate := true }]
  | .pip cr3 nr => [{ data := .asyncPaging cr3 nr 0, statusUpdate := true }]
  | .vmcs base => [{ data := .asyncVmcs base 0, statusUpdate := true }]
  | .cbr ratio => [{ data := .cbr ratio, statusUpdate := true }]
  | .mnt payload => [{ data := .mnt payload }]
  | _ => []

/-- Filling in an event at the end of PSB+. -/
def complete (l : LastIp) (t : Time) (e : Event) : Event :=
  match e.data with
  | .disabled .. | .cbr .. | .mnt .. => e.timed t
  | _ => (e.withIp l).timed t

theorem complete_raw (iflags : Bool) (l : LastIp) (t : Time) (p : Packet) :
    (rawEvents iflags p).map (complete l t) = statusEvents iflags (ipOf l) t p := by
  have ht : (if t.haveTsc = true then true else false) = t.haveTsc := by cases t.haveTsc <;> rfl
  cases p with
  | modeExec a b i =>
    cases iflags <;> cases a <;> cases b <;> cases hq : l.query <;>
      simp [rawEvents, statusEvents, complete, Event.withIp, Event.timed, ipOf, hq, EvData.setIp, execMode, modeOf, ht]
  | modeTsx a b =>
    cases hq : l.query <;> simp [rawEvents, statusEvents, complete, Event.withIp, Event.timed, ipOf, hq, EvData.setIp, ht]
  | pip a b =>
    cases hq : l.query <;> simp [rawEvents, statusEvents, complete, Event.withIp, Event.timed, ipOf, hq, EvData.setIp, ht]
  | vmcs a =>
    cases hq : l.query <;> simp [rawEvents, statusEvents, complete, Event.withIp, Event.timed, ipOf, hq, EvData.setIp, ht]
  | cbr a => simp [rawEvents, statusEvents, complete, Event.timed, ht]
  | mnt a => simp [rawEvents, statusEvents, complete, Event.timed, ht]
  | _ => rfl

/-- The packets that end PSB+. -/
def Packet.endsPsb : Packet → Bool
  | .psbend | .ovf => true
  | _ => false

/-- Inside PSB+, after the packets `ps`. -/
structure InPsb (c : EvtCfg) (s0 s : Evd) (i : Nat) (ps : List Packet) : Prop where
  q : s.q.Holds ((({ statusUpdate := true } : Event), 1) :: (ps.flatMap (rawEvents c.enableIflags)).map (·, 1))
  i : i = s.q.begin
  en : s.enabled = headerEnabled ps
  ip : s.ip = headerIp ps
  tm : s.tm = headerTime c.time s0.tm ps
  ev : s.event = s0.event
  st : s.status = s0.status
  bd : s.bound = s0.bound
  reads : Reads c.pkt s0.pd ps s.pd
  inner : ∀ p ∈ ps, p.endsPsb = false

/-- After PSB+. -/
structure AfterPsb (c : EvtCfg) (s0 s : Evd) (ps : List Packet) (term : Packet) : Prop where
  q : s.q.Holds (((if headerEnabled ps = true then [({ data := .enabled 0, statusUpdate := true } : Event)]
    else if term = .psbend then [{ data := .disabled 0, ipSuppressed := true, statusUpdate := true }] else []) ++
      ps.flatMap (rawEvents c.enableIflags)).map (·, 1))
  ip : s.ip = headerIp ps
  tm : s.tm = headerTime c.time s0.tm ps
  ev : s.event = s0.event
  st : s.status = s0.status
  bd : s.bound = s0.bound
  reads : Reads c.pkt s0.pd (ps ++ [term]) s.pd
  inner : ∀ p ∈ ps, p.endsPsb = false
  pk : s.packet = term
  term : term = .psbend ∨ term = .ovf

/-- `s` is the state after fetching `p`, which follows `ps`. -/
structure AtPsb (c : EvtCfg) (s0 s : Evd) (i : Nat) (ps : List Packet) (p : Packet) : Prop where
  q : s.q.Holds ((({ statusUpdate := true } : Event), 1) :: (ps.flatMap (rawEvents c.enableIflags)).map (·, 1))
  i : i = s.q.begin
  en : s.enabled = headerEnabled ps
  ip : s.ip = headerIp ps
  tm : s.tm = headerTime c.time s0.tm ps
  ev : s.event = s0.event
  st : s.status = s0.status
  bd : s.bound = s0.bound
  reads : Reads c.pkt s0.pd (ps ++ [p]) s.pd
  inner : ∀ p ∈ ps, p.endsPsb = false
  pk : s.packet = p

theorem enabled_snoc (ps : List Packet) (p : Packet) : headerEnabled (ps ++ [p]) =
    match p with
    | .fup ipc _ => decide (ipc ≠ 0)
    | _ => headerEnabled ps := by unfold headerEnabled; rw [List.foldl_append]; rfl

theorem ip_snoc (ps : List Packet) (p : Packet) : headerIp (ps ++ [p]) =
    match p with
    | .fup ipc ip => if ipc = 0 then headerIp ps else ((headerIp ps).update ipc ip).1
    | _ => headerIp ps := by unfold headerIp; rw [List.foldl_append]; rfl

theorem time_snoc (c : TimeCfg) (t : Timing) (ps : List Packet) (p : Packet) : headerTime c t (ps ++ [p]) =
    match headerTiming p with
    | some tp => ((headerTime c t ps).apply c tp).1
    | none => headerTime c t ps := by unfold headerTime; rw [List.foldl_append]; rfl

theorem raw_snoc (b : Bool) (ps : List Packet) (p : Packet) :
    (ps ++ [p]).flatMap (rawEvents b) = ps.flatMap (rawEvents b) ++ rawEvents b p := by simp

theorem headerEnabled_pads (k : Nat) (ps : List Packet) : headerEnabled (ps ++ List.replicate k .pad) = headerEnabled ps := by
  induction k with
  | zero => simp
  | succ k ih => rw [List.replicate_succ', ← List.append_assoc, enabled_snoc]; exact ih

theorem headerIp_pads (k : Nat) (ps : List Packet) : headerIp (ps ++ List.replicate k .pad) = headerIp ps := by
  induction k with
  | zero => simp
  | succ k ih => rw [List.replicate_succ', ← List.append_assoc, ip_snoc]; exact ih

theorem headerTime_pads (c : TimeCfg) (t : Timing) (k : Nat) (ps : List Packet) :
    headerTime c t (ps ++ List.replicate k .pad) = headerTime c t ps := by
  induction k with
  | zero => simp
  | succ k ih => rw [List.replicate_succ', ← List.append_assoc, time_snoc]; exact ih

theorem raw_pads (b : Bool) (k : Nat) (ps : List Packet) :
    (ps ++ List.replicate k Packet.pad).flatMap (rawEvents b) = ps.flatMap (rawEvents b) := by
  induction k with
  | zero => simp
  | succ k ih => rw [List.replicate_succ', ← List.append_assoc, raw_snoc, ih]; simp [rawEvents]

section
variable {s0 : Evd} {i : Nat} {ps : List Packet} {p : Packet}

theorem AtPsb.next (h : AtPsb c s0 s i ps p) (hp : p.endsPsb = false) (h1 : rawEvents c.enableIflags p = [])
    (h2 : headerTiming p = none) (h3 : ∀ a b, p ≠ .fup a b) : InPsb c s0 s i (ps ++ [p]) := by
  refine ⟨by rw [raw_snoc, h1, List.append_nil]; exact h.q, h.i, ?_, ?_, ?_, h.ev, h.st, h.bd, h.reads, ?_⟩
  · rw [enabled_snoc, h.en]; cases p <;> first | rfl | exact absurd rfl (h3 _ _)
  · rw [ip_snoc, h.ip]; cases p <;> first | rfl | exact absurd rfl (h3 _ _)
  · rw [time_snoc, h2]; exact h.tm
  · intro x hx
    rcases List.mem_append.1 hx with hx | hx
    · exact h.inner x hx
    · rw [List.mem_singleton.1 hx]; exact hp

/-- Queueing one event of the packet. -/
theorem wlp_enq_psb {e : Event} {l : List (Event × Nat)} {Q : Unit → Evd → Prop} (hl : s.q.Holds l) (hi : i = s.q.begin)
    (hq : ∀ q', q'.Holds (l ++ [(e, 1)]) → i = q'.begin → Q () { s with q := q' }) :
    EM.wlp (enq evbPsbend e) Q (fun _ _ => True) s :=
  wlp_enq' (fun _ _ _ => trivial) hl fun q' h1 h2 => hq q' (by simpa [evbPsbend] using h1) (by rw [h2]; exact hi)

theorem AtPsb.one {e : Event} (h : AtPsb c s0 s i ps p) (hp : p.endsPsb = false) (h1 : rawEvents c.enableIflags p = [e])
    (h2 : headerTiming p = none) (h3 : ∀ a b, p ≠ .fup a b) :
    EM.wlp (do enq evbPsbend e; return false) (fun b s' => b = false ∧ InPsb c s0 s' i (ps ++ [p])) (fun _ _ => True) s := by
  rw [EM.wlp_bind]
  refine wlp_enq_psb h.q h.i fun q' a1 a2 => ?_
  rw [EM.wlp_pure]
  refine ⟨rfl, ⟨by rw [raw_snoc, h1]; simpa using a1, a2, ?_, ?_, ?_, h.ev, h.st, h.bd, h.reads, ?_⟩⟩
  · show s.enabled = _
    rw [enabled_snoc, h.en]; cases p <;> first | rfl | exact absurd rfl (h3 _ _)
  · show s.ip = _
    rw [ip_snoc, h.ip]; cases p <;> first | rfl | exact absurd rfl (h3 _ _)
  · show s.tm = _
    rw [time_snoc, h2]; exact h.tm
  · intro x hx
    rcases List.mem_append.1 hx with hx | hx
    · exact h.inner x hx
    · rw [List.mem_singleton.1 hx]; exact hp

theorem wlp_applyTm_eq {tp : TimePkt} {Q : Unit → Evd → Prop} (hq : Q () { s with tm := (s.tm.apply c.time tp).1 }) :
    EM.wlp (applyTm c tp) Q (fun _ _ => True) s := by
  unfold EM.wlp applyTm
  cases (s.tm.apply c.time tp).2 <;> first | exact hq | trivial

theorem AtPsb.timing {tp : TimePkt} (h : AtPsb c s0 s i ps p) (hp : p.endsPsb = false)
    (h1 : rawEvents c.enableIflags p = []) (h2 : headerTiming p = some tp) (h3 : ∀ a b, p ≠ .fup a b) :
    EM.wlp (do applyTm c tp; return false) (fun b s' => b = false ∧ InPsb c s0 s' i (ps ++ [p])) (fun _ _ => True) s := by
  rw [EM.wlp_bind]
  refine wlp_applyTm_eq ?_
  rw [EM.wlp_pure]
  refine ⟨rfl, ⟨by rw [raw_snoc, h1, List.append_nil]; exact h.q, h.i, ?_, ?_, ?_, h.ev, h.st, h.bd, h.reads, ?_⟩⟩
  · show s.enabled = _
    rw [enabled_snoc, h.en]; cases p <;> first | rfl | exact absurd rfl (h3 _ _)
  · show s.ip = _
    rw [ip_snoc, h.ip]; cases p <;> first | rfl | exact absurd rfl (h3 _ _)
  · show (s.tm.apply c.time tp).1 = _
    rw [time_snoc, h2, h.tm]
  · intro x hx
    rcases List.mem_append.1 hx with hx | hx
    · exact h.inner x hx
    · rw [List.mem_singleton.1 hx]; exact hp

/-- The result of one packet. -/
def PsbRes (c : EvtCfg) (s0 : Evd) (i : Nat) (ps : List Packet) (p : Packet) (b : Bool) (s : Evd) : Prop :=
  if b = true then AfterPsb c s0 s ps p else InPsb c s0 s i (ps ++ [p])

theorem psbRes_false {m : EM Bool}
    (h : EM.wlp m (fun b s' => b = false ∧ InPsb c s0 s' i (ps ++ [p])) (fun _ _ => True) s) :
    EM.wlp m (PsbRes c s0 i ps p) (fun _ _ => True) s := by
  refine EM.wlp_mono h ?_ (fun _ _ h => h)
  rintro b s' ⟨rfl, h⟩
  exact h

theorem AtPsb.finish {e : Event} (h : AtPsb c s0 s i ps p) (hp : p = .psbend ∨ p = .ovf)
    (he : (if headerEnabled ps = true then [({ data := .enabled 0, statusUpdate := true } : Event)]
    else if p = .psbend then [{ data := .disabled 0, ipSuppressed := true, statusUpdate := true }] else []) = [e]) :
    AfterPsb c s0 (s.setEv (.slot i) e) ps p := by
  refine ⟨?_, h.ip, h.tm, h.ev, h.st, h.bd, h.reads, h.inner, h.pk, hp⟩
  rw [he]
  have := put_in_holds h.q (j := 0) (by simp) (i := i) (by rw [h.i]; have := h.q.begin; omega) e
  simpa [Evd.setEv] using this

theorem wlp_bdm70_off {Q : Bool → Evd → Prop} {E : Err → Evd → Prop} (hb : c.pkt.errata.bdm70 = false)
    (hq : Q false s) : EM.wlp (checkBdm70 c) Q E s := by
  unfold EM.wlp checkBdm70
  rw [hb]
  exact hq

theorem wlp_checkModeExec {x y f : Bool} {Q : Unit → Evd → Prop} (hq : ∀ s1 : Evd, s1.q = s.q → s1.enabled = s.enabled → s1.ip = s.ip →
        s1.tm = s.tm → s1.event = s.event → s1.status = s.status → s1.bound = s.bound → s1.pd = s.pd → Q () s1) :
    EM.wlp (checkModeExec c x y f) Q (fun _ _ => True) s := by
  unfold EM.wlp checkModeExec
  by_cases hm : s.modeValid = true
  · rw [if_pos hm]
    by_cases h1 : c.enableIflags = true ∧ s.iflag ≠ f
    · rw [if_pos h1]; trivial
    · rw [if_neg h1]
      by_cases h2 : s.csd ≠ y
      · rw [if_pos h2]; trivial
      · rw [if_neg h2]
        by_cases h3 : s.csl ≠ x
        · rw [if_pos h3]; trivial
        · rw [if_neg h3]; exact hq s rfl rfl rfl rfl rfl rfl rfl rfl
  · rw [if_neg hm]; exact hq _ rfl rfl rfl rfl rfl rfl rfl rfl

theorem wlp_updIp_eq {a b : Nat} {Q : Unit → Evd → Prop} (hq : Q () { s with ip := (s.ip.update a b).1 }) :
    EM.wlp (updIp a b) Q (fun _ _ => True) s := by
  unfold EM.wlp updIp
  cases (s.ip.update a b).2 <;> first | exact hq | trivial

theorem psbPacket_events (hb : c.pkt.errata.bdm70 = false) (h : AtPsb c s0 s i ps p) :
    EM.wlp (psbPacket c i) (PsbRes c s0 i ps p) (fun _ _ => True) s := by
  have hp := h.pk
  cases p with
  | fup a b =>
    refine EM.wlp_of_eq (m' := do headerFup c a b; return false) (by unfold psbPacket; rw [hp]) (psbRes_false ?_)
    rw [EM.wlp_bind]
    unfold headerFup
    rw [EM.wlp_bind]
    refine wlp_bdm70_off hb ?_
    have fin : ∀ s' : Evd, s'.q = s.q → s'.enabled = decide (a ≠ 0) → s'.ip = (if a = 0 then s.ip else (s.ip.update a b).1) →
        s'.tm = s.tm → s'.event = s.event → s'.status = s.status → s'.bound = s.bound → s'.pd = s.pd →
        InPsb c s0 s' i (ps ++ [.fup a b]) := by
      intro s' e1 e2 e3 e4 e5 e6 e7 e8
      refine ⟨by rw [raw_snoc, e1, show rawEvents c.enableIflags (.fup a b) = [] from rfl, List.append_nil]; exact h.q,
        by rw [e1]; exact h.i, by rw [e2, enabled_snoc], by rw [e3, ip_snoc, h.ip], ?_, by rw [e5]; exact h.ev,
        by rw [e6]; exact h.st, by rw [e7]; exact h.bd, by rw [e8]; exact h.reads, ?_⟩
      · rw [time_snoc, e4]; exact h.tm
      · intro x hx
        rcases List.mem_append.1 hx with hx | hx
        · exact h.inner x hx
        · rw [List.mem_singleton.1 hx]; rfl
    refine EM.wlp_ite (fun ha => ?_) (fun ha => ?_)
    · simp only [Bool.false_eq_true, or_false] at ha
      rw [EM.wlp_modify, EM.wlp_pure]
      exact ⟨rfl, fin _ rfl (by simp [ha]) (by simp [ha]) rfl rfl rfl rfl rfl⟩
    · simp only [Bool.false_eq_true, or_false] at ha
      rw [EM.wlp_bind, EM.wlp_modify]
      refine wlp_updIp_eq ?_
      rw [EM.wlp_pure]
      exact ⟨rfl, fin _ rfl (by simp [ha]) (by simp [ha]) rfl rfl rfl rfl rfl⟩
  | modeExec x y f =>
    refine EM.wlp_of_eq (m' := do headerModeExec c x y f; return false) (by unfold psbPacket; rw [hp]) (psbRes_false ?_)
    rw [EM.wlp_bind]
    unfold headerModeExec
    rw [EM.wlp_bind]
    refine wlp_checkModeExec ?_
    intro s1 e1 e2 e3 e4 e5 e6 e7 e8
    have fin : ∀ q' : Evq Event, q'.Holds ((({ statusUpdate := true } : Event), 1) ::
        ((ps ++ [Packet.modeExec x y f]).flatMap (rawEvents c.enableIflags)).map (·, 1)) → i = q'.begin →
        InPsb c s0 { s1 with q := q' } i (ps ++ [.modeExec x y f]) := by
      intro q' a1 a2
      refine ⟨a1, a2, by rw [enabled_snoc]; exact e2.trans h.en, by rw [ip_snoc]; exact e3.trans h.ip,
        by rw [time_snoc]; exact e4.trans h.tm, e5.trans h.ev, e6.trans h.st, e7.trans h.bd, ?_, ?_⟩
      · show Reads _ _ _ s1.pd
        rw [e8]; exact h.reads
      · intro x hx
        rcases List.mem_append.1 hx with hx | hx
        · exact h.inner x hx
        · rw [List.mem_singleton.1 hx]; rfl
    rw [EM.wlp_bind]
    have hi := h.i
    refine wlp_enq_psb (i := i) (by rw [e1]; exact h.q) (by rw [e1]; exact hi) fun q' a1 a2 => ?_
    refine EM.wlp_ite (fun hi => ?_) (fun hi => ?_)
    · refine wlp_enq_psb (s := { s1 with q := q' }) (i := i) a1 a2 fun q'' a3 a4 => ?_
      rw [EM.wlp_pure]
      refine ⟨rfl, fin q'' ?_ a4⟩
      rw [raw_snoc]
      rw [show rawEvents c.enableIflags (.modeExec x y f) =
        [{ data := .execMode (execMode x y) 0, statusUpdate := true }, { data := .iflags f 0, statusUpdate := true }] by
          simp [rawEvents, hi]]
      simpa using a3
    · rw [EM.wlp_pure, EM.wlp_pure]
      refine ⟨rfl, fin q' ?_ a2⟩
      rw [raw_snoc]
      rw [show rawEvents c.enableIflags (.modeExec x y f) = [{ data := .execMode (execMode x y) 0, statusUpdate := true }] by
          simp [rawEvents, hi]]
      simpa using a1
  | modeTsx a b =>
    exact EM.wlp_of_eq (m' := do enq evbPsbend { data := .tsx a b 0, statusUpdate := true }; return false)
      (by unfold psbPacket; rw [hp]) (psbRes_false (h.one rfl rfl rfl (by simp)))
  | modeOther a =>
    exact EM.wlp_of_eq (m' := pure false) (by unfold psbPacket; rw [hp]; rfl)
      (psbRes_false ((EM.wlp_pure _ _ _ _).2 ⟨rfl, h.next rfl rfl rfl (by simp)⟩))
  | pad =>
    exact EM.wlp_of_eq (m' := pure false) (by unfold psbPacket; rw [hp]; rfl)
      (psbRes_false ((EM.wlp_pure _ _ _ _).2 ⟨rfl, h.next rfl rfl rfl (by simp)⟩))
  | pip a b =>
    exact EM.wlp_of_eq (m' := do enq evbPsbend { data := .asyncPaging a b 0, statusUpdate := true }; return false)
      (by unfold psbPacket; rw [hp]) (psbRes_false (h.one rfl rfl rfl (by simp)))
  | vmcs a =>
    exact EM.wlp_of_eq (m' := do enq evbPsbend { data := .asyncVmcs a 0, statusUpdate := true }; return false)
      (by unfold psbPacket; rw [hp]) (psbRes_false (h.one rfl rfl rfl (by simp)))
  | mnt a =>
    exact EM.wlp_of_eq (m' := do enq evbPsbend { data := .mnt a }; return false)
      (by unfold psbPacket; rw [hp]) (psbRes_false (h.one rfl rfl rfl (by simp)))
  | tsc v =>
    exact EM.wlp_of_eq (m' := do applyTm c (.hTsc v); return false)
      (by unfold psbPacket; rw [hp]) (psbRes_false (h.timing rfl rfl rfl (by simp)))
  | tma a b =>
    exact EM.wlp_of_eq (m' := do applyTm c (.tma a b); return false)
      (by unfold psbPacket; rw [hp]) (psbRes_false (h.timing rfl rfl rfl (by simp)))
  | mtc a =>
    exact EM.wlp_of_eq (m' := do applyTm c (.mtc a); return false)
      (by unfold psbPacket; rw [hp]) (psbRes_false (h.timing rfl rfl rfl (by simp)))
  | cyc a =>
    exact EM.wlp_of_eq (m' := do applyTm c (.cyc a); return false)
      (by unfold psbPacket; rw [hp]) (psbRes_false (h.timing rfl rfl rfl (by simp)))
  | cbr v =>
    refine EM.wlp_of_eq (m' := do
      applyTm c (.hCbr v); enq evbPsbend { data := .cbr v, statusUpdate := true }; return false)
      (by unfold psbPacket; rw [hp]) (psbRes_false ?_)
    rw [EM.wlp_bind]
    refine wlp_applyTm_eq ?_
    rw [EM.wlp_bind]
    refine wlp_enq_psb (s := { s with tm := (s.tm.apply c.time (.hCbr v)).1 }) h.q h.i fun q' a1 a2 => ?_
    rw [EM.wlp_pure]
    refine ⟨rfl, ⟨by rw [raw_snoc]; simpa [rawEvents] using a1, a2, by rw [enabled_snoc]; exact h.en,
      by rw [ip_snoc]; exact h.ip, ?_, h.ev, h.st, h.bd, h.reads, ?_⟩⟩
    · rw [time_snoc, ← h.tm]; rfl
    · intro x hx
      rcases List.mem_append.1 hx with hx | hx
      · exact h.inner x hx
      · rw [List.mem_singleton.1 hx]; rfl
  | psbend =>
    cases hen : s.enabled with
    | true =>
      refine EM.wlp_of_eq (m' := do
        updEv (.slot i) fun _ e => { e with data := .enabled 0 }; return true)
        (by unfold psbPacket; rw [hp]; dsimp only; rw [if_pos hen]) ?_
      unfold updEv
      rw [EM.wlp_bind, EM.wlp_modify, EM.wlp_pure]
      have hg : s.ev (.slot i) = { statusUpdate := true } := by
        have := get_in_holds h.q (j := 0) (by simp)
        rw [h.i]
        rwa [Nat.add_zero, Nat.mod_eq_of_lt (by have := h.q.begin; omega)] at this
      rw [hg]
      exact h.finish (.inl rfl) (by rw [← h.en, hen]; rfl)
    | false =>
      refine EM.wlp_of_eq (m' := do
        updEv (.slot i) fun _ e => { e with data := .disabled 0, ipSuppressed := true }; return true)
        (by unfold psbPacket; rw [hp]; dsimp only; rw [if_neg (by rw [hen]; simp)]) ?_
      unfold updEv
      rw [EM.wlp_bind, EM.wlp_modify, EM.wlp_pure]
      have hg : s.ev (.slot i) = { statusUpdate := true } := by
        have := get_in_holds h.q (j := 0) (by simp)
        rw [h.i]
        rwa [Nat.add_zero, Nat.mod_eq_of_lt (by have := h.q.begin; omega)] at this
      rw [hg]
      exact h.finish (.inl rfl) (by rw [← h.en, hen]; rfl)
  | ovf =>
    cases hen : s.enabled with
    | true =>
      refine EM.wlp_of_eq (m' := do
        updEv (.slot i) fun _ e => { e with data := .enabled 0 }; return true)
        (by unfold psbPacket; rw [hp]; dsimp only; rw [if_pos hen]) ?_
      unfold updEv
      rw [EM.wlp_bind, EM.wlp_modify, EM.wlp_pure]
      have hg : s.ev (.slot i) = { statusUpdate := true } := by
        have := get_in_holds h.q (j := 0) (by simp)
        rw [h.i]
        rwa [Nat.add_zero, Nat.mod_eq_of_lt (by have := h.q.begin; omega)] at this
      rw [hg]
      exact h.finish (.inr rfl) (by rw [← h.en, hen]; rfl)
    | false =>
      refine EM.wlp_of_eq (m' := do psbDropHead i; return true)
        (by unfold psbPacket; rw [hp]; dsimp only; rw [if_neg (by rw [hen]; simp)]) ?_
      rw [EM.wlp_bind]
      unfold psbDropHead
      rw [EM.wlp_bind]
      refine wlp_deq h.q (fun hn => ?_) fun j y q' a1 a2 a3 a4 a5 => ?_
      · rw [firstMatch_cons_bind rfl] at hn; cases hn
      · rw [firstMatch_cons_bind rfl, Option.some.injEq] at a1
        subst a1
        dsimp only
        rw [if_pos h.i.symm, EM.wlp_pure, EM.wlp_pure]
        simp only [List.eraseIdx_cons_zero] at a3
        refine ⟨?_, h.ip, h.tm, h.ev, h.st, h.bd, h.reads, h.inner, h.pk, .inr rfl⟩
        rw [← h.en, hen]
        simpa using a3
  | invalid =>
    cases hst : s.status with
    | none =>
      exact EM.wlp_of_eq (m' := pure false) (by unfold psbPacket; rw [hp]; dsimp only; rw [hst]; rfl)
        (psbRes_false ((EM.wlp_pure _ _ _ _).2 ⟨rfl, h.next rfl rfl rfl (by simp)⟩))
    | some e =>
      exact EM.wlp_of_eq (m' := EM.fail e) (by unfold psbPacket; rw [hp]; dsimp only; rw [hst]; rfl)
        ((EM.wlp_fail _ _ _ _).2 trivial)
  | _ =>
    exact EM.wlp_of_eq (m' := EM.fail .badContext) (by unfold psbPacket; rw [hp]; rfl)
      ((EM.wlp_fail _ _ _ _).2 trivial)

theorem psbLoop_events (hb : c.pkt.errata.bdm70 = false) : ∀ (n : Nat) (s : Evd) (ps : List Packet), InPsb c s0 s i ps →
    EM.wlp (psbLoop c i n) (fun _ s' => ∃ ps term, AfterPsb c s0 s' ps term) (fun _ _ => True) s := by
  intro n
  induction n with
  | zero => intro s _ _; exact wlp_Un
  | succ n ih =>
    intro s ps h
    unfold psbLoop
    rw [EM.wlp_bind]
    refine wlp_fetch_reads (fun pd p size k a1 a2 => ?_) fun pd e => ?_
    · rw [EM.wlp_bind]
      have h' : AtPsb c s0 { s with pd := pd, packet := p, size := size } i (ps ++ List.replicate k .pad) p := by
        refine ⟨by rw [raw_pads]; exact h.q, h.i, by rw [headerEnabled_pads]; exact h.en,
          by rw [headerIp_pads]; exact h.ip, by rw [headerTime_pads]; exact h.tm, h.ev, h.st, h.bd, ?_, ?_, rfl⟩
        · rw [List.append_assoc]; exact Reads.append h.reads a1
        · intro x hx
          rcases List.mem_append.1 hx with hx | hx
          · exact h.inner x hx
          · rw [List.eq_of_mem_replicate hx]; rfl
      refine EM.wlp_mono (psbPacket_events hb h') ?_ (fun _ _ h => h)
      intro b s' hr
      unfold PsbRes at hr
      cases b with
      | true => rw [if_pos rfl] at hr ⊢; exact (EM.wlp_pure _ _ _ _).2 ⟨_, _, hr⟩
      | false => rw [if_neg (by simp)] at hr ⊢; exact ih s' _ hr
    · rw [EM.wlp_bind]
      unfold EM.wlp psbPacket
      trivial

end

theorem decodePsb_events (hb : c.pkt.errata.bdm70 = false) (hq : ∃ l, s.q.Holds l ∧ ∀ x ∈ l, matches_ (2 ^ 32 - 1) x = true) :
    EM.wlp (decodePsb c) (fun _ s' => ∃ ps term, AfterPsb c s s' ps term) (fun _ _ => True) s := by
  obtain ⟨l, hl, hm⟩ := hq
  unfold decodePsb
  rw [EM.wlp_bind]
  unfold psbPending
  unfold EM.wlp
  dsimp only
  rw [pending_holds hl]
  cases l with
  | cons x l' =>
    have : (x :: l').any (matches_ (2 ^ 32 - 1)) = true := by
      rw [List.any_cons, hm x (by simp)]; rfl
    rw [this]; trivial
  | nil =>
    refine (?_ : EM.wlp _ _ _ _)
    rw [EM.wlp_bind, EM.wlp_modify, EM.wlp_bind]
    refine wlp_enqSlot' (s := { s with ip := {}, enabled := false }) (fun _ _ _ => trivial) hl fun q' _ a2 a3 _ _ => ?_
    unfold updEv
    rw [EM.wlp_bind, EM.wlp_modify]
    have hb' := hl.begin
    refine psbLoop_events hb _ _ [] ⟨?_, ?_, rfl, rfl, rfl, rfl, rfl, rfl, .nil _, by simp⟩
    · exact put_last_holds (l := []) a2 (by rw [a3]) _
    · show _ = q'.begin
      rw [a3]
      simp only [List.length_nil, Nat.add_zero]
      omega

end Ipt
