import Verif.EventDecoderTick
import Verif.EventDecoderInv7
import Verif.Props.EventDecoder

/-! # C33, C34, C35, C48: what the event decoder delivers -/

namespace Ipt.Spec

/-- `Session c s es`: a call to one of the synchronization functions succeeded, whatever happened before;
then `pt_evt_next` delivered the events `es`, without an error; the decoder is now in state `s`. -/
inductive Session (c : EvtCfg) : Evd → List Event → Prop
  | sync (o : EvtCall) (s s' : Evd) (h : o.run c s = (s', .ok none)) : Session c s' []
  | next (s s' : Evd) (es : List Event) (e : Event) (hs : Session c s es)
      (h : EvtCall.next.run c s = (s', .ok (some e))) : Session c s' (es ++ [e])

/-- `ptev_enabled`, `ptev_disabled`, `ptev_async_disabled`, `ptev_overflow`: the events that say whether
tracing is enabled. -/
def isTraceState (e : Event) : Bool :=
  match e.data with
  | .enabled _ | .disabled _ | .asyncDisabled .. | .overflow _ => true
  | _ => false

/-- The most recent event that says whether tracing is enabled. -/
def lastState (es : List Event) : Option Event := es.reverse.find? isTraceState

/-- `ptev_enabled` -/
def isEnabled (e : Event) : Prop := ∃ ip, e.data = .enabled ip

/-- `ptev_overflow` -/
def isOverflow (e : Event) : Prop := ∃ ip, e.data = .overflow ip

end Ipt.Spec

namespace Ipt

open Spec

theorem run_next {c : EvtCfg} {s s' : Evd} {e : Event} (h : EvtCall.next.run c s = (s', .ok (some e))) :
    evtNext c s = (s', .ok e) := by
  unfold EvtCall.run at h
  revert h
  rcases hx : evtNext c s with ⟨s1, a | a | _⟩
  · intro h
    simp only [hx, Res.bind, Prod.mk.injEq, Res.ok.injEq, Option.some.injEq] at h
    rw [h.1, h.2]
  · intro h; simp [hx, Res.bind] at h
  · intro h; simp [hx, Res.bind] at h

theorem run_next_err {c : EvtCfg} {s s' : Evd} {e : Err} (h : EvtCall.next.run c s = (s', .err e)) :
    evtNext c s = (s', .err e) := by
  unfold EvtCall.run at h
  revert h
  rcases hx : evtNext c s with ⟨s1, a | a | _⟩
  · intro h; simp [hx, Res.bind] at h
  · intro h
    simp only [hx, Res.bind, Prod.mk.injEq, Res.err.injEq] at h
    rw [h.1, h.2]
  · intro h; simp [hx, Res.bind] at h

theorem run_sync {c : EvtCfg} {s s' : Evd} {o : EvtCall} (hc : c.time.Sane) (h : o.run c s = (s', .ok none)) :
    Synced c s' := by
  have fin : ∀ (m : EM Unit), EM.wlp m (fun _ s' => Synced c s') (fun _ _ => True) s →
      ((m s).1, (m s).2.bind fun _ => Res.ok (none : Option Event)) = (s', .ok none) → Synced c s' := by
    intro m hm h
    unfold EM.wlp at hm
    revert hm h
    rcases m s with ⟨s1, _ | e | _⟩
    · intro h1 h2; injection h2 with h2; rw [← h2]; exact h1
    · intro _ h2; simp [Res.bind] at h2
    · intro _ h2; simp [Res.bind] at h2
  cases o with
  | syncForward => exact fin _ (syncForward_inv hc) h
  | syncBackward => exact fin _ (syncBackward_inv hc) h
  | syncSet off => exact fin _ (syncSet_inv hc) h
  | next =>
    unfold EvtCall.run at h
    revert h
    rcases hx : evtNext c s with ⟨s1, a | a | _⟩ <;> intro h <;> simp [hx, Res.bind] at h

theorem run_none (r : Res Unit) (e : Event) : (r.bind fun _ => Res.ok (none : Option Event)) ≠ .ok (some e) := by
  rcases r with _ | _ | _ <;> simp [Res.bind]

theorem lastState_snoc (es : List Event) (e : Event) :
    lastState (es ++ [e]) = if isTraceState e = true then some e else lastState es := by
  unfold lastState
  rw [List.reverse_append, List.reverse_singleton, List.singleton_append, List.find?_cons]
  cases isTraceState e <;> simp

/-- The invariant along a session.  `Q` is what enables tracing. -/
theorem session_inv {c : EvtCfg} {Q : Event → Prop} (hc : c.time.Sane)
    (hQ : ∀ (t : Bool) (e : Event) (s' : Evd), PktOk c s'.packet → isTraceState e = true → upd c t e s' = true → Q e)
    {s : Evd} {es : List Event} (h : Session c s es) :
    ∃ t, Inv c t s ∧ s.event = none ∧ (t = true → ∃ x, lastState es = some x ∧ Q x) := by
  induction h with
  | sync o s s' h =>
    have := run_sync hc h
    exact ⟨false, this.inv, this.1, by simp⟩
  | next s s' es e hs h ih =>
    obtain ⟨t, h1, h2, h3⟩ := ih
    obtain ⟨h4, h5, h6⟩ := EM.wlp_ok (evtNext_inv hc h1 h2) (run_next h)
    refine ⟨upd c t e s', h5, h6, fun ht => ?_⟩
    rw [lastState_snoc]
    split
    · rename_i hi
      refine ⟨e, rfl, hQ t e s' ?_ hi ht⟩
      obtain ⟨l, h5 | h5⟩ := h5 <;> exact h5.pk
    · rename_i hi
      refine h3 ?_
      rw [← ht]
      unfold upd tracing
      unfold isTraceState at hi
      split <;> simp_all

theorem session_steps {c : EvtCfg} : ∀ (fs es : List Event) (s : Evd), Session c s es →
    evtResults c (List.replicate fs.length .next) s = fs.map (fun e => .ok (some e)) → ∃ s', Session c s' (es ++ fs) := by
  intro fs
  induction fs with
  | nil => intro es s h _; exact ⟨s, by simpa using h⟩
  | cons f fs ih =>
    intro es s h hr
    simp only [List.length_cons, List.replicate_succ, evtResults, List.map_cons, List.cons.injEq] at hr
    have := ih (es ++ [f]) _ (.next s (EvtCall.next.run c s).1 es f h (by rw [← hr.1])) hr.2
    simpa using this

/-- A session from the results of its calls. -/
theorem session_of_results {c : EvtCfg} {es : List Event} {s : Evd}
    (h : evtResults c (.syncForward :: List.replicate es.length .next) s = .ok none :: es.map (fun e => .ok (some e))) :
    ∃ s', Session c s' es := by
  simp only [evtResults, List.cons.injEq] at h
  exact session_steps es [] _ (.sync .syncForward s (EvtCall.syncForward.run c s).1 (by rw [← h.1])) h.2

theorem session_steps_then {c : EvtCfg} {r : Res (Option Event)} : ∀ (fs es : List Event) (s : Evd), Session c s es →
    evtResults c (List.replicate (fs.length + 1) .next) s = fs.map (fun e => .ok (some e)) ++ [r] →
    ∃ s1 s', Session c s1 (es ++ fs) ∧ EvtCall.next.run c s1 = (s', r) := by
  intro fs
  induction fs with
  | nil =>
    intro es s h hr
    simp only [List.length_nil, Nat.zero_add, List.replicate_one, evtResults, List.map_nil, List.nil_append,
      List.cons.injEq, and_true] at hr
    exact ⟨s, (EvtCall.next.run c s).1, by simpa using h, by rw [← hr]⟩
  | cons f fs ih =>
    intro es s h hr
    simp only [List.length_cons, List.replicate_succ, evtResults, List.map_cons, List.cons_append, List.cons.injEq] at hr
    have := ih (es ++ [f]) _ (.next s (EvtCall.next.run c s).1 es f h (by rw [← hr.1])) hr.2
    simpa using this

/-- A session and the result of the next call. -/
theorem session_of_results_then {c : EvtCfg} {es : List Event} {r : Res (Option Event)} {s : Evd}
    (h : evtResults c (.syncForward :: List.replicate (es.length + 1) .next) s =
      .ok none :: (es.map (fun e => .ok (some e)) ++ [r])) :
    ∃ s1 s', Session c s1 es ∧ EvtCall.next.run c s1 = (s', r) := by
  rw [evtResults, List.cons.injEq] at h
  exact session_steps_then es [] _ (.sync .syncForward s (EvtCall.syncForward.run c s).1 (by rw [← h.1])) h.2

theorem session_last {c : EvtCfg} {es : List Event} {e : Event} {s' : Evd} (h : Session c s' (es ++ [e])) :
    ∃ s, Session c s es ∧ EvtCall.next.run c s = (s', .ok (some e)) := by
  generalize hx : es ++ [e] = l at h
  cases h with
  | sync => simp at hx
  | next s s' es' e' h1 h2 =>
    obtain ⟨h3, h4⟩ := List.append_inj' hx rfl
    rw [h3]
    simp only [List.cons.injEq, and_true] at h4
    rw [h4]
    exact ⟨s, h1, h2⟩

end Ipt

namespace Ipt.Props
open Ipt Spec

/-- C33: `pt_evt_next` never returns the marker for ignored events (which has the same type as
`ptev_tick`): for every trace, every sequence of calls and every state of the decoder before them, also
when the user ignores errors. -/
theorem C33_no_tick (c : EvtCfg) (calls : List EvtCall) (s : Evd) :
    ∀ e, .ok (some e) ∈ evtResults c calls s → ∀ x, e.data ≠ .tick x := by
  induction calls generalizing s with
  | nil => intro e h; simp [evtResults] at h
  | cons o os ih =>
    intro e h
    rcases List.mem_cons.1 h with h | h
    · cases o with
      | next => exact evtNext_tick (run_next (c := c) (s := s) (s' := (EvtCall.next.run c s).1) (by rw [h]))
      | syncForward => exact absurd h.symm (run_none (evtSyncForward c s).2 e)
      | syncBackward => exact absurd h.symm (run_none (evtSyncBackward c s).2 e)
      | syncSet off => exact absurd h.symm (run_none (evtSyncSet c off s).2 e)
    · exact ih _ e h

/-- PSB; FUP; PSBEND; MODE.EXEC; TIP; the execution mode before is unknown, and a second, identical
MODE.EXEC; TIP. -/
def modeTrace : List UInt8 :=
  [2, 0x82, 2, 0x82, 2, 0x82, 2, 0x82, 2, 0x82, 2, 0x82, 2, 0x82, 2, 0x82, 0x7d, 1, 0x70, 0, 0, 0, 0, 2, 0x23,
   0x99, 1, 0x2d, 0x20, 0x80, 0x99, 1, 0x2d, 0x30, 0x80]

-- The second MODE.EXEC leaves the marker in the queue.
example : (evtResults { pkt := { mem := modeTrace } } [.syncForward, .next, .next, .next, .next, .next]
      evtInit).map (fun r => match r with | .ok (some e) => some e.data | _ => none) =
    [none, some (.enabled 0x7001), some (.tip 0x8020), some (.execMode 3 0x8020), some (.tip 0x8030), none] := by
  decide +kernel

/-- C34, the part that holds: after a successful synchronization and successful calls to `pt_evt_next`, the
next call returns -pte_internal only in two cases: at a TIP packet, and at a CFE packet of a reserved type.

Requirements: the MTC frequency is one the architecture defines, and the APL12 work-around is disabled.
Missing: the two cases, cf. `C34_internal_error_at_tip`, `C34_internal_error_at_cfe`, the APL12 work-around,
cf. `C34_internal_error_apl12`, and calls after an error. -/
theorem C34_no_internal_error_partial (c : EvtCfg) (hf : c.time.mtcFreq < 16) (hx : c.time.ebx < 2 ^ 32)
    (ha : c.pkt.errata.apl12 = false) (s s' : Evd) (es : List Event) (hs : Session c s es)
    (h : EvtCall.next.run c s = (s', .err .internal)) :
    (∃ ipc ip, s'.packet = .tip ipc ip) ∨
      ∃ type vector ip, s'.packet = .cfe type vector ip ∧ (type = 0 ∨ type = 0xb ∨ 0xe ≤ type) := by
  obtain ⟨t, h1, h2, _⟩ := session_inv (Q := fun _ => True) ⟨hf, hx⟩ (fun _ _ _ _ _ _ => trivial) hs
  rcases EM.wlp_err (evtNext_inv ⟨hf, hx⟩ h1 h2) (run_next_err h) with h3 | h3
  · rw [ha] at h3; cases h3
  · exact h3 rfl

/-- The results of synchronizing at the beginning and `n` calls to `pt_evt_next`. -/
def resultsOf (c : EvtCfg) (n : Nat) : List (Res (Option EvData)) :=
  (evtResults c (.syncForward :: List.replicate n .next) evtInit).map
    fun r => r.bind fun o => .ok (o.map Event.data)

/-- PSB; FUP with IP 0x7001; PSBEND. -/
def tracePrefix : List UInt8 :=
  [2, 0x82, 2, 0x82, 2, 0x82, 2, 0x82, 2, 0x82, 2, 0x82, 2, 0x82, 2, 0x82, 0x7d, 1, 0x70, 0, 0, 0, 0, 2, 0x23]

/-- A decoder for a trace beginning with `tracePrefix`, with the work-arounds `e`. -/
def cfgOf (l : List UInt8) (e : Errata := {}) (cb : Option (Nat → Int) := none) : EvtCfg :=
  { pkt := { mem := tracePrefix ++ l, errata := e, cb := cb } }

/-- C34 fails at TIP packets.  FUP; FUP; TIP: the second event.  MWAIT; FUP; TIP.  EVD; FUP; TIP. -/
theorem C34_internal_error_at_tip :
    resultsOf (cfgOf [0x3d, 1, 2, 0x3d, 3, 4, 0x2d, 5, 6]) 3 =
      [.ok none, .ok (some (.enabled 0x7001)), .ok (some (.asyncBranch 0x201 0x605)), .err .internal] ∧
    resultsOf (cfgOf [2, 0xc2, 0, 0, 0, 0, 0, 0, 0, 0, 0x3d, 1, 2, 0x2d, 5, 6]) 2 =
      [.ok none, .ok (some (.enabled 0x7001)), .err .internal] ∧
    resultsOf (cfgOf [2, 0x53, 0, 0, 0, 0, 0, 0, 0, 0, 0, 0x3d, 1, 2, 0x2d, 5, 6]) 2 =
      [.ok none, .ok (some (.enabled 0x7001)), .err .internal] := by
  decide +kernel

/-- C34 fails at CFE packets of reserved types that follow an EVD packet. -/
theorem C34_internal_error_at_cfe :
    resultsOf (cfgOf [2, 0x53, 0, 0, 0, 0, 0, 0, 0, 0, 0, 2, 0x13, 0xf, 0]) 2 =
      [.ok none, .ok (some (.enabled 0x7001)), .err .internal] := by
  decide +kernel

/-- C34 fails with the APL12 work-around: OVF; a packet unknown to libipt, but known to the user's
callback; FUP; TIP.PGE. -/
theorem C34_internal_error_apl12 :
    resultsOf (cfgOf [2, 0xf3, 5, 0x3d, 1, 2, 0x31, 5, 6] { apl12 := true } (some fun _ => 1)) 2 =
      [.ok none, .ok (some (.enabled 0x7001)), .err .internal] := by
  decide +kernel

/-- The hypotheses of `C34_no_internal_error_partial` are met by the first trace. -/
example : ∃ s s' es, Session (cfgOf [0x3d, 1, 2, 0x3d, 3, 4, 0x2d, 5, 6]) s es ∧
    EvtCall.next.run (cfgOf [0x3d, 1, 2, 0x3d, 3, 4, 0x2d, 5, 6]) s = (s', .err .internal) := by
  obtain ⟨s, s', h1, h2⟩ := session_of_results_then (c := cfgOf [0x3d, 1, 2, 0x3d, 3, 4, 0x2d, 5, 6])
    (es := [{ data := .enabled 0x7001, statusUpdate := true }, { data := .asyncBranch 0x201 0x605 }]) (r := .err .internal)
    (s := evtInit) (by decide +kernel)
  exact ⟨s, s', _, h1, h2⟩

/-- C35: `pt_evt_next` returns branch outcomes and branch targets only if, since the last synchronization,
the most recent event about the tracing state is an enabled event or an overflow event.  In particular
there has been one, and no tracing-disabled event after it.  For every trace, every configuration with a
valid MTC frequency, and every number of calls before the first error. -/
theorem C35_branches_need_tracing (c : EvtCfg) (hf : c.time.mtcFreq < 16) (hx : c.time.ebx < 2 ^ 32)
    (s s' : Evd) (es : List Event) (e : Event) (hs : Session c s es)
    (h : EvtCall.next.run c s = (s', .ok (some e)))
    (hb : (∃ bits size, e.data = .tnt bits size) ∨ ∃ ip, e.data = .tip ip) :
    ∃ x, lastState es = some x ∧ (isEnabled x ∨ isOverflow x) := by
  obtain ⟨t, h1, h2, h3⟩ := session_inv (Q := fun x => isEnabled x ∨ isOverflow x) ⟨hf, hx⟩ (by
    intro t e s' _ hi hu
    unfold upd tracing at hu
    unfold isTraceState at hi
    cases hd : e.data <;> rw [hd] at hu hi <;> first
      | exact .inl ⟨_, hd⟩
      | exact .inr ⟨_, hd⟩
      | exact (Bool.false_ne_true hi).elim
      | exact (Bool.false_ne_true hu).elim) hs
  refine h3 ((EM.wlp_ok (evtNext_inv ⟨hf, hx⟩ h1 h2) (run_next h)).1 ?_)
  unfold isBranch
  rcases hb with ⟨a, b, hb⟩ | ⟨a, hb⟩ <;> rw [hb]

/-- C35, the converse for branch outcomes: if the events since the last synchronization do not say that
tracing is enabled and the decoder is at a TNT packet, `pt_evt_next` returns -pte_bad_context. -/
theorem C35_outcomes_rejected (c : EvtCfg) (hf : c.time.mtcFreq < 16) (hx : c.time.ebx < 2 ^ 32) (s : Evd)
    (es : List Event) (hs : Session c s es) (hl : ∀ x, lastState es = some x → ¬ isEnabled x ∧ ¬ isOverflow x)
    (hp : ∃ size bits, s.packet = .tnt8 size bits ∨ s.packet = .tnt64 size bits) :
    (EvtCall.next.run c s).2 = .err .badContext := by
  obtain ⟨t, ⟨l, h1⟩, h2, h3⟩ := session_inv (Q := fun x => isEnabled x ∨ isOverflow x) ⟨hf, hx⟩ (by
    intro t e s' _ hi hu
    unfold upd tracing at hu
    unfold isTraceState at hi
    cases hd : e.data <;> rw [hd] at hu hi <;> first
      | exact .inl ⟨_, hd⟩
      | exact .inr ⟨_, hd⟩
      | exact (Bool.false_ne_true hi).elim
      | exact (Bool.false_ne_true hu).elim) hs
  have ht : t = false := by
    cases t with
    | false => rfl
    | true =>
      obtain ⟨x, h4, h5⟩ := h3 rfl
      rcases h5 with h5 | h5
      · exact absurd h5 (hl x h4).1
      · exact absurd h5 (hl x h4).2
  obtain ⟨size, bits, hp⟩ := hp
  have hn : Norm c t s l := norm_of h1 (by rcases hp with hp | hp <;> rw [hp] <;> simp)
    (by rcases hp with hp | hp <;> rw [hp] <;> simp)
  have hen : s.enabled = false := by
    cases he : s.enabled with
    | false => rfl
    | true => rw [hn.en he] at ht; cases ht
  have hd : decodePacket c s = (s, .err .badContext) := by
    have : decodeTnt c bits size s = (s, .err .badContext) := by
      unfold decodeTnt
      rw [EM.bind_def]
      simp only [EM.get, hen]
      rfl
    unfold decodePacket decodeOther
    rcases hp with hp | hp <;> rw [hp] <;> exact this
  have : evtNext c s = (s, .err .badContext) := by
    unfold evtNext EvtCfg.fuel fetchEventLoop
    rw [EM.bind_def, EM.bind_def, hd]
  unfold EvtCall.run
  dsimp only
  rw [this]
  rfl

/-- A session on `someTrace`, and the next event, a branch target. -/
example : ∃ s s' es e, Session { pkt := { mem := someTrace } } s es ∧
    EvtCall.next.run { pkt := { mem := someTrace } } s = (s', .ok (some e)) ∧ e.data = .tip 0x8020 ∧
    lastState es = some { data := .enabled 0x7001, statusUpdate := true } := by
  obtain ⟨s', h⟩ := session_of_results (c := { pkt := { mem := someTrace } })
    (es := [{ data := .enabled 0x7001, statusUpdate := true }, { data := .tnt 1 1 }] ++ [{ data := .tip 0x8020 }])
    (s := evtInit) (by decide +kernel)
  obtain ⟨s, h1, h2⟩ := session_last h
  exact ⟨s, s', _, _, h1, h2, rfl, by decide +kernel⟩

/-- The tracing state is checked: without tracing, TNT packets give -pte_bad_context.  PSB; PSBEND; TNT. -/
example : resultsOf { pkt := { mem := [2, 0x82, 2, 0x82, 2, 0x82, 2, 0x82, 2, 0x82, 2, 0x82, 2, 0x82, 2, 0x82, 2, 0x23, 6] } } 2 =
    [.ok none, .ok (some (.disabled 0)), .err .badContext] := by decide +kernel

/-- C48, the part that holds: as C35, and moreover an overflow event that enables tracing has an IP,
provided that the trace contains no FUP with suppressed IP, and, if the SKD010 work-around is enabled, no TIP with
suppressed IP.  Missing: those, cf. `C48_suppressed_overflow_enables` and `C48_suppressed_overflow_enables_skd010`. -/
theorem C48_overflow_without_ip_disables_partial (c : EvtCfg) (hf : c.time.mtcFreq < 16) (hx : c.time.ebx < 2 ^ 32)
    (hfup : ∀ pos ip n pos', pktNext c.pkt (some pos) ≠ .ok (.fup 0 ip, n, pos'))
    (htip : c.pkt.errata.skd010 = true → ∀ pos ip n pos', pktNext c.pkt (some pos) ≠ .ok (.tip 0 ip, n, pos'))
    (s s' : Evd) (es : List Event) (e : Event) (hs : Session c s es)
    (h : EvtCall.next.run c s = (s', .ok (some e)))
    (hb : (∃ bits size, e.data = .tnt bits size) ∨ ∃ ip, e.data = .tip ip) :
    ∃ x, lastState es = some x ∧ (isEnabled x ∨ isOverflow x ∧ x.ipSuppressed = false) := by
  obtain ⟨t, h1, h2, h3⟩ := session_inv (Q := fun x => isEnabled x ∨ isOverflow x ∧ x.ipSuppressed = false) ⟨hf, hx⟩ (by
    intro t e s' hp hi hu
    have hn : noIp c s'.packet = false := by
      unfold noIp
      have hk : (c.pkt.errata.skd010 && @decide (SuppressedIp c) (Classical.propDecidable _)) = false := by
        cases hk : c.pkt.errata.skd010
        · rfl
        · simp only [Bool.true_and, decide_eq_false_iff_not]
          rintro ⟨a, b, c, d, h | h⟩
          · exact hfup _ _ _ _ h
          · exact htip hk _ _ _ _ h
      rw [hk, Bool.false_or]
      split
      · rename_i ip hq
        rcases hp with hp | ⟨d, d', n, hp⟩
        · rw [hp] at hq; cases hq
        · rw [hq] at hp
          unfold pktDecNext at hp
          cases hd : d.pos with
          | none => rw [hd] at hp; simp [pktNext] at hp
          | some pos =>
            rw [hd] at hp
            cases hn : pktNext c.pkt (some pos) with
            | ok x =>
              rw [hn] at hp
              simp only [Prod.mk.injEq, Res.ok.injEq] at hp
              obtain ⟨x1, x2, x3⟩ := x
              simp only at hp
              rw [hp.2.1, hp.2.2] at hn
              exact absurd hn (hfup _ _ _ _)
            | err e => rw [hn] at hp; simp at hp
            | ub => rw [hn] at hp; simp at hp
      · rfl
    unfold upd tracing at hu
    rw [hn] at hu
    unfold isTraceState at hi
    cases hd : e.data <;> rw [hd] at hu hi <;> first
      | exact .inl ⟨_, hd⟩
      | exact .inr ⟨⟨_, hd⟩, by simpa using hu⟩
      | exact (Bool.false_ne_true hi).elim
      | exact (Bool.false_ne_true hu).elim) hs
  refine h3 ((EM.wlp_ok (evtNext_inv ⟨hf, hx⟩ h1 h2) (run_next h)).1 ?_)
  unfold isBranch
  rcases hb with ⟨a, b, hb⟩ | ⟨a, hb⟩ <;> rw [hb]

/-- OVF; FUP; TNT. -/
example : ∃ s s' es e, Session (cfgOf [2, 0xf3, 0x3d, 1, 2, 6]) s es ∧
    EvtCall.next.run (cfgOf [2, 0xf3, 0x3d, 1, 2, 6]) s = (s', .ok (some e)) ∧ e.data = .tnt 1 1 ∧
    lastState es = some { data := .overflow 0x201 } ∧
    (∀ pos ip n pos', pktNext (cfgOf [2, 0xf3, 0x3d, 1, 2, 6]).pkt (some pos) ≠ .ok (.fup 0 ip, n, pos')) := by
  obtain ⟨s', h⟩ := session_of_results (c := cfgOf [2, 0xf3, 0x3d, 1, 2, 6])
    (es := [{ data := .enabled 0x7001, statusUpdate := true }, { data := .overflow 0x201 }] ++ [{ data := .tnt 1 1 }])
    (s := evtInit) (by decide +kernel)
  obtain ⟨s, h1, h2⟩ := session_last h
  refine ⟨s, s', _, _, h1, h2, rfl, by decide +kernel, ?_⟩
  intro pos ip n pos' h
  have key : ∀ pos < 31, (match pktNext (cfgOf [2, 0xf3, 0x3d, 1, 2, 6]).pkt (some pos) with
      | .ok (.fup 0 _, _, _) => false
      | _ => true) = true := by decide +kernel
  by_cases hp : pos < 31
  · have := key pos hp
    rw [h] at this
    cases this
  · unfold pktNext pktDecode at h
    dsimp only at h
    rw [if_pos (show (cfgOf [2, 0xf3, 0x3d, 1, 2, 6]).pkt.mem.length ≤ pos by show 31 ≤ pos; omega)] at h
    cases h

/-- With the SKD010 work-around, OVF; TIP; TNT. -/
example : ∃ s s' es e, Session (cfgOf [2, 0xf3, 0x2d, 1, 2, 6] { skd010 := true }) s es ∧
    EvtCall.next.run (cfgOf [2, 0xf3, 0x2d, 1, 2, 6] { skd010 := true }) s = (s', .ok (some e)) ∧ e.data = .tnt 1 1 ∧
    lastState es = some { data := .overflow 0x201 } ∧
    ∀ pos ip n pos', pktNext (cfgOf [2, 0xf3, 0x2d, 1, 2, 6] { skd010 := true }).pkt (some pos) ≠ .ok (.fup 0 ip, n, pos') ∧
      pktNext (cfgOf [2, 0xf3, 0x2d, 1, 2, 6] { skd010 := true }).pkt (some pos) ≠ .ok (.tip 0 ip, n, pos') := by
  obtain ⟨s', h⟩ := session_of_results (c := cfgOf [2, 0xf3, 0x2d, 1, 2, 6] { skd010 := true })
    (es := [{ data := .enabled 0x7001, statusUpdate := true }, { data := .overflow 0x201 }] ++ [{ data := .tnt 1 1 }])
    (s := evtInit) (by decide +kernel)
  obtain ⟨s, h1, h2⟩ := session_last h
  refine ⟨s, s', _, _, h1, h2, rfl, by decide +kernel, ?_⟩
  intro pos ip n pos'
  have key : ∀ pos < 31, (match pktNext (cfgOf [2, 0xf3, 0x2d, 1, 2, 6] { skd010 := true }).pkt (some pos) with
      | .ok (.fup 0 _, _, _) | .ok (.tip 0 _, _, _) => false
      | _ => true) = true := by decide +kernel
  by_cases hp : pos < 31
  · have := key pos hp
    constructor <;> intro h <;> rw [h] at this <;> cases this
  · have : pktNext (cfgOf [2, 0xf3, 0x2d, 1, 2, 6] { skd010 := true }).pkt (some pos) = .err .eos := by
      unfold pktNext pktDecode
      dsimp only
      rw [if_pos (show (cfgOf [2, 0xf3, 0x2d, 1, 2, 6] { skd010 := true }).pkt.mem.length ≤ pos by show 31 ≤ pos; omega)]
      rfl
    rw [this]
    constructor <;> intro h <;> cases h

/-- C48 fails for OVF; FUP with suppressed IP; TNT: the TNT is delivered after an overflow event that says
that tracing is disabled. -/
theorem C48_suppressed_overflow_enables :
    (evtResults (cfgOf [2, 0xf3, 0x1d, 6]) [.syncForward, .next, .next, .next] evtInit).map
      (fun r => match r with | .ok (some e) => some (e.data, e.ipSuppressed) | _ => none) =
    [none, some (.enabled 0x7001, false), some (.overflow 0, true), some (.tnt 1 1, false)] := by
  decide +kernel

/-- With the SKD010 work-around, C48 fails for OVF; TIP with suppressed IP; TNT as well. -/
theorem C48_suppressed_overflow_enables_skd010 :
    (evtResults (cfgOf [2, 0xf3, 0x0d, 6] { skd010 := true }) [.syncForward, .next, .next, .next] evtInit).map
      (fun r => match r with | .ok (some e) => some (e.data, e.ipSuppressed) | _ => none) =
    [none, some (.enabled 0x7001, false), some (.overflow 0, true), some (.tnt 1 1, false)] := by
  decide +kernel

/-- C35 needs the user to stop at errors.  PSB; FUP; TNT, where PSBEND is missing: synchronization fails, and
if the user goes on, `pt_evt_next` delivers the TNT. -/
theorem C35_not_after_errors :
    resultsOf { pkt := { mem := [2, 0x82, 2, 0x82, 2, 0x82, 2, 0x82, 2, 0x82, 2, 0x82, 2, 0x82, 2, 0x82, 0x3d, 1, 0, 6] } } 1 =
      [.err .badContext, .ok (some (.tnt 1 1))] := by
  decide +kernel

end Ipt.Props
