import Verif.QueryTotal
import Verif.Props.Query

/-!
# C49: the IP reported by synchronization, C50: the query decoder is total

See `Verif/Spec/Query.lean` for the vocabulary.
-/

set_option linter.unusedSimpArgs false

namespace Ipt

open Spec

variable {c : EvtCfg} {d : Evd}

/-- The event says that tracing is enabled. -/
def isEnabledEv (e : Event) : Prop := ∃ ip, e.data = .enabled ip

theorem startLoop_ip {pos : Option Nat} {a : Nat} : ∀ (n : Nat) (es : List Event) (s : Evd), Delivers c d es →
    evtFinal c (nexts es.length) d = s → (∀ e ∈ es, e.statusUpdate = true ∧ ¬ isEnabledEv e) →
    startLoop c pos n s = .ok (some a) →
    ∃ es e, Delivers c d (es ++ [e]) ∧ (∀ e ∈ es, e.statusUpdate = true ∧ ¬ isEnabledEv e) ∧ e.statusUpdate = true ∧
      e.data = .enabled a := by
  intro n
  induction n with
  | zero => intro es s _ _ _ h; cases h
  | succ n ih =>
    intro es s hd hf ha h
    unfold startLoop at h
    split at h
    · cases h
    · revert h
      rcases hx : evtNext c s with ⟨s', e | x | _⟩
      · dsimp only
        have h1 : Delivers c d (es ++ [e]) := hd.snoc (by rw [hf]; exact hx)
        have h2 : evtFinal c (nexts (es ++ [e]).length) d = s' := by
          rw [List.length_append, List.length_singleton, evtFinal_snoc, hf, next_run hx]
        split
        · intro h; cases h
        · rename_i hs
          have hs : e.statusUpdate = true := by simpa using hs
          intro h
          split at h
          · rename_i ip he
            cases h
            exact ⟨es, e, h1, ha, hs, he⟩
          · rename_i he
            refine ih (es ++ [e]) s' h1 h2 ?_ h
            intro y hy
            rcases List.mem_append.1 hy with hy | hy
            · exact ha y hy
            · rw [List.mem_singleton.1 hy]
              exact ⟨hs, fun ⟨ip, hi⟩ => he ip hi⟩
      · cases x <;> (intro h; cases h)
      · intro h; cases h

theorem qryStart_ip {s s' : Qdec} {f : Flags} {ip : Option Nat} (h : qryStart c s = (s', .ok (f, ip))) :
    startLoop c s.ev.pd.pos evqFuel s.ev = .ok ip ∧ f.ipSuppressed = ip.isNone := by
  unfold qryStart at h
  revert h
  rcases startLoop c s.ev.pd.pos evqFuel s.ev with ip' | e | _
  · dsimp only
    rcases qryFetch c { s with status := none } with ⟨s1, _ | e | _⟩
    · dsimp only
      intro h
      split at h <;> cases h
      exact ⟨rfl, rfl⟩
    · intro h; cases h
    · intro h; cases h
  · intro h; cases h
  · intro h; cases h

theorem sync_start {o : SyncCall} {s0 s : Qdec} {f : Flags} {ip : Option Nat} (h : o.run c s0 = (s, .ok (f, ip)))
    (ho : o ≠ .backward) (hd : o.evt.run c s0.ev = (d, .ok none)) :
    startLoop c d.pd.pos evqFuel d = .ok ip ∧ f.ipSuppressed = ip.isNone := by
  have key : ∀ (m : EM Unit), onEvt m (qryStart c) (qryReset s0) = (s, .ok (f, ip)) →
      ((m s0.ev).1, (m s0.ev).2.bind fun _ => Res.ok (none : Option Event)) = (d, .ok none) →
      startLoop c d.pd.pos evqFuel d = .ok ip ∧ f.ipSuppressed = ip.isNone := by
    intro m h1 h2
    unfold onEvt at h1
    rw [show (qryReset s0).ev = s0.ev from rfl] at h1
    revert h1 h2
    rcases m s0.ev with ⟨d', _ | e | _⟩
    · intro h1 h2
      injection h2 with h2 _
      subst h2
      exact qryStart_ip h1
    · intro h1; cases h1
    · intro h1; cases h1
  cases o with
  | backward => exact absurd rfl ho
  | forward => exact key _ h hd
  | set off => exact key _ h hd

end Ipt

namespace Ipt.Spec

/-- Calls of a query decoder. -/
inductive QryCall
  | sync (o : SyncCall)
  | query (q : Query)
  /-- `pt_qry_time` -/
  | time
  /-- `pt_qry_core_bus_ratio` -/
  | cbr
  /-- `pt_qry_get_offset` -/
  | offset
deriving DecidableEq, Repr

/-- Run a call, and drop what it returns. -/
def QryCall.run (c : EvtCfg) : QryCall → Qdec → Qdec × Res Unit
  | .sync o, s => match o.run c s with | (s', r) => (s', r.bind fun _ => .ok ())
  | .query q, s => match q.run c s with | (s', r) => (s', r.bind fun _ => .ok ())
  | .time, s => (s, s.time.bind fun _ => .ok ())
  | .cbr, s => (s, s.coreBusRatio.bind fun _ => .ok ())
  | .offset, s => (s, s.getOffset.bind fun _ => .ok ())

/-- The results of a sequence of calls.  The user may go on after an error. -/
def qryResults (c : EvtCfg) : List QryCall → Qdec → List (Res Unit)
  | [], _ => []
  | o :: os, s => (o.run c s).2 :: qryResults c os (o.run c s).1

end Ipt.Spec

namespace Ipt.Props

open Ipt Spec

variable {c : EvtCfg} {d : Evd}

/-! ## C49 -/

/-- C49, what is reported is right: the IP reported by `pt_qry_sync_forward` or `pt_qry_sync_set` is the IP of an event
that says that tracing is enabled, all events before are status updates that do not.  The flag `pts_ip_suppressed` says
whether an IP has been reported. -/
theorem C49_start_ip_is_enabled (o : SyncCall) (s0 s : Qdec) (f : Flags) (ip : Option Nat)
    (h : o.run c s0 = (s, .ok (f, ip))) (ho : o ≠ .backward) (hd : o.evt.run c s0.ev = (d, .ok none)) :
    f.ipSuppressed = ip.isNone ∧
    ∀ a, ip = some a → ∃ es e, Delivers c d (es ++ [e]) ∧ (∀ x ∈ es, x.statusUpdate = true ∧ ¬ isEnabledEv x) ∧
      e.statusUpdate = true ∧ e.data = .enabled a := by
  obtain ⟨h1, h2⟩ := sync_start h ho hd
  refine ⟨h2, fun a ha => ?_⟩
  rw [ha] at h1
  exact startLoop_ip _ [] d rfl rfl (by simp) h1

/-- C49: if the event decoder delivers something that is not a status update before it says that tracing is enabled, then
no IP is reported. -/
theorem C49_no_start_ip (o : SyncCall) (s0 s : Qdec) (f : Flags) (ip : Option Nat)
    (h : o.run c s0 = (s, .ok (f, ip))) (ho : o ≠ .backward) (hd : o.evt.run c s0.ev = (d, .ok none))
    (es : List Event) (e : Event) (hes : Delivers c d (es ++ [e])) (hen : ∀ x ∈ es, ¬ isEnabledEv x)
    (he : e.statusUpdate = false) : ip = none ∧ f.ipSuppressed = true := by
  obtain ⟨h1, h2⟩ := C49_start_ip_is_enabled o s0 s f ip h ho hd
  cases ip with
  | none => exact ⟨rfl, h1⟩
  | some a =>
    exfalso
    obtain ⟨fs, g, h3, h4, h5, h6⟩ := h2 a rfl
    rcases Nat.lt_trichotomy es.length fs.length with hl | hl | hl
    · have hp : (es ++ [e]) <+: fs := by
        have := hes.prefix h3 (by simp; omega)
        exact List.prefix_of_prefix_length_le this (List.prefix_append _ _) (by simp; omega)
      obtain ⟨r, hr⟩ := hp
      have := (h4 e (by rw [← hr]; simp)).1
      rw [he] at this; cases this
    · have hp := (hes.prefix h3 (by simp; omega)).eq_of_length (by simp; omega)
      have := (List.append_inj' hp rfl).2
      simp only [List.cons.injEq, and_true] at this
      rw [this, h5] at he; cases he
    · have hp : (fs ++ [g]) <+: es := by
        have := h3.prefix hes (by simp; omega)
        exact List.prefix_of_prefix_length_le this (List.prefix_append _ _) (by simp; omega)
      obtain ⟨r, hr⟩ := hp
      exact hen g (by rw [← hr]; simp) ⟨a, h6⟩

/-- C49, for all headers that say that tracing is enabled: the IP of the header is reported.  `ps` are the packets in the
header at the synchronization point, see `C36_status_after_sync`. -/
theorem C49_start_ip_partial (o : SyncCall) (s0 s : Qdec) (f : Flags) (ip : Option Nat)
    (h : o.run c s0 = (s, .ok (f, ip))) (ho : o ≠ .backward) (hd : o.evt.run c s0.ev = (d, .ok none))
    (d1 : PktDec) (ps : List Packet) (term : Packet) (hh : AtHeader c d1 d.pd {} d ps term)
    (hen : headerEnabled ps = true) : ip = some ((ipOf (headerIp ps)).getD 0) ∧ f.ipSuppressed = false := by
  obtain ⟨h1, h2⟩ := sync_start h ho hd
  have h3 := hh.events
  have h4 : headerEvents c {} ps (decide (term = .psbend)) = firstEvents true (decide (term = .psbend))
      (ipOf (headerIp ps)) (headerTime c.time {} ps).time ++ ps.flatMap (statusEvents c.enableIflags (ipOf (headerIp ps))
        (headerTime c.time {} ps).time) := by unfold headerEvents; rw [hen]
  rw [h4] at h3
  obtain ⟨e, hf, he1, he2⟩ : ∃ e, firstEvents true (decide (term = .psbend)) (ipOf (headerIp ps))
      (headerTime c.time {} ps).time = [e] ∧ e.data = .enabled ((ipOf (headerIp ps)).getD 0) ∧ e.statusUpdate = true :=
    ⟨_, rfl, rfl, rfl⟩
  rw [hf, List.singleton_append, List.length_cons, nexts, List.replicate_succ, evtResults, List.map_cons] at h3
  injection h3 with h3 _
  have h5 := run_next (c := c) (s := d) (s' := (EvtCall.next.run c d).1) (e := e) (by rw [← h3])
  have h6 : startLoop c d.pd.pos evqFuel d = .ok (some ((ipOf (headerIp ps)).getD 0)) := by
    rw [show evqFuel = 16 + 1 from rfl]
    unfold startLoop
    rw [if_neg (by simp), h5]
    dsimp only
    rw [if_neg (by rw [he2]; simp), he1]
  rw [h6] at h1
  injection h1 with h1
  rw [← h1] at h2 ⊢
  exact ⟨rfl, h2⟩

/-- A query decoder for the trace, synchronized forward: the flags and the IP. -/
def startOf (l : List UInt8) : Res (Flags × Option Nat) := (qrySyncForward { pkt := { mem := l } } {}).2

/-- PSB; PSBEND. -/
def disabledHeader : List UInt8 := [2, 0x82, 2, 0x82, 2, 0x82, 2, 0x82, 2, 0x82, 2, 0x82, 2, 0x82, 2, 0x82, 2, 0x23]

-- The hypotheses are met: the header in `tracePrefix`.
example : startOf (tracePrefix ++ [6]) = .ok ({ eventPending := true }, some 0x7001) := by decide +kernel

-- The hypotheses of `C49_no_start_ip` are met: MODE.EXEC; TIP.PGE.
example : startOf (disabledHeader ++ [0x99, 1, 0x51, 1, 0x70, 0, 0]) = .ok ({ eventPending := true, ipSuppressed := true }, none) := by
  decide +kernel
example : resultsOf { pkt := { mem := disabledHeader ++ [0x51, 1, 0x70, 0, 0] } } 2 =
    [.ok none, .ok (some (.disabled 0)), .ok (some (.enabled 0x7001))] := by decide +kernel

/-- C49 does not hold for adjacent headers: tracing is disabled at the synchronization point, and nothing happens until the
next header, according to which tracing is enabled; this IP is reported although tracing is disabled at the synchronization
point. -/
theorem C49_wrong_start_ip :
    startOf (disabledHeader ++ tracePrefix) = .ok ({ eventPending := true }, some 0x7001) ∧
    resultsOf { pkt := { mem := disabledHeader ++ tracePrefix } } 2 =
      [.ok none, .ok (some (.disabled 0)), .ok (some (.enabled 0x7001))] := by decide +kernel

/-- C49: an error behind a header that says that tracing is disabled makes synchronization of the query decoder fail
although that of the event decoder succeeds.  PSB; PSBEND; an invalid packet. -/
theorem C49_sync_reports_later_error :
    startOf (disabledHeader ++ [5]) = .err .badOpc ∧
    resultsOf { pkt := { mem := disabledHeader ++ [5] } } 2 = [.ok none, .ok (some (.disabled 0)), .err .badOpc] := by
  decide +kernel

/-- C49: `pt_qry_sync_backward` does not return the flag `pts_ip_suppressed` (nor any other). -/
theorem C49_backward_no_flags :
    (qrySyncBackward { pkt := { mem := disabledHeader ++ [0x51, 1, 0x70, 0, 0] } } {}).2 = .ok ({}, none) ∧
    startOf (disabledHeader ++ [0x51, 1, 0x70, 0, 0]) = .ok ({ eventPending := true, ipSuppressed := true }, none) := by
  decide +kernel

/-- C49: a successful `pt_qry_sync_backward` leaves the decoder at an earlier position of the trace
than it was (or than the end of the trace, if it was not synchronized). -/
theorem C49_backward_moves_back {c : EvtCfg} {s s' : Qdec} {r : Flags × Option Nat}
    (h : qrySyncBackward c s = (s', .ok r)) :
    s'.ev.pd.pos.getD 0 < s.ev.pd.pos.getD c.pkt.mem.length := by
  unfold qrySyncBackward at h
  revert h
  generalize s.ev.pd.pos.getD c.pkt.mem.length = start
  have key : ∀ (n sync : Nat) (ip : Option Nat) (s s' : Qdec) (r : Flags × Option Nat),
      qrySyncBackLoop c start n sync ip s = (s', .ok r) → s'.ev.pd.pos.getD 0 < start := by
    intro n
    induction n with
    | zero => intro sync ip s s' r h; unfold qrySyncBackLoop at h; cases h
    | succ n ih =>
      intro sync ip s s' r h
      unfold qrySyncBackLoop at h
      revert h
      rcases qrySyncBackInner c sync c.fuel (qryReset s) with ⟨s1, q | e | _⟩
      · dsimp only
        rcases qryStart c s1 with ⟨s2, ⟨f, ip'⟩ | e | _⟩
        · dsimp only
          by_cases hp : s2.ev.pd.pos.getD 0 < start
          · rw [if_pos hp]; intro h; cases h; exact hp
          · rw [if_neg hp]; exact ih _ _ _ _ _
        · intro h
          cases e <;> first | exact ih _ _ _ _ _ h | cases h
        · intro h; cases h
      · intro h; cases h
      · intro h; cases h
  exact key _ _ _ _ _ _

/-! ## C50 -/

/-- Synchronized or not. -/
def QSafe (c : EvtCfg) (s : Qdec) : Prop := Unsynced s ∨ ∃ d es bits, QInv c d s es bits

theorem qsafe_step (hu : Usable c) (o : QryCall) (hb : o = .sync .backward → IsolatedPsbs c.pkt.mem) {s : Qdec}
    (h : QSafe c s) : (o.run c s).2 ≠ .ub ∧ QSafe c (o.run c s).1 := by
  cases o with
  | sync o =>
    have h1 := sync_total hu o (fun ho => hb (by rw [ho])) s
    show ((o.run c s).2.bind fun _ => Res.ok ()) ≠ .ub ∧ QSafe c (o.run c s).1
    revert h1
    rcases o.run c s with ⟨s', x | e | _⟩
    · intro ⟨d, h1, _⟩; exact ⟨by simp [Res.bind], .inr ⟨d, _, _, h1⟩⟩
    · intro h1; exact ⟨by simp [Res.bind], .inl h1⟩
    · intro h1; exact h1.elim
  | query q =>
    show ((q.run c s).2.bind fun _ => Res.ok ()) ≠ .ub ∧ QSafe c (q.run c s).1
    rcases h with h | ⟨d, es, bits, h⟩
    · obtain ⟨s', h1, h2⟩ := run_unsynced (c := c) h q
      rw [h1]
      exact ⟨by simp [Res.bind], .inl h2⟩
    · obtain ⟨es', bits', h1⟩ := run_acc hu h q
      refine ⟨?_, .inr ⟨d, _, _, h1.inv⟩⟩
      have := h1.tot
      revert this
      rcases (q.run c s).2 with x | e | _ <;> simp [Res.bind]
  | time =>
    refine ⟨?_, h⟩
    show s.time.bind _ ≠ _
    unfold Qdec.time Time.queryTsc
    split <;> simp [Res.bind]
  | cbr =>
    refine ⟨?_, h⟩
    show s.coreBusRatio.bind _ ≠ _
    unfold Qdec.coreBusRatio Time.queryCbr
    split <;> simp [Res.bind]
  | offset =>
    refine ⟨?_, h⟩
    show s.getOffset.bind _ ≠ _
    unfold Qdec.getOffset evtGetOffset pktGetOffset
    cases s.ev.pd.pos <;> simp [Res.bind]

/-- C50: a query decoder never performs an undefined operation (in particular, it never reads an event that has not been
written) and every call terminates, for every trace buffer, every sequence of calls, and also when the user ignores
errors.  The requirements are those of the event decoder, see `C32_event_decoder_total_partial`. -/
theorem C50_query_decoder_total_partial (hu : Usable c) (calls : List QryCall)
    (hb : .sync .backward ∈ calls → IsolatedPsbs c.pkt.mem) : ∀ r ∈ qryResults c calls {}, r ≠ .ub := by
  have key : ∀ s, QSafe c s → ∀ r ∈ qryResults c calls s, r ≠ .ub := by
    induction calls with
    | nil => intro s _ r hr; simp [qryResults] at hr
    | cons o os ih =>
      intro s hs r hr
      have step := qsafe_step hu o (fun h => hb (by simp [h])) hs
      rcases List.mem_cons.1 hr with rfl | hr
      · exact step.1
      · exact ih (fun h => hb (by simp [h])) _ step.2 r hr
  exact key _ (.inl ⟨rfl, rfl⟩)

/-- C50: before the first synchronization, and after a synchronization that fails, every query fails with -pte_nosync. -/
theorem C50_nosync (hu : Usable c) (s : Qdec) (hs : s = {} ∨ ∃ o s0 e, SyncCall.run c o s0 = (s, .err e) ∧
    (o = .backward → IsolatedPsbs c.pkt.mem)) (qs : List Query) : ∀ r ∈ answers c qs s, r = .err .nosync := by
  have h0 : Unsynced s := by
    rcases hs with rfl | ⟨o, s0, e, h1, h2⟩
    · exact ⟨rfl, rfl⟩
    · have := sync_total hu o h2 s0
      rw [h1] at this; exact this
  clear hs
  induction qs generalizing s with
  | nil => intro r hr; simp [answers] at hr
  | cons q qs ih =>
    intro r hr
    obtain ⟨s', h1, h2⟩ := run_unsynced (c := c) h0 q
    rcases List.mem_cons.1 hr with rfl | hr
    · rw [h1]
    · rw [h1] at hr; exact ih s' h2 r hr

-- A session with queries before synchronization, behind the end of the trace and backward synchronization.
example : Usable (cfgOf qryTrace) ∧ IsolatedPsbs (cfgOf qryTrace).pkt.mem ∧
    qryResults (cfgOf qryTrace) [.query .cond, .offset, .sync .forward, .query .event, .query .indirect, .query .indirect,
      .query .cond, .query .event, .query .event, .sync .backward, .query .event, .time] {} =
    [.err .nosync, .err .nosync, .ok (), .ok (), .ok (), .err .badQuery, .ok (), .ok (), .err .badOpc, .ok (), .ok (),
      .err .noTime] := by
  refine ⟨cfgOf_usable (by decide), isolated_of_bounded _ (by decide +kernel), by decide +kernel⟩

/-- C50 fails for adjacent PSBs: `pt_qry_sync_backward` does not terminate, as `pt_evt_sync_backward` does not, see
`C11_evt_sync_backward_hangs`. -/
theorem C50_qry_sync_backward_hangs : ∃ c, Usable c ∧ .ub ∈ qryResults c [.sync .backward] {} :=
  ⟨{ pkt := { mem := adjacentPsbs } }, ⟨by decide, by decide, fun f hf => by simp at hf, by decide⟩, by decide +kernel⟩

end Ipt.Props
