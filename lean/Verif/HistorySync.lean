import Verif.History
import Verif.QueryDecoder
import Verif.Spec.Query

/-!
# Synchronization forgets what was decoded before: event decoder and query decoder
-/

namespace Ipt

open Spec

variable {c : EvtCfg}

/-- Two states right after `pt_evt_reset`. -/
def Reset (s t : Evd) : Prop :=
  ∃ n a b d, t = { s with size := n, iflag := a, csd := b, csl := d } ∧ s.modeValid = false

theorem Reset.of_pd {s t : Evd} (h : t.pd = s.pd) : Reset (evtReset s) (evtReset t) :=
  ⟨t.size, t.iflag, t.csd, t.csl, by unfold evtReset; rw [h], rfl⟩

theorem Reset.pd {s t : Evd} (h : Reset s t) : t.pd = s.pd := by
  obtain ⟨_, _, _, _, rfl, _⟩ := h; rfl

theorem onPkt_reset {s t : Evd} (h : Reset s t) (f : PktDec → PktDec × Res Unit) :
    (onPkt f t).2 = (onPkt f s).2 ∧ Reset (onPkt f s).1 (onPkt f t).1 := by
  obtain ⟨n, a, b, d, rfl, hv⟩ := h
  exact ⟨rfl, n, a, b, d, rfl, hv⟩

/-- Fetching a packet tells its size. -/
theorem fetch_reset {s t : Evd} (h : Reset s t) (n : Nat) :
    (fetchLoop c n t).2 = (fetchLoop c n s).2 ∧
      ((fetchLoop c n s).2 = .ub ∨ EAlike c (fetchLoop c n s).1 (fetchLoop c n t).1) := by
  cases n with
  | zero => exact ⟨rfl, .inl rfl⟩
  | succ n =>
    obtain ⟨k, a, b, d, rfl, hv⟩ := h
    unfold fetchLoop
    dsimp only
    have hf : ∀ p : Prop, s.modeValid = true → p := fun p x => by rw [hv] at x; cases x
    rcases pktDecNext c.pkt s.pd with ⟨pd, ⟨p, size⟩ | e | _⟩
    · dsimp only
      split
      · have := (fetchLoop_sim (c := c) n).run { s with pd := pd, packet := p, size := size }
          { s with pd := pd, packet := p, size := size, iflag := a, csd := b, csl := d } ⟨a, b, d, rfl, hf _⟩
        exact ⟨this.1, .inr this.2⟩
      · exact ⟨rfl, .inr ⟨a, b, d, rfl, hf _⟩⟩
    · exact ⟨rfl, .inr ⟨a, b, d, rfl, hf _⟩⟩
    · exact ⟨rfl, .inl rfl⟩

/-- `pt_evt_start` does the same on both. -/
theorem start_reset {s t : Evd} (h : Reset s t) :
    (evtStart c t).2 = (evtStart c s).2 ∧ ((evtStart c s).2 = .ub ∨ EAlike c (evtStart c s).1 (evtStart c t).1) := by
  have h' : Reset { s with status := none } { t with status := none } := by
    obtain ⟨k, a, b, d, rfl, hv⟩ := h
    exact ⟨k, a, b, d, rfl, hv⟩
  obtain ⟨h1, h2⟩ := fetch_reset (c := c) h' c.fuel
  have key : ∀ u : Evd, evtStart c u = EM.bind (fetchLoop c c.fuel)
      (fun _ => EM.get >>= fun s => match s.packet with
        | .psb => decodePsb c
        | .invalid =>
          match s.status with
          | some e => EM.fail e
          | none => EM.fail .internal
        | _ => EM.fail .nosync) { u with status := none } := fun _ => rfl
  rw [key s, key t]
  unfold EM.bind
  rcases hs : fetchLoop c c.fuel { s with status := none } with ⟨s', r⟩
  rcases ht : fetchLoop c c.fuel { t with status := none } with ⟨t', r'⟩
  rw [hs, ht] at h1 h2
  dsimp only at h1 h2
  subst h1
  cases r' with
  | ub => exact ⟨rfl, .inl rfl⟩
  | err e => exact ⟨rfl, .inr (h2.resolve_left (by simp))⟩
  | ok u =>
    have := h2.resolve_left (by simp)
    have k : Sim c (EM.get >>= fun s : Evd => match s.packet with
        | .psb => decodePsb c
        | .invalid =>
          match s.status with
          | some e => EM.fail e
          | none => EM.fail .internal
        | _ => EM.fail .nosync) := by sim
    exact ⟨(k.run _ _ this).1, .inr (k.run _ _ this).2⟩

theorem EM.bind_ok {m : EM α} {f : α → EM β} {s s' : Evd} {a : α} (h : m s = (s', .ok a)) : (m >>= f) s = f a s' := by
  show EM.bind m f s = _
  unfold EM.bind
  rw [h]

theorem onPkt_start {s t : Evd} (h : Reset s t) {f g : PktDec → PktDec × Res Unit} (hg : g t.pd = f s.pd ∨
      ((g t.pd).2 = (f s.pd).2 ∧ ∀ u, (f s.pd).2 ≠ .ok u)) :
    ((onPkt g >>= fun _ => evtStart c) t).2 = ((onPkt f >>= fun _ => evtStart c) s).2 ∧
      (∀ u, ((onPkt f >>= fun _ => evtStart c) s).2 = .ok u →
        EAlike c ((onPkt f >>= fun _ => evtStart c) s).1 ((onPkt g >>= fun _ => evtStart c) t).1) := by
  show (EM.bind (onPkt g) _ t).2 = (EM.bind (onPkt f) _ s).2 ∧
    (∀ u, (EM.bind (onPkt f) _ s).2 = .ok u → EAlike c (EM.bind (onPkt f) _ s).1 (EM.bind (onPkt g) _ t).1)
  unfold EM.bind onPkt
  rcases hg with hg | ⟨hg, hne⟩
  · rw [hg]
    rcases hf : f s.pd with ⟨pd, r⟩
    cases r with
    | ok u =>
      have hr : Reset { s with pd := pd } { t with pd := pd } := by
        obtain ⟨k, a, b, d, rfl, hv⟩ := h
        exact ⟨k, a, b, d, rfl, hv⟩
      obtain ⟨h1, h2⟩ := start_reset (c := c) hr
      exact ⟨h1, fun u hu => h2.resolve_left (by dsimp only at hu; rw [hu]; simp)⟩
    | err e => exact ⟨rfl, fun u hu => by cases hu⟩
    | ub => exact ⟨rfl, fun u hu => by cases hu⟩
  · rcases hf : f s.pd with ⟨pd, r⟩
    rcases hk : g t.pd with ⟨pd', r'⟩
    rw [hf, hk] at hg
    rw [hf] at hne
    dsimp only at hg hne
    subst hg
    cases r' with
    | ok u => exact absurd rfl (hne u)
    | err e => exact ⟨rfl, fun u hu => by cases hu⟩
    | ub => exact ⟨rfl, fun u hu => by cases hu⟩

theorem backInner_reset (sync n : Nat) {s t : Evd} (h : Reset s t) :
    (evtSyncBackInner c sync n t).2 = (evtSyncBackInner c sync n s).2 ∧
      Reset (evtSyncBackInner c sync n s).1 (evtSyncBackInner c sync n t).1 := by
  induction n generalizing s t with
  | zero => exact ⟨rfl, h⟩
  | succ n ih =>
    obtain ⟨h1, h2⟩ := onPkt_reset h (pktSyncBackward c.pkt c.base)
    have key : ∀ u : Evd, evtSyncBackInner c sync (n + 1) u =
        EM.bind (onPkt (pktSyncBackward c.pkt c.base))
          (fun _ v => if sync ≤ v.pd.pos.getD 0 then evtSyncBackInner c sync n v else (v, .ok (v.pd.pos.getD 0))) u := by
      intro u
      show EM.bind _ _ _ = _
      unfold EM.bind
      rcases onPkt (pktSyncBackward c.pkt c.base) u with ⟨v, r⟩
      cases r with
      | ok x =>
        show (if sync ≤ v.pd.pos.getD 0 then evtSyncBackInner c sync n else Pure.pure (v.pd.pos.getD 0)) v = _
        dsimp only
        split <;> rfl
      | err e => rfl
      | ub => rfl
    rw [key s, key t]
    unfold EM.bind
    rcases hs : onPkt (pktSyncBackward c.pkt c.base) s with ⟨s', r⟩
    rcases ht : onPkt (pktSyncBackward c.pkt c.base) t with ⟨t', r'⟩
    rw [hs, ht] at h1 h2
    dsimp only at h1 h2
    subst h1
    cases r' with
    | ub => exact ⟨rfl, h2⟩
    | err e => exact ⟨rfl, h2⟩
    | ok u =>
      dsimp only
      rw [h2.pd]
      split
      · exact ih h2
      · exact ⟨rfl, h2⟩

theorem tryStart_reset {s t : Evd} (h : Reset s t) :
    (tryStart c t).2 = (tryStart c s).2 ∧ ((tryStart c s).2 = .ub ∨ EAlike c (tryStart c s).1 (tryStart c t).1) := by
  obtain ⟨h1, h2⟩ := start_reset (c := c) h
  unfold tryStart
  rcases hs : evtStart c s with ⟨s', r⟩
  rcases ht : evtStart c t with ⟨t', r'⟩
  rw [hs, ht] at h1 h2
  dsimp only at h1 h2
  subst h1
  cases r' with
  | ub => exact ⟨rfl, .inl rfl⟩
  | err e => exact ⟨rfl, .inr (h2.resolve_left (by simp))⟩
  | ok u => exact ⟨rfl, .inr (h2.resolve_left (by simp))⟩

theorem backLoop_reset (start n sync : Nat) {s t : Evd} (h : t.pd = s.pd) :
    (evtSyncBackLoop c start n sync t).2 = (evtSyncBackLoop c start n sync s).2 ∧
      (∀ u, (evtSyncBackLoop c start n sync s).2 = .ok u →
        EAlike c (evtSyncBackLoop c start n sync s).1 (evtSyncBackLoop c start n sync t).1) := by
  induction n generalizing s t sync with
  | zero => exact ⟨rfl, fun u hu => by cases hu⟩
  | succ n ih =>
    have key : ∀ u : Evd, evtSyncBackLoop c start (n + 1) sync u =
        EM.bind (evtSyncBackInner c sync c.fuel) (fun k => EM.bind (tryStart c) (fun r v =>
          if v.pd.pos.getD 0 < start then (v, r) else evtSyncBackLoop c start n k v)) (evtReset u) := by
      intro u
      show EM.bind _ _ _ = _
      unfold EM.bind
      rcases evtSyncBackInner c sync c.fuel (evtReset u) with ⟨v, r⟩
      cases r with
      | ok x =>
        show EM.bind _ _ _ = _
        unfold EM.bind
        dsimp only
        rcases tryStart c v with ⟨w, r⟩
        cases r with
        | ok y =>
          show (if w.pd.pos.getD 0 < start then EM.lift y else evtSyncBackLoop c start n x) w = _
          dsimp only
          split <;> rfl
        | err e => rfl
        | ub => rfl
      | err e => rfl
      | ub => rfl
    rw [key s, key t]
    obtain ⟨h1, h2⟩ := backInner_reset (c := c) sync c.fuel (Reset.of_pd h)
    unfold EM.bind
    rcases hs : evtSyncBackInner c sync c.fuel (evtReset s) with ⟨s', r⟩
    rcases ht : evtSyncBackInner c sync c.fuel (evtReset t) with ⟨t', r'⟩
    rw [hs, ht] at h1 h2
    dsimp only at h1 h2
    subst h1
    cases r' with
    | ub => exact ⟨rfl, fun u hu => by cases hu⟩
    | err e => exact ⟨rfl, fun u hu => by cases hu⟩
    | ok k =>
      dsimp only
      obtain ⟨k1, k2⟩ := tryStart_reset (c := c) h2
      rcases hs : tryStart c s' with ⟨s2, r⟩
      rcases ht : tryStart c t' with ⟨t2, r'⟩
      rw [hs, ht] at k1 k2
      dsimp only at k1 k2
      subst k1
      cases r' with
      | ub => exact ⟨rfl, fun u hu => by cases hu⟩
      | err e => exact ⟨rfl, fun u hu => by cases hu⟩
      | ok r =>
        have ha := k2.resolve_left (by simp)
        have hp : t2.pd = s2.pd := by obtain ⟨_, _, _, rfl, _⟩ := ha; rfl
        dsimp only
        rw [hp]
        split
        · exact ⟨rfl, fun _ _ => ha⟩
        · exact ih k hp

/-- The function of the event decoder. -/
def evtSyncOf (c : EvtCfg) : SyncCall → EM Unit
  | .forward => evtSyncForward c
  | .backward => evtSyncBackward c
  | .set o => evtSyncSet c o

/-- All ways to synchronize depend on the position only, and synchronizing by offset does not even depend on that. -/
theorem evt_forgets (o : SyncCall) (s t : Evd) (h : t.pd = s.pd ∨ ∃ off, o = .set off) :
    (evtSyncOf c o t).2 = (evtSyncOf c o s).2 ∧
      (∀ u, (evtSyncOf c o s).2 = .ok u → EAlike c (evtSyncOf c o s).1 (evtSyncOf c o t).1) := by
  cases o with
  | forward =>
    have h := h.resolve_right (by rintro ⟨_, h⟩; cases h)
    exact onPkt_start (Reset.of_pd h) (f := pktSyncForward c.pkt c.base)
      (g := pktSyncForward c.pkt c.base) (.inl (by show pktSyncForward _ _ t.pd = _; rw [h]; rfl))
  | backward =>
    have h := h.resolve_right (by rintro ⟨_, h⟩; cases h)
    show (evtSyncBackLoop c (t.pd.pos.getD _) _ (t.pd.pos.getD _) t).2 = (evtSyncBackLoop c (s.pd.pos.getD _) _ (s.pd.pos.getD _) s).2 ∧ _
    have := backLoop_reset (c := c) (s.pd.pos.getD c.pkt.mem.length) c.fuel (s.pd.pos.getD c.pkt.mem.length) h
    refine ⟨?_, ?_⟩
    · rw [h]; exact this.1
    · intro u hu
      have := this.2 u hu
      show EAlike c _ (evtSyncBackLoop c (t.pd.pos.getD c.pkt.mem.length) _ (t.pd.pos.getD c.pkt.mem.length) t).1
      rw [h]
      exact this
  | set off =>
    have hr : Reset (evtReset { s with pd := {} }) (evtReset { t with pd := {} }) := Reset.of_pd rfl
    by_cases hl : c.pkt.mem.length < off
    · have e : ∀ u : Evd, evtSyncSet c off u = (evtReset u, .err .eos) := by
        intro u
        show EM.bind (onPkt fun d => pktSyncSet c.pkt d off) _ _ = _
        unfold EM.bind onPkt pktSyncSet
        simp only [if_pos hl]
      show (evtSyncSet c off t).2 = (evtSyncSet c off s).2 ∧
        (∀ u, (evtSyncSet c off s).2 = .ok u → EAlike c (evtSyncSet c off s).1 (evtSyncSet c off t).1)
      rw [e s, e t]
      exact ⟨rfl, fun u hu => by cases hu⟩
    · have e : ∀ u : Evd, evtSyncSet c off u = (onPkt (fun d => pktSyncSet c.pkt d off) >>= fun _ => evtStart c)
          (evtReset { u with pd := {} }) := by
        intro u
        show EM.bind (onPkt fun d => pktSyncSet c.pkt d off) _ _ = EM.bind (onPkt fun d => pktSyncSet c.pkt d off) _ _
        unfold EM.bind onPkt pktSyncSet
        simp only [if_neg hl]
        rfl
      show (evtSyncSet c off t).2 = (evtSyncSet c off s).2 ∧
        (∀ u, (evtSyncSet c off s).2 = .ok u → EAlike c (evtSyncSet c off s).1 (evtSyncSet c off t).1)
      rw [e s, e t]
      exact onPkt_start hr (.inl rfl)

/-! ## The query decoder -/

/-- Two query decoders whose event decoders are alike. -/
structure QAlike (c : EvtCfg) (s t : Qdec) : Prop where
  ev : EAlike c s.ev t.ev
  tnt : t.tnt = s.tnt
  time : t.lastTime = s.lastTime
  event : t.event = s.event
  status : t.status = s.status

/-- The function takes query decoders that are alike to ones that are alike, with the same result. -/
structure QSim (c : EvtCfg) (m : QM α) : Prop where
  run : ∀ s t, QAlike c s t → (m t).2 = (m s).2 ∧ QAlike c (m s).1 (m t).1

theorem QAlike.flags {s t : Qdec} (h : QAlike c s t) : t.flags = s.flags := by
  unfold Qdec.flags
  rw [h.tnt, h.status, h.event]

theorem qryFetch_sim : QSim c (qryFetch c) := by
  refine ⟨fun s t h => ?_⟩
  obtain ⟨h1, h2⟩ := (evtNext_sim (c := c)).run _ _ h.ev
  unfold qryFetch
  rcases hs : evtNext c s.ev with ⟨s', r⟩
  rcases ht : evtNext c t.ev with ⟨t', r'⟩
  rw [hs, ht] at h1 h2
  dsimp only at h1 h2
  subst h1
  cases r' with
  | ok e => exact ⟨rfl, h2, h.tnt, h.time, rfl, h.status⟩
  | err e => exact ⟨rfl, h2, h.tnt, h.time, rfl, rfl⟩
  | ub => exact ⟨rfl, h2, h.tnt, h.time, h.event, h.status⟩

theorem withFlags_sim (a : α) : QSim c fun s => withFlags s a := by
  refine ⟨fun s t h => ?_⟩
  unfold withFlags
  rw [h.flags]
  cases s.flags <;> exact ⟨rfl, h⟩

/-- The part of `pt_qry_cache_tnt` on a TNT event. -/
def addTnt (c : EvtCfg) (x : TntCache × Res Unit) : QM Unit := fun s =>
  match x with
  | (t, .ok ()) => qryFetch c { s with tnt := t }
  | (t, .err e) => ({ s with tnt := t }, .err e)
  | (t, .ub) => ({ s with tnt := t }, .ub)

theorem addTnt_sim (x : TntCache × Res Unit) : QSim c (addTnt c x) := by
  refine ⟨fun s t h => ?_⟩
  have h' : ∀ x, QAlike c { s with tnt := x } { t with tnt := x } := fun x => ⟨h.ev, rfl, h.time, h.event, h.status⟩
  rcases x with ⟨x, _ | _ | _⟩
  · exact qryFetch_sim.run _ _ (h' x)
  · exact ⟨rfl, h' x⟩
  · exact ⟨rfl, h' x⟩

theorem cacheTnt_sim : QSim c (cacheTnt c) := by
  refine ⟨fun s t h => ?_⟩
  have key : ∀ u : Qdec, u.tnt = s.tnt → u.status = s.status → u.event = s.event → cacheTnt c u =
      match s.status with
      | some e => (u, .err e)
      | none =>
        match s.event with
        | .uninit => (u, .ub)
        | .bad => (u, .ok ())
        | .ok e =>
          match e.data with
          | .tnt bits size =>
            addTnt c (s.tnt.add bits size) u
          | _ => (u, .ok ()) := by
    intro u h1 h2 h3
    unfold cacheTnt
    rw [← h1, ← h2, ← h3]
    rfl
  rw [key s rfl rfl rfl, key t h.tnt h.status h.event]
  cases s.status with
  | some e => exact ⟨rfl, h⟩
  | none =>
    dsimp only
    cases s.event with
    | uninit => exact ⟨rfl, h⟩
    | bad => exact ⟨rfl, h⟩
    | ok e =>
      dsimp only
      generalize e.data = d
      cases d
      case tnt bits size => exact (addTnt_sim (s.tnt.add bits size)).run _ _ h
      all_goals exact ⟨rfl, h⟩

theorem QAlike.tm {s t : Qdec} (h : QAlike c s t) : t.ev.tm = s.ev.tm := by
  obtain ⟨_, _, _, he, _⟩ := h.ev
  rw [he]

theorem QAlike.pd {s t : Qdec} (h : QAlike c s t) : t.ev.pd = s.ev.pd := by
  obtain ⟨_, _, _, he, _⟩ := h.ev
  rw [he]

theorem QAlike.timed {s t : Qdec} (h : QAlike c s t) :
    QAlike c { s with lastTime := s.ev.tm.time } { t with lastTime := t.ev.tm.time } :=
  ⟨h.ev, h.tnt, by show t.ev.tm.time = _; rw [h.tm], h.event, h.status⟩

/-- The outcome of a query to the TNT cache. -/
def condEnd (x : TntCache × Res Bool) : QM (Bool × Flags) := fun s =>
  match x with
  | (t, .ok b) => withFlags { s with tnt := t } b
  | (_, .ub) => (s, .ub)
  | (_, .err .badQuery) =>
    match s.status with
    | some e => (s, .err e)
    | none => (s, .err .badQuery)
  | (_, .err e) => (s, .err e)

theorem condEnd_sim (x : TntCache × Res Bool) : QSim c (condEnd x) := by
  refine ⟨fun s t h => ?_⟩
  unfold condEnd
  rcases x with ⟨x, b | e | _⟩
  · exact (withFlags_sim b).run _ _ ⟨h.ev, rfl, h.time, h.event, h.status⟩
  · cases e
    all_goals try exact ⟨rfl, h⟩
    dsimp only
    rw [h.status]
    cases s.status <;> exact ⟨rfl, h⟩
  · exact ⟨rfl, h⟩

/-- Refilling the TNT cache. -/
def condMore (c : EvtCfg) : QM (Bool × Flags) := fun s =>
  match cacheTnt c { s with lastTime := s.ev.tm.time } with
  | (s, .err e) => (s, .err e)
  | (s, .ub) => (s, .ub)
  | (s, .ok ()) => condEnd s.tnt.query s

theorem condMore_sim : QSim c (condMore c) := by
  refine ⟨fun s t h => ?_⟩
  unfold condMore
  obtain ⟨h1, h2⟩ := (cacheTnt_sim (c := c)).run _ _ h.timed
  rcases hs : cacheTnt c { s with lastTime := s.ev.tm.time } with ⟨s', r⟩
  rcases ht : cacheTnt c { t with lastTime := t.ev.tm.time } with ⟨t', r'⟩
  rw [hs, ht] at h1 h2
  dsimp only at h1 h2
  subst h1
  cases r' with
  | err e => exact ⟨rfl, h2⟩
  | ub => exact ⟨rfl, h2⟩
  | ok u =>
    dsimp only
    rw [h2.tnt]
    exact (condEnd_sim _).run _ _ h2

theorem condBranch_sim : QSim c (condBranch c) := by
  have key : ∀ s, condBranch c s =
      match s.tnt.query with
      | (t, .ok b) => withFlags { s with tnt := t } b
      | (_, .ub) => (s, .ub)
      | (_, .err .badQuery) => condMore c s
      | (_, .err e) => (s, .err e) := fun _ => rfl
  refine ⟨fun s t h => ?_⟩
  rw [key s, key t, h.tnt]
  rcases s.tnt.query with ⟨x, b | e | _⟩
  · exact (withFlags_sim b).run _ _ ⟨h.ev, rfl, h.time, h.event, h.status⟩
  · cases e
    all_goals try exact ⟨rfl, h⟩
    exact condMore_sim.run _ _ h
  · exact ⟨rfl, h⟩

theorem takeTip_sim (b : Bool) (ip : Nat) : QSim c (takeTip c b ip) := by
  refine ⟨fun s t h => ?_⟩
  unfold takeTip
  obtain ⟨h1, h2⟩ := (qryFetch_sim (c := c)).run _ _ h.timed
  rcases hs : qryFetch c { s with lastTime := s.ev.tm.time } with ⟨s', r⟩
  rcases ht : qryFetch c { t with lastTime := t.ev.tm.time } with ⟨t', r'⟩
  rw [hs, ht] at h1 h2
  dsimp only at h1 h2
  subst h1
  cases r' with
  | err e => exact ⟨rfl, h2⟩
  | ub => exact ⟨rfl, h2⟩
  | ok u =>
    dsimp only
    rw [h2.flags]
    cases s'.flags <;> exact ⟨rfl, h2⟩

theorem indirectBranch_sim : QSim c (indirectBranch c) := by
  refine ⟨fun s t h => ?_⟩
  unfold indirectBranch
  rw [h.status, h.event]
  cases s.status with
  | some e => exact ⟨rfl, h⟩
  | none =>
    dsimp only
    rcases s.event.tip with (_ | ⟨b, ip⟩) | e | _
    · dsimp only
      obtain ⟨h1, h2⟩ := (cacheTnt_sim (c := c)).run _ _ h
      rcases hs : cacheTnt c s with ⟨s', r⟩
      rcases ht : cacheTnt c t with ⟨t', r'⟩
      rw [hs, ht] at h1 h2
      dsimp only at h1 h2
      subst h1
      cases r' with
      | err e => exact ⟨rfl, h2⟩
      | ub => exact ⟨rfl, h2⟩
      | ok u =>
        dsimp only
        rw [h2.event, h2.status]
        rcases s'.event.tip with (_ | ⟨b, ip⟩) | e | _
        · dsimp only
          cases s'.status <;> exact ⟨rfl, h2⟩
        · exact (takeTip_sim b ip).run _ _ h2
        · exact ⟨rfl, h2⟩
        · exact ⟨rfl, h2⟩
    · exact (takeTip_sim b ip).run _ _ h
    · exact ⟨rfl, h⟩
    · exact ⟨rfl, h⟩

theorem qryEvent_sim : QSim c (qryEvent c) := by
  refine ⟨fun s t h => ?_⟩
  unfold qryEvent
  obtain ⟨ev, tnt, tm, event, status⟩ := s
  obtain ⟨ev', tnt', tm', event', status'⟩ := t
  obtain ⟨h0, h1, h2, h3, h4⟩ := id h
  dsimp only at h0 h1 h2 h3 h4
  subst h1 h2 h3 h4
  dsimp only
  split
  · exact ⟨rfl, h⟩
  · cases status' with
    | some e => exact ⟨rfl, h⟩
    | none =>
      dsimp only
      rcases event'.pending with (_ | _) | _ | _
      · exact ⟨rfl, h⟩
      · rcases event' with _ | _ | e
        · exact ⟨rfl, h⟩
        · exact ⟨rfl, h⟩
        · dsimp only
          obtain ⟨h1, h2⟩ := (qryFetch_sim (c := c)).run _ _ h.timed
          dsimp only at h1 h2
          rcases hs : qryFetch c ⟨ev, tnt', ev.tm.time, .ok e, none⟩ with ⟨s', r⟩
          rcases ht : qryFetch c ⟨ev', tnt', ev'.tm.time, .ok e, none⟩ with ⟨t', r'⟩
          rw [hs, ht] at h1 h2
          dsimp only at h1 h2
          subst h1
          cases r' with
          | err e => exact ⟨rfl, h2⟩
          | ub => exact ⟨rfl, h2⟩
          | ok u => exact (withFlags_sim e).run _ _ h2
      · exact ⟨rfl, h⟩
      · exact ⟨rfl, h⟩

theorem startLoop_alike (pos : Option Nat) (n : Nat) {s t : Evd} (h : EAlike c s t) :
    startLoop c pos n t = startLoop c pos n s := by
  induction n generalizing s t with
  | zero => rfl
  | succ n ih =>
    have hp : t.pd = s.pd := by obtain ⟨_, _, _, rfl, _⟩ := h; rfl
    obtain ⟨h1, h2⟩ := (evtNext_sim (c := c)).run _ _ h
    unfold startLoop
    rw [hp]
    rcases hs : evtNext c s with ⟨s', r⟩
    rcases ht : evtNext c t with ⟨t', r'⟩
    rw [hs, ht] at h1 h2
    dsimp only at h1 h2
    subst h1
    cases r' with
    | err e => cases e <;> rfl
    | ub => rfl
    | ok e =>
      dsimp only
      rw [ih h2]

/-- Query decoders right after `pt_qry_reset`: the pending event is not in use. -/
structure QReset (c : EvtCfg) (s t : Qdec) : Prop where
  ev : EAlike c s.ev t.ev
  tnt : t.tnt = s.tnt
  time : t.lastTime = s.lastTime
  status : t.status = s.status

theorem qryStart_reset {s t : Qdec} (h : QReset c s t) :
    (qryStart c t).2 = (qryStart c s).2 ∧
      (∀ u, (qryStart c s).2 = .ok u → QAlike c (qryStart c s).1 (qryStart c t).1) ∧
      (qryStart c t).1.ev.pd = (qryStart c s).1.ev.pd := by
  unfold qryStart
  have hp : t.ev.pd = s.ev.pd := by obtain ⟨_, _, _, he, _⟩ := h.ev; rw [he]
  rw [hp, startLoop_alike _ _ h.ev]
  rcases startLoop c s.ev.pd.pos evqFuel s.ev with ip | e | _
  · dsimp only
    obtain ⟨h1, h2⟩ := (evtNext_sim (c := c)).run _ _ h.ev
    have key : ∀ u : Qdec, qryFetch c { u with status := none } =
        match evtNext c u.ev with
        | (ev, .ok e) => ({ u with ev := ev, event := .ok e, status := none }, .ok ())
        | (ev, .err e) => ({ u with ev := ev, event := .bad, status := some e }, .ok ())
        | (ev, .ub) => ({ u with ev := ev, status := none }, .ub) := fun _ => rfl
    rw [key s, key t]
    rcases hs : evtNext c s.ev with ⟨s', r⟩
    rcases ht : evtNext c t.ev with ⟨t', r'⟩
    rw [hs, ht] at h1 h2
    dsimp only at h1 h2
    subst h1
    have hp' : t'.pd = s'.pd := by obtain ⟨_, _, _, rfl, _⟩ := h2; rfl
    cases r' with
    | ub => exact ⟨rfl, (fun u hu => by cases hu), hp'⟩
    | ok e =>
      have ha : QAlike c { s with ev := s', event := .ok e, status := none }
        { t with ev := t', event := .ok e, status := none } := ⟨h2, h.tnt, h.time, rfl, rfl⟩
      dsimp only
      rw [ha.flags]
      cases Qdec.flags _ with
      | ok f => exact ⟨rfl, fun _ _ => ha, hp'⟩
      | err e => exact ⟨rfl, (fun u hu => by cases hu), hp'⟩
      | ub => exact ⟨rfl, (fun u hu => by cases hu), hp'⟩
    | err e =>
      have ha : QAlike c { s with ev := s', event := .bad, status := some e }
        { t with ev := t', event := .bad, status := some e } := ⟨h2, h.tnt, h.time, rfl, rfl⟩
      dsimp only
      rw [ha.flags]
      cases Qdec.flags _ with
      | ok f => exact ⟨rfl, fun _ _ => ha, hp'⟩
      | err e => exact ⟨rfl, (fun u hu => by cases hu), hp'⟩
      | ub => exact ⟨rfl, (fun u hu => by cases hu), hp'⟩
  · exact ⟨rfl, (fun u hu => by cases hu), hp⟩
  · exact ⟨rfl, (fun u hu => by cases hu), hp⟩

/-- Query decoders that agree on the position, right after `pt_qry_reset`. -/
structure QAt (s t : Qdec) : Prop where
  pd : t.ev.pd = s.ev.pd
  tnt : t.tnt = s.tnt
  time : t.lastTime = s.lastTime
  status : t.status = s.status

theorem QAt.reset {s t : Qdec} (h : t.ev.pd = s.ev.pd) : QAt (qryReset s) (qryReset t) := ⟨h, rfl, rfl, rfl⟩

/-- `pt_qry_sync_forward` and `pt_qry_sync_set`. -/
theorem onEvt_start (o : SyncCall) (s t : Qdec) (h : t.ev.pd = s.ev.pd ∨ ∃ off, o = .set off) (ht : t.tnt = s.tnt)
    (hl : t.lastTime = s.lastTime) (hst : t.status = s.status) :
    (onEvt (evtSyncOf c o) (qryStart c) t).2 = (onEvt (evtSyncOf c o) (qryStart c) s).2 ∧
      (∀ u, (onEvt (evtSyncOf c o) (qryStart c) s).2 = .ok u →
        QAlike c (onEvt (evtSyncOf c o) (qryStart c) s).1 (onEvt (evtSyncOf c o) (qryStart c) t).1) := by
  obtain ⟨h1, h2⟩ := evt_forgets (c := c) o s.ev t.ev h
  unfold onEvt
  rcases hs : evtSyncOf c o s.ev with ⟨s', r⟩
  rcases ht' : evtSyncOf c o t.ev with ⟨t', r'⟩
  rw [hs, ht'] at h1 h2
  dsimp only at h1 h2
  subst h1
  cases r' with
  | err e => exact ⟨rfl, fun u hu => by cases hu⟩
  | ub => exact ⟨rfl, fun u hu => by cases hu⟩
  | ok u =>
    have := qryStart_reset (c := c) (s := { s with ev := s' }) (t := { t with ev := t' }) ⟨h2 u rfl, ht, hl, hst⟩
    exact ⟨this.1, this.2.1⟩

theorem qryBackInner_at (sync n : Nat) {s t : Qdec} (h : QAt s t) :
    (qrySyncBackInner c sync n t).2 = (qrySyncBackInner c sync n s).2 ∧
      (∀ u, (qrySyncBackInner c sync n s).2 = .ok u →
        QReset c (qrySyncBackInner c sync n s).1 (qrySyncBackInner c sync n t).1) := by
  induction n generalizing s t with
  | zero => exact ⟨rfl, fun u hu => by cases hu⟩
  | succ n ih =>
    obtain ⟨h1, h2⟩ := evt_forgets (c := c) .backward s.ev t.ev (.inl h.pd)
    have key : ∀ u, qrySyncBackInner c sync (n + 1) u = onEvt (evtSyncOf c .backward) (fun s : Qdec =>
      if sync ≤ s.ev.pd.pos.getD 0 then qrySyncBackInner c sync n s else (s, .ok (s.ev.pd.pos.getD 0))) u := fun _ => rfl
    rw [key s, key t]
    unfold onEvt
    rcases hs : evtSyncOf c .backward s.ev with ⟨s', r⟩
    rcases ht' : evtSyncOf c .backward t.ev with ⟨t', r'⟩
    rw [hs, ht'] at h1 h2
    dsimp only at h1 h2
    subst h1
    cases r' with
    | err e => exact ⟨rfl, fun u hu => by cases hu⟩
    | ub => exact ⟨rfl, fun u hu => by cases hu⟩
    | ok u =>
      have ha := h2 u rfl
      have hp : t'.pd = s'.pd := by obtain ⟨_, _, _, rfl, _⟩ := ha; rfl
      dsimp only
      rw [hp]
      split
      · exact ih ⟨hp, h.tnt, h.time, h.status⟩
      · exact ⟨rfl, fun _ _ => ⟨ha, h.tnt, h.time, h.status⟩⟩

theorem qryBackLoop_at (start n sync : Nat) (ip : Option Nat) {s t : Qdec} (h : t.ev.pd = s.ev.pd) :
    (qrySyncBackLoop c start n sync ip t).2 = (qrySyncBackLoop c start n sync ip s).2 ∧
      (∀ u, (qrySyncBackLoop c start n sync ip s).2 = .ok u →
        QAlike c (qrySyncBackLoop c start n sync ip s).1 (qrySyncBackLoop c start n sync ip t).1) := by
  induction n generalizing s t sync ip with
  | zero => exact ⟨rfl, fun u hu => by cases hu⟩
  | succ n ih =>
    obtain ⟨h1, h2⟩ := qryBackInner_at (c := c) sync c.fuel (QAt.reset h)
    unfold qrySyncBackLoop
    rcases hs : qrySyncBackInner c sync c.fuel (qryReset s) with ⟨s', r⟩
    rcases ht' : qrySyncBackInner c sync c.fuel (qryReset t) with ⟨t', r'⟩
    rw [hs, ht'] at h1 h2
    dsimp only at h1 h2
    subst h1
    cases r' with
    | err e => exact ⟨rfl, fun u hu => by cases hu⟩
    | ub => exact ⟨rfl, fun u hu => by cases hu⟩
    | ok k =>
      dsimp only
      obtain ⟨k1, k2, k3⟩ := qryStart_reset (h2 k rfl)
      rcases hs : qryStart c s' with ⟨s2, r⟩
      rcases ht' : qryStart c t' with ⟨t2, r'⟩
      rw [hs, ht'] at k1 k2 k3
      dsimp only at k1 k2 k3
      subst k1
      rcases r' with ⟨f, ip'⟩ | e | _
      · dsimp only
        rw [k3]
        split
        · exact ⟨rfl, fun _ _ => k2 _ rfl⟩
        · exact ih _ _ k3
      · cases e
        case eos => exact ih _ _ k3
        all_goals exact ⟨rfl, fun u hu => by cases hu⟩
      · exact ⟨rfl, fun u hu => by cases hu⟩

/-- All ways to synchronize a query decoder. -/
theorem qry_forgets (o : SyncCall) (s t : Qdec) (h : t.ev.pd = s.ev.pd ∨ ∃ off, o = .set off) :
    (o.run c t).2 = (o.run c s).2 ∧ (∀ u, (o.run c s).2 = .ok u → QAlike c (o.run c s).1 (o.run c t).1) := by
  cases o with
  | forward => exact onEvt_start .forward (qryReset s) (qryReset t) h rfl rfl rfl
  | set off => exact onEvt_start (.set off) (qryReset s) (qryReset t) h rfl rfl rfl
  | backward =>
    have h := h.resolve_right (by rintro ⟨_, h⟩; cases h)
    show (qrySyncBackLoop c (t.ev.pd.pos.getD _) _ (t.ev.pd.pos.getD _) none t).2 =
      (qrySyncBackLoop c (s.ev.pd.pos.getD _) _ (s.ev.pd.pos.getD _) none s).2 ∧ _
    have := qryBackLoop_at (c := c) (s.ev.pd.pos.getD c.pkt.mem.length) c.fuel (s.ev.pd.pos.getD c.pkt.mem.length) none h
    refine ⟨?_, ?_⟩
    · rw [h]; exact this.1
    · intro u hu
      have := this.2 u hu
      show QAlike c _ (qrySyncBackLoop c (t.ev.pd.pos.getD c.pkt.mem.length) _ (t.ev.pd.pos.getD c.pkt.mem.length) none t).1
      rw [h]
      exact this

end Ipt
