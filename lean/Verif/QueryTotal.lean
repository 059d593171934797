import Verif.QueryInv
import Verif.Props.EventDecoder

/-! Helper lemmas: the functions of the query decoder are defined for every sequence of calls. -/

set_option linter.unusedSimpArgs false

namespace Ipt

open Spec

variable {c : EvtCfg} {s s' : Evd}

/-! ## Backward synchronization of the event decoder moves backward -/

theorem fetchLoop_some : ∀ (n : Nat) (s : Evd),
    EM.wlp (fetchLoop c n) (fun _ s' => s'.packet = .invalid ∨ s'.pd.pos ≠ none) (fun _ _ => True) s := by
  intro n
  induction n with
  | zero => intro s; exact (EM.wlp_undef _ _ _).2 trivial
  | succ n ih =>
    intro s
    unfold EM.wlp fetchLoop
    rcases hx : pktDecNext c.pkt s.pd with ⟨pd, ⟨p, size⟩ | e | _⟩
    · dsimp only
      by_cases hp : p = .pad
      · rw [if_pos hp]
        exact ih { s with pd := pd, packet := p, size := size }
      · rw [if_neg hp]
        right
        unfold pktDecNext at hx
        revert hx
        rcases pktNext c.pkt s.pd.pos with ⟨p', n', pos'⟩ | e | _
        · intro hx; cases hx; simp
        · intro hx; cases hx
        · intro hx; cases hx
    · exact .inl rfl
    · trivial

theorem psbPacket_pd {i : Nat} (h : s.packet = .invalid ∨ s.pd.pos ≠ none) :
    EM.wlp (psbPacket c i) (fun b s' => b = true → s'.pd.pos ≠ none) (fun _ _ => True) s := by
  have ff : ∀ {m : EM Unit}, EM.wlp (do m; return false) (fun b s' => b = true → s'.pd.pos ≠ none) (fun _ _ => True) s := by
    intro m
    rw [EM.wlp_bind]
    apply wlp_true
    intro _ s
    rw [EM.wlp_pure]
    intro h; cases h
  cases hp : s.packet
  all_goals first
    | exact EM.wlp_of_eq (m' := _) (by unfold psbPacket; rw [hp]) ff
    | skip
  all_goals
    have hpos : s.packet ≠ .invalid → s.pd.pos ≠ none := fun h' => h.resolve_left h'
    rw [hp] at hpos
    unfold EM.wlp psbPacket
    rw [hp]
    dsimp only
  case psbend =>
    have := hpos (by simp)
    by_cases he : s.enabled = true
    · simp only [if_pos he]; exact fun _ => this
    · simp only [if_neg he]; exact fun _ => this
  case ovf =>
    have := hpos (by simp)
    by_cases he : s.enabled = true
    · simp only [if_pos he]; exact fun _ => this
    · simp only [if_neg he]
      refine (?_ : EM.wlp (do psbDropHead i; return true) (fun b s' => b = true → s'.pd.pos ≠ none) (fun _ _ => True) s)
      unfold psbDropHead
      rw [EM.wlp_bind, EM.wlp_bind]
      unfold EM.wlp deq
      dsimp only
      refine (?_ : EM.wlp _ _ _ _)
      split
      · refine EM.wlp_ite (fun _ => ?_) (fun _ => ?_)
        · exact fun _ => this
        · rw [EM.wlp_fail]; trivial
      · rw [EM.wlp_fail]; trivial
  case invalid => cases s.status <;> simp
  case cbr r =>
    refine (?_ : EM.wlp (do applyTm c (.hCbr r); enq evbPsbend { data := .cbr r, statusUpdate := true }; return false) (fun b s' => b = true → s'.pd.pos ≠ none) (fun _ _ => True) s)
    rw [EM.wlp_bind]
    apply wlp_true
    intro _ s
    rw [EM.wlp_bind]
    apply wlp_true
    intro _ s
    rw [EM.wlp_pure]
    intro h; cases h
  all_goals simp

theorem psbLoop_pos {i : Nat} : ∀ (n : Nat) (s : Evd),
    EM.wlp (psbLoop c i n) (fun _ s' => s'.pd.pos ≠ none) (fun _ _ => True) s := by
  intro n
  induction n with
  | zero => intro s; exact (EM.wlp_undef _ _ _).2 trivial
  | succ n ih =>
    intro s
    unfold psbLoop
    rw [EM.wlp_bind]
    refine EM.wlp_mono (fetchLoop_some _ s) (fun _ s h => ?_) (fun _ _ h => h)
    rw [EM.wlp_bind]
    refine EM.wlp_mono (psbPacket_pd h) (fun b s h => ?_) (fun _ _ h => h)
    refine EM.wlp_ite (fun hb => ?_) (fun _ => ih s)
    rw [EM.wlp_pure]
    exact h hb

theorem evtStart_pos : EM.wlp (evtStart c) (fun _ s' => s'.pd.pos ≠ none) (fun _ _ => True) s := by
  unfold evtStart
  rw [EM.wlp_bind, EM.wlp_modify, EM.wlp_bind]
  apply wlp_true
  intro _ s
  rw [EM.wlp_bind, EM.wlp_get]
  split
  · unfold decodePsb
    rw [EM.wlp_bind]
    apply wlp_true
    intro _ s
    rw [EM.wlp_bind, EM.wlp_modify, EM.wlp_bind]
    apply wlp_true
    intro _ s
    rw [EM.wlp_bind]
    apply wlp_true
    intro _ s
    exact psbLoop_pos _ _
  · split <;> (rw [EM.wlp_fail]; trivial)
  · rw [EM.wlp_fail]; trivial

theorem backLoop_pos {start : Nat} : ∀ (n sync : Nat) (s : Evd),
    EM.wlp (evtSyncBackLoop c start n sync) (fun _ s' => ∃ p, s'.pd.pos = some p ∧ p < start) (fun _ _ => True) s := by
  intro n
  induction n with
  | zero => intro _ _; exact wlp_Un
  | succ n ih =>
    intro sync s
    unfold evtSyncBackLoop
    rw [EM.wlp_bind, EM.wlp_modify, EM.wlp_bind]
    apply wlp_true
    intro sync' s1
    rw [EM.wlp_bind]
    have h2 := evtStart_pos (c := c) (s := s1)
    unfold EM.wlp tryStart
    revert h2
    unfold EM.wlp
    rcases evtStart c s1 with ⟨s2, _ | e | _⟩
    · intro h2
      refine (?_ : EM.wlp _ _ _ _)
      rw [EM.wlp_bind, EM.wlp_get]
      refine EM.wlp_ite (fun hlt => ?_) (fun _ => ih _ _)
      unfold EM.wlp EM.lift
      dsimp only at h2 ⊢
      cases hp : s2.pd.pos with
      | none => exact absurd hp h2
      | some p => rw [hp] at hlt; exact ⟨p, rfl, hlt⟩
    · intro _
      refine (?_ : EM.wlp _ _ _ _)
      rw [EM.wlp_bind, EM.wlp_get]
      refine EM.wlp_ite (fun _ => ?_) (fun _ => ih _ _)
      trivial
    · intro _; trivial

/-- From behind the buffer (after an erratum work-around), backward synchronization fails. -/
theorem evtSyncBackward_behind (h : c.pkt.mem.length < s.pd.pos.getD c.pkt.mem.length) :
    ∃ s' e, evtSyncBackward c s = (s', .err e) := by
  unfold evtSyncBackward
  rw [EM.bind_def]
  simp only [EM.get]
  unfold EvtCfg.fuel evtSyncBackLoop
  rw [EM.bind_def]
  simp only [EM.modify]
  rw [EM.bind_def]
  unfold EvtCfg.fuel evtSyncBackInner
  rw [EM.bind_def]
  unfold onPkt
  rcases pktBack_cases (c := c.pkt) (base := c.base) (d := (evtReset s).pd) with ⟨q, h1, h2, h3, h4⟩ | ⟨e, h1⟩
  · have h4 : s.pd.pos.getD c.pkt.mem.length ≤ c.pkt.mem.length := h4
    omega
  · rw [h1]
    exact ⟨_, e, rfl⟩

/-- A successful backward synchronization moves backward. -/
theorem evtSyncBackward_back {s' : Evd} (h : evtSyncBackward c s = (s', .ok ())) :
    ∃ p, s'.pd.pos = some p ∧ p < s.pd.pos.getD c.pkt.mem.length ∧
      s.pd.pos.getD c.pkt.mem.length ≤ c.pkt.mem.length := by
  have hle : s.pd.pos.getD c.pkt.mem.length ≤ c.pkt.mem.length := by
    apply Classical.byContradiction
    intro hn
    obtain ⟨s1, e, h1⟩ := evtSyncBackward_behind (c := c) (s := s) (by omega)
    rw [h] at h1; cases h1
  have : EM.wlp (evtSyncBackward c) (fun _ s' => ∃ p, s'.pd.pos = some p ∧ p < s.pd.pos.getD c.pkt.mem.length)
      (fun _ _ => True) s := by
    unfold evtSyncBackward
    rw [EM.wlp_bind, EM.wlp_get]
    exact backLoop_pos _ _ _
  obtain ⟨p, h1, h2⟩ := EM.wlp_ok this h
  exact ⟨p, h1, h2, hle⟩

theorem evtSyncBackward_total (hc : c.Sane) (hi : Props.IsolatedPsbs c.pkt.mem) (s : Evd) :
    (evtSyncBackward c s).2 ≠ .ub :=
  (evtSyncBackward_top hc hi (evtReset s) (top_wf c _ ⟨[], init_holds⟩)).1

theorem evtSyncForward_total (hc : c.Sane) (s : Evd) : (evtSyncForward c s).2 ≠ .ub :=
  (evtSyncForward_top hc (evtReset s) (top_wf c _ ⟨[], init_holds⟩)).1

theorem evtSyncSet_total (hc : c.Sane) (off : Nat) (s : Evd) : (evtSyncSet c off s).2 ≠ .ub :=
  (evtSyncSet_top hc off (evtReset s) (top_wf c _ ⟨[], init_holds⟩)).1

/-! ## Synchronization of the query decoder -/

/-- A query decoder that is not synchronized. -/
def Unsynced (s : Qdec) : Prop := s.tnt = {} ∧ s.status = some .nosync

/-- The result of a synchronization: not undefined, and the decoder is synchronized or not. -/
def SyncOk (c : EvtCfg) (r : Qdec × Res (Flags × Option Nat)) : Prop :=
  match r with
  | (s', .ok _) => ∃ d, QInv c d s' [] [] ∧ Synced c d
  | (s', .err _) => Unsynced s'
  | (_, .ub) => False

theorem synced_inv {d : Evd} {s : Qdec} (hs : Synced c d) (ha : Ahead c d s) : QInv c d s [] [] := by
  obtain ⟨h1, h2⟩ := ha
  refine ⟨rfl, ?_, by rw [h1]; exact ⟨by simp, rfl, rfl, by decide⟩, false, hs.inv, hs.1⟩
  show _ ∨ _
  rw [show evtFinal c (nexts ([] : List Event).length) d = d from rfl]
  rcases hx : evtNext c d with ⟨ev, e | x | _⟩
  · rw [hx] at h2; obtain ⟨h2, h3, h4⟩ := h2
    exact .inl ⟨e, h4, h3, by rw [h2]⟩
  · rw [hx] at h2; obtain ⟨h2, h3, h4⟩ := h2
    exact .inr ⟨x, h4, h3, by rw [h2]⟩
  · rw [hx] at h2; exact h2.elim

theorem qryStart_total (hu : Usable c) {s : Qdec} (ht : s.tnt = {}) (hs : s.status = some .nosync) (h : Synced c s.ev) :
    SyncOk c (qryStart c s) := by
  unfold qryStart
  rcases hx : startLoop c s.ev.pd.pos evqFuel s.ev with ip | e | _
  · dsimp only
    have h9 := (evtNext_pres hu.sane s.ev (inv_wf h.inv)).1
    have key : ∃ s', qryFetch c { s with status := none } = (s', .ok ()) ∧ QInv c s.ev s' [] [] := by
      unfold qryFetch
      rcases hy : evtNext c s.ev with ⟨ev, e | x | _⟩
      · exact ⟨_, rfl, synced_inv h ⟨ht, by rw [hy]; exact ⟨rfl, rfl, rfl⟩⟩⟩
      · exact ⟨_, rfl, synced_inv h ⟨ht, by rw [hy]; exact ⟨rfl, rfl, rfl⟩⟩⟩
      · rw [hy] at h9; exact absurd rfl h9
    obtain ⟨s', h1, h2⟩ := key
    obtain ⟨f, hf⟩ := h2.flags
    rw [h1]
    dsimp only
    rw [hf]
    exact ⟨_, h2, h⟩
  · exact ⟨ht, hs⟩
  · exact absurd hx (start_total hu.sane h)

theorem onEvt_total (hu : Usable c) {m : EM Unit} {s : Qdec} (hm : (m s.ev).2 ≠ .ub)
    (hs : ∀ d, m s.ev = (d, .ok ()) → Synced c d) (h : Unsynced s) : SyncOk c (onEvt m (qryStart c) s) := by
  unfold onEvt
  rcases hx : m s.ev with ⟨d, _ | e | _⟩
  · exact qryStart_total (s := { s with ev := d }) hu h.1 h.2 (hs d hx)
  · exact h
  · rw [hx] at hm; exact absurd rfl hm

theorem reset_unsynced (s : Qdec) : Unsynced (qryReset s) := ⟨rfl, rfl⟩

/-- The inner loop, once the position is known. -/
theorem qryInner_pos (hu : Usable c) (hi : Props.IsolatedPsbs c.pkt.mem) {sync : Nat} : ∀ (n : Nat) (s : Qdec), Unsynced s →
    s.ev.pd.pos.getD c.pkt.mem.length < n →
    ∃ s', Unsynced s' ∧ ((∃ q, qrySyncBackInner c sync n s = (s', .ok q) ∧ q < sync ∧ Synced c s'.ev) ∨
      (∃ e, qrySyncBackInner c sync n s = (s', .err e))) := by
  intro n
  induction n with
  | zero => intro s _ h; omega
  | succ n ih =>
    intro s hs hn
    unfold qrySyncBackInner onEvt
    have h1 := evtSyncBackward_total hu.sane hi s.ev
    rcases hx : evtSyncBackward c s.ev with ⟨d, _ | e | _⟩
    · obtain ⟨p, h2, h3, h4⟩ := evtSyncBackward_back hx
      dsimp only
      split
      · exact ih { s with ev := d } hs (by show d.pd.pos.getD _ < n; rw [h2]; simp only [Option.getD_some]; omega)
      · have h5 := EM.wlp_ok (syncBackward_inv (c := c) hu.time) hx
        exact ⟨{ s with ev := d }, hs, .inl ⟨d.pd.pos.getD 0, rfl, by omega, h5⟩⟩
    · exact ⟨{ s with ev := d }, hs, .inr ⟨e, rfl⟩⟩
    · rw [hx] at h1; exact absurd rfl h1

theorem qryInner_total (hu : Usable c) (hi : Props.IsolatedPsbs c.pkt.mem) (sync : Nat) (s : Qdec) (hs : Unsynced s) :
    ∃ s', Unsynced s' ∧ ((∃ q, qrySyncBackInner c sync c.fuel s = (s', .ok q) ∧ q < sync ∧ Synced c s'.ev ∧
        s.ev.pd.pos.getD c.pkt.mem.length ≤ c.pkt.mem.length) ∨
      (∃ e, qrySyncBackInner c sync c.fuel s = (s', .err e))) := by
  by_cases hle : s.ev.pd.pos.getD c.pkt.mem.length ≤ c.pkt.mem.length
  · obtain ⟨s', h1, ⟨q, h2, h3, h4⟩ | h2⟩ := qryInner_pos hu hi (sync := sync) c.fuel s hs (by unfold EvtCfg.fuel; omega)
    · exact ⟨s', h1, .inl ⟨q, h2, h3, h4, hle⟩⟩
    · exact ⟨s', h1, .inr h2⟩
  · obtain ⟨s', e, h1⟩ := evtSyncBackward_behind (c := c) (s := s.ev) (by omega)
    refine ⟨{ s with ev := s' }, hs, .inr ⟨e, ?_⟩⟩
    unfold EvtCfg.fuel qrySyncBackInner onEvt
    rw [h1]

theorem qryLoop_total (hu : Usable c) (hi : Props.IsolatedPsbs c.pkt.mem) {start : Nat} : ∀ (n sync : Nat) (ip : Option Nat)
    (s : Qdec), 0 < n → (c.pkt.mem.length < s.ev.pd.pos.getD c.pkt.mem.length ∨ sync < n) →
    SyncOk c (qrySyncBackLoop c start n sync ip s) := by
  intro n
  induction n with
  | zero => intro _ _ _ h0; omega
  | succ n ih =>
    intro sync ip s _ hn
    unfold qrySyncBackLoop
    obtain ⟨s', h1, ⟨q, h2, h3, h4, h5⟩ | ⟨e, h2⟩⟩ := qryInner_total hu hi sync (qryReset s) (reset_unsynced s)
    · have h5 : s.ev.pd.pos.getD c.pkt.mem.length ≤ c.pkt.mem.length := h5
      rw [h2]
      dsimp only
      have h6 := qryStart_total hu h1.1 h1.2 h4
      revert h6
      rcases qryStart c s' with ⟨s2, ⟨f, ip'⟩ | e | _⟩
      · intro h6
        dsimp only
        split
        · exact h6
        · exact ih _ _ _ (by omega) (.inr (by omega))
      · intro h6
        cases e <;> first | exact h6 | exact ih _ _ _ (by omega) (.inr (by omega))
      · exact fun h => h
    · rw [h2]; exact h1

theorem sync_total (hu : Usable c) (o : SyncCall) (hi : o = .backward → Props.IsolatedPsbs c.pkt.mem) (s : Qdec) :
    SyncOk c (o.run c s) := by
  cases o with
  | forward =>
    exact onEvt_total hu (evtSyncForward_total hu.sane _) (fun d h => by have := EM.wlp_ok (syncForward_inv (c := c) hu.time) h; exact this) (reset_unsynced s)
  | set off =>
    exact onEvt_total hu (evtSyncSet_total hu.sane off _) (fun d h => by have := EM.wlp_ok (syncSet_inv (c := c) hu.time) h; exact this) (reset_unsynced s)
  | backward =>
    exact qryLoop_total hu (hi rfl) _ _ _ _ (by unfold EvtCfg.fuel; omega) (by unfold EvtCfg.fuel; omega)

/-! ## Queries -/

theorem run_unsynced {s : Qdec} (h : Unsynced s) (q : Query) :
    ∃ s', q.run c s = (s', .err .nosync) ∧ Unsynced s' := by
  obtain ⟨ht, hx⟩ := h
  have h0 : s.tnt.query = ({}, .err .badQuery) := by rw [ht]; rfl
  cases q with
  | cond =>
    refine ⟨{ s with lastTime := s.ev.tm.time }, ?_, ⟨ht, hx⟩⟩
    simp only [Query.run, condBranch, h0, cacheTnt, hx, Res.bind]
  | indirect =>
    refine ⟨s, ?_, ⟨ht, hx⟩⟩
    simp only [Query.run, indirectBranch, hx, Res.bind]
  | event =>
    refine ⟨s, ?_, ⟨ht, hx⟩⟩
    have : s.tnt.isEmpty = true := by rw [ht]; rfl
    simp only [Query.run, qryEvent, this, hx, Res.bind]
    rfl

end Ipt
