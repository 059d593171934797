import Verif.BlockSafeCache
import Verif.Spec.Safe

/-!
# Helper lemmas: the block decoder is defined: calls
-/

set_option linter.unusedSimpArgs false
set_option linter.unusedVariables false

namespace Ipt.Blk

open Ild Spec Props BM

variable {c : BlkCfg} {secs : Msec → Prop} {K : Option Event} {s : Bdec} {α β : Type}
variable {Q : α → Bdec → Prop} {E : Err → Bdec → Prop} {R : β → Bdec → Prop}

/-! ### Trailing events -/

theorem keep_blkBdm64 (hc : BCfgSafe c secs) {a : Bool} {ip : Nat} : Keep c secs K (blkBdm64 c a ip) := by
  have hr : ∀ (s : Bdec) (ip' : Nat) (m : Mode),
      Keep c secs K (BM.image fun st => rangeContiguous (c.reader s) ip 0x100 st { ip := ip', mode := m }) :=
    fun s ip' m => keep_range hc (asid := s.sc.asid) (by simp)
  unfold blkBdm64
  repeat' first | exact hr _ _ _ | keep1
macro_rules | `(tactic| keep1) => `(tactic| with_reducible exact keep_blkBdm64 ‹BCfgSafe _ _›)

theorem keep_postponeTrailingTsx (hc : BCfgSafe c secs) {b : Bool} {ev : Event} {a : Bool} {ip : Nat} :
    Keep c secs K (postponeTrailingTsx c b ev a ip) := by unfold postponeTrailingTsx; keep
macro_rules | `(tactic| keep1) => `(tactic| with_reducible exact keep_postponeTrailingTsx ‹BCfgSafe _ _›)

theorem keep_noTrailing (hc : BCfgSafe c secs) : Keep c secs K (noTrailing c) := by unfold noTrailing; keep
macro_rules | `(tactic| keep1) => `(tactic| with_reducible exact keep_noTrailing ‹BCfgSafe _ _›)

theorem keep_trailingAt (hc : BCfgSafe c secs) {p : Bdec → Bool} : Keep c secs K (trailingAt c p) := by unfold trailingAt; keep
macro_rules | `(tactic| keep1) => `(tactic| with_reducible exact keep_trailingAt ‹BCfgSafe _ _›)

theorem keep_trailingBind (hc : BCfgSafe c secs) {b : Bdec → Bool} {p : Iext → Bool} {mark : Bdec → Bdec}
    (hm : Keep c secs K (BM.modify mark)) : Keep c secs K (trailingBind c b p mark) := by
  unfold trailingBind
  repeat' first | exact hm | keep1

theorem keep_trailingDisabled (hc : BCfgSafe c secs) {ev : Event} {ip : Nat} : Keep c secs K (trailingDisabled c ev ip) := by
  unfold trailingDisabled
  refine keep_bind keep_get fun s => ?_
  split
  · keep
  split
  · keep
  refine keep_tryBind (by keep) (fun _ => ?_) fun e => ?_
  · dsimp only; keep
  · cases e <;> (dsimp only; keep)

theorem trailingAsyncDisabled_at (hc : BCfgSafe c secs) {ev : Event} {a ip : Nat} (h : BSafe c secs (some ev) s) :
    At c secs none (trailingAsyncDisabled c ev a ip) s := by
  unfold trailingAsyncDisabled
  refine at_bind (keep_proceedPostponedInsn hc s h) wp_any (fun _ s1 _ h1 => ?_) fun _ h => h.none
  refine at_get ?_
  split
  · exact keep_noTrailing hc _ h1.none
  split
  · refine at_bind (keep_blkSkd022 hc s1 h1) wp_any (fun b s2 _ h2 => ?_) fun _ h => h.none
    split
    · exact at_ok (p := BM.modify _) rfl (keep_noTrailing hc _ (h2.event (e' := { ev with data := .disabled ip }) rfl).none)
    · exact keep_blkStatus _ h2.none
  · exact keep_blkStatus _ h1.none

theorem trailingTrig_at (hc : BCfgSafe c secs) {ev : Event} {trbv n ip : Nat} {mult : Bool} (h : BSafe c secs (some ev) s)
    (hb : Spec.isBranch ev = false) : At c secs none (trailingTrig c ev trbv n mult ip) s := by
  unfold trailingTrig
  refine at_bind (keep_proceedPostponedInsn hc s h) wp_any (fun _ s1 _ h1 => ?_) fun _ h => h.none
  refine at_get ?_
  split
  · exact keep_blkStatus _ h1.none
  · refine provide_at h1 hb fun x s2 e h2 => ?_
    dsimp only
    split
    · exact keep_noTrailing hc _ h2.none
    split
    · exact keep_fail _ h2.none
    · exact keep_blkStatus _ h2.none

/-- `pt_blk_proceed_trailing_event`, with what is done at TNT events that are used up. -/
theorem trailing_step (hc : BCfgSafe c secs) {b : Bool} {n : Nat} (h : BSafe c secs none s)
    (hr : (s.status = none ∧ ∃ e bits, s.event = some e ∧ e.data = .tnt bits 0) →
      At c secs none (do fetchEvent c; trailingEvent c b n) s) : At c secs none (trailingEvent c b (n + 1)) s := by
  unfold trailingEvent
  refine at_get ?_
  split
  · refine (?_ : Keep c secs none _) s h
    keep
  · rename_i hst
    split
    · exact keep_noTrailing hc _ h
    · rename_i ev he
      split
      case h_1 bits size hd =>
        split
        · split
          · exact keep_noTrailing hc _ h
          · rename_i hz
            have hz : size = 0 := by omega
            subst hz
            exact hr ⟨hst, ev, bits, he, hd⟩
        · split
          · exact keep_noTrailing hc _ h
          · exact keep_blkStatus _ h
      all_goals first
        | exact keep_noTrailing hc _ h
        | exact keep_trailingAt hc _ h
        | exact keep_trailingDisabled hc _ h
        | exact keep_trailingBind hc (by keep) _ h
        | exact trailingAsyncDisabled_at hc (h.some he (by simp [Spec.isBranch, *]))
        | exact trailingTrig_at hc (h.some he (by simp [Spec.isBranch, *])) (by simp [Spec.isBranch, *])
        | (refine (?_ : Keep c secs none _) s h; keep)

theorem keep_trailingEvent (hc : BCfgSafe c secs) {b : Bool} : Keep c secs none (trailingEvent c b c.evt.fuel) := by
  intro s h
  have hf : c.evt.fuel = (c.evt.pkt.mem.length + 2) + 1 + 1 := by unfold EvtCfg.fuel; omega
  rw [hf]
  refine trailing_step hc h fun _ => ?_
  have h0 := fetch_at hc h
  refine at_bind h0.1 h0.2 (fun _ s1 e1 h1 => ?_) fun _ h => h
  refine trailing_step hc h1 fun ⟨h2, e, bits, h3, h4⟩ => ?_
  rcases e1 with e1 | ⟨e', e1, e2⟩
  · exact absurd h2 e1
  · rw [h3] at e1
    cases e1
    rw [h4] at e2
    have := e2 trivial
    omega
macro_rules | `(tactic| keep1) => `(tactic| with_reducible exact keep_trailingEvent ‹BCfgSafe _ _›)

theorem keep_blkNext (hc : BCfgSafe c secs) : Keep c secs none (blkNext c) := by
  unfold blkNext
  refine keep_bind (keep_modify fun s h => ⟨h.ev, h.img, h.maps, h.reqs, h.bc, h.others, h.ret, (by show 0 < _; decide), h.kept⟩)
    fun _ => ?_
  unfold blkProceed
  repeat' first | exact keep_proceedEvent hc | keep1

/-! ### Events -/

theorem keep_blkProcessPaging {v : Nat} : Keep c secs K (blkProcessPaging v) := by
  intro s h
  unfold blkProcessPaging
  have h0 := mapped_has h
  refine at_bind h0.1 h0.2 (fun u s1 e1 h1 => ?_) fun _ h => h
  exact keep_cache (fun sc hs => setCr3_safe sc u v e1 hs) s1 h1
macro_rules | `(tactic| keep1) => `(tactic| with_reducible exact keep_blkProcessPaging)

theorem keep_blkProcessVmcs {v : Nat} : Keep c secs K (blkProcessVmcs v) := by
  intro s h
  unfold blkProcessVmcs
  have h0 := mapped_has h
  refine at_bind h0.1 h0.2 (fun u s1 e1 h1 => ?_) fun _ h => h
  exact keep_cache (fun sc hs => setVmcs_safe sc u v e1 hs) s1 h1
macro_rules | `(tactic| keep1) => `(tactic| with_reducible exact keep_blkProcessVmcs)

theorem keep_unlessAt {b : Bool} {p : BM Unit} (h : Keep c secs K p) : Keep c secs K (unlessAt b p) := by
  unfold unlessAt
  repeat' first | exact h | keep1
macro_rules | `(tactic| keep1) => `(tactic| with_reducible refine keep_unlessAt ?_)

theorem keep_blkProcessEvent {ev : Event} : Keep c secs K (blkProcessEvent ev) := by
  have h1 : Keep c secs K (blkProcessDisabled ev) := by unfold blkProcessDisabled; keep
  have h2 : ∀ ip, Keep c secs K (blkProcessEnabled ev ip) := fun ip => by unfold blkProcessEnabled; keep
  have h3 : ∀ ip, Keep c secs K (blkProcessAsyncBranch ev ip) := fun ip => by unfold blkProcessAsyncBranch; keep
  have h4 : ∀ ip, Keep c secs K (blkProcessOverflow ev ip) := fun ip => by
    unfold blkProcessOverflow
    split
    · keep
    · refine keep_modify fun s h => ?_
      split <;> exact ⟨h.ev, h.img, h.maps, h.reqs, h.bc, h.others, h.ret, h.cnt, h.kept⟩
  have h5 : ∀ m, Keep c secs K (blkProcessExecMode ev m) := fun m => by unfold blkProcessExecMode; keep
  have h6 : Keep c secs K (blkProcessStop ev) := by unfold blkProcessStop; keep
  unfold blkProcessEvent
  refine keep_bind keep_get fun s => ?_
  split
  all_goals (try refine keep_unlessAt ?_)
  all_goals first
    | exact h1 | exact h2 _ | exact h3 _ | exact h4 _ | exact h5 _ | exact h6 | keep
macro_rules | `(tactic| keep1) => `(tactic| with_reducible exact keep_blkProcessEvent)

theorem keep_blkTickEvent (hc : BCfgSafe c secs) {ev : Event} {n : Nat} : Keep c secs none (blkTickEvent c ev n) := by
  unfold blkTickEvent; keep
macro_rules | `(tactic| keep1) => `(tactic| with_reducible exact keep_blkTickEvent ‹BCfgSafe _ _›)

theorem keep_blkEvent (hc : BCfgSafe c secs) : Keep c secs none (blkEvent c) := by
  unfold blkEvent; keep

/-! ### Synchronization -/

theorem reset_safe (h : BSafe c secs K s) : BSafe c secs none (blkReset s) :=
  ⟨fun h => (by cases h), h.img, h.maps, h.reqs, h.bc, h.others,
    (by obtain ⟨l, hl⟩ := h.ret; exact ⟨[], hl.size, (by show 0 < 65; omega), (by show 0 = (0 + 65 - 0) % 65; rfl), by simp, by simp⟩),
    h.cnt, fun _ h => by cases h⟩

theorem BSafe.moved {d : Evd} (h : BSafe c secs K s) (he : s.event = .none) : BSafe c secs .none { s with ev := d } :=
  ⟨fun h => (by have : s.event.isSome = true := h; rw [he] at this; cases this), h.img, h.maps, h.reqs, h.bc, h.others, h.ret, h.cnt, fun _ h => by cases h⟩

theorem blkStart_at (hc : BCfgSafe c secs) (h : BSafe c secs none s) (he : s.event = none) (hs : Synced c.evt s.ev) :
    At c secs none (blkStart c) s := by
  unfold blkStart
  refine at_get ?_
  refine at_bind (Q := fun _ s' => s' = s) (E := fun _ _ => True) (keep_lift (start_total hc.base.use.sane hs) s h) ?_
    (fun ip s1 e1 h1 => ?_) fun _ h => h
  · rw [wp_lift]
    rcases startLoop c.evt s.ev.pd.pos evqFuel s.ev with _ | _ | _ <;> trivial
  subst e1
  have h2 : ∃ s2 : Bdec, (BM.modify fun s => match ip with
      | some ip => { s with enabled := true, ip := ip }
      | none => s) s1 = (s2, .ok ()) ∧ BSafe c secs none s2 ∧ s2.event = none ∧ s2.ev = s1.ev := by
    cases ip with
    | none => exact ⟨s1, rfl, h1, he, rfl⟩
    | some ip => exact ⟨{ s1 with enabled := true, ip := ip }, rfl,
        ⟨h1.ev, h1.img, h1.maps, h1.reqs, h1.bc, h1.others, h1.ret, h1.cnt, h1.kept⟩, he, rfl⟩
  obtain ⟨s2, e2, h2, h3, h4⟩ := h2
  refine at_ok e2 ?_
  have hev : EvOk c.evt s2.ev := ⟨_, by rw [h4]; exact hs.inv, by rw [h4]; exact hs.1⟩
  rcases try_next hc hev with ⟨d, e, hr, h5, h6⟩ | ⟨d, x, hr⟩
  · refine at_ok hr (at_ok (p := BM.modify _) rfl (keep_trailingEvent hc _ ?_))
    exact ⟨fun _ => h5, h2.img, h2.maps, h2.reqs, h2.bc, h2.others, h2.ret, h2.cnt, fun _ h => by cases h⟩
  · refine at_ok hr (at_ok (p := BM.modify _) rfl (keep_trailingEvent hc _ ?_))
    have := h2.moved (d := d) h3
    exact ⟨this.ev, h2.img, h2.maps, h2.reqs, h2.bc, h2.others, h2.ret, h2.cnt, fun _ h => by cases h⟩

/-- Synchronize the event decoder, then start. -/
theorem sync_at (hc : BCfgSafe c secs) {m : EM Unit} (h : BSafe c secs none s) (he : s.event = none) (hm : (m s.ev).2 ≠ .ub)
    (hs : ∀ d, m s.ev = (d, .ok ()) → Synced c.evt d) : At c secs none (do BM.evt m; blkStart c) s := by
  rcases hx : m s.ev with ⟨d, _ | e | _⟩ <;> rw [hx] at hm
  · refine at_ok (p := BM.evt m) (a := ()) (s' := { s with ev := d }) (by unfold BM.evt; rw [hx]) ?_
    exact blkStart_at hc (h.moved he) he (hs d hx)
  · show (BM.bind (BM.evt m) _ s).2 ≠ .ub ∧ BSafe c secs none (BM.bind (BM.evt m) _ s).1
    unfold BM.bind BM.evt
    rw [hx]
    exact ⟨fun h => (by cases h), h.moved he⟩
  · exact absurd rfl hm

theorem blkInner_pos (hu : Usable c.evt) (hi : IsolatedPsbs c.evt.pkt.mem) {sync : Nat} : ∀ (n : Nat) (s : Bdec),
    s.ev.pd.pos.getD c.evt.pkt.mem.length < n →
    ∃ d, ((∃ q, blkSyncBackInner c sync n s = ({ s with ev := d }, .ok q) ∧ q < sync ∧ Synced c.evt d) ∨
      (∃ e, blkSyncBackInner c sync n s = ({ s with ev := d }, .err e))) := by
  intro n
  induction n with
  | zero => intro s h; omega
  | succ n ih =>
    intro s hn
    have h1 := evtSyncBackward_total hu.sane hi s.ev
    show ∃ d, ((∃ q, BM.bind (BM.evt (evtSyncBackward c.evt)) _ s = _ ∧ _) ∨ (∃ e, BM.bind (BM.evt (evtSyncBackward c.evt)) _ s = _))
    unfold BM.bind BM.evt
    rcases hx : evtSyncBackward c.evt s.ev with ⟨d, _ | e | _⟩
    · obtain ⟨p, h2, h3, h4⟩ := evtSyncBackward_back hx
      by_cases hle : sync ≤ d.pd.pos.getD 0
      · have := ih { s with ev := d } (by show d.pd.pos.getD _ < n; rw [h2]; simp only [Option.getD_some]; omega)
        show ∃ d', ((∃ q, (if sync ≤ d.pd.pos.getD 0 then blkSyncBackInner c sync n else pure (d.pd.pos.getD 0)) { s with ev := d } = _ ∧ _) ∨
          (∃ e, (if sync ≤ d.pd.pos.getD 0 then blkSyncBackInner c sync n else pure (d.pd.pos.getD 0)) { s with ev := d } = _))
        rw [if_pos hle]
        exact this
      · have h5 := EM.wlp_ok (syncBackward_inv (c := c.evt) hu.time) hx
        refine ⟨d, .inl ⟨d.pd.pos.getD 0, ?_, by omega, h5⟩⟩
        show (if sync ≤ d.pd.pos.getD 0 then blkSyncBackInner c sync n else pure (d.pd.pos.getD 0)) { s with ev := d } = _
        rw [if_neg hle]
        rfl
    · exact ⟨d, .inr ⟨e, rfl⟩⟩
    · rw [hx] at h1; exact absurd rfl h1

theorem blkInner_total (hu : Usable c.evt) (hi : IsolatedPsbs c.evt.pkt.mem) (sync : Nat) (s : Bdec) :
    ∃ d, ((∃ q, blkSyncBackInner c sync c.evt.fuel s = ({ s with ev := d }, .ok q) ∧ q < sync ∧ Synced c.evt d ∧
        s.ev.pd.pos.getD c.evt.pkt.mem.length ≤ c.evt.pkt.mem.length) ∨
      (∃ e, blkSyncBackInner c sync c.evt.fuel s = ({ s with ev := d }, .err e))) := by
  by_cases hle : s.ev.pd.pos.getD c.evt.pkt.mem.length ≤ c.evt.pkt.mem.length
  · obtain ⟨d, ⟨q, h2, h3, h4⟩ | h2⟩ := blkInner_pos (c := c) hu hi (sync := sync) c.evt.fuel s (by unfold EvtCfg.fuel; omega)
    · exact ⟨d, .inl ⟨q, h2, h3, h4, hle⟩⟩
    · exact ⟨d, .inr h2⟩
  · obtain ⟨d, e, h1⟩ := evtSyncBackward_behind (c := c.evt) (s := s.ev) (by omega)
    refine ⟨d, .inr ⟨e, ?_⟩⟩
    unfold EvtCfg.fuel
    show BM.bind (BM.evt (evtSyncBackward c.evt)) _ s = _
    unfold BM.bind BM.evt
    rw [h1]

theorem blkLoop_at (hc : BCfgSafe c secs) (hi : IsolatedPsbs c.evt.pkt.mem) {start : Nat} : ∀ (n sync : Nat) (s : Bdec),
    BSafe c secs none s → 0 < n → (c.evt.pkt.mem.length < s.ev.pd.pos.getD c.evt.pkt.mem.length ∨ sync < n) →
    At c secs none (blkSyncBackLoop c start n sync) s := by
  intro n
  induction n with
  | zero => intro _ _ _ h0; omega
  | succ n ih =>
    intro sync s h _ hn
    unfold blkSyncBackLoop
    refine at_ok (p := BM.modify _) rfl ?_
    have h0 := reset_safe h
    obtain ⟨d, ⟨q, h2, h3, h4, h5⟩ | ⟨e, h2⟩⟩ := blkInner_total (c := c) hc.base.use hi sync (blkReset s)
    · have h5 : s.ev.pd.pos.getD c.evt.pkt.mem.length ≤ c.evt.pkt.mem.length := h5
      refine at_ok h2 ?_
      have h6 := blkStart_at hc (h0.moved (d := d) rfl) rfl h4
      refine at_tryBind h6 wp_any (fun f s1 _ h1 => ?_) fun e s1 _ h1 => ?_
      · dsimp only
        refine at_get ?_
        split
        · exact keep_pure _ h1
        · exact ih _ _ h1 (by omega) (.inr (by omega))
      · cases e <;> dsimp only
        case eos => exact ih _ _ h1 (by omega) (.inr (by omega))
        all_goals exact keep_fail _ h1
    · show (BM.bind (blkSyncBackInner c sync c.evt.fuel) _ (blkReset s)).2 ≠ .ub ∧ BSafe c secs none (BM.bind _ _ (blkReset s)).1
      unfold BM.bind
      rw [h2]
      exact ⟨fun h => (by cases h), h0.moved rfl⟩

theorem keep_forward (hc : BCfgSafe c secs) : Keep c secs none (blkSyncForward c) := fun s h =>
  at_ok (p := BM.modify blkReset) rfl (sync_at hc (reset_safe h) rfl (evtSyncForward_total hc.base.use.sane _)
    fun d h => by have := EM.wlp_ok (syncForward_inv (c := c.evt) hc.base.use.time) h; exact this)

theorem keep_set (hc : BCfgSafe c secs) {off : Nat} : Keep c secs none (blkSyncSet c off) := fun s h =>
  at_ok (p := BM.modify blkReset) rfl (sync_at hc (reset_safe h) rfl (evtSyncSet_total hc.base.use.sane off _)
    fun d h => by have := EM.wlp_ok (syncSet_inv (c := c.evt) hc.base.use.time) h; exact this)

theorem keep_backward (hc : BCfgSafe c secs) (hi : IsolatedPsbs c.evt.pkt.mem) : Keep c secs none (blkSyncBackward c) := fun s h =>
  at_get (blkLoop_at hc hi c.evt.fuel (s.ev.pd.pos.getD c.evt.pkt.mem.length) s h (by unfold EvtCfg.fuel; omega)
    (by unfold EvtCfg.fuel; omega))

/-- One call. -/
theorem blk_step (hc : BCfgSafe c secs) (o : BlkCall) (hb : o = .sync .backward → IsolatedPsbs c.evt.pkt.mem)
    (hi : ∀ img, o = .image img → ∀ m ∈ img.secs, secs m) (h : BSafe c secs none s) :
    ∃ s', o.run c s = some s' ∧ BSafe c secs none s' := by
  have after : ∀ {α : Type} {p : BM α}, At c secs none p s → ∃ s', BlkCall.run.after (p s) = some s' ∧ BSafe c secs none s' := by
    intro α p hp
    refine ⟨(p s).1, ?_, hp.2⟩
    have := hp.1
    unfold BlkCall.run.after
    rcases hr : (p s).2 with _ | _ | _
    · rfl
    · rfl
    · exact absurd hr this
  cases o with
  | next => exact after (keep_blkNext hc s h)
  | event => exact after (keep_blkEvent hc s h)
  | sync o =>
    cases o with
    | forward => exact after (keep_forward hc s h)
    | backward => exact after (keep_backward hc (hb rfl) s h)
    | set off => exact after (keep_set hc s h)
  | image img => exact ⟨_, rfl, ⟨h.ev, hi img rfl, h.maps, h.reqs, h.bc, h.others, h.ret, h.cnt, h.kept⟩⟩
  | forget sec =>
    refine ⟨_, rfl, ⟨h.ev, h.img, h.maps, h.reqs, fun t i => ?_, h.others, h.ret, h.cnt, h.kept⟩⟩
    dsimp only
    split
    · exact fun h => by cases h
    · exact h.bc t i

end Ipt.Blk
