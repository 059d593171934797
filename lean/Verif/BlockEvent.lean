import Verif.BlockTrailing

/-!
# Helper lemmas: `pt_blk_event`
-/

set_option linter.unusedSimpArgs false

namespace Ipt

open Ild Spec Props BM

variable {c : BlkCfg} {f0 f g : Flow} {its : List Item} {s s' : Bdec} {i : Insn} {e : Event} {d : Evd} {out o : List BlkSeen}

/-! ### Processing the event -/

theorem Base.count (h : Base c s f) {n : Option Nat} : Base c s { f with count := n } :=
  ⟨h.enabled, h.ip, h.mode, h.speculative, h.asid, h.sections, h.wf, h.inv, h.insn, h.calls, h.called, h.here, h.bound, h.free,
    h.pend, h.live⟩

theorem Base.space (h : Base c s f) {sc : ScSt} {mp : List (Res Unit)} {a : Asid} (h1 : ScInv sc) (h2 : sc.asid = a)
    (h3 : ∀ m, m ∈ sc.img.secs ↔ m ∈ s.sc.img.secs) : Base c { s with sc := sc, maps := mp } { f with asid := a } :=
  ⟨h.enabled, h.ip, h.mode, h.speculative, h2.symm, fun m => (h3 m).trans (h.sections m), h.wf, h1, h.insn, h.calls, h.called,
    h.here, h.bound, h.free, h.pend, h.live⟩

theorem Base.moved (h : Base c s f) {en en' : Bool} {x x' : Nat} {sp sp' : Bool} {n : Nat} (hi : s.insn = none ∨ en = false)
    (h1 : en' = en) (h2 : x' = x) (h3 : sp' = sp) :
    Base c { s with enabled := en, ip := x, speculative := sp, icnt := n } { f with enabled := en', ip := x', speculative := sp' } :=
  ⟨h1, h2, h.mode, h3, h.asid, h.sections, h.wf, h.inv, h.insn, h.calls, h.called, fun i h1 h2 => (by
    rcases hi with hi | hi
    · rw [show s.insn = some i from h1] at hi; cases hi
    · rw [show en = true from h2] at hi; cases hi), h.bound, h.free, h.pend, h.live⟩

/-- What processing an event does. -/
structure BShown (c : BlkCfg) (s : Bdec) (f : Flow) (e : Event) (s' : Bdec) : Prop where
  allows : f.Allows e
  base : Base c s' (f.apply e)
  ev : s'.ev = s.ev
  event : s'.event = s.event

theorem wp_mapped {Q : Res Unit → Bdec → Prop} {E : Err → Bdec → Prop} :
    wp BM.mapped Q E s ↔ Q (s.maps.headD (.ok ())) { s with maps := s.maps.tail } := Iff.rfl

theorem wp_cached {α : Type} {k : ScSt → ScSt × Res α} {Q : α → Bdec → Prop}
    (h : ∀ a, (k s.sc).2 = .ok a → Q a { s with sc := (k s.sc).1 }) : wp (BM.cache k) Q (fun _ _ => True) s := by
  unfold wp BM.cache
  dsimp only
  rcases hr : (k s.sc).2 with u | er | _ <;> dsimp only
  exact h u hr

theorem paging_shown {v : Nat} (hb : Base c s f) :
    wp (blkProcessPaging v) (fun _ s' => Base c s' { f with asid := { f.asid with cr3 := v } } ∧ s'.ev = s.ev ∧
      s'.event = s.event) (fun _ _ => True) s := by
  unfold blkProcessPaging
  rw [wp_bind, wp_mapped]
  refine wp_cached fun u hr => ?_
  obtain ⟨h1, h2, h3⟩ := setCr3_ok hb.inv hr
  refine ⟨?_, rfl, rfl⟩
  rw [hb.asid]
  exact hb.space h1 h2 h3

theorem vmcs_shown {v : Nat} (hb : Base c s f) :
    wp (blkProcessVmcs v) (fun _ s' => Base c s' { f with asid := { f.asid with vmcs := v } } ∧ s'.ev = s.ev ∧
      s'.event = s.event) (fun _ _ => True) s := by
  unfold blkProcessVmcs
  rw [wp_bind, wp_mapped]
  refine wp_cached fun u hr => ?_
  obtain ⟨h1, h2, h3⟩ := setVmcs_ok hb.inv hr
  refine ⟨?_, rfl, rfl⟩
  rw [hb.asid]
  exact hb.space h1 h2 h3

theorem wp_unless {bad : Bool} {m : BM Unit} {Q : Unit → Bdec → Prop} (h : bad = false → wp m Q (fun _ _ => True) s) :
    wp (unlessAt bad m) Q (fun _ _ => True) s := by
  unfold unlessAt
  rw [wp_ite]
  exact ⟨fun _ => trivial, fun hb => h (by simpa using hb)⟩

theorem process_shown (hb : Base c s f) (hp : f.pend = some e)
    (hi : s.insn = none ∨ Kind.of e.data ≠ none ∨ ∃ ip, e.data = .disabled ip) :
    wp (blkProcessEvent e) (fun _ s' => BShown c s f e s') (fun _ _ => True) s := by
  have hn := (hb.pend e hp).2
  unfold blkProcessEvent
  rw [wp_bind, wp_get]
  have stay : f.Allows e → Base c s (f.apply e) → wp (pure () : BM Unit) (fun _ s' => BShown c s f e s') (fun _ _ => True) s :=
    fun h1 h2 => ⟨h1, h2, rfl, rfl⟩
  have dis : (∃ ip, e.data = .disabled ip) ∨ (∃ a ip, e.data = .asyncDisabled a ip) →
      wp (blkProcessDisabled e) (fun _ s' => BShown c s f e s') (fun _ _ => True) s := by
    intro hd
    have hal : f.Allows e = if e.statusUpdate = true then f.enabled = false else f.enabled = true := by
      rcases hd with ⟨_, hd⟩ | ⟨_, _, hd⟩ <;> (unfold Flow.Allows; rw [hd])
    have hap : f.apply e = if e.statusUpdate = true then f else { f with enabled := false, count := none } := by
      rcases hd with ⟨_, hd⟩ | ⟨_, _, hd⟩ <;> (unfold Flow.apply; rw [hd])
    unfold blkProcessDisabled
    rw [wp_bind, wp_get, wp_ite]
    refine ⟨fun h1 => ?_, fun h1 => ?_⟩
    · rw [wp_ite]
      refine ⟨fun _ => trivial, fun h2 => stay ?_ ?_⟩
      · rw [hal, if_pos h1, hb.enabled]; simpa using h2
      · rw [hap, if_pos h1]; exact hb
    · rw [wp_ite]
      refine ⟨fun _ => trivial, fun h2 => ?_⟩
      rw [wp_modify]
      refine ⟨?_, ?_, rfl, rfl⟩
      · rw [hal, if_neg h1, hb.enabled]; simpa using h2
      · rw [hap, if_neg h1]
        have := hb.moved (en := false) (x := s.ip) (sp := s.speculative) (n := 0) (.inr rfl) rfl hb.ip hb.speculative
        exact this.count
  rcases hx : e.data <;> dsimp only
  all_goals try exact absurd hx (hn.1 _)
  all_goals try exact absurd hx (hn.2 _ _)
  all_goals try
    (refine stay (by unfold Flow.Allows; rw [hx]; trivial) ?_
     unfold Flow.apply; rw [hx]; first | exact hb | exact hb.count)
  all_goals try
    (refine wp_unless fun _ => stay (by unfold Flow.Allows; rw [hx]; trivial) ?_
     unfold Flow.apply; rw [hx]; first | exact hb | exact hb.count)
  · rename_i ip
    have hi : s.insn = none := by
      rcases hi with hi | hi | ⟨_, hi⟩
      · exact hi
      · rw [hx] at hi; exact absurd rfl hi
      · rw [hx] at hi; cases hi
    unfold blkProcessEnabled
    rw [wp_bind, wp_get, wp_ite]
    refine ⟨fun h1 => ?_, fun h1 => ?_⟩
    · rw [wp_ite]
      refine ⟨fun _ => trivial, fun h2 => stay ?_ ?_⟩
      · unfold Flow.Allows; rw [hx]; dsimp only; rw [if_pos h1, hb.enabled]; simpa using h2
      · unfold Flow.apply; rw [hx]; dsimp only; rw [if_pos h1]; exact hb
    · rw [wp_ite]
      refine ⟨fun _ => trivial, fun h2 => ?_⟩
      rw [wp_ite]
      refine ⟨fun _ => trivial, fun h3 => ?_⟩
      rw [wp_modify]
      refine ⟨?_, ?_, rfl, rfl⟩
      · unfold Flow.Allows; rw [hx]; dsimp only; rw [if_neg h1, hb.enabled]; exact ⟨by simpa using h3, by simpa using h2⟩
      · unfold Flow.apply; rw [hx]; dsimp only; rw [if_neg h1]
        have := hb.moved (en := true) (x := ip) (sp := s.speculative) (n := s.icnt) (.inl hi) rfl rfl hb.speculative
        exact this.count
  · exact dis (.inl ⟨_, hx⟩)
  · exact wp_unless fun _ => dis (.inr ⟨_, _, hx⟩)
  · rename_i at_ x
    have hi : s.insn = none := by
      rcases hi with hi | hi | ⟨_, hi⟩
      · exact hi
      · rw [hx] at hi; exact absurd rfl hi
      · rw [hx] at hi; cases hi
    refine wp_unless fun _ => ?_
    unfold blkProcessAsyncBranch
    rw [wp_bind, wp_get, wp_ite]
    refine ⟨fun _ => trivial, fun h1 => ?_⟩
    rw [wp_ite]
    refine ⟨fun _ => trivial, fun h2 => ?_⟩
    rw [wp_modify]
    refine ⟨?_, ?_, rfl, rfl⟩
    · unfold Flow.Allows; rw [hx]; exact ⟨by simpa using h1, by rw [hb.enabled]; simpa using h2⟩
    · unfold Flow.apply; rw [hx]
      have := hb.moved (en := s.enabled) (x := x) (sp := s.speculative) (n := s.icnt) (.inl hi) hb.enabled rfl hb.speculative
      exact this.count
  · refine wp_mono (paging_shown hb) (fun _ s1 h => ⟨?_, ?_, h.2.1, h.2.2⟩) fun _ _ _ => trivial
    · unfold Flow.Allows; rw [hx]; trivial
    · unfold Flow.apply; rw [hx]; exact h.1
  · refine wp_unless fun _ => wp_mono (paging_shown hb) (fun _ s1 h => ⟨?_, ?_, h.2.1, h.2.2⟩) fun _ _ _ => trivial
    · unfold Flow.Allows; rw [hx]; trivial
    · unfold Flow.apply; rw [hx]; exact h.1
  · rename_i ip
    have hi : s.insn = none := by
      rcases hi with hi | hi | ⟨_, hi⟩
      · exact hi
      · rw [hx] at hi; exact absurd rfl hi
      · rw [hx] at hi; cases hi
    unfold blkProcessOverflow
    rw [wp_ite]
    refine ⟨fun _ => trivial, fun h1 => ?_⟩
    rw [wp_modify]
    have hal : f.Allows e := by unfold Flow.Allows; rw [hx]; simpa using h1
    by_cases h2 : e.ipSuppressed = true
    · rw [if_pos h2]
      refine ⟨hal, ?_, rfl, rfl⟩
      unfold Flow.apply; rw [hx]; dsimp only; rw [if_pos h2]
      have := hb.moved (en := false) (x := 0) (sp := false) (n := s.icnt) (.inl hi) rfl rfl rfl
      exact this.count
    · rw [if_neg h2]
      refine ⟨hal, ?_, rfl, rfl⟩
      unfold Flow.apply; rw [hx]; dsimp only; rw [if_neg h2]
      have := hb.moved (en := true) (x := ip) (sp := false) (n := s.icnt) (.inl hi) rfl rfl rfl
      exact this.count
  · rename_i m ip
    refine wp_unless fun _ => ?_
    unfold blkProcessExecMode
    rw [wp_bind, wp_get, wp_ite]
    refine ⟨fun _ => trivial, fun h1 => ?_⟩
    rw [wp_modify, modeOf_eq]
    refine ⟨?_, ?_, rfl, rfl⟩
    · unfold Flow.Allows; rw [hx]; dsimp only
      rw [hb.enabled, hb.mode]
      intro a1 a2
      by_cases h3 : s.mode = .unknown
      · exact .inl h3
      · by_cases h4 : s.mode = modeOf m
        · exact .inr (by rw [h4, modeOf_eq])
        · exact absurd ⟨a1, a2, h3, h4⟩ h1
    · unfold Flow.apply; rw [hx]
      exact ⟨hb.enabled, hb.ip, rfl, hb.speculative, hb.asid, hb.sections, hb.wf, hb.inv, hb.insn, hb.calls, hb.called,
        hb.here, hb.bound, hb.free, hb.pend, hb.live⟩
  · rename_i sp ab ip
    refine wp_unless fun _ => ?_
    rw [wp_modify]
    refine ⟨?_, ?_, rfl, rfl⟩
    · unfold Flow.Allows; rw [hx]; trivial
    · unfold Flow.apply; rw [hx]
      exact ⟨hb.enabled, hb.ip, hb.mode, rfl, hb.asid, hb.sections, hb.wf, hb.inv, hb.insn, hb.calls, hb.called,
        hb.here, hb.bound, hb.free, hb.pend, hb.live⟩
  · unfold blkProcessStop
    rw [wp_bind, wp_get, wp_ite]
    refine ⟨fun _ => trivial, fun h1 => ?_⟩
    rw [wp_ite]
    refine ⟨fun _ => trivial, fun h2 => stay ?_ ?_⟩
    · unfold Flow.Allows; rw [hx]; exact ⟨by simpa using h1, by rw [hb.enabled]; simpa using h2⟩
    · unfold Flow.apply; rw [hx]; exact hb
  · refine wp_mono (vmcs_shown hb) (fun _ s1 h => ⟨?_, ?_, h.2.1, h.2.2⟩) fun _ _ _ => trivial
    · unfold Flow.Allows; rw [hx]; trivial
    · unfold Flow.apply; rw [hx]; exact h.1.count
  · refine wp_unless fun _ => wp_mono (vmcs_shown hb) (fun _ s1 h => ⟨?_, ?_, h.2.1, h.2.2⟩) fun _ _ _ => trivial
    · unfold Flow.Allows; rw [hx]; trivial
    · unfold Flow.apply; rw [hx]; exact h.1.count
  · rw [wp_modify]
    refine ⟨?_, ?_, rfl, rfl⟩
    · unfold Flow.Allows; rw [hx]; trivial
    · unfold Flow.apply; rw [hx]
      exact ⟨hb.enabled, hb.ip, hb.mode, hb.speculative, hb.asid, hb.sections, hb.wf, hb.inv, hb.insn, hb.calls, hb.called,
        hb.here, hb.bound, hb.free, hb.pend, hb.live⟩
  all_goals
    rw [wp_ite]
    refine ⟨fun _ => trivial, fun h1 => stay ?_ ?_⟩
    · unfold Flow.Allows; rw [hx]; simpa using h1
    · unfold Flow.apply; rw [hx]; exact hb

/-! ### Then the next event is fetched -/

theorem _root_.Ipt.Spec.Flow.BlkSteps.append {f0 f g : Flow} {rest its its' : List Item} {out o : List BlkSeen}
    (h : f0.BlkSteps c (its' ++ rest) its out f) (h' : f.BlkSteps c rest its' o g) :
    f0.BlkSteps c rest (its ++ its') (out ++ o) g := by
  induction h with
  | nil f => exact h'
  | cons a b ih =>
    rw [List.append_assoc, List.append_assoc]
    exact .cons (by rw [List.append_assoc]; exact a) (ih h')

/-- Some steps that take no items. -/
theorem Trail.quiets (h : Trail c d f0 out s f) (hs : ∀ rest, f.BlkSteps c rest [] o g) (hl : leftover s' g = leftover s f)
    (he : s'.event ≠ none → s.event ≠ none ∧ s'.ev = s.ev) (hw : g.pend = f.pend ∧ s'.event = s.event)
    (hz : s'.event = none → s.event = none ∧ s'.status = s.status := by first | exact fun h => ⟨h, rfl⟩ | (intro h; cases h)) :
    Trail c d f0 (out ++ o) s' g := by
  obtain ⟨its, h1, es, h2, h3, hE, h4⟩ := h
  refine ⟨its, fun rest hr => ?_, es, h2, fun hn => ?_, fun hn => (by rw [(hz hn).2]; exact hE (hz hn).1), by rw [hl]; exact h4⟩
  · have : Fair s f ([] ++ rest) := fun hp hx => hr (hw.1.trans hp) (by rw [hw.2]; exact hx)
    have := (h1 _ this).append (hs rest)
    rwa [List.append_nil] at this
  obtain ⟨a, b⟩ := he hn
  rw [b]
  exact h3 a

/-- Some steps after which the event is not pending any more, and then the next event. -/
theorem Trail.shown (h : Trail c d f0 out s f) (hp : f.pend = some e) (hs : ∀ rest, f.BlkSteps c rest [] o g) (hg : g.pend = none)
    (he : s.event ≠ none) (hf : (∃ e', evtNext c.evt s.ev = (s'.ev, .ok e') ∧ s'.event = some e') ∨
      ∃ x, evtNext c.evt s.ev = (s'.ev, .err x) ∧ s'.event = none ∧ s'.status = some x) :
    Trail c d f0 (out ++ o) s' g := by
  obtain ⟨its, h1, es, h2, h3, -, h4⟩ := h
  have hl : leftover s f = [] := by unfold leftover; rw [hp]
  rw [hl, List.append_nil] at h4
  have h5 := h3 he
  have h1 : ∀ rest, Fair s' g rest → f0.BlkSteps c rest its (out ++ o) g := by
    intro rest _
    have := (h1 ([] ++ rest) fun hq => by rw [hp] at hq; cases hq).append (hs rest)
    rwa [List.append_nil] at this
  rcases hf with ⟨e', hf, h6⟩ | ⟨x, hf, h6, h8⟩
  · refine ⟨its, h1, es ++ [e'], h2.snoc (by rw [h5]; exact hf), fun _ => ?_, fun h => (by rw [h6] at h; cases h), ?_⟩
    · rw [List.length_append, List.length_singleton, evtFinal_snoc, h5, next_run hf]
    · unfold leftover
      rw [hg, h6]
      dsimp only
      rw [List.flatMap_append]
      refine h4.append ?_
      rw [show [e'].flatMap blkItems = blkItems e' by simp]
      exact .rfl _
  · refine ⟨its, h1, es, h2, fun hn => absurd h6 hn, fun _ => ⟨x, h8, by rw [h5, hf]⟩, ?_⟩
    unfold leftover
    rw [hg, h6]
    dsimp only
    rw [List.append_nil]
    exact h4

/-- Fetching the next event and proceeding to it. -/
theorem show_done (henv : c.env.Ok) {s1 : Bdec} (ht : Trail c d f0 out s f) (hp : f.pend = some e) (hs : ∀ rest, f.BlkSteps c rest [] o g)
    (hg : g.pend = none) (hb : Base c s1 g) (hev : s1.ev = s.ev) (he : s1.event = some e) (he0 : s.event = some e) {n : Nat} :
    wp (do fetchEvent c; trailingEvent c false n) (Done c d f0 (out ++ o)) (fun _ _ => True) s1 := by
  rw [wp_bind]
  refine wp_fetch he (fun _ _ _ => trivial) ?_
  intro s' h1 h2 h3 h4 h5 h6 h7 h8 h9 h10 h11
  refine trailing_done henv n s' g ?_ (ht.shown hp hs hg (by rw [he0]; simp) ?_) (fun h => by cases h)
  · refine hb.congr ?_ (fun m => by rw [h6]) (fun e he => by rw [hg] at he; cases he) ?_
    · unfold Bdec.core; rw [h1, h4, h5]
    · rcases h10 with ⟨e', a, b, x⟩ | ⟨x, a, b, y⟩
      · rw [b, x]
        have := hb.live.2 (by rw [he]; simp)
        rw [this]; simp
      · rw [b, y]; simp
  · rw [← hev]
    rcases h10 with ⟨e', a, b, -⟩ | ⟨x, a, b, y⟩
    · exact .inl ⟨e', a, b⟩
    · exact .inr ⟨x, a, b, y⟩

/-! ### `pt_blk_event` -/

theorem event_wp (hst : s.status = none) (he : s.event = some e) (hn : Normal e)
    (h : wp (blkProcessEvent e) (fun _ s1 => wp (do fetchEvent c; trailingEvent c false c.evt.fuel)
      (Done c d f0 (out ++ [.event e (blkResumed s e)])) (fun _ _ => True) s1) (fun _ _ => True) s) :
    wp (blkEvent c) (fun o s' => Done c d f0 (out ++ [.event o.event o.resumed]) o.flags s') (fun _ _ => True) s := by
  have main : wp (do blkProcessEvent e; fetchEvent c; let f ← trailingEvent c false c.evt.fuel; pure ⟨e, blkResumed s e, f⟩)
      (fun (o : EventOut) s' => Done c d f0 (out ++ [.event o.event o.resumed]) o.flags s') (fun _ _ => True) s := by
    rw [wp_bind]
    refine wp_mono h (fun _ s1 h1 => ?_) fun _ _ _ => trivial
    rw [wp_bind] at h1 ⊢
    refine wp_mono h1 (fun _ s2 h2 => ?_) fun _ _ _ => trivial
    rw [wp_bind]
    exact wp_mono h2 (fun _ s3 h3 => h3) fun _ _ _ => trivial
  unfold blkEvent
  rw [wp_bind, wp_get, hst]
  dsimp only
  rw [he]
  dsimp only
  rcases hx : e.data <;> dsimp only <;> first | exact absurd hx (hn.2 _ _) | exact main

theorem mark_base {k : Kind} (h : Base c s f) (hi : s.insn = some i) : Base c (s.mark k) { f with bound := k :: f.bound } := by
  have hc : (s.mark k).insn = s.insn ∧ (s.mark k).retstack = s.retstack ∧ (s.mark k).enabled = s.enabled ∧ (s.mark k).ip = s.ip ∧
      (s.mark k).mode = s.mode ∧ (s.mark k).speculative = s.speculative ∧ (s.mark k).sc = s.sc ∧ (s.mark k).event = s.event ∧
      (s.mark k).status = s.status := by cases k <;> exact ⟨rfl, rfl, rfl, rfl, rfl, rfl, rfl, rfl, rfl⟩
  obtain ⟨h1, h2, h3, h4, h5, h6, h7, h8, h9⟩ := hc
  refine ⟨h.enabled.trans h3.symm, h.ip.trans h4.symm, h.mode.trans h5.symm, h.speculative.trans h6.symm, by rw [h7]; exact h.asid,
    by rw [h7]; exact h.sections, h.wf, by rw [h7]; exact h.inv, h.insn.trans h1.symm, by rw [h1, h2]; exact h.calls,
    by rw [h1, h2]; exact h.called, by rw [h1, h3, h4]; exact h.here, fun k' => ?_, (by rw [h1, hi]; intro h; cases h),
    by rw [h8]; exact h.pend, by rw [h8, h9]; exact h.live⟩
  have := h.bound k'
  rw [List.mem_cons, this]
  cases k <;> cases k' <;> simp [Bdec.mark, Bdec.boundTo]

theorem apply_bound {k : Kind} {l : Option Nat} {x : List Kind} (hk : Kind.of e.data = some (k, l)) :
    ({ f with bound := x } : Flow).apply e = { f.apply e with bound := x } := by
  unfold Flow.apply
  rcases hx : e.data <;> first | rfl | (rw [hx] at hk; cases hk)

theorem resumed_none {k : Kind} {l : Option Nat} (hk : Kind.of e.data = some (k, l)) : blkResumed s e = false := by
  unfold blkResumed
  rcases hx : e.data <;> first | rfl | (rw [hx] at hk; cases hk)

theorem resumed_eq (hb : f.ip = s.ip) : blkResumed s e = f.resumes e := by
  unfold blkResumed Flow.resumes
  rcases e.data <;> dsimp only
  rw [hb]
  exact Bool.beq_comm

/-- `pt_blk_event` -/
theorem event_done (henv : c.env.Ok) (ht : Trail c d f0 out s f) (hp : Pending c s f) :
    wp (blkEvent c) (fun o s' => Done c d f0 (out ++ [.event o.event o.resumed]) o.flags s') (fun _ _ => True) s := by
  cases hp with
  | doomed h =>
    rcases h with h | ⟨e, ip, h1, h2, h3⟩
    · unfold blkEvent
      rw [wp_bind, wp_get]
      rcases hst : s.status with _ | er
      · exact absurd hst h
      · trivial
    · rcases hst : s.status with _ | er
      swap
      · unfold blkEvent
        rw [wp_bind, wp_get, hst]
        trivial
      refine event_wp hst h1 ⟨fun _ => by rw [h2]; simp, fun _ _ => by rw [h2]; simp⟩ ?_
      unfold blkProcessEvent
      rw [wp_bind, wp_get, h2]
      dsimp only
      unfold blkProcessDisabled
      rw [wp_bind, wp_get, wp_ite]
      refine ⟨fun h4 => ?_, fun h4 => ?_⟩
      · rw [if_pos (h3.symm.trans h4)]
        trivial
      · rw [if_pos (by rw [← h3]; simpa using h4)]
        trivial
  | event e hb hp hi hc =>
    obtain ⟨he, hn⟩ := hb.pend e hp
    have hst := hb.live.2 (by rw [he]; simp)
    refine event_wp hst he hn (wp_mono (process_shown hb hp ?_) (fun _ s1 h => ?_) fun _ _ _ => trivial)
    · rcases hi with hi | hi
      · exact .inl hi
      · exact .inr hi.2
    · rw [resumed_eq hb.ip]
      have hst : ∀ rest, f.BlkStep c rest [] [.event e (f.resumes e)] { f.apply e with pend := none } := by
        intro rest
        refine .event f e hp ?_ hc h.allows
        rcases hi with hi | hi
        · exact .inl (hb.insn.trans hi)
        · exact .inr (hb.enabled.trans hi.1)
      exact show_done henv ht hp (fun rest => by have := (Flow.BlkSteps.nil f).snoc (hst rest); simpa using this) rfl h.base.give h.ev
        (h.event.trans he) he
  | belongs s1 e k l i hb hs hbo hen hin hp hk hbl =>
    subst hs
    have hm := mark_base (k := k) hb hin
    obtain ⟨he, hn⟩ := hm.pend e hp
    have hst := hm.live.2 (by rw [he]; simp)
    refine event_wp hst he hn (wp_mono (process_shown hm hp ?_) (fun _ s1 h => ?_) fun _ _ _ => trivial)
    · exact .inr (.inl (by rw [hk]; simp))
    · rw [resumed_none hk]
      have hst : ∀ rest, f.BlkStep c rest [] [.event e false] { f.apply e with pend := none, bound := k :: f.bound } := by
        intro rest
        refine .belongs f e k l i (hb.enabled.trans hen) hp (hb.insn.trans hin) hk hbl fun hx => ?_
        rw [hb.bound, hbo] at hx
        cases hx
      have hba := h.base
      rw [apply_bound hk] at hba
      exact show_done henv ht hp (fun rest => by have := (Flow.BlkSteps.nil f).snoc (hst rest); simpa using this) rfl hba.give h.ev
        (h.event.trans he) he
  | leaving s1 e ip t i hb hin hen hp hx hsu hl hs =>
    obtain ⟨he, hn⟩ := hb.pend e hp
    have hst := hb.live.2 (by rw [he]; simp)
    have hap : f.apply e = { f with enabled := false, count := none } := by
      unfold Flow.apply; rw [hx]; dsimp only; rw [if_neg (by rw [hsu]; decide)]
    have step : ∀ rest, f.BlkStep c rest [] [.event e false] { f.apply e with pend := none, ip := t } := fun rest =>
      .disable f e ip t i (hb.enabled.trans hen) hp (hb.insn.trans hin) hx hsu hl
    have steps : ∀ rest, f.BlkSteps c rest [] [.event e false] { f.apply e with pend := none, ip := t } := by
      intro rest
      have := (Flow.BlkSteps.nil f).snoc (step rest); simpa using this
    have hs2 : s.status = none ∧ s.event = some e ∧ s.enabled = true ∧ s.ev = s1.ev := by
      rcases hs with hs | ⟨hs, -⟩ <;> (subst hs; exact ⟨hst, he, hen, rfl⟩)
    refine event_wp hs2.1 hs2.2.1 hn ?_
    have hre : blkResumed s e = false := by unfold blkResumed; rw [hx]
    unfold blkProcessEvent
    rw [wp_bind, wp_get, hx]
    dsimp only
    unfold blkProcessDisabled
    rw [wp_bind, wp_get, if_neg (by rw [hsu]; decide), if_neg (by rw [hs2.2.2.1]; decide), wp_modify, hre]
    rcases hs with hs | ⟨hs, hbd⟩
    · refine show_done (s1 := { s with enabled := false, icnt := 0 }) henv ht hp steps rfl ?_ rfl hs2.2.1 hs2.2.1
      rw [hap]
      subst hs
      exact ⟨rfl, rfl, hb.mode, hb.speculative, hb.asid, hb.sections, hb.wf, hb.inv, hb.insn, hb.calls, hb.called,
        fun i h1 h2 => (by cases h2), hb.bound, hb.free, fun _ h => (by cases h), hb.live⟩
    · have st2 : ∀ rest, ({ f.apply e with pend := none, ip := t } : Flow).BlkStep c rest [] [] _ := fun rest =>
        .drop _ i (by rw [hap]) (by rw [hap]; exact hb.insn.trans hin)
      refine show_done (s1 := { s with enabled := false, icnt := 0 }) henv ht hp (fun rest => by have := (steps _).snoc (st2 rest); simpa using this) rfl ?_ rfl hs2.2.1 hs2.2.1
      rw [hap]
      subst hs
      exact ⟨rfl, rfl, hb.mode, hb.speculative, hb.asid, hb.sections, hb.wf, hb.inv, rfl, fun _ => (hb.called i hin).1,
        fun i h1 => (by cases h1), fun i h1 h2 => (by cases h2), fun k => (by rw [← hbd]; exact hb.bound k), fun _ => rfl, fun _ h => (by cases h), hb.live⟩
  | tick e b n hb he hx htk hp hi =>
    have hst := hb.live.2 (by rw [he]; simp)
    unfold blkEvent
    rw [wp_bind, wp_get, hst]
    dsimp only
    rw [he]
    dsimp only
    rw [hx]
    dsimp only
    unfold blkTickEvent
    rw [wp_bind, wp_get, if_neg (by rw [htk]; decide), wp_ite]
    refine ⟨fun _ => trivial, fun h1 => ?_⟩
    rw [wp_bind, wp_modify, wp_bind]
    generalize hs1 : ({ s with hasTsc := true, tsc := e.tsc, lostMtc := e.lostMtc, lostCyc := e.lostCyc } : Bdec) = s1
    generalize hev : ({ data := .tick s.ip, hasTsc := true, tsc := e.tsc, lostMtc := e.lostMtc, lostCyc := e.lostCyc } : Event) = ev
    have hevd : ev.data = .tick s.ip := by subst hev; rfl
    have hb1 : Base c s1 f := by
      subst hs1
      exact ⟨hb.enabled, hb.ip, hb.mode, hb.speculative, hb.asid, hb.sections, hb.wf, hb.inv, hb.insn, hb.calls, hb.called,
        hb.here, hb.bound, hb.free, hb.pend, hb.live⟩
    have hs : ∀ rest, f.BlkSteps c rest [] [.event ev false] f := by
      intro rest
      have a := (Flow.BlkSteps.nil f).snoc (rest := rest) (.tick f ev s.ip htk hp hevd)
      have b := a.snoc (.event { f with pend := some ev } ev rfl (.inl (hb.insn.trans hi)) ?_ ?_)
      · have hr : ({ f with pend := some ev } : Flow).resumes ev = false := by unfold Flow.resumes; rw [hevd]
        have hap : ({ ({ f with pend := some ev } : Flow).apply ev with pend := none } : Flow) = f := by
          unfold Flow.apply; rw [hevd]; dsimp only; rw [← hp]
        rw [hr, hap] at b
        simpa using b
      · unfold Flow.Comes; rw [hevd]
        dsimp only
        refine ⟨fun h => absurd rfl h, fun x hl => ?_, .inl ?_⟩
        · unfold location at hl; rw [hevd] at hl; cases hl
        · unfold countdown; rw [hevd]
      · unfold Flow.Allows; rw [hevd]; trivial
    have ht1 : Trail c d f0 (out ++ [.event ev false]) s1 f := by
      subst hs1
      exact ht.quiets hs rfl (fun h => ⟨h, rfl⟩) ⟨rfl, rfl⟩
    have fin : ∀ s2, Base c s2 f → Trail c d f0 (out ++ [.event ev false]) s2 f →
        wp (do let f ← trailingEvent c false c.evt.fuel; pure (⟨ev, false, f⟩ : EventOut))
          (fun o s' => Done c d f0 (out ++ [.event o.event o.resumed]) o.flags s') (fun _ _ => True) s2 := by
      intro s2 h1 h2
      rw [wp_bind]
      exact wp_mono (trailing_done henv _ s2 f h1 h2 (fun h => by cases h)) (fun _ s3 h3 => h3) fun _ _ _ => trivial
    unfold BM.when
    rw [wp_ite]
    refine ⟨fun hn => ?_, fun hn => ?_⟩
    · have hl : leftover s1 f = [] := by
        unfold leftover blkItems items
        subst hs1
        rw [hp, he]
        dsimp only
        rw [hx, show n = 0 by simpa using hn]
        rfl
      exact wp_mono (fetch_base hb1 ht1 hl hp (e := e) (by subst hs1; exact he)) (fun _ s2 h => fin s2 h.2.1 h.1) fun _ _ _ => trivial
    · exact fin s1 hb1 ht1

end Ipt
