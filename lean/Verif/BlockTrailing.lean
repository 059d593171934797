import Verif.BlockPost

/-!
# Helper lemmas: proceeding with a trailing event
-/

set_option linter.unusedSimpArgs false

namespace Ipt

open Ild Spec Props BM

variable {c : BlkCfg} {f0 f g : Flow} {its : List Item} {s s' : Bdec} {i : Insn} {e : Event} {d : Evd} {out : List BlkSeen}

theorem comes_disabled {ip : Nat} (hd : e.data = .disabled ip) (h : e.statusUpdate = true ∨ (e.ipSuppressed = false ∧ f.ip = ip)) :
    f.Comes e := by
  unfold Flow.Comes
  rw [hd]
  exact h

/-- Tracing is disabled: the address changes. -/
theorem Base.resume (h : Base c s f) (he : s.enabled = false) {t : Nat} : Base c { s with ip := t } { f with ip := t } :=
  ⟨h.enabled, rfl, h.mode, h.speculative, h.asid, h.sections, h.wf, h.inv, h.insn, h.calls, h.called,
    fun i hi hn => (by rw [show s.enabled = true from hn] at he; cases he), h.bound, h.free, h.pend, h.live⟩

theorem trailingDisabled_done {ip : Nat} (hb : Base c s f) (ht : Trail c d f0 out s f) (hp : f.pend = some e)
    (hd : e.data = .disabled ip) : wp (trailingDisabled c e ip) (Done c d f0 out) (fun _ _ => True) s := by
  have hk : Kind.of e.data = none := by rw [hd]; rfl
  have hev := (hb.pend e hp).1
  -- Shown while tracing is disabled, or failing.
  have off : ∀ {s1 : Bdec} {f1 : Flow}, Base c s1 f1 → Trail c d f0 out s1 f1 → f1.pend = some e → s1.enabled = false →
      wp (blkStatus true) (Done c d f0 out) (fun _ _ => True) s1 := by
    intro s1 f1 h1 h2 h3 h4
    rcases hu : e.statusUpdate with _ | _
    · exact status_done (.doomed (.inr ⟨e, ip, (h1.pend e h3).1, hd, by rw [hu, h4]⟩)) h2
    · exact status_done (.event e h1 h3 (.inr ⟨h4, .inr ⟨ip, hd⟩⟩) (comes_disabled hd (.inl hu))) h2
  have on : ∀ {i : Insn} {t : Nat}, s.insn = some i → s.enabled = true → Leaves c e i t →
      wp (blkStatus true) (Done c d f0 out) (fun _ _ => True) { s with ip := t } := by
    intro i t hi hen hl
    have ht' : Trail c d f0 out { s with ip := t } f := ht.still rfl fun h => ⟨h, rfl⟩
    rcases hu : e.statusUpdate with _ | _
    · exact status_done (.leaving s e ip t i hb hi hen hp hd hu hl (.inl rfl)) ht'
    · exact status_done (.doomed (.inr ⟨e, ip, hev, hd, by rw [hu]; exact hen.symm⟩)) ht'
  unfold trailingDisabled
  rw [wp_bind, wp_get]
  rcases hi : s.insn with _ | i
  · exact noTrailing_done hb ht (frees_none hi) (ready_pend hp)
  dsimp only
  obtain ⟨hcl, hsh⟩ := hb.called i hi
  rw [wp_ite]
  refine ⟨fun hcr => ?_, fun _ => ?_⟩
  · rcases hen : s.enabled with _ | _
    · exact off hb ht hp hen
    · exact on (t := s.ip) hi hen (.inr ⟨hcr.1, .inl hcr.2, (hb.here i hi hen).symm⟩)
  rw [wp_bind, wp_try]
  refine wp_mono (nextInsn_exec (calls := f.calls) hsh) (fun _ s1 h1 => ?_) fun er s1 h1 => ?_
  · obtain ⟨t, h2, h3, rfl⟩ := h1
    dsimp only
    rw [wp_bind, wp_modify, wp_bind, wp_get]
    -- Executed, or forgotten.
    have hfr : ∃ f', Freed c d f0 out s f (clearPostponedInsn { s with ip := t }) f' ∧ f'.ip = t := by
      have hcb := hb.clear (late := f.late) (s' := { s with ip := t }) (t := t) hcl (fun e he => (hb.pend e he).1) hb.live rfl rfl rfl rfl
      have hcb' := hb.clear (late := f.late || false) (s' := { s with ip := t }) (t := t) hcl (fun e he => (hb.pend e he).1) hb.live rfl rfl rfl rfl
      rcases Bool.eq_false_or_eq_true s.enabled with hen | hen
      swap
      · have st1 := fun rest => Flow.BlkStep.resume (c := c) (rest := rest) f i t (hb.enabled.trans hen) (hb.insn.trans hi) h3
        have t1 := ht.quiet (s' := { s with ip := t }) st1 (leftover_event rfl) fun h => ⟨h, rfl⟩
        have st2 := fun rest => Flow.BlkStep.drop (c := c) (rest := rest) { f with ip := t } i (hb.enabled.trans hen) (hb.insn.trans hi)
        have t2 := t1.quiet (s' := clearPostponedInsn { s with ip := t }) st2 (leftover_event rfl) fun h => ⟨h, rfl⟩
        rw [List.append_nil, List.append_nil] at t2
        exact ⟨_, ⟨t2, hcb, rfl, rfl, fun _ h => h, fun _ => rfl, fun h => (by rw [hi] at h; cases h), ready_pend hp⟩, rfl⟩
      · have st := fun rest => Flow.BlkStep.exec (c := c) (rest := rest) f i [] t _ (hb.enabled.trans hen) (hb.insn.trans hi) h2
          (fun e k l a b => frees_kind hp hk i e k l hi a b) fun h => by rw [hp] at h; cases h
        have t1 := ht.quiet (s' := clearPostponedInsn { s with ip := t }) st (leftover_event rfl) fun h => ⟨h, rfl⟩
        rw [List.append_nil] at t1
        exact ⟨_, ⟨t1, hcb', rfl, rfl, fun _ h => h, fun _ => rfl, fun h => (by rw [hi] at h; cases h), ready_pend hp⟩, rfl⟩
    obtain ⟨f', h4, h5⟩ := hfr
    rw [wp_ite]
    refine ⟨fun h6 => ?_, fun _ => noTrailing_done h4.base h4.trail (frees_none h4.insn) h4.ready⟩
    exact status_done (.event e h4.base (h4.pend e hp) (.inl h4.insn) (comes_disabled hd (.inr ⟨h6.1, by rw [h5]; exact h6.2⟩)))
      h4.trail
  · obtain ⟨rfl, h2⟩ := h1
    split
    · rename_i heq
      cases heq
      rw [wp_bind, wp_modify, setDisable_eq]
      have hres := asking_resume (s := s1) (h2 rfl) hsh.1
      rcases Bool.eq_false_or_eq_true s1.enabled with hen | hen
      swap
      · have st1 := fun rest => Flow.BlkStep.resume (c := c) (rest := rest) f i _ (hb.enabled.trans hen) (hb.insn.trans hi) hres
        have t1 := ht.quiet (s' := { s1 with ip := (setDisableResumeIp i s1).ip }) st1 (leftover_event rfl) fun h => ⟨h, rfl⟩
        rw [List.append_nil] at t1
        exact off (hb.resume hen) t1 hp hen
      · exact on hi hen (.inl ⟨h2 rfl, hres⟩)
    · trivial
    · trivial
    · rename_i heq
      cases heq

/-- Reading the image. -/
theorem Base.looked (h : Base c s f) (hl : Looked s s' f) : Base c s' f := by
  have hst := hl.state
  refine h.congr ?_ (fun m => (hl.sections m).trans (h.sections m).symm) (fun e he => ?_) ?_
  · rw [hst]; rfl
  · rw [hst]; exact (h.pend e he).1
  · rw [hst]; exact h.live

theorem Trail.looked (h : Trail c d f0 out s f) (hl : Looked s s' f) : Trail c d f0 out s' f := by
  have hst := hl.state
  refine h.still (by rw [hst]) (fun hn => ⟨?_, by rw [hst]⟩) fun hn => ⟨?_, by rw [hst]⟩ <;> (rw [hst] at hn; exact hn)

theorem Base.note (h : Base c s f) {e' : Event} (hn : Normal e') :
    Base c { s with event := some e' } { f with pend := some e' } ∨ s.event = none := by
  rcases he : s.event with _ | x
  · exact .inr rfl
  · refine .inl ⟨h.enabled, h.ip, h.mode, h.speculative, h.asid, h.sections, h.wf, h.inv, h.insn, h.calls, h.called, h.here, h.bound, h.free,
      fun e1 he1 => by cases he1; exact ⟨rfl, hn⟩, ?_⟩
    have := h.live
    rw [he] at this
    simpa using this

/-- The event changes. -/
theorem note_done (hb : Base c s f) (ht : Trail c d f0 out s f) (hp : f.pend = some e) {e' : Event} (hn : Normal e')
    (hw : f.Waits c 0 e [] f e') :
    Base c { s with event := some e' } { f with pend := some e' } ∧
    Trail c d f0 out { s with event := some e' } { f with pend := some e' } := by
  have hev := (hb.pend e hp).1
  refine ⟨?_, ?_⟩
  · rcases hb.note hn with h | h
    · exact h
    · rw [hev] at h; cases h
  · have := ht.quiet (s' := { s with event := some e' }) (fun _ => .note f e e' hp hw) ?_ ?_ (.inl (by rw [hp]; simp))
    · rwa [List.append_nil] at this
    · unfold leftover
      rw [hp]
    · intro _
      exact ⟨by rw [hev]; simp, rfl⟩

theorem trailingAsyncDisabled_done (henv : c.env.Ok) {at_ ip : Nat} (hb : Base c s f) (ht : Trail c d f0 out s f)
    (hp : f.pend = some e) (hd : e.data = .asyncDisabled at_ ip) :
    wp (trailingAsyncDisabled c e at_ ip) (Done c d f0 out) (fun _ _ => True) s := by
  have hk : Kind.of e.data = none := by rw [hd]; rfl
  unfold trailingAsyncDisabled
  rw [wp_bind]
  refine wp_mono (postponed_base hb ht (frees_kind hp hk) (ready_pend hp)) (fun _ s1 h1 => ?_) fun _ _ _ => trivial
  obtain ⟨f1, h1⟩ := h1
  have hp1 := h1.pend e hp
  rw [wp_bind, wp_get, wp_ite]
  refine ⟨fun _ => noTrailing_done h1.base h1.trail (frees_none h1.insn) h1.ready, fun hip => ?_⟩
  have hip : s1.ip = at_ := by simpa using hip
  have hcm : f1.Comes e := by
    unfold Flow.Comes
    rw [hd]
    dsimp only
    refine ⟨fun h => absurd rfl h, fun x hx => .inl ?_, .inl ?_⟩
    · unfold location at hx
      rw [hd] at hx
      cases hx
      rw [h1.base.ip]; exact hip
    · unfold countdown; rw [hd]
  rw [wp_ite]
  refine ⟨fun hsk => ?_, fun _ => status_done (.event e h1.base hp1 (.inl h1.insn) hcm) h1.trail⟩
  rw [wp_bind]
  unfold blkSkd022
  rw [wp_bind, wp_get, wp_bind, wp_try]
  refine wp_mono (decodeAt_flow henv h1.base.asid h1.base.sections h1.base.wf) (fun i s2 hi => ?_) fun er s2 hl => ?_
  · obtain ⟨hl, hdec, -⟩ := hi
    have hb2 := h1.base.looked hl
    have ht2 := h1.trail.looked hl
    have hin : s2.insn = none := by rw [hl.state]; exact h1.insn
    dsimp only
    rw [wp_pure, wp_ite]
    refine ⟨fun hb' => ?_, fun _ => status_done (.event e hb2 hp1 (.inl hin) hcm) ht2⟩
    rw [wp_bind, wp_modify]
    have hat : f1.At c.toInsnCfg i := by
      rw [← h1.base.mode, ← hip, ← h1.base.ip] at hdec
      exact hdec.at
    have hi : i.ext.inst = .vmlaunch ∨ i.ext.inst = .vmresume := by simpa using hb'
    have hn : Normal { e with data := .disabled ip } := ⟨by intro ip; simp, by intro b n; simp⟩
    have := note_done hb2 ht2 hp1 hn (.skd022 at_ ip i hsk hd (by rw [h1.base.ip]; exact hip) hat hi (.nil _ _))
    exact noTrailing_done this.1 this.2 (frees_none hin) (ready_pend rfl)
  · dsimp only
    rw [wp_pure, wp_ite]
    have hin : s2.insn = none := by rw [hl.state]; exact h1.insn
    exact ⟨(by intro h; cases h), fun _ => status_done (.event e (h1.base.looked hl) hp1 (.inl hin) hcm) (h1.trail.looked hl)⟩

/-- Erratum BDM64. -/
theorem bdm64_base (henv : c.env.Ok) {spec aborted : Bool} {ip : Nat} (hb : Base c s f) (ht : Trail c d f0 out s f)
    (hp : f.pend = some e) (hi : s.insn = none) (hd : e.data = .tsx spec aborted ip) (hs : e.ipSuppressed = false)
    (hbd : c.evt.pkt.errata.bdm64 = true) :
    wp (blkBdm64 c aborted ip) (fun _ s' => ∃ f', Trail c d f0 out s' f' ∧ Base c s' f' ∧ s'.insn = none ∧ f'.pend = some e)
      (fun _ _ => True) s := by
  unfold blkBdm64
  rw [wp_bind, wp_get, wp_ite, wp_ite]
  have stop : ∀ {s1 : Bdec}, Looked s s1 f → ∃ f', Trail c d f0 out s1 f' ∧ Base c s1 f' ∧ s1.insn = none ∧ f'.pend = some e :=
    fun hl => ⟨f, ht.looked hl, hb.looked hl, by rw [hl.state]; exact hi, hp⟩
  have self : Looked s s f := ⟨rfl, hb.sections⟩
  refine ⟨fun _ => stop self, fun ha => ⟨fun _ => stop self, fun _ => ?_⟩⟩
  have ha : aborted = true := by simpa using ha
  subst ha
  rw [wp_bind, wp_try]
  refine wp_mono (decodeAt_flow henv hb.asid hb.sections hb.wf) (fun i s2 h2 => ?_) fun er s2 hl => stop hl
  obtain ⟨hl, -⟩ := h2
  dsimp only
  rw [wp_ite]
  refine ⟨fun _ => stop hl, fun _ => ?_⟩
  rw [wp_bind, wp_get, wp_bind, wp_try]
  have hb2 := hb.looked hl
  have hr := image_rel (c := c.toInsnCfg) (f := f) henv hb.wf
  have := range_rel hr ip 0x100 (s2.sc.img, s2.maps) { ip := s2.ip, mode := s2.mode } hb2.sections (by simp)
  rw [hb2.asid] at this
  change ∀ m, m ∈ (rangeContiguous (c.reader s2) ip 0x100 (s2.sc.img, s2.maps) { ip := s2.ip, mode := s2.mode }).1.1.secs ↔ _ at this
  have go : ∀ {s3 : Bdec}, Looked s s3 f → ∃ f', Trail c d f0 out { s3 with ip := ip } f' ∧ Base c { s3 with ip := ip } f' ∧
      s3.insn = none ∧ f'.pend = some e := by
    intro s3 hl3
    have hb3 := hb.looked hl3
    have hi3 : s3.insn = none := by rw [hl3.state]; exact hi
    have t1 := (ht.looked hl3).quiet (s' := { s3 with ip := ip })
      (fun _ => .bdm64 f e spec ip hbd hp (hb3.insn.trans hi3) hd hs) (leftover_event rfl) fun h => ⟨h, rfl⟩
    rw [List.append_nil] at t1
    refine ⟨_, t1, ?_, hi3, hp⟩
    exact ⟨hb3.enabled, rfl, hb3.mode, hb3.speculative, hb3.asid, hb3.sections, hb3.wf, hb3.inv, hb3.insn, hb3.calls, hb3.called,
      fun i hi' => (by rw [show s3.insn = some i from hi'] at hi3; cases hi3), hb3.bound, hb3.free, hb3.pend, hb3.live⟩
  have look : ∀ {im : Img} {mp : List (Res Unit)}, (∀ m, m ∈ im.secs ↔ f.sections m) →
      Looked s { s2 with sc := { s2.sc with img := im }, maps := mp } f := by
    intro im mp hm
    refine ⟨?_, hm⟩
    have := hl.state
    rw [this]
  unfold wp BM.image
  dsimp only
  rcases hq : rangeContiguous (c.reader s2) ip 0x100 (s2.sc.img, s2.maps) { ip := s2.ip, mode := s2.mode } with ⟨st, b | er | _⟩ <;>
    rw [hq] at this <;> dsimp only
  · rcases b with _ | _
    · exact go (look this)
    · exact stop (look this)
  · exact go (look this)

theorem trailingTsx_done (henv : c.env.Ok) {spec aborted blk : Bool} {ip : Nat} (hb : Base c s f) (ht : Trail c d f0 out s f)
    (hp : f.pend = some e) (hd : e.data = .tsx spec aborted ip) :
    wp (do
        proceedPostponedInsn c
        if ← postponeTrailingTsx c blk e aborted ip then noTrailing c else blkStatus true) (Done c d f0 out) (fun _ _ => True) s := by
  have hk : Kind.of e.data = none := by rw [hd]; rfl
  rw [wp_bind]
  refine wp_mono (postponed_base hb ht (frees_kind hp hk) (ready_pend hp)) (fun _ s1 h1 => ?_) fun _ _ _ => trivial
  obtain ⟨f1, h1⟩ := h1
  have hp1 := h1.pend e hp
  have comes : ∀ {g : Flow}, (e.ipSuppressed = false → g.ip = ip) → g.Comes e := by
    intro g hg
    unfold Flow.Comes
    rw [hd]
    dsimp only
    refine ⟨fun h => absurd rfl h, fun x hx => .inl ?_, .inl ?_⟩
    · unfold location at hx
      rw [hd] at hx
      dsimp only at hx
      split at hx
      · cases hx
      · cases hx
        exact hg (by simpa using ‹¬ e.ipSuppressed = true›)
    · unfold countdown; rw [hd]
  rw [wp_bind]
  unfold postponeTrailingTsx
  rw [wp_ite]
  refine ⟨fun hs => ?_, fun hs => ?_⟩
  · rw [wp_pure, if_neg (by decide)]
    exact status_done (.event e h1.base hp1 (.inl h1.insn) (comes fun h => by rw [hs] at h; cases h)) h1.trail
  have hs : e.ipSuppressed = false := by simpa using hs
  have rest : ∀ {s2 : Bdec} {f2 : Flow}, Trail c d f0 out s2 f2 → Base c s2 f2 → s2.insn = none → f2.pend = some e →
      wp (do let s ← BM.get; pure (s.ip != ip)) (fun b s' => wp (if b = true then noTrailing c else blkStatus true)
        (Done c d f0 out) (fun _ _ => True) s') (fun _ _ => True) s2 := by
    intro s2 f2 t2 b2 i2 p2
    rw [wp_bind, wp_get, wp_pure, wp_ite]
    refine ⟨fun _ => noTrailing_done b2 t2 (frees_none i2) (ready_pend p2), fun h3 => ?_⟩
    exact status_done (.event e b2 p2 (.inl i2) (comes fun _ => by rw [b2.ip]; simpa using h3)) t2
  rw [wp_bind, wp_when]
  refine ⟨fun h2 => ?_, fun _ => rest h1.trail h1.base h1.insn hp1⟩
  simp only [Bool.and_eq_true] at h2
  refine wp_mono (bdm64_base henv h1.base h1.trail hp1 h1.insn hd hs h2.2) (fun _ s2 h3 => ?_) fun _ _ _ => trivial
  obtain ⟨f2, t2, b2, i2, p2⟩ := h3
  exact rest t2 b2 i2 p2

theorem trailingTrig_done {a n ip : Nat} {m : Bool} (hb : Base c s f) (ht : Trail c d f0 out s f) (hp : f.pend = some e)
    (hd : e.data = .trig a n m ip) : wp (trailingTrig c e a n m ip) (Done c d f0 out) (fun _ _ => True) s := by
  have hk : Kind.of e.data = none := by rw [hd]; rfl
  unfold trailingTrig
  rw [wp_bind]
  refine wp_mono (postponed_base hb ht (frees_kind hp hk) (ready_pend hp)) (fun _ s1 h1 => ?_) fun _ _ _ => trivial
  obtain ⟨f1, h1⟩ := h1
  have hp1 := h1.pend e hp
  have comes : ∀ {g : Flow} {e' : Event} {n ip : Nat}, e'.data = .trig a n m ip →
      (g.enabled = false ∨ e'.ipSuppressed = true ∨ (n = 0 ∧ g.ip = ip)) → g.Comes e' := by
    intro g e' n ip hd hg
    unfold Flow.Comes
    rw [hd]
    dsimp only
    refine ⟨fun h => absurd rfl h, fun x hx => ?_, ?_⟩
    · unfold location at hx
      rw [hd] at hx
      dsimp only at hx
      split at hx
      · cases hx
      · cases hx
        rw [hd]
        dsimp only
        rcases hg with h | h | h
        · exact .inr ⟨h, trivial⟩
        · contradiction
        · exact .inl h.2
    · unfold countdown
      rw [hd]
      dsimp only
      rcases hg with h | h | h
      · exact .inr h
      · rw [if_pos h]; exact .inl rfl
      · rw [h.1]; simp
  rw [wp_bind, wp_get, wp_ite]
  refine ⟨fun h2 => ?_, fun h2 => ?_⟩
  · exact status_done (.event e h1.base hp1 (.inl h1.insn) (comes hd (by
      rcases h2 with h | h
      · exact .inl (h1.base.enabled.trans h)
      · exact .inr (.inl h)))) h1.trail
  have hs : e.ipSuppressed = false := by
    rcases hx : e.ipSuppressed with _ | _
    · rfl
    · exact absurd (.inr hx) h2
  rw [wp_bind]
  unfold provideTrigAnchor
  have rest : ∀ {s2 : Bdec} {f2 : Flow} {e2 : Event} {n ip : Nat}, Trail c d f0 out s2 f2 → Base c s2 f2 → s2.insn = none → f2.pend = some e2 →
      s2.ip = s1.ip → e2.data = .trig a n m ip →
      wp (if n ≠ 0 then noTrailing c else if ip ≠ s1.ip then BM.fail .badPacket else blkStatus true)
        (Done c d f0 out) (fun _ _ => True) s2 := by
    intro s2 f2 e2 n ip t2 b2 i2 p2 hip d2
    rw [wp_ite, wp_ite]
    refine ⟨fun _ => noTrailing_done b2 t2 (frees_none i2) (ready_pend p2), fun hn => ⟨fun _ => trivial, fun hx => ?_⟩⟩
    refine status_done (.event e2 b2 p2 (.inl i2) (comes d2 (.inr (.inr ⟨by simpa using hn, ?_⟩)))) t2
    rw [b2.ip, hip]
    exact (by simpa using hx : ip = s1.ip).symm
  rw [wp_bind, wp_get, wp_ite, wp_ite, wp_ite]
  refine ⟨fun _ => rest h1.trail h1.base h1.insn hp1 rfl hd, fun hip => ⟨fun _ => trivial, fun _ => ⟨fun _ => trivial, fun hn => ?_⟩⟩⟩
  have hip : ip = 0 := by simpa using hip
  subst hip
  rw [wp_bind, wp_modify, wp_pure]
  have hw : f1.Waits c 0 e [] f1 { e with data := .trig a (n - s1.icnt) m s1.ip } := by
    rw [← h1.base.ip]
    exact .locate a n m s1.icnt hd hs (by omega) (.nil _ _)
  have := note_done h1.base h1.trail hp1 ⟨by intro ip; simp, by intro b n; simp⟩ hw
  exact rest this.2 this.1 h1.insn rfl rfl rfl


/-- The next event was fetched. -/
theorem fetch_base (hb : Base c s f) (ht : Trail c d f0 out s f) (hl : leftover s f = []) (hp : f.pend = none)
    (he : s.event = some e) :
    wp (fetchEvent c) (fun _ s' => Trail c d f0 out s' f ∧ Base c s' f ∧ s'.insn = s.insn ∧ s'.enabled = s.enabled ∧ s'.blk = s.blk)
      (fun _ _ => True) s := by
  refine wp_fetch he (fun _ _ _ => trivial) ?_
  intro s' h1 h2 h3 h4 h5 h6 h7 h8 h9 h10 h11
  refine ⟨ht.fetched hl hp (by rw [he]; simp) ?_, ?_, congrArg (·.insn) h1, congrArg (·.enabled) h1, h3⟩
  · rcases h10 with ⟨e', a, b, -⟩ | ⟨x, a, b, y⟩
    · exact .inl ⟨e', a, b⟩
    · exact .inr ⟨x, a, b, y⟩
  · refine hb.congr ?_ (fun m => by rw [h6]) (fun e he => by rw [hp] at he; cases he) ?_
    · unfold Bdec.core; rw [h1, h4, h5]
    · rcases h10 with ⟨e', a, b, x⟩ | ⟨x, a, b, y⟩
      · rw [b, x]
        have := hb.live.2 (by rw [he]; simp)
        rw [this]; simp
      · rw [b, y]; simp

set_option maxHeartbeats 2000000 in
/-- `pt_blk_proceed_trailing_event` -/
theorem trailing_done (henv : c.env.Ok) {blk : Bool} : ∀ (n : Nat) (s : Bdec) (f : Flow), Base c s f → Trail c d f0 out s f →
    (blk = true → s.insn = none ∧ (c.tick = true → BReady s f)) → wp (trailingEvent c blk n) (Done c d f0 out) (fun _ _ => True) s
  | 0, s, f, hb, ht, hi => trivial
  | n + 1, s, f, hb, ht, hi => by
    unfold trailingEvent
    rw [wp_bind, wp_get]
    rcases hst : s.status with _ | er
    swap
    · dsimp only
      have hpn : f.pend = none := by
        rcases hp : f.pend with _ | e
        · rfl
        · have := hb.live.2 (by rw [(hb.pend e hp).1]; simp)
          rw [hst] at this; cases this
      rw [wp_bind]
      have hen0 : s.event = none := by
        rcases he : s.event with _ | e
        · rfl
        · have := hb.live.2 (by rw [he]; simp)
          rw [hst] at this; cases this
      refine wp_mono (postponed_base hb ht (frees_pend hpn) (ready_none hen0)) (fun _ s1 h1 => ?_) fun _ _ _ => trivial
      obtain ⟨f1, h1⟩ := h1
      refine ⟨f1, h1.trail, ?_⟩
      split
      · exact .doomed (.inl (by rw [h1.status (by rw [hst]; simp), hst]; simp))
      · exact ⟨h1.base, h1.insn, h1.ready⟩
    dsimp only
    rcases hev : s.event with _ | e
    · have := hb.live.1 hst
      exact absurd hev this
    dsimp only
    have pnone : ¬ Normal e → f.pend = none := by
      intro hn
      rcases hp : f.pend with _ | e'
      · rfl
      · have := hb.pend e' hp
        rw [hev] at this
        obtain ⟨a, b⟩ := this
        cases a
        exact absurd b hn
    by_cases hn : Normal e
    · obtain ⟨l0, hb1, ht1⟩ := hb.taken ht hev hn
      have comes : ∀ {g : Flow}, Kind.of e.data = none → (∀ ip, e.data ≠ .disabled ip) → g.Reached e → countdown e = 0 → g.Comes e := by
        intro g h1 h2 h3 h4
        unfold Flow.Comes
        have : (Kind.of e.data ≠ none → g.enabled = false) ∧ g.Reached e ∧ (countdown e = 0 ∨ g.enabled = false) :=
          ⟨fun h => absurd h1 h, h3, .inl h4⟩
        rcases hx : e.data <;> rw [hx] at this <;>
          first | exact this | exact absurd hx (h2 _) | exact absurd hx (hn.1 _) | exact absurd hx (hn.2 _ _)
      have always : Kind.of e.data = none → (∀ ip, e.data ≠ .disabled ip) → location e = none → countdown e = 0 →
          wp (trailingAt c fun _ => true) (Done c d f0 out) (fun _ _ => True) s := by
        intro h1 h2 h3 h4
        refine trailingAt_done hb1 ht1 rfl h1 fun s' g _ _ _ => comes h1 h2 (fun x hx => ?_) h4
        rw [h3] at hx; cases hx
      have reach : ∀ {p : Bdec → Bool}, Kind.of e.data = none → (∀ ip, e.data ≠ .disabled ip) → countdown e = 0 →
          (∀ (s' : Bdec) (g : Flow), g.ip = s'.ip → g.enabled = s'.enabled → p s' = true → g.Reached e) →
          wp (trailingAt c p) (Done c d f0 out) (fun _ _ => True) s := by
        intro p h1 h2 h4 h5
        exact trailingAt_done hb1 ht1 rfl h1 fun s' g a b x => comes h1 h2 (h5 s' g a b x) h4
      have late : ∀ {ip : Nat}, Kind.of e.data = none → (∀ ip, e.data ≠ .disabled ip) → countdown e = 0 →
          location e = (if e.ipSuppressed = true then none else some ip) →
          (match e.data with
            | .asyncDisabled .. | .asyncBranch .. | .asyncPaging .. | .asyncVmcs .. | .tsx .. => False
            | _ => True) →
          wp (trailingAt c fun s => !s.enabled || e.ipSuppressed || s.ip == ip) (Done c d f0 out) (fun _ _ => True) s := by
        intro ip h1 h2 h3 h4 h5
        refine reach h1 h2 h3 fun s' g a b x y hy => ?_
        rw [h4] at hy
        split at hy
        · cases hy
        cases hy
        simp only [Bool.or_eq_true, Bool.not_eq_true', beq_iff_eq] at x
        rcases x with (x | x) | x
        · exact .inr ⟨b.trans x, h5⟩
        · contradiction
        · exact .inl (a.trans x)
      have bind : ∀ {k : Kind} {ip : Nat} {p : Iext → Bool}, Kind.of e.data = some (k, some ip) → (∀ x, p x = k.fits x) →
          wp (trailingBind c (·.boundTo k) (fun x => e.ipSuppressed && p x) (Bdec.mark k)) (Done c d f0 out)
            (fun _ _ => True) s := by
        intro k ip p h1 h2
        refine trailingBind_done hb1 ht1 rfl h1 (fun i hi => ?_) fun i hi => ?_
        · simp only [Bool.and_eq_true] at hi
          unfold Belongs
          dsimp only
          rw [if_pos hi.1, ← h2]
          exact hi.2
        · rw [← h2]
          rcases he : e.ipSuppressed with _ | _
          · exact .inr ⟨by simp, rfl⟩
          · rw [he] at hi
            exact .inl (by simpa using hi)
      rcases hx : e.data <;> dsimp only
      all_goals first
        | exact absurd hx (hn.1 _)
        | exact absurd hx (hn.2 _ _)
        | exact trailingDisabled_done hb1 ht1 rfl hx
        | exact trailingAsyncDisabled_done henv hb1 ht1 rfl hx
        | exact trailingTsx_done henv hb1 ht1 rfl hx
        | exact trailingTrig_done hb1 ht1 rfl hx
        | exact always (by rw [hx]; rfl) (by intro ip; rw [hx]; simp) (by unfold location; rw [hx]) (by unfold countdown; rw [hx])
        | exact late (by rw [hx]; rfl) (by intro ip; rw [hx]; simp) (by unfold countdown; rw [hx]) (by unfold location; rw [hx]) (by rw [hx]; trivial)
        | exact bind (k := .ptwrite) (by rw [hx]; rfl) (fun _ => rfl)
        | exact bind (k := .iret) (by rw [hx]; rfl) (fun _ => rfl)
        | exact bind (k := .vmentry) (by rw [hx]; rfl) (fun _ => rfl)
        | exact bind (k := .uiret) (by rw [hx]; rfl) (fun _ => rfl)
        | exact trailingBind_done (k := .paging) (l := none) hb1 ht1 rfl (by rw [hx]; rfl) (fun i hi => hi) (fun i hi => .inl hi)
        | exact trailingBind_done (k := .vmcs) (l := none) hb1 ht1 rfl (by rw [hx]; rfl) (fun i hi => hi) (fun i hi => .inl hi)
        | skip
      · refine reach (by rw [hx]; rfl) (by intro ip; rw [hx]; simp) (by unfold countdown; rw [hx]) fun s' g a b x y hy => .inl ?_
        unfold location at hy
        rw [hx] at hy
        cases hy
        rw [a]; simpa using x
      · refine reach (by rw [hx]; rfl) (by intro ip; rw [hx]; simp) (by unfold countdown; rw [hx]) fun s' g a b x y hy => .inl ?_
        unfold location at hy
        rw [hx] at hy
        dsimp only at hy
        split at hy
        · cases hy
        cases hy
        simp only [Bool.or_eq_true, beq_iff_eq] at x
        rcases x with x | x
        · contradiction
        · rw [a]; exact x
      · refine reach (by rw [hx]; rfl) (by intro ip; rw [hx]; simp) (by unfold countdown; rw [hx]) fun s' g a b x y hy => .inl ?_
        unfold location at hy
        rw [hx] at hy
        dsimp only at hy
        split at hy
        · cases hy
        cases hy
        simp only [Bool.or_eq_true, beq_iff_eq] at x
        rcases x with x | x
        · contradiction
        · rw [a]; exact x
      all_goals
        rw [wp_bind]
        refine wp_mono (postponed_base hb1 ht1 (frees_kind rfl (by rw [hx]; rfl)) (ready_pend rfl)) (fun _ s1 h1 => ?_) fun _ _ _ => trivial
        obtain ⟨f1, h1⟩ := h1
        rw [wp_ite]
        refine ⟨fun _ => trivial, fun _ => status_done (.event e h1.base (h1.pend e rfl) (.inl h1.insn) ?_) h1.trail⟩
        refine comes (by rw [hx]; rfl) (by intro ip; rw [hx]; simp) (fun x hy => ?_) (by unfold countdown; rw [hx])
        unfold location at hy
        rw [hx] at hy
        cases hy
    · have hp := pnone hn
      have : (∃ ip, e.data = .tip ip) ∨ ∃ b n, e.data = .tnt b n := by
        by_cases h1 : ∃ ip, e.data = .tip ip
        · exact .inl h1
        by_cases h2 : ∃ b n, e.data = .tnt b n
        · exact .inr h2
        exact absurd ⟨fun ip h => h1 ⟨ip, h⟩, fun b n h => h2 ⟨b, n, h⟩⟩ hn
      rcases this with ⟨ip, hx⟩ | ⟨bits, size, hx⟩ <;> rw [hx] <;> dsimp only
      · exact noTrailing_done hb ht (frees_pend hp) (ready_tip hev hx)
      · rw [wp_ite, wp_ite, wp_ite]
        refine ⟨fun h1 => ⟨fun h2 => noTrailing_done hb ht (frees_pend hp) (ready_tnt hev hx h2), fun h2 => ?_⟩,
          fun h1 => ?_⟩
        · have h2 : size = 0 := by simpa using h2
          rw [wp_bind]
          refine wp_mono (fetch_base hb ht ?_ hp hev) (fun _ s1 h3 => ?_) fun _ _ _ => trivial
          · unfold leftover blkItems items
            rw [hp, hev]
            dsimp only
            rw [hx, h2]
            rfl
          · refine trailing_done henv n s1 f h3.2.1 h3.1 fun h => ⟨by rw [h3.2.2.1]; exact (hi h).1, fun h4 => ?_⟩
            have h5 := (hi h).2 h4
            intro _ hl
            refine absurd ?_ (h5 hp hl e hev).2
            unfold blkItems items
            rw [hx, h2]
            rfl
        · have h1 : tickTnt c blk s e = true := by simpa using h1
          unfold tickTnt at h1
          simp only [Bool.and_eq_true] at h1
          refine ⟨fun _ => noTrailing_done hb ht (frees_pend hp) ((hi h1.1.1.2).2 h1.1.1.1), fun h2 => ?_⟩
          exact status_done (.tick e bits size hb hev hx h1.1.1.1 hp (hi h1.1.1.2).1) ht

end Ipt
