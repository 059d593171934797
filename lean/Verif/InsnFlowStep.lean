import Verif.InsnFlowIp

/-!
# Helper lemmas: reading instructions and processing events
-/

set_option linter.unusedSimpArgs false

namespace Ipt

open Ild Spec Props

variable {c : InsnCfg} {s s' s'' : Idec} {f f' f'' : Flow}

theorem IM.mapped_bind {α : Type} {g : Res Unit → IM α} :
    (IM.mapped >>= g) s = g (s.maps.headD (.ok ())) { s with maps := s.maps.tail } := rfl

theorem IM.cache_run {α : Type} {g : ScSt → ScSt × Res α} {r : Res α} (h : IM.cache g s = (s', r)) :
    s' = { s with sc := (g s.sc).1 } ∧ r = (g s.sc).2 := by
  unfold IM.cache at h
  cases h
  exact ⟨rfl, rfl⟩

theorem Core.cache (hc : Core c s f) {sc : ScSt} {mp : List (Res Unit)} (h1 : ScInv sc) (h2 : sc.asid = s.sc.asid)
    (h3 : ∀ m, m ∈ sc.img.secs ↔ m ∈ s.sc.img.secs) : Core c { s with sc := sc, maps := mp } f :=
  ⟨hc.enabled, hc.mode, hc.spec, hc.asid.trans h2.symm, fun m => (h3 m).trans (hc.secs m), hc.calls, hc.count, hc.pend,
    hc.noPend, hc.icnt, h1, hc.wf⟩

theorem fetch_flow (henv : c.env.Ok) (hc : Core c s f) (hip : f.ip = s.ip) {i : Insn}
    (h : fetchInsn c s = (s', .ok i)) : Core c s' f ∧ f.At c i ∧ ∃ sc mp, s' = { s with sc := sc, maps := mp } := by
  unfold fetchInsn at h
  rw [IM.mapped_bind, IM.mapped_bind, IM.get_bind, IM.bind_ok] at h
  obtain ⟨s1, ⟨o, e⟩, h1, h⟩ := h
  dsimp only at h1 h
  have hl := msecLookup_rel s.sc (s.maps.headD (.ok ())) (s.maps.tail.headD (.ok ())) s.ip hc.inv
  rw [IM.try_ok] at h1
  have fin : ∀ (msec : Option Msec) (j : Insn), j.ip = s.ip → j.mode = s.mode → j.raw.length = 15 →
      (∀ m, msec = some m → f.sections m ∧ SameSpace m.asid f.asid) →
      Core c s1 f → (∃ sc mp, s1 = { s with sc := sc, maps := mp }) →
      IM.image (fun im => insnDecodeCached c.env (c.reader s) msec im j) s1 = (s', .ok i) →
      Core c s' f ∧ f.At c i ∧ ∃ sc mp, s' = { s with sc := sc, maps := mp } := by
    intro msec j a1 a2 a3 a4 a5 a6 h
    obtain ⟨rfl, h2⟩ := IM.image_run h
    rw [reader_eq hc] at h2 ⊢
    have hr := cached_rel henv hc.wf msec a4 (s1.sc.img, s1.maps) a5.secs j a3
    refine ⟨a5.image hr.1, Decoded.at ?_, ?_⟩
    · have := hr.2 i h2.symm
      rw [a1, a2] at this
      rw [hip, hc.mode]
      exact this
    · obtain ⟨sc, mp, rfl⟩ := a6
      exact ⟨_, _, rfl⟩
  rcases h1 with ⟨m, h1, h2⟩ | ⟨e, h1, h2⟩ <;> cases h2 <;> obtain ⟨rfl, h3⟩ := IM.cache_run h1 <;> dsimp only at h
  · have hm := hl.2.2.2 m h3.symm
    refine fin (some m) _ ?_ ?_ ?_ ?_ (hc.cache hl.1 hl.2.1 hl.2.2.1) ⟨_, _, rfl⟩ h
    · rfl
    · rfl
    · rfl
    · rintro m' ⟨⟩
      refine ⟨(hc.secs m).1 hm.1, ?_⟩
      rw [hc.asid]; exact hm.2
  · rw [IM.ite_ok] at h
    rcases h with ⟨_, h⟩ | ⟨_, h⟩
    · rw [IM.fail_ok] at h; exact h.elim
    · exact fin none _ rfl rfl rfl (by simp) (hc.cache hl.1 hl.2.1 hl.2.2.1) ⟨_, _, rfl⟩ h

theorem setCr3_ok {s : ScSt} {u : Res Unit} {v : Nat} (hi : ScInv s) (h : (setCr3 s u v).2 = .ok ()) :
    ScInv (setCr3 s u v).1 ∧ (setCr3 s u v).1.asid = { s.asid with cr3 := v } ∧
      ∀ m, m ∈ (setCr3 s u v).1.img.secs ↔ m ∈ s.img.secs := by
  refine ⟨sc_step hi (.cr3 u v), ?_, fun m => ?_⟩
  · rcases (C46_address_space s u u v 0 s.img).1 with h1 | ⟨_, h1⟩
    · exact h1
    · exact absurd h h1
  · have := (invalidate_spec s u).2.2.1
    unfold setCr3
    split
    · rcases hx : cacheInvalidate s u with ⟨s1, _ | _ | _⟩ <;> rw [hx] at this <;> simp only <;> rw [← this]
    · rfl

theorem setVmcs_ok {s : ScSt} {u : Res Unit} {v : Nat} (hi : ScInv s) (h : (setVmcs s u v).2 = .ok ()) :
    ScInv (setVmcs s u v).1 ∧ (setVmcs s u v).1.asid = { s.asid with vmcs := v } ∧
      ∀ m, m ∈ (setVmcs s u v).1.img.secs ↔ m ∈ s.img.secs := by
  refine ⟨sc_step hi (.vmcs u v), ?_, fun m => ?_⟩
  · rcases (C46_address_space s u u v 0 s.img).2.1 with h1 | ⟨_, h1⟩
    · exact h1
    · exact absurd h h1
  · have := (invalidate_spec s u).2.2.1
    unfold setVmcs
    split
    · rcases hx : cacheInvalidate s u with ⟨s1, _ | _ | _⟩ <;> rw [hx] at this <;> simp only <;> rw [← this]
    · rfl

/-- What processing an event does. -/
structure Processed (c : InsnCfg) (s : Idec) (f : Flow) (e : Event) (s1 : Idec) : Prop where
  allows : f.Allows e
  core : Core c { s1 with processEvent := false } { f.apply e with pend := none }
  insn : s1.insn = s.insn
  bound : ∀ k, s1.boundTo k = s.boundTo k
  q : s1.q = s.q
  ip : f.ip = s.ip → (f.apply e).ip = s1.ip
  kind : ∀ k l, Kind.of e.data = some (k, l) → s1.ip = s.ip ∧ s1.enabled = s.enabled
  disabled : ∀ ip, e.data = .disabled ip → s1.ip = s.ip ∧ s1.enabled = false

theorem apply_same (f : Flow) (e : Event) : (f.apply e).sections = f.sections ∧ (f.apply e).calls = f.calls ∧
    (f.apply e).cur = f.cur ∧ (f.apply e).bound = f.bound := by
  unfold Flow.apply
  repeat' split
  all_goals exact ⟨rfl, rfl, rfl, rfl⟩

theorem processed_of {e : Event} {s1 : Idec} (hc : Core c s f) (ha : f.Allows e)
    (h1 : s1 = { s with
      enabled := s1.enabled, ip := s1.ip, mode := s1.mode, speculative := s1.speculative, sc := s1.sc,
      maps := s1.maps, hasIcnt := s1.hasIcnt, icnt := s1.icnt })
    (h2 : (f.apply e).enabled = s1.enabled) (h3 : (f.apply e).mode = s1.mode)
    (h4 : (f.apply e).speculative = s1.speculative) (h5 : (f.apply e).asid = s1.sc.asid)
    (h6 : (f.apply e).count = s1.count) (h7 : f.ip = s.ip → (f.apply e).ip = s1.ip)
    (hsc : ScInv s1.sc) (hsecs : ∀ m, m ∈ s1.sc.img.secs ↔ m ∈ s.sc.img.secs) (hi : s1.icnt < 2 ^ 32)
    (hk : ∀ k l, Kind.of e.data = some (k, l) → s1.ip = s.ip ∧ s1.enabled = s.enabled)
    (hd : ∀ ip, e.data = .disabled ip → s1.ip = s.ip ∧ s1.enabled = false) : Processed c s f e s1 := by
  obtain ⟨a1, a2, a3, a4⟩ := apply_same f e
  have hr : s1.retstack = s.retstack := by rw [h1]
  refine ⟨ha, ⟨h2, h3, h4, h5, fun m => ?_, ?_, h6, ?_, fun _ => rfl, hi, hsc, ?_⟩, by rw [h1], fun k => ?_, by rw [h1], h7, hk, hd⟩
  · show m ∈ s1.sc.img.secs ↔ (f.apply e).sections m
    rw [a1, hsecs, hc.secs]
  · show s1.retstack.Holds (f.apply e).calls
    rw [a2, hr]; exact hc.calls
  · simp [Idec.pend]
  · show ∀ m, (f.apply e).sections m → _
    rw [a1]; exact hc.wf
  · cases k <;> simp only [Idec.boundTo] <;> rw [h1]

theorem modeOf_eq (n : Nat) : modeOf n = modeNumbered n := by
  unfold modeNumbered
  split
  · subst_vars; rfl
  · split
    · subst_vars; rfl
    · split
      · subst_vars; rfl
      · unfold modeOf; split <;> first | contradiction | rfl

theorem paging_processed {e : Event} {s1 : Idec} {cr3 : Nat} (hc : Core c s f)
    (hd : (∃ nr, e.data = .paging cr3 nr) ∨ ∃ nr x, e.data = .asyncPaging cr3 nr x)
    (h : processPaging cr3 s = (s1, .ok ())) : Processed c s f e s1 := by
  have he := hc.enabled
  have hm := hc.mode
  have hsp := hc.spec
  have has := hc.asid
  have hcn := hc.count
  have hi := hc.icnt
  unfold processPaging at h
  rw [IM.mapped_bind] at h
  obtain ⟨rfl, h1⟩ := IM.cache_run h
  obtain ⟨a1, a2, a3⟩ := setCr3_ok hc.inv h1.symm
  refine processed_of hc ?_ rfl ?_ ?_ ?_ ?_ ?_ ?_ a1 a3 hi ?_ ?_
  case refine_5 => rcases hd with ⟨nr, hdata⟩ | ⟨nr, x, hdata⟩ <;> (simp only [Flow.apply, hdata, has]; exact a2.symm)
  all_goals
    clear a1 a2 a3 h h1
    rcases hd with ⟨nr, hdata⟩ | ⟨nr, x, hdata⟩ <;> simp_all [Flow.Allows, Flow.apply, Kind.of, Idec.count, anchor]

theorem vmcs_processed {e : Event} {s1 : Idec} {v : Nat} (hc : Core c s f)
    (hd : e.data = .vmcs v ∨ ∃ x, e.data = .asyncVmcs v x)
    (h : processVmcs e v s = (s1, .ok ())) : Processed c s f e s1 := by
  have he := hc.enabled
  have hm := hc.mode
  have hsp := hc.spec
  have has := hc.asid
  have hcn := hc.count
  have hi := hc.icnt
  unfold processVmcs at h
  rw [IM.mapped_bind, IM.bind_ok] at h
  obtain ⟨s2, _, h2, h⟩ := h
  obtain ⟨rfl, h1⟩ := IM.cache_run h2
  obtain ⟨a1, a2, a3⟩ := setVmcs_ok hc.inv h1.symm
  rw [IM.when_ok, IM.modify_ok] at h
  rcases h with ⟨h3, rfl⟩ | ⟨h3, rfl⟩
  · refine processed_of hc ?_ rfl ?_ ?_ ?_ ?_ ?_ ?_ a1 a3 (by simp [anchor]) ?_ ?_
    case refine_5 => rcases hd with hdata | ⟨x, hdata⟩ <;> (simp only [Flow.apply, hdata, has]; exact a2.symm)
    all_goals
      clear a1 a2 a3 h2 h1
      rcases hd with hdata | ⟨x, hdata⟩ <;> simp_all [Flow.Allows, Flow.apply, Kind.of, Idec.count, anchor]
  · refine processed_of hc ?_ rfl ?_ ?_ ?_ ?_ ?_ ?_ a1 a3 hi ?_ ?_
    case refine_5 => rcases hd with hdata | ⟨x, hdata⟩ <;> (simp only [Flow.apply, hdata, has]; exact a2.symm)
    all_goals
      clear a1 a2 a3 h2 h1
      rcases hd with hdata | ⟨x, hdata⟩ <;> simp_all [Flow.Allows, Flow.apply, Kind.of, Idec.count, anchor]

local macro "finish_processed" hc:ident : tactic => `(tactic|
  (refine processed_of $hc ?_ rfl ?_ ?_ ?_ ?_ ?_ ?_ (by have := Core.inv $hc; exact this) (fun _ => Iff.rfl) ?_ ?_ ?_ <;>
    simp_all [Flow.Allows, Flow.apply, Kind.of, Idec.count, anchor]))

theorem processEvent_flow {e : Event} {s1 : Idec} (hc : Core c s f)
    (h : processEvent e s = (s1, .ok ())) : Processed c s f e s1 := by
  have he := hc.enabled
  have hm := hc.mode
  have hsp := hc.spec
  have has := hc.asid
  have hcn := hc.count
  have hi := hc.icnt
  unfold processEvent at h
  rw [IM.get_bind] at h
  rcases hdata : e.data <;>
    simp only [hdata, IM.pure_ok, IM.fail_ok, IM.ite_ok, and_false, false_or, or_false, processEnabled, processDisabled,
      processAsyncBranch, processOverflow, processExecMode, processTsx, processStop, mustBeAt, IM.get_bind, IM.modify_ok, IM.modify_bind, modeOf_eq] at h
  case enabled =>
    rcases h with ⟨h1, h2, rfl, -⟩ | ⟨h1, h2, h3, rfl⟩ <;> finish_processed hc
  case disabled =>
    rcases h with ⟨h1, h2, rfl, -⟩ | ⟨h1, h2, rfl⟩ <;> finish_processed hc
  case asyncDisabled =>
    rcases h with ⟨h0, ⟨h1, h2, rfl, -⟩ | ⟨h1, h2, rfl⟩⟩ <;> finish_processed hc
  case asyncBranch =>
    obtain ⟨h0, h1, h2, rfl⟩ := h
    finish_processed hc
  case overflow =>
    obtain ⟨h0, rfl⟩ := h
    by_cases hs : e.ipSuppressed = true
    · simp only [hs, if_true]
      finish_processed hc
    · simp only [hs, if_false, Bool.false_eq_true]
      finish_processed hc
  case execMode md x =>
    obtain ⟨h0, rfl⟩ := h
    refine processed_of hc ?_ rfl ?_ ?_ ?_ ?_ ?_ ?_ hc.inv (fun _ => Iff.rfl) ?_ ?_ ?_
    · simp only [Flow.Allows, hdata, he, hm]
      intro a1 a2
      by_cases a3 : s.mode = .unknown
      · exact .inl a3
      · right
        by_cases a4 : s.mode = modeNumbered md
        · exact a4
        · exact absurd ⟨a1, a2, a3, a4⟩ h0
    all_goals simp_all [Flow.Allows, Flow.apply, Kind.of, Idec.count, anchor]
  case tsx =>
    subst h
    finish_processed hc
  case stop =>
    obtain ⟨h0, h1, rfl, -⟩ := h
    finish_processed hc
  case rsm | sipi =>
    obtain ⟨h0, rfl, -⟩ := h
    finish_processed hc
  case mwait =>
    obtain ⟨h0, rfl, -⟩ := h
    finish_processed hc
  case pwre | pwrx | ptwrite | tick | cbr | mnt | iret | vmentry | uiret =>
    obtain ⟨rfl, -⟩ := h
    finish_processed hc
  case exstop | iflags | interrupt | smi | init | vmexit | shutdown | uintr =>
    rcases h with ⟨h0, h1, rfl⟩ | ⟨h0, rfl, -⟩ <;> finish_processed hc
  case trig =>
    rcases h with ⟨h0, rfl, -⟩ | ⟨h0, h1, h2, rfl⟩ <;> finish_processed hc
  case paging cr3 nr => exact paging_processed hc (.inl ⟨nr, hdata⟩) h
  case asyncPaging cr3 nr x => exact paging_processed hc (.inr ⟨nr, x, hdata⟩) h.2
  case vmcs v => exact vmcs_processed hc (.inl hdata) h
  case asyncVmcs v x => exact vmcs_processed hc (.inr ⟨x, hdata⟩) h.2

/-- What the flags say. -/
structure FlowOut (c : InsnCfg) (s : Idec) (f : Flow) (fl : Flags) : Prop where
  suppressed : fl.ipSuppressed = !s.enabled
  pending : fl.eventPending = true → FlowPost c s f
  idle : fl.eventPending = false → FlowIdle c s f

theorem Core.only (hc : Core c s f) {i : Option Insn} {b : List Kind} {x : Nat} :
    Core c s { f with cur := i, bound := b, ip := x } :=
  ⟨hc.enabled, hc.mode, hc.spec, hc.asid, hc.secs, hc.calls, hc.count, hc.pend, hc.noPend, hc.icnt, hc.inv, hc.wf⟩

theorem checkIp_out (henv : c.env.Ok) {i : Option Insn} {fl : Flags} (hp : FlowPre c s f)
    (h : checkIpEvent c i s = (s', .ok fl)) : ∃ f', Tr c s f [] s' f' ∧ FlowOut c s' f' fl := by
  obtain ⟨f', a1, a2, -, a3, a4⟩ := checkIp_flow henv hp h
  exact ⟨f', a1, a2, a3, a4⟩

theorem next_flow (henv : c.env.Ok) {o : NextOut} (hp : FlowIdle c s f) (h : insnNext c s = (s', .ok o)) :
    ∃ f', Tr c s f [.insn o.insn o.speculative] s' f' ∧ FlowOut c s' f' o.flags := by
  unfold insnNext at h
  rw [IM.get_bind, IM.ite_ok, IM.ite_ok] at h
  simp only [IM.fail_ok, and_false, or_false, false_or] at h
  obtain ⟨hen, h⟩ := h
  have hen : s.enabled = true := by simpa using hen
  rw [IM.bind_ok] at h
  obtain ⟨s1, i, h1, h⟩ := h
  obtain ⟨hc1, hat, sc, mp, hs1⟩ := fetch_flow henv hp.core hp.ip h1
  have t1 : Tr c s f [.insn i s.speculative] s1 { f with cur := some i, bound := [] } := by
    rw [← hp.core.spec]
    subst hs1
    refine .zero rfl (fun a b => ⟨a, b⟩) fun rest hr => Run.one (.fetch f i ?_ hp.cur hat (fun hn => ?_) hp.none)
    · rw [hp.core.enabled, hen]
    · have hq := hp.quiet
      have := hp.core.noPend hn
      refine hr this ?_
      rcases hq with hq | hq
      · rw [this] at hq; cases hq
      · exact hq
  have e1 : s1.ip = s.ip ∧ s1.insn = s.insn ∧ s1.enabled = s.enabled ∧ ∀ k, s1.boundTo k = s.boundTo k := by
    subst hs1; exact ⟨rfl, rfl, rfl, fun _ => rfl⟩
  clear hs1
  have m1 : FlowMid c s1 { f with cur := some i, bound := [] } i := by
    refine ⟨hc1.only (x := f.ip), hp.ip.trans e1.1.symm, rfl, .inr ⟨e1.2.1.trans hp.insn, fun k => ?_⟩, fun k => ?_, fun _ => ?_⟩
    · rw [e1.2.2.2]; exact hp.bound k
    · rw [e1.2.2.2, hp.bound k]; simp
    · rw [e1.1, ← hp.ip]; exact hat.ip.symm
  rw [IM.bind_ok] at h
  obtain ⟨s2, r, h2, h⟩ := h
  obtain ⟨f2, t2, h3⟩ := checkInsn_flow m1 h2
  rcases r with _ | fl
  · obtain ⟨m2, q2, d2, i2, en2⟩ := h3
    dsimp only at h
    rw [IM.bind_ok] at h
    obtain ⟨s3, _, h4, h⟩ := h
    have hen2 : s2.enabled = true := by rw [en2, e1.2.2.1, hen]
    obtain ⟨f3, x3⟩ := proceed_flow m2.core hen2 (m2.loc hen2) m2.cur q2 (d2 hen2) h4
    have hn2 : s2.insn = none := by rw [i2, e1.2.1, hp.insn]
    have hb2 : ∀ k, s2.boundTo k = false := by
      rcases m2.insn with hh | ⟨-, hh⟩
      · rw [hn2] at hh; cases hh
      · exact hh
    rw [IM.bind_ok] at h
    obtain ⟨s4, fl, h5, h⟩ := h
    rw [IM.pure_ok] at h
    obtain ⟨rfl, rfl⟩ := h
    obtain ⟨f4, t4, o4⟩ := checkIp_out henv ⟨x3.core, x3.ip, x3.cur, x3.insn.trans hn2, fun k => (x3.bound k).trans (hb2 k)⟩ h5
    exact ⟨f4, by simpa using t1.trans (t2.trans (x3.tr.trans t4)), o4⟩
  · dsimp only at h
    rw [IM.pure_ok] at h
    obtain ⟨rfl, rfl⟩ := h
    exact ⟨f2, by simpa using t1.trans t2, h3.2.2, fun _ => h3.1, fun a => by rw [h3.2.1] at a; cases a⟩

theorem clear_pre (hc : Core c s f) (hip : f.ip = s.ip) (hcur : f.cur = none) : FlowPre c (clearPostponed s) f :=
  ⟨⟨hc.enabled, hc.mode, hc.spec, hc.asid, hc.secs, hc.calls, hc.count, hc.pend, hc.noPend, hc.icnt, hc.inv, hc.wf⟩, hip, hcur,
    rfl, fun k => by cases k <;> rfl⟩

/-- Dropping an instruction that disabled tracing. -/
theorem drop_tr (hen : f.enabled = false) : Tr c s f [] s { f with cur := none } :=
  .zero rfl (fun a b => ⟨a, b⟩) fun _ _ => Run.one (.drop f hen)

/-- After an event of an instruction. -/
theorem after_flow (henv : c.env.Ok) {i : Insn} {g : Flags → EventOut} {o : EventOut} (hm : FlowMid c s f i)
    (hi : s.insn = some i)
    (h : (checkInsnEvent c i >>= fun r =>
      match r with
      | some f => (pure (g f) : IM EventOut)
      | none => do
        proceedPostponed c
        checkIpEvent c none >>= fun f => pure (g f)) s = (s', .ok o)) :
    ∃ f' fl, Tr c s f [] s' f' ∧ FlowOut c s' f' fl ∧ o = g fl := by
  rw [IM.bind_ok] at h
  obtain ⟨s2, r, h2, h⟩ := h
  obtain ⟨f2, t2, h3⟩ := checkInsn_flow hm h2
  rcases r with _ | fl
  · obtain ⟨m2, q2, d2, i2, en2⟩ := h3
    dsimp only at h
    rw [IM.bind_ok] at h
    obtain ⟨s3, _, h4, h⟩ := h
    rw [IM.bind_ok] at h
    obtain ⟨s4, fl, h5, h⟩ := h
    rw [IM.pure_ok] at h
    obtain ⟨rfl, rfl⟩ := h
    unfold proceedPostponed at h4
    rw [IM.get_bind, i2, hi] at h4
    dsimp only at h4
    rw [IM.ite_ok] at h4
    rcases h4 with ⟨h6, h4⟩ | ⟨h6, h4⟩
    · rw [IM.modify_ok] at h4
      subst h4
      have hen : f2.enabled = false := m2.core.enabled.trans h6
      have hp : FlowPre c (clearPostponed s2) { f2 with cur := none } :=
        clear_pre (m2.core.only (x := f2.ip) (b := f2.bound)) m2.ip rfl
      obtain ⟨f4, t4, o4⟩ := checkIp_out henv hp h5
      have t3 : Tr c s2 f2 [] (clearPostponed s2) { f2 with cur := none } :=
        .zero rfl (fun a b => ⟨a, b⟩) fun _ _ => Run.one (.drop f2 hen)
      exact ⟨f4, fl, by simpa using t2.trans (t3.trans t4), o4, rfl⟩
    · rw [IM.bind_ok] at h4
      obtain ⟨s5, _, h7, h4⟩ := h4
      rw [IM.modify_ok] at h4
      subst h4
      have hen2 : s2.enabled = true := by simpa using h6
      obtain ⟨f3, x3⟩ := proceed_flow m2.core hen2 (m2.loc hen2) m2.cur q2 (d2 hen2) h7
      obtain ⟨f4, t4, o4⟩ := checkIp_out henv (clear_pre x3.core x3.ip x3.cur) h5
      have t3 : Tr c s5 f3 [] (clearPostponed s5) f3 := .refl rfl fun a b => ⟨a, b⟩
      exact ⟨f4, fl, by simpa using t2.trans (x3.tr.trans (t3.trans t4)), o4, rfl⟩
  · dsimp only at h
    rw [IM.pure_ok] at h
    obtain ⟨rfl, rfl⟩ := h
    exact ⟨f2, fl, t2, ⟨h3.2.2, fun _ => h3.1, fun a => by rw [h3.2.1] at a; cases a⟩, rfl⟩

theorem Core.pending (hc : Core c s f) {e : Event} (h : f.pend = some e) : s.processEvent = true ∧ s.event = some e := by
  have := hc.pend
  rw [h, Idec.pend] at this
  split at this
  · exact ⟨by assumption, this.symm⟩
  · cases this

theorem event_flow (henv : c.env.Ok) {o : EventOut} (hp : FlowPost c s f) (h : insnEvent c s = (s', .ok o)) :
    ∃ f', Tr c s f [.event o.event o.resumed] s' f' ∧ FlowOut c s' f' o.flags := by
  unfold insnEvent at h
  rw [IM.get_bind] at h
  have main : ∀ {e : Event}, Core c s f → f.pend = some e → ∃ s1, Processed c s f e s1 ∧ s.processEvent = true ∧
      ((s.insn = none ∧ (checkIpEvent c none >>= fun fl => (pure ⟨e, resumed s e, fl⟩ : IM EventOut))
          { s1 with processEvent := false } = (s', .ok o)) ∨
        ∃ i, s.insn = some i ∧ (checkInsnEvent c i >>= fun r =>
          match r with
          | some fl => (pure ⟨e, resumed s e, fl⟩ : IM EventOut)
          | none => do
            proceedPostponed c
            checkIpEvent c none >>= fun fl => (pure ⟨e, resumed s e, fl⟩ : IM EventOut))
          { s1 with processEvent := false } = (s', .ok o)) := by
    intro e hc he
    obtain ⟨h1, h2⟩ := hc.pending he
    rw [if_neg (by simp [h1]), h2] at h
    dsimp only at h
    rw [IM.bind_ok] at h
    obtain ⟨s1, _, h3, h⟩ := h
    rw [IM.modify_bind] at h
    refine ⟨s1, processEvent_flow hc h3, h1, ?_⟩
    rcases hi : s.insn with _ | i <;> simp only [hi] at h
    · exact .inl ⟨rfl, h⟩
    · exact .inr ⟨i, rfl, h⟩
  rcases hp with ⟨e, hp, he, hd⟩ | ⟨e, k, l, i, hc, hip, hcur, hi, he, hk, hb, hkn, hbd, hloc⟩ |
    ⟨e, ip, i, hc, hcur, he, hdat, hsu, hdis, hres, hi, hbd⟩
  · obtain ⟨s1, p1, hpe, h⟩ := main hp.core he
    have hr : resumed s e = f.resumes e := by unfold resumed Flow.resumes; rw [hp.ip]; rfl
    rcases h with ⟨-, h⟩ | ⟨i, hi, -⟩
    · rw [IM.bind_ok] at h
      obtain ⟨s2, fl, h5, h⟩ := h
      rw [IM.pure_ok] at h
      obtain ⟨rfl, rfl⟩ := h
      have hpre : FlowPre c { s1 with processEvent := false } { f.apply e with pend := none } := by
        refine ⟨p1.core, p1.ip hp.ip, ?_, p1.insn.trans hp.insn, fun k => (p1.bound k).trans (hp.bound k)⟩
        exact (apply_same f e).2.2.1.trans hp.cur
      obtain ⟨f4, t4, o4⟩ := checkIp_out henv hpre h5
      have t3 : Tr c s f [.event e (f.resumes e)] { s1 with processEvent := false } { f.apply e with pend := none } :=
        .zero p1.q (fun a => by rw [hpe] at a; cases a) fun _ _ => Run.one (.event f e he hp.cur hd p1.allows)
      rw [hr]
      exact ⟨f4, by simpa using t3.trans t4, o4⟩
    · rw [hp.insn] at hi; cases hi
  · obtain ⟨s1, p1, hpe, h⟩ := main hc he
    have hr : resumed s e = false := by
      unfold resumed
      rcases hx : e.data <;> rw [hx] at hk <;> first | rfl | cases hk
    rcases h with ⟨hn, -⟩ | ⟨i', hi', h⟩
    · rw [hi] at hn; cases hn
    · rw [hi] at hi'
      cases hi'
      obtain ⟨k1, k2⟩ := p1.kind k l hk
      have hm : FlowMid c { s1 with processEvent := false } { f.apply e with pend := none, bound := k :: f.bound } i := by
        refine ⟨p1.core.only (i := (f.apply e).cur) (b := k :: f.bound) (x := (f.apply e).ip), p1.ip hip, ?_, .inl (p1.insn.trans hi),
          fun k' => ?_, fun a => ?_⟩
        · exact (apply_same f e).2.2.1.trans hcur
        · exact (by rw [← hbd k', ← p1.bound k']; rfl)
        · exact k1.trans (hloc (k2 ▸ a))
      obtain ⟨f4, fl, t4, o4, rfl⟩ := after_flow henv hm (p1.insn.trans hi) h
      have t3 : Tr c s f [.event e false] { s1 with processEvent := false }
          { f.apply e with pend := none, bound := k :: f.bound } :=
        .zero p1.q (fun a => by rw [hpe] at a; cases a) fun _ _ =>
          Run.one (.belongs f e k l i he hcur hk (.belongs k l i hcur hk hb hkn))
      rw [hr]
      exact ⟨f4, by simpa using t3.trans t4, o4⟩
  · obtain ⟨s1, p1, hpe, h⟩ := main hc he
    have hr : resumed s e = false := by unfold resumed; rw [hdat]
    obtain ⟨k1, k2⟩ := p1.disabled ip hdat
    have hen : f.enabled = true := by
      have := p1.allows
      simp only [Flow.Allows, hdat, hsu, Bool.false_eq_true, if_false] at this
      exact this
    have t3 : Tr c s f [.event e false] { s1 with processEvent := false } { f.apply e with pend := none, ip := s.ip } :=
      .zero p1.q (fun a => by rw [hpe] at a; cases a) fun _ _ =>
        Run.one (.disable f e ip s.ip i he hen hcur hdat (.disable ip i hcur hdat hsu hdis) hres)
    have hcore : Core c { s1 with processEvent := false } { f.apply e with pend := none, ip := s.ip } :=
      p1.core.only (i := (f.apply e).cur) (b := (f.apply e).bound) (x := s.ip)
    have hcur' : (f.apply e).cur = some i := (apply_same f e).2.2.1.trans hcur
    have hbd' : (f.apply e).bound = f.bound := (apply_same f e).2.2.2
    rw [hr] at h
    rcases h with ⟨hn, h⟩ | ⟨i', hi', h⟩
    · have hb : ∀ k, s.boundTo k = false := by
        rcases hi with hi | hi
        · rw [hn] at hi; cases hi
        · exact hi.2
      rw [IM.bind_ok] at h
      obtain ⟨s2, fl, h5, h⟩ := h
      rw [IM.pure_ok] at h
      obtain ⟨rfl, rfl⟩ := h
      have hpre : FlowPre c { s1 with processEvent := false } { f.apply e with pend := none, ip := s.ip, cur := none } :=
        ⟨hcore.only (i := none) (b := (f.apply e).bound) (x := s.ip), k1.symm, rfl, p1.insn.trans hn,
          fun k => (p1.bound k).trans (hb k)⟩
      have t5 : Tr c { s1 with processEvent := false } { f.apply e with pend := none, ip := s.ip } []
          { s1 with processEvent := false } { f.apply e with pend := none, ip := s.ip, cur := none } :=
        .zero rfl (fun a b => ⟨a, b⟩) fun _ _ => Run.one (.drop _ (hcore.enabled.trans k2))
      obtain ⟨f4, t4, o4⟩ := checkIp_out henv hpre h5
      exact ⟨f4, by simpa using t3.trans (t5.trans t4), o4⟩
    · have hii : i' = i := by
        rcases hi with hi | hi
        · rw [hi] at hi'; cases hi'; rfl
        · rw [hi.1] at hi'; cases hi'
      subst hii
      have hm : FlowMid c { s1 with processEvent := false } { f.apply e with pend := none, ip := s.ip } i' := by
        refine ⟨hcore, k1.symm, hcur', .inl (p1.insn.trans hi'), fun k' => ?_, fun a => ?_⟩
        · show _ ↔ k' ∈ (f.apply e).bound
          rw [hbd', ← hbd k', ← p1.bound k']; rfl
        · rw [show ({ s1 with processEvent := false } : Idec).enabled = false from k2] at a; cases a
      obtain ⟨f4, fl, t4, o4, rfl⟩ := after_flow henv hm (p1.insn.trans hi') h
      exact ⟨f4, by simpa using t3.trans t4, o4⟩

end Ipt
