import Verif.InsnFlowCheck

/-!
# Helper lemmas: events between instructions
-/

set_option linter.unusedSimpArgs false

namespace Ipt

open Ild Spec Props

variable {c : InsnCfg} {s s' s'' : Idec} {f f' f'' : Flow}

theorem IM.image_run {α : Type} {g : Img × List (Res Unit) → (Img × List (Res Unit)) × Res α} {r : Res α}
    (h : IM.image g s = (s', r)) : s' = { s with sc := { s.sc with img := (g (s.sc.img, s.maps)).1.1 }
                                                 maps := (g (s.sc.img, s.maps)).1.2 } ∧
      r = (g (s.sc.img, s.maps)).2 := by
  unfold IM.image at h
  cases h
  exact ⟨rfl, rfl⟩

theorem Core.image (hc : Core c s f) {i : Img} {mp : List (Res Unit)} (h : ∀ m, m ∈ i.secs ↔ f.sections m) :
    Core c { s with sc := { s.sc with img := i }, maps := mp } f :=
  ⟨hc.enabled, hc.mode, hc.spec, hc.asid, h, hc.calls, hc.count, hc.pend, hc.noPend, hc.icnt, hc.inv, hc.wf⟩

theorem reader_eq (hc : Core c s f) : c.reader s = imgReader c.env c.cb f.asid := by
  unfold InsnCfg.reader; rw [hc.asid]

/-- What is kept by reading the image. -/
def SameButImage (s s' : Idec) : Prop := ∃ i mp, s' = { s with sc := { s.sc with img := i }, maps := mp }

theorem checkSkd022_flow (henv : c.env.Ok) (hc : Core c s f) (hip : f.ip = s.ip) {b : Bool}
    (h : checkSkd022 c s = (s', .ok b)) : Core c s' f ∧ SameButImage s s' ∧
      (b = true → ∃ i, f.At c i ∧ (i.ext.inst = .vmlaunch ∨ i.ext.inst = .vmresume)) := by
  unfold checkSkd022 at h
  rw [IM.get_bind, IM.bind_ok] at h
  obtain ⟨s1, ⟨o, e⟩, h1, h⟩ := h
  have hr := decode_rel (image_rel (c := c) (f := f) henv hc.wf) (s.sc.img, s.maps) { ip := s.ip, mode := s.mode } hc.secs rfl
  rw [reader_eq hc, IM.try_ok] at h1
  rcases h1 with ⟨i, h1, h2⟩ | ⟨e, h1, h2⟩ <;> cases h2 <;> obtain ⟨rfl, h3⟩ := IM.image_run h1 <;>
    dsimp only at h <;> rw [IM.pure_ok] at h <;> obtain ⟨rfl, rfl⟩ := h
  · refine ⟨hc.image hr.1, ⟨_, _, rfl⟩, fun hb => ⟨i, ?_, ?_⟩⟩
    · have := hr.2 i h3.symm
      refine Decoded.at ?_
      rw [hip, hc.mode]
      exact this
    · simpa using hb
  · exact ⟨hc.image hr.1, ⟨_, _, rfl⟩, by simp⟩

theorem handleBdm64_flow (henv : c.env.Ok) (hc : Core c s f) {i : Insn} {ab : Bool} {evip : Nat}
    (h : handleBdm64 c ab evip i s = (s', .ok ())) : ∃ s1, Core c s1 f ∧ SameButImage s s1 ∧
      (s' = s1 ∨ (ab = true ∧ s' = { s1 with ip := evip })) := by
  unfold handleBdm64 at h
  simp only [IM.ite_ok, IM.pure_ok] at h
  rcases h with ⟨_, rfl, -⟩ | ⟨hab, ⟨_, rfl, -⟩ | ⟨_, h⟩⟩
  · exact ⟨s', hc, ⟨_, _, rfl⟩, .inl rfl⟩
  · exact ⟨s', hc, ⟨_, _, rfl⟩, .inl rfl⟩
  · rw [IM.get_bind, IM.bind_ok] at h
    obtain ⟨s1, ⟨o, e⟩, h1, h⟩ := h
    have hr := range_rel (image_rel (c := c) (f := f) henv hc.wf) evip 0x100 (s.sc.img, s.maps) { ip := s.ip, mode := s.mode }
      hc.secs rfl
    rw [reader_eq hc, IM.try_ok] at h1
    have h2 : Core c s1 f ∧ SameButImage s s1 := by
      rcases h1 with ⟨i, h1, h2⟩ | ⟨e, h1, h2⟩ <;> cases h2 <;> obtain ⟨rfl, h3⟩ := IM.image_run h1 <;>
        exact ⟨hc.image hr, ⟨_, _, rfl⟩⟩
    refine ⟨s1, h2.1, h2.2, ?_⟩
    rcases o with _ | (_ | _) <;> dsimp only at h
    · rw [IM.modify_ok] at h; exact .inr ⟨by simpa using hab, h⟩
    · rw [IM.modify_ok] at h; exact .inr ⟨by simpa using hab, h⟩
    · rw [IM.pure_ok] at h; exact .inl h.1

/-- The outcome of looking for an event between instructions. -/
def IpChecked (c : InsnCfg) (s s' : Idec) (f : Flow) (fl : Flags) : Prop :=
  ∃ f', Tr c s f [] s' f' ∧ fl.ipSuppressed = !s'.enabled ∧ s'.enabled = s.enabled ∧
    (fl.eventPending = true → FlowPost c s' f') ∧ (fl.eventPending = false → FlowIdle c s' f')

theorem FlowPre.image (hp : FlowPre c s f) (h : SameButImage s s') (hc : Core c s' f) : FlowPre c s' f := by
  obtain ⟨i, mp, rfl⟩ := h
  exact ⟨hc, hp.ip, hp.cur, hp.insn, hp.bound⟩

theorem SameButImage.tr (h : SameButImage s s') : Tr c s f [] s' f := by
  obtain ⟨i, mp, rfl⟩ := h
  exact .refl rfl fun a b => ⟨a, b⟩

theorem Core.setPend (hc : Core c s f) {e : Event} (h : s.processEvent = true) :
    Core c { s with event := some e } { f with pend := some e } :=
  ⟨hc.enabled, hc.mode, hc.spec, hc.asid, hc.secs, hc.calls, hc.count, by unfold Idec.pend; simp [h], by simp, hc.icnt, hc.inv,
    hc.wf⟩

theorem checkTrig_flow {e : Event} {a n x : Nat} {m : Bool} {fl : Flags} (hp : FlowPre c s f) (hpend : f.pend = some e)
    (hd : e.data = .trig a n m x) (hproc : s.processEvent = true) (h : checkTrig e a n m x s = (s', .ok fl)) :
    IpChecked c s s' f fl := by
  unfold checkTrig at h
  rw [IM.ite_ok] at h
  rcases h with ⟨h1, h⟩ | ⟨h1, h⟩
  · rw [insnStatus_ok] at h
    obtain ⟨rfl, rfl⟩ := h
    refine ⟨f, .refl rfl fun a b => ⟨a, b⟩, rfl, rfl, fun _ => .between e hp hpend ?_, by simp⟩
    refine .between hp.cur (by simp [Between, hd, Kind.of]) ?_ (by simp [countdown, hd, h1])
    intro y hy
    simp [location, hd, h1] at hy
  · rw [IM.get_bind, IM.bind_ok] at h
    obtain ⟨s1, ⟨n', x'⟩, h2, h⟩ := h
    have hsup : e.ipSuppressed = false := by simpa using h1
    -- the located event
    have key : ∃ f1, Tr c s f [] s1 f1 ∧ FlowPre c s1 f1 ∧ s1.enabled = s.enabled ∧ s1.ip = s.ip ∧ s1.processEvent = true ∧
        ∃ e', f1.pend = some e' ∧ e'.data = .trig a n' m x' ∧ e'.ipSuppressed = false := by
      unfold locateTrig at h2
      simp only [IM.get_bind, IM.ite_ok, IM.fail_ok, and_false, false_or, IM.modify_bind, IM.pure_ok] at h2
      rcases h2 with ⟨rfl, h3, h4, rfl, h5⟩ | ⟨h3, rfl, h5⟩
      · cases h5
        have hcnt : f.count = some s.icnt := by
          rw [hp.core.count, Idec.count, if_pos (by simpa using h3)]
        have heq : ({ f with pend := some { e with data := .trig a (n - s.icnt) m f.ip } } : Flow) =
            { f with pend := some { e with data := .trig a (n - s.icnt) m s.ip } } := by rw [hp.ip]
        refine ⟨{ f with pend := some { e with data := .trig a (n - s.icnt) m s.ip } }, ?_, ?_, rfl, rfl, hproc, _, rfl,
          rfl, hsup⟩
        · refine .zero rfl (fun a b => ⟨a, b⟩) fun rest _ => Run.one ?_
          exact heq ▸ .locate f e a n m s.icnt hpend hd hsup hcnt (by omega)
        · exact ⟨hp.core.setPend hproc, hp.ip, hp.cur, hp.insn, hp.bound⟩
      · cases h5
        exact ⟨f, .refl rfl fun a b => ⟨a, b⟩, hp, rfl, rfl, hproc, e, hpend, hd, hsup⟩
    obtain ⟨f1, ht1, hp1, hen1, hip1, hproc1, e', he1, he2, he3⟩ := key
    simp only [IM.ite_ok, insnStatus_ok] at h
    have hcount : countdown e' = n' := by simp [countdown, he2, he3]
    have hloc : location e' = some x' := by simp [location, he2, he3]
    rcases h with ⟨h3, rfl, rfl⟩ | ⟨h3, ⟨h4, rfl, rfl⟩ | ⟨h4, rfl, rfl⟩⟩
    · refine ⟨f1, ht1, rfl, hen1, by simp, fun _ => ⟨hp1, .inl hproc1, fun e2 a1 a2 a3 a4 => ?_⟩⟩
      rw [he1] at a1
      cases a1
      exact absurd (hcount.symm.trans a4) h3
    · refine ⟨f1, ht1, rfl, hen1, by simp, fun _ => ⟨hp1, .inl hproc1, fun e2 a1 a2 a3 a4 => ?_⟩⟩
      rw [he1] at a1
      cases a1
      rcases a3 x' hloc with h | ⟨h, -⟩
      · exact absurd (by rw [← h, hp1.ip, hip1]) h4.2
      · rw [hp1.core.enabled, hen1, h4.1] at h; cases h
    · refine ⟨f1, ht1, rfl, hen1, fun _ => .between e' hp1 he1 ?_, by simp⟩
      have h3 : n' = 0 := by simpa using h3
      refine .between hp1.cur (by simp [Between, he2, Kind.of]) ?_ (hcount.trans h3)
      intro y hy
      rw [hloc] at hy
      cases hy
      by_cases hen : s.enabled = true
      · left
        simp only [hen, true_and, ne_eq, not_not] at h4
        rw [hp1.ip, hip1, h4]
      · right
        refine ⟨by rw [hp1.core.enabled, hen1]; simpa using hen, by simp [he2]⟩

theorem checkIp_flow (henv : c.env.Ok) {i : Option Insn} {fl : Flags} (hp : FlowPre c s f)
    (h : checkIpEvent c i s = (s', .ok fl)) : IpChecked c s s' f fl := by
  unfold checkIpEvent at h
  rw [IM.bind_ok] at h
  obtain ⟨s1, o, h1, h⟩ := h
  obtain ⟨f1, hc1, ht1, hf1, hs1, hn1, he1⟩ := eventPending_flow hp.core h1
  have hm1 : FlowPre c s1 f1 := by
    subst hf1
    rw [hs1]
    rw [hs1] at hc1
    exact ⟨hc1, hp.ip, hp.cur, hp.insn, hp.bound⟩
  have hens : s1.enabled = s.enabled := by rw [hs1]
  have hpend : f1.pend = o := by rw [hf1]
  clear hf1 hs1
  have rest : IpChecked c s1 s' f1 fl → IpChecked c s s' f fl := by
    rintro ⟨f2, a1, a2, a3, a4, a5⟩
    exact ⟨f2, ht1.trans a1, a2, a3.trans hens, a4, a5⟩
  rcases o with _ | e
  · dsimp only at h
    rw [insnStatus_ok] at h
    obtain ⟨rfl, rfl⟩ := h
    refine ⟨f1, ht1, rfl, hens, by simp, fun _ => ⟨hm1, .inr (hn1 rfl).2, ?_⟩⟩
    rw [hpend]; simp
  · refine rest ?_
    have hproc := (he1 e rfl).1
    dsimp only at h
    rw [IM.get_bind] at h
    -- one status
    have stat : ∀ {p : Bool} {s2 : Idec}, FlowPre c s2 f1 → SameButImage s1 s2 →
        (p = true → f1.Due c e) → (p = false → Between e → f1.Reached e → countdown e = 0 → False) →
        insnStatus p s2 = (s', .ok fl) → IpChecked c s1 s' f1 fl := by
      intro p s2 hm2 hsb ha hb h
      rw [insnStatus_ok] at h
      obtain ⟨rfl, rfl⟩ := h
      refine ⟨f1, hsb.tr, rfl, ?_, fun hpp => ?_, fun hpp => ⟨hm2, ?_, fun e' he' a1 a2 a3 => ?_⟩⟩
      · obtain ⟨i, mp, rfl⟩ := hsb; rfl
      · exact .between e hm2 hpend (ha hpp)
      · left; obtain ⟨i, mp, rfl⟩ := hsb; exact hproc
      · rw [hpend] at he'
        cases he'
        exact (hb hpp a1 a2 a3).elim
    have same : SameButImage s1 s1 := ⟨_, _, rfl⟩
    have hen1 := hm1.core.enabled
    have hip1 := hm1.ip
    -- always
    have always : ∀ {p : Bool}, Between e → location e = none → countdown e = 0 → p = true →
        insnStatus p s1 = (s', .ok fl) → IpChecked c s1 s' f1 fl := by
      intro p hb hl hc hpt h
      refine stat hm1 same (fun _ => .between hm1.cur hb (fun y hy => ?_) hc) (fun hpf => ?_) h
      · rw [hl] at hy; cases hy
      · rw [hpt] at hpf; cases hpf
    -- waiting for an IP
    have wait : ∀ {x : Nat}, Between e → location e = (if e.ipSuppressed = true then none else some x) → countdown e = 0 →
        (match e.data with
          | .asyncDisabled .. | .asyncBranch .. | .asyncPaging .. | .asyncVmcs .. | .tsx .. => False
          | _ => True) →
        waitFor e x s1 = (s', .ok fl) → IpChecked c s1 s' f1 fl := by
      intro x hb hl hc hm h
      unfold waitFor at h
      rw [IM.get_bind] at h
      refine stat hm1 same (fun hpp => .between hm1.cur hb (fun y hy => ?_) hc) (fun hpp _ a2 _ => ?_) h
      · rw [hl] at hy
        simp only [Bool.not_eq_true', Bool.and_eq_false_iff, Bool.not_eq_false', bne_eq_false_iff_eq] at hpp
        rcases hpp with (hpp | hpp) | hpp
        · exact .inr ⟨hen1.trans hpp, hm⟩
        · simp [hpp] at hy
        · left
          split at hy
          · cases hy
          · cases hy; exact hip1.trans hpp
      · simp only [Bool.not_eq_false', Bool.and_eq_true, Bool.not_eq_true', bne_iff_ne, ne_eq] at hpp
        rcases a2 x (by rw [hl, if_neg (by simp [hpp])]) with a2 | ⟨a2, -⟩
        · exact hpp.2 (hip1.symm.trans a2)
        · rw [hen1, hpp.1.1] at a2; cases a2
    -- events of an instruction
    have kind : ∀ {k l}, Kind.of e.data = some (k, l) → ¬ Between e → insnStatus (!s1.enabled) s1 = (s', .ok fl) →
        IpChecked c s1 s' f1 fl := by
      intro k l hk hnb h
      exact stat hm1 same (fun hpp => .later k l hm1.cur hk (hen1.trans (by simpa using hpp))) (fun _ a => absurd a hnb) h
    -- asynchronous events
    have async : ∀ {x : Nat} {p : Bool} {s2 : Idec}, FlowPre c s2 f1 → SameButImage s1 s2 → Between e →
        location e = (if e.ipSuppressed = true then none else some x) → countdown e = 0 →
        (match e.data with
          | .asyncDisabled .. | .asyncBranch .. | .asyncPaging .. | .asyncVmcs .. | .tsx .. => False
          | _ => True) = False →
        (p = true ↔ e.ipSuppressed = true ∨ s1.ip = x) →
        insnStatus p s2 = (s', .ok fl) → IpChecked c s1 s' f1 fl := by
      intro x p s2 hm2 hsb hb hl hc hm hpx h
      refine stat hm2 hsb (fun hpp => .between hm1.cur hb (fun y hy => ?_) hc) (fun hpp _ a2 _ => ?_) h
      · rw [hl] at hy
        rw [hpx] at hpp
        rcases hpp with hpp | hpp
        · simp [hpp] at hy
        · left
          split at hy
          · cases hy
          · cases hy; exact hip1.trans hpp
      · have hpn : ¬ p = true := by simp [hpp]
        rw [hpx] at hpn
        simp only [not_or] at hpn
        rcases a2 x (by rw [hl, if_neg hpn.1]) with a2 | ⟨-, a2⟩
        · exact hpn.2 (hip1.symm.trans a2)
        · exact hm.mp a2
    -- events with a location
    have located : ∀ {x : Nat} {p : Bool} {s2 : Idec}, FlowPre c s2 f1 → SameButImage s1 s2 → Between e →
        location e = some x → countdown e = 0 →
        (match e.data with
          | .asyncDisabled .. | .asyncBranch .. | .asyncPaging .. | .asyncVmcs .. | .tsx .. => False
          | _ => True) = False →
        (p = true ↔ s1.ip = x) →
        insnStatus p s2 = (s', .ok fl) → IpChecked c s1 s' f1 fl := by
      intro x p s2 hm2 hsb hb hl hc hm hpx h
      refine stat hm2 hsb (fun hpp => .between hm1.cur hb (fun y hy => ?_) hc) (fun hpp _ a2 _ => ?_) h
      · rw [hl] at hy
        rw [hpx] at hpp
        cases hy
        exact .inl (hip1.trans hpp)
      · have hpn : ¬ p = true := by simp [hpp]
        rw [hpx] at hpn
        rcases a2 x hl with a2 | ⟨-, a2⟩
        · exact hpn (hip1.symm.trans a2)
        · exact hm.mp a2
    rcases hdata : e.data <;> simp only [hdata] at h
    case enabled | overflow | stop | pwre | pwrx | tick | cbr | mnt =>
      exact always (by simp [Between, hdata, Kind.of]) (by simp [location, hdata]) (by simp [countdown, hdata]) rfl h
    case exstop | execMode | mwait | iflags | interrupt | smi | init | vmexit | shutdown | uintr =>
      exact wait (by simp [Between, hdata, Kind.of]) (by simp [location, hdata]) (by simp [countdown, hdata])
        (by simp [hdata]) h
    case paging | vmcs | ptwrite | iret | vmentry | uiret =>
      exact kind (by rw [hdata]; rfl) (by simp [Between, hdata, Kind.of]) h
    case asyncPaging | asyncVmcs =>
      refine async hm1 same (by simp [Between, hdata, Kind.of]) (by simp [location, hdata]; rfl) (by simp [countdown, hdata])
        (by simp [hdata]) ?_ h
      cases hs : e.ipSuppressed <;> simp
      exact ⟨Eq.symm, Eq.symm⟩
    case tip | tnt => rw [IM.fail_ok] at h; exact h.elim
    case trig => exact checkTrig_flow hm1 hpend hdata hproc h
    case rsm | sipi =>
      rw [IM.ite_ok, IM.fail_ok] at h
      simp only [and_false, false_or] at h
      exact always (by simp [Between, hdata, Kind.of]) (by simp [location, hdata]) (by simp [countdown, hdata]) rfl h.2
    case asyncBranch =>
      refine located hm1 same (by simp [Between, hdata, Kind.of]) (by simp [location, hdata]; rfl) (by simp [countdown, hdata])
        (by simp [hdata]) ?_ h
      rw [beq_iff_eq]
      exact ⟨Eq.symm, Eq.symm⟩
    case disabled =>
      refine stat hm1 same (fun hpp => ?_) (fun hpp a _ _ => ?_) h
      · refine .between hm1.cur (by simp [Between, hdata, hpp]) (fun y hy => ?_) (by simp [countdown, hdata])
        simp [location, hdata] at hy
      · simp [Between, hdata, hpp] at a
    case tsx spec ab x =>
      have hb : Between e := by simp [Between, hdata, Kind.of]
      have hl : location e = if e.ipSuppressed = true then none else some x := by simp [location, hdata]
      have hcd : countdown e = 0 := by simp [countdown, hdata]
      rw [IM.bind_ok] at h
      obtain ⟨s2, p, h2, h⟩ := h
      unfold postponeTsx at h2
      rw [IM.ite_ok, IM.pure_ok] at h2
      rcases h2 with ⟨h2, rfl, rfl⟩ | ⟨h2, h3⟩
      · exact async hm1 same hb hl hcd (by simp [hdata]) (by simp [h2]) h
      · have h2 : e.ipSuppressed = false := by simpa using h2
        have fin : ∀ {s3 : Idec}, FlowPre c s3 f1 → SameButImage s1 s3 →
            (IM.get >>= fun s => (pure (s.ip != x) : IM Bool)) s3 = (s2, .ok p) → IpChecked c s1 s' f1 fl := by
          intro s3 hm3 hsb h3
          rw [IM.get_bind, IM.pure_ok] at h3
          obtain ⟨rfl, rfl⟩ := h3
          refine async hm3 hsb hb hl hcd (by simp [hdata]) ?_ h
          have : s2.ip = s1.ip := by obtain ⟨_, _, rfl⟩ := hsb; rfl
          rw [this]
          simp [h2]
        rcases i with _ | i <;> dsimp only at h3
        · exact fin hm1 same h3
        · rw [IM.bind_ok] at h3
          obtain ⟨s3, _, h4, h3⟩ := h3
          rw [IM.when_ok] at h4
          rcases h4 with ⟨h5, h4⟩ | ⟨h5, rfl⟩
          · obtain ⟨s4, k1, k2, k3⟩ := handleBdm64_flow henv hm1.core h4
            rcases k3 with rfl | ⟨k4, rfl⟩
            · exact fin (hm1.image k2 k1) k2 h3
            · rw [IM.get_bind, IM.pure_ok] at h3
              obtain ⟨rfl, rfl⟩ := h3
              simp only [insnStatus_ok] at h
              obtain ⟨rfl, rfl⟩ := h
              have hm4 := hm1.image k2 k1
              subst k4
              have hc4 := hm4.core
              refine ⟨{ f1 with ip := x }, ?_, rfl, ?_, fun _ => ?_, by simp⟩
              · refine (SameButImage.tr k2).trans (.zero rfl (fun a b => ⟨a, b⟩) fun rest _ => Run.one ?_)
                exact .bdm64 f1 e spec x h5 hpend hm1.cur hdata h2
              · obtain ⟨_, _, rfl⟩ := k2; rfl
              · refine .between e ⟨?_, rfl, hm4.cur, hm4.insn, hm4.bound⟩ hpend (.between hm4.cur hb (fun y hy => ?_) hcd)
                · exact ⟨hc4.enabled, hc4.mode, hc4.spec, hc4.asid, hc4.secs, hc4.calls, hc4.count, hc4.pend, hc4.noPend,
                    hc4.icnt, hc4.inv, hc4.wf⟩
                · rw [hl, h2] at hy
                  cases hy
                  exact .inl rfl
          · exact fin hm1 same h3
    case asyncDisabled at_ ip =>
      have hb : Between e := by simp [Between, hdata, Kind.of]
      have hl : location e = some at_ := by simp [location, hdata]
      have hcd : countdown e = 0 := by simp [countdown, hdata]
      simp only [IM.ite_ok] at h
      rcases h with ⟨h2, h⟩ | ⟨h2, ⟨h3, h⟩ | ⟨h3, h⟩⟩
      · exact located hm1 same hb hl hcd (by simp [hdata]) (by simp; exact fun a => h2 a.symm) h
      · have h2 : at_ = s1.ip := by simpa using h2
        rw [IM.bind_ok] at h
        obtain ⟨s2, b, h4, h⟩ := h
        obtain ⟨k1, k2, k3⟩ := checkSkd022_flow henv hm1.core hm1.ip h4
        have hm2 := hm1.image k2 k1
        rw [IM.ite_ok] at h
        rcases h with ⟨h5, h⟩ | ⟨h5, h⟩
        · rw [IM.modify_bind, insnStatus_ok] at h
          obtain ⟨rfl, rfl⟩ := h
          obtain ⟨j, k4, k5⟩ := k3 h5
          have hproc2 : s2.processEvent = true := by obtain ⟨_, _, rfl⟩ := k2; exact hproc
          refine ⟨{ f1 with pend := some { e with data := .disabled ip } }, ?_, rfl, ?_, by simp, fun _ => ?_⟩
          · refine (SameButImage.tr k2).trans (.zero rfl (fun a b => ⟨a, b⟩) fun rest _ => Run.one ?_)
            exact .skd022 f1 e at_ ip j h3 hpend hdata (hip1.trans h2.symm) k4 k5
          · obtain ⟨_, _, rfl⟩ := k2; rfl
          · refine ⟨⟨k1.setPend hproc2, hm2.ip, hm2.cur, hm2.insn, hm2.bound⟩, .inl hproc2, fun e' he' _ _ _ => ?_⟩
            cases he'
            exact ⟨h3, ip, rfl⟩
        · exact located hm2 k2 hb hl hcd (by simp [hdata]) (by simp [h2]) h
      · exact located hm1 same hb hl hcd (by simp [hdata]) (by simpa using Eq.symm (by simpa using h2)) h

end Ipt
