import Verif.InsnFlow

/-!
# Helper lemmas: events of an instruction
-/

set_option linter.unusedSimpArgs false

namespace Ipt

open Ild Spec Props

variable {c : InsnCfg} {s s' s'' : Idec} {f f' f'' : Flow}

/-- The decoder does not need to look for an event. -/
def FlowQuiet (s : Idec) : Prop := s.processEvent = true ∨ s.status.eventPending = false

/-- An instruction was shown, and is not executed yet. -/
structure FlowMid (c : InsnCfg) (s : Idec) (f : Flow) (i : Insn) : Prop where
  core : Core c s f
  ip : f.ip = s.ip
  cur : f.cur = some i
  insn : s.insn = some i ∨ (s.insn = none ∧ ∀ k, s.boundTo k = false)
  bound : ∀ k, s.boundTo k = true ↔ k ∈ f.bound
  loc : s.enabled = true → s.ip = i.ip

/-- Between two instructions. -/
structure FlowPre (c : InsnCfg) (s : Idec) (f : Flow) : Prop where
  core : Core c s f
  ip : f.ip = s.ip
  cur : f.cur = none
  insn : s.insn = none
  bound : ∀ k, s.boundTo k = false

/-- No event has to be shown before the next instruction. -/
structure FlowIdle (c : InsnCfg) (s : Idec) (f : Flow) : Prop extends FlowPre c s f where
  quiet : FlowQuiet s
  none : ∀ e, f.pend = some e → Between e → f.Reached e → countdown e = 0 →
    c.evt.pkt.errata.skd022 = true ∧ ∃ ip, e.data = .disabled ip

/-- An event has to be shown. -/
inductive FlowPost (c : InsnCfg) (s : Idec) (f : Flow) : Prop
  | between (e : Event) : FlowPre c s f → f.pend = some e → f.Due c e → FlowPost c s f
  | belongs (e : Event) (k : Kind) (l : Option Nat) (i : Insn) : Core c s f → f.ip = s.ip → f.cur = some i →
    s.insn = some i → f.pend = some e → Kind.of e.data = some (k, l) → (f.enabled = true → Belongs e k l i) →
    k ∉ f.bound → (∀ k', s.boundTo k' = true ↔ k' ∈ k :: f.bound) → (s.enabled = true → s.ip = i.ip) → FlowPost c s f
  | disable (e : Event) (ip : Nat) (i : Insn) : Core c s f → f.cur = some i → f.pend = some e → e.data = .disabled ip →
    e.statusUpdate = false → Disables c e ip i → Resume i s.ip →
    (s.insn = some i ∨ (s.insn = none ∧ ∀ k, s.boundTo k = false)) →
    (∀ k, s.boundTo k = true ↔ k ∈ f.bound) → FlowPost c s f

theorem addr_unique {t u : Nat} {v : Int} (h1 : Addr t v) (h2 : Addr u v) : t = u := by
  obtain ⟨a, k, hk⟩ := h1
  obtain ⟨b, j, hj⟩ := h2
  omega

theorem atDisabled_flow {e : Event} {ip : Nat} {i : Insn} {b : Bool} (h : atDisabled c e ip i = .ok b) :
    b = true ↔ Disables c e ip i := by
  have hu : ∀ t, Addr t (i.ip + i.size + i.ext.displacement) ↔ t = addDisp ((i.ip + i.size) % 2 ^ 64) i.ext.displacement :=
    fun t => ⟨fun h => addr_unique h (addr_target i _), fun h => h ▸ addr_target i _⟩
  unfold atDisabled at h
  unfold Disables
  by_cases hs : e.ipSuppressed = true
  · rw [if_pos hs] at h ⊢
    by_cases h1 : isFarBranch i.ext = true ∨ changesCpl i.ext = true ∨ changesCr3 i.ext = true
    · rw [if_pos h1] at h
      cases h
      simp only [true_iff]
      rcases h1 with h1 | h1 | h1 <;> simp [h1]
    · rw [if_neg h1] at h
      simp only [not_or] at h1
      by_cases h2 : c.filter.cfg ≠ 0 ∧ c.evt.pkt.errata.skl014 = true
      · rw [if_pos h2] at h
        simp only [h1, false_or, h2.2, true_and, Direct]
        unfold atSkl014 at h
        rw [if_neg (by simp [hs])] at h
        have key : (if i.ext.isDirect = false ∨ i.ext.inst = .jmpabs then Res.ok false
            else
              match c.filter.check (addDisp ((i.ip + i.size) % 2 ^ 64) i.ext.displacement) with
              | .ok true => .ok false
              | .ok false => .ok true
              | .err _ => .ok true
              | .ub => .ub) = Res.ok b → (b = true ↔ ((i.ext.isDirect = true ∧ i.ext.inst ≠ .jmpabs) ∧
                ∃ t, Addr t (i.ip + i.size + i.ext.displacement) ∧ c.filter.check t ≠ .ok true)) := by
          intro h
          by_cases h3 : i.ext.isDirect = false ∨ i.ext.inst = .jmpabs
          · rw [if_pos h3] at h
            cases h
            simp only [Bool.false_eq_true, false_iff]
            rintro ⟨⟨a1, a2⟩, -⟩
            rcases h3 with h3 | h3
            · rw [a1] at h3; cases h3
            · exact a2 h3
          · rw [if_neg h3] at h
            simp only [not_or, Bool.not_eq_false] at h3
            simp only [hu, exists_eq_left, h3, ne_eq, not_false_eq_true, and_self, true_and]
            rcases hf : c.filter.check (addDisp ((i.ip + i.size) % 2 ^ 64) i.ext.displacement) with (_ | _) | _ | _ <;>
              rw [hf] at h <;> cases h <;> simp
        have hcfg := h2.1
        rcases hcl : i.ext.cls with _ | _ | _ | _ | _ | _ | _ | _ | _ | _ | _ <;> simp only [hcl] at h <;>
          first
          | (cases h; simp; done)
          | (rw [key h]; simp [hcfg])
      · rw [if_neg h2] at h
        cases h
        simp only [Bool.false_eq_true, false_iff]
        rintro (a | a | a | ⟨a1, a2, -⟩)
        · exact h1.1 a
        · exact h1.2.1 a
        · exact h1.2.2 a
        · exact h2 ⟨a2, a1⟩
  · rw [if_neg hs] at h ⊢
    rcases hcl : i.ext.cls with _ | _ | _ | _ | _ | _ | _ | _ | _ | _ | _ <;>
      simp only [hcl] at h <;>
      first
      | (cases h; done)
      | (cases h; simp [Ipt.isBranch, hcl]; done)
      | (simp only [Ipt.isBranch, hcl, Direct, hu]
         by_cases h3 : i.ext.isDirect = true ∧ i.ext.inst ≠ .jmpabs
         · rw [if_pos h3] at h
           cases h
           rw [beq_iff_eq]
           exact ⟨fun a => ⟨trivial, fun _ _ => a.symm⟩, fun a => (a.2 (by simp) h3).symm⟩
         · rw [if_neg h3] at h
           cases h
           simp only [true_iff, true_and]
           exact fun _ a => absurd a h3)

theorem resumeIp_flow {i : Insn} (h : resumeIp i s = (s', .ok ())) : ∃ t, s' = { s with ip := t } ∧ Resume i t := by
  unfold resumeIp at h
  unfold Resume
  by_cases hd : i.ext.isDirect = true <;> by_cases hj : i.ext.inst = .jmpabs <;>
  rcases hcl : i.ext.cls with _ | _ | _ | _ | _ | _ | _ | _ | _ | _ | _ <;>
    simp only [nextIp, hcl, hd, hj, IM.modify_bind, IM.modify_ok, IM.fail_ok, IM.pure_ok, IM.ite_ok, ne_eq, reduceCtorEq,
      not_false_eq_true, not_true_eq_false, true_and, false_and, or_false, false_or, and_true, and_false, and_self,
      if_true, if_false, ite_true, ite_false, if_false_left, Bool.false_eq_true] at h ⊢
  all_goals first
    | exact ⟨_, h, addr_fall i⟩
    | exact ⟨_, h, addr_target i _⟩
    | exact ⟨_, h, rfl⟩

theorem postpone_ok {i : Insn} {r : Option Flags} (h : postpone i s = (s', .ok r)) :
    s' = { s with insn := some (s.insn.getD i) } ∧
      r = some { eventPending := true, ipSuppressed := !s.enabled, eos := s.status.eos && !s.processEvent } := by
  unfold postpone at h
  simp only [IM.modify_bind, IM.bind_ok, insnStatus_ok, IM.pure_ok] at h
  obtain ⟨s1, fl, ⟨rfl, rfl⟩, rfl, rfl⟩ := h
  exact ⟨rfl, rfl⟩

/-- Bind an event to the instruction. -/
theorem bind_flow {i : Insn} {e : Event} {k : Kind} {l : Option Nat} (hm : FlowMid c s f i) (hp : f.pend = some e)
    (hk : Kind.of e.data = some (k, l)) (hb : s.boundTo k = false) (hbe : f.enabled = true → Belongs e k l i)
    {s2 : Idec} (hcore : Core c s2 f) (h1 : s2.ip = s.ip) (h2 : s2.insn = some (s.insn.getD i))
    (h3 : s2.enabled = s.enabled) (h4 : ∀ k', s2.boundTo k' = (decide (k' = k) || s.boundTo k')) : FlowPost c s2 f := by
  refine .belongs e k l i hcore (hm.ip.trans h1.symm) hm.cur ?_ hp hk hbe ?_ ?_ ?_
  · rw [h2]
    rcases hm.insn with h | ⟨h, -⟩ <;> rw [h] <;> rfl
  · rw [← hm.bound, hb]; simp
  · intro k'
    rw [h4, List.mem_cons, ← hm.bound]
    simp
  · rw [h3, h1]; exact hm.loc

theorem bindOnce_flow {i : Insn} {e : Event} {k : Kind} {evip : Nat} {isKind bound : Bool} {mark : Idec → Idec}
    {r : Option Flags} (hm : FlowMid c s f i) (hp : f.pend = some e)
    (hk : Kind.of e.data = some (k, some evip)) (hb : bound = s.boundTo k) (hkind : isKind = k.fits i.ext)
    (hmark : ∀ i', Core c { mark s with insn := i' } f ∧ (mark s).ip = s.ip ∧ (mark s).insn = s.insn ∧
      (mark s).enabled = s.enabled ∧ (∀ k', (mark s).boundTo k' = (decide (k' = k) || s.boundTo k')) ∧
      (mark s).q = s.q ∧ (mark s).processEvent = s.processEvent ∧ (mark s).status = s.status)
    (h : bindOnce bound e isKind evip mark i s = (s', .ok r)) :
    (r = none ∧ s' = s ∧ (s.enabled = true → ¬ f.Due c e)) ∨
    (FlowPost c s' f ∧ Tr c s f [] s' f ∧ ∃ fl, r = some fl ∧ fl.eventPending = true ∧ fl.ipSuppressed = !s'.enabled) := by
  unfold bindOnce at h
  simp only [IM.get_bind, IM.ite_ok, IM.pure_ok, IM.modify_bind] at h
  have nodue : ¬ (s.boundTo k = false ∧ Belongs e k (some evip) i) → ¬ f.Due c e ∨ s.enabled = false := by
    intro hn
    by_cases hen : s.enabled = true
    · left
      rintro (⟨h1, -⟩ | ⟨_, _, h1, -⟩ | ⟨k', l, i', h1, h2, h3, h4⟩ | ⟨ip, i', h1, h2, -⟩)
      · rw [hm.cur] at h1; cases h1
      · rw [hm.cur] at h1; cases h1
      · rw [hm.cur] at h1
        cases h1
        rw [hk] at h2
        cases h2
        refine hn ⟨?_, h3 (by rw [hm.core.enabled, hen])⟩
        rw [← hm.bound] at h4
        simpa using h4
      · rw [h2] at hk; cases hk
    · right; simpa using hen
  rcases h with ⟨h1, rfl, rfl⟩ | ⟨h1, ⟨h2, rfl, rfl⟩ | ⟨h2, ⟨h3, rfl, rfl⟩ | ⟨h3, h⟩⟩⟩
  · left
    refine ⟨rfl, rfl, fun hen => ?_⟩
    rcases nodue (by rw [← hb, h1]; simp) with h | h
    · exact h
    · rw [hen] at h; cases h
  · left
    refine ⟨rfl, rfl, fun hen => ?_⟩
    rcases nodue (by rintro ⟨-, a⟩; simp [Belongs, h2.1, ← hkind, h2.2] at a) with h | h
    · exact h
    · rw [hen] at h; cases h
  · left
    refine ⟨rfl, rfl, fun hen => ?_⟩
    rcases nodue (by rintro ⟨-, a⟩; simp [Belongs, h3.1, ← hm.loc hen] at a; exact h3.2 a) with h | h
    · exact h
    · rw [hen] at h; cases h
  · right
    obtain ⟨rfl, rfl⟩ := postpone_ok h
    obtain ⟨m1, m2, m3, m4, m5, m6, m7, m8⟩ := hmark (some ((mark s).insn.getD i))
    refine ⟨?_, ?_, _, rfl, rfl, rfl⟩
    · refine bind_flow hm hp hk (by rw [← hb]; simpa using h1) ?_ m1 m2 (by rw [m3]) m4 m5
      intro hen
      rw [hm.core.enabled] at hen
      have := hm.loc hen
      unfold Belongs
      by_cases hs : e.ipSuppressed = true
      · simp only [hs, if_true, ← hkind]
        simp only [hs, true_and] at h2
        simpa using h2
      · simp only [hs, if_false]
        have hs : e.ipSuppressed = false := by simpa using hs
        simp only [hs, true_and, not_not, ne_eq] at h3
        rw [← this]
        simpa using h3
    · exact .refl m6 (by dsimp only; rw [m7, m8]; exact fun a b => ⟨a, b⟩)

/-- Events of an instruction that are not of these kinds. -/
theorem notDue_cur {i : Insn} {e : Event} (hcur : f.cur = some i) (hk : Kind.of e.data = none)
    (hd : ∀ ip, e.data = .disabled ip → e.statusUpdate = false → ¬ Disables c e ip i) : ¬ f.Due c e := by
  rintro (⟨h1, -⟩ | ⟨_, _, h1, -⟩ | ⟨k', l, i', h1, h2, h3, h4⟩ | ⟨ip, i', h1, h2, h3, h4⟩)
  · rw [hcur] at h1; cases h1
  · rw [hcur] at h1; cases h1
  · rw [hk] at h2; cases h2
  · rw [hcur] at h1; cases h1; exact hd ip h2 h3 h4

/-- The outcome of looking for an event of the instruction. -/
def Checked (c : InsnCfg) (i : Insn) (s s' : Idec) (f : Flow) (r : Option Flags) : Prop :=
  ∃ f', Tr c s f [] s' f' ∧
    match r with
    | none => FlowMid c s' f' i ∧ FlowQuiet s' ∧ (s'.enabled = true → ∀ e, f'.pend = some e → ¬ f'.Due c e) ∧
        s'.insn = s.insn ∧ s'.enabled = s.enabled
    | some fl => FlowPost c s' f' ∧ fl.eventPending = true ∧ fl.ipSuppressed = !s'.enabled

theorem checkInsn_flow {i : Insn} {r : Option Flags} (hm : FlowMid c s f i) (h : checkInsnEvent c i s = (s', .ok r)) :
    Checked c i s s' f r := by
  unfold checkInsnEvent at h
  rw [IM.bind_ok] at h
  obtain ⟨s1, o, h1, h⟩ := h
  obtain ⟨f1, hc1, ht1, hf1, hs1, hn1, he1⟩ := eventPending_flow hm.core h1
  have hm1 : FlowMid c s1 f1 i := by
    subst hf1
    rw [hs1]
    rw [hs1] at hc1
    exact ⟨hc1, hm.ip, hm.cur, hm.insn, hm.bound, hm.loc⟩
  have hin : s1.insn = s.insn := by rw [hs1]
  have hens : s1.enabled = s.enabled := by rw [hs1]
  have hpend : f1.pend = o := by rw [hf1]
  clear hf1 hs1
  -- nothing to show
  have quiet : ∀ {r}, (∀ e, o = some e → s1.enabled = true → ¬ f1.Due c e) → (s1.processEvent = true ∨ o = none) →
      (pure none : IM (Option Flags)) s1 = (s', .ok r) → Checked c i s s' f r := by
    intro r hq ho h
    rw [IM.pure_ok] at h
    obtain ⟨rfl, rfl⟩ := h
    refine ⟨f1, ht1, hm1, ?_, fun a e he => hq e (by rw [← hpend, he]) a, hin, hens⟩
    rcases ho with ho | ho
    · exact .inl ho
    · exact .inr (hn1 ho).2
  rcases o with _ | e
  · exact quiet (by simp) (.inr rfl) h
  · have hproc := (he1 e rfl).1
    dsimp only at h
    rw [IM.get_bind] at h
    have none_ : Kind.of e.data = none → (∀ ip, e.data = .disabled ip → e.statusUpdate = true) →
        (pure none : IM (Option Flags)) s1 = (s', .ok r) → Checked c i s s' f r := by
      intro hk hd h
      refine quiet (fun e' he' _ => ?_) (.inl hproc) h
      cases he'
      exact notDue_cur hm1.cur hk fun ip a b => by rw [hd ip a] at b; cases b
    have finish : (∃ s2 : Idec, FlowPost c s2 f1 ∧ Tr c s1 f1 [] s2 f1 ∧ s' = s2 ∧
        ∃ fl, r = some fl ∧ fl.eventPending = true ∧ fl.ipSuppressed = !s2.enabled) → Checked c i s s' f r := by
      rintro ⟨s2, a1, a2, rfl, fl, rfl, a3, a4⟩
      exact ⟨f1, ht1.trans a2, a1, a3, a4⟩
    have once : ∀ {k : Kind} {evip : Nat} {isKind bound : Bool} {mark : Idec → Idec},
        Kind.of e.data = some (k, some evip) → bound = s1.boundTo k → isKind = k.fits i.ext →
        (∀ i', Core c { mark s1 with insn := i' } f1 ∧ (mark s1).ip = s1.ip ∧ (mark s1).insn = s1.insn ∧
          (mark s1).enabled = s1.enabled ∧ (∀ k', (mark s1).boundTo k' = (decide (k' = k) || s1.boundTo k')) ∧
          (mark s1).q = s1.q ∧ (mark s1).processEvent = s1.processEvent ∧ (mark s1).status = s1.status) →
        bindOnce bound e isKind evip mark i s1 = (s', .ok r) → Checked c i s s' f r := by
      intro k evip isKind bound mark hk hb hkind hmark h
      rcases bindOnce_flow hm1 hpend hk hb hkind hmark h with ⟨rfl, rfl, a⟩ | ⟨a1, a2, fl, rfl, a3, a4⟩
      · exact quiet (fun e' he' hen => by cases he'; exact a hen) (.inl hproc) rfl
      · exact finish ⟨s', a1, a2, rfl, fl, rfl, a3, a4⟩
    have core_ : ∀ {s2 : Idec}, s2 = { s1 with
        insn := s2.insn, boundPaging := s2.boundPaging, boundVmcs := s2.boundVmcs, boundPtwrite := s2.boundPtwrite,
        boundIret := s2.boundIret, boundVmentry := s2.boundVmentry, boundUiret := s2.boundUiret } → Core c s2 f1 := by
      intro s2 h2
      have hc := hm1.core
      rw [h2]
      exact ⟨hc.enabled, hc.mode, hc.spec, hc.asid, hc.secs, hc.calls, hc.count, hc.pend, hc.noPend, hc.icnt, hc.inv, hc.wf⟩
    have mark_ : ∀ {k : Kind} {mark : Idec → Idec}, mark s1 = { s1 with
        boundPaging := (mark s1).boundPaging,
        boundVmcs := (mark s1).boundVmcs, boundPtwrite := (mark s1).boundPtwrite, boundIret := (mark s1).boundIret,
        boundVmentry := (mark s1).boundVmentry, boundUiret := (mark s1).boundUiret } →
        (∀ k', (mark s1).boundTo k' = (decide (k' = k) || s1.boundTo k')) →
        ∀ i', Core c { mark s1 with insn := i' } f1 ∧ (mark s1).ip = s1.ip ∧ (mark s1).insn = s1.insn ∧
          (mark s1).enabled = s1.enabled ∧ (∀ k', (mark s1).boundTo k' = (decide (k' = k) || s1.boundTo k')) ∧
          (mark s1).q = s1.q ∧ (mark s1).processEvent = s1.processEvent ∧ (mark s1).status = s1.status := by
      intro k mark h1 h2 i'
      refine ⟨core_ (by rw [h1]), by rw [h1], by rw [h1], by rw [h1], h2, by rw [h1], by rw [h1], by rw [h1]⟩
    have class_ : ∀ {k : Kind} {mark : Idec → Idec}, Kind.of e.data = some (k, none) →
        mark s1 = { s1 with
          boundPaging := (mark s1).boundPaging,
          boundVmcs := (mark s1).boundVmcs, boundPtwrite := (mark s1).boundPtwrite, boundIret := (mark s1).boundIret,
          boundVmentry := (mark s1).boundVmentry, boundUiret := (mark s1).boundUiret } →
        (∀ k', (mark s1).boundTo k' = (decide (k' = k) || s1.boundTo k')) →
        (s1.boundTo k = true ∧ (pure none : IM (Option Flags)) s1 = (s', .ok r) ∨
          ¬ s1.boundTo k = true ∧ (k.fits i.ext = false ∧ (pure none : IM (Option Flags)) s1 = (s', .ok r) ∨
            ¬ k.fits i.ext = false ∧ postpone i (mark s1) = (s', .ok r))) → Checked c i s s' f r := by
      intro k mark hk h1 h2 h
      have hno : s1.boundTo k = true ∨ k.fits i.ext = false → s1.enabled = true → ¬ f1.Due c e := by
        rintro hn hen (⟨h1, -⟩ | ⟨_, _, h1, -⟩ | ⟨k', l, i', h1, h2, h3, h4⟩ | ⟨ip, i', h1, h2, -⟩)
        · rw [hm1.cur] at h1; cases h1
        · rw [hm1.cur] at h1; cases h1
        · rw [hm1.cur] at h1
          cases h1
          rw [hk] at h2
          cases h2
          rw [← hm1.bound] at h4
          have := h3 (by rw [hm1.core.enabled, hen])
          simp only [Belongs] at this
          rcases hn with hn | hn
          · exact h4 hn
          · rw [this] at hn; cases hn
        · rw [h2] at hk; cases hk
      rcases h with ⟨h3, h⟩ | ⟨h3, ⟨h4, h⟩ | ⟨h4, h⟩⟩
      · exact quiet (fun e' he' hen => by cases he'; exact hno (.inl h3) hen) (.inl hproc) h
      · exact quiet (fun e' he' hen => by cases he'; exact hno (.inr h4) hen) (.inl hproc) h
      · obtain ⟨rfl, rfl⟩ := postpone_ok h
        obtain ⟨m1, m2, m3, m4, m5, m6, m7, m8⟩ := mark_ h1 h2 (some ((mark s1).insn.getD i))
        refine finish ⟨_, bind_flow hm1 hpend hk (by simpa using h3) (fun _ => ?_) m1 m2 (by rw [m3]) m4 m5, ?_, rfl, _, rfl, rfl, rfl⟩
        · simpa [Belongs] using h4
        · exact .refl m6 (by dsimp only; rw [m7, m8]; exact fun a b => ⟨a, b⟩)
    rcases hdata : e.data <;> simp only [hdata] at h
    all_goals first
      | (rw [IM.fail_ok] at h; exact h.elim)
      | exact none_ (by rw [hdata]; rfl) (by rw [hdata]; simp) h
      | skip
    case disabled ip =>
      rw [IM.ite_ok] at h
      rcases h with ⟨h3, h⟩ | ⟨h3, h⟩
      · exact none_ (by rw [hdata]; rfl) (by intros; exact h3) h
      · rw [IM.bind_ok] at h
        obtain ⟨s2, b, h4, h⟩ := h
        rw [IM.lift_ok] at h4
        obtain ⟨rfl, h4⟩ := h4
        have hdis := atDisabled_flow h4
        cases b
        · refine quiet (fun e' he' hen => ?_) (.inl hproc) h
          cases he'
          refine notDue_cur hm1.cur (by rw [hdata]; rfl) fun ip' a _ => ?_
          rw [hdata] at a
          cases a
          simpa using hdis
        · dsimp only at h
          rw [IM.bind_ok] at h
          obtain ⟨s3, _, h5, h⟩ := h
          obtain ⟨t, rfl, h6⟩ := resumeIp_flow h5
          simp only [IM.bind_ok, insnStatus_ok, IM.pure_ok] at h
          obtain ⟨s4, fl, ⟨rfl, rfl⟩, rfl, rfl⟩ := h
          have hc := hm1.core
          refine finish ⟨{ s2 with ip := t }, .disable e ip i ?_ hm1.cur hpend hdata (by simpa using h3) (hdis.1 rfl) h6 hm1.insn hm1.bound,
            .refl rfl fun a b => ⟨a, b⟩, rfl, _, rfl, rfl, rfl⟩
          exact ⟨hc.enabled, hc.mode, hc.spec, hc.asid, hc.secs, hc.calls, hc.count, hc.pend, hc.noPend, hc.icnt, hc.inv, hc.wf⟩
    case paging =>
      simp only [IM.ite_ok, IM.modify_bind] at h
      refine class_ (k := .paging) (mark := fun s => { s with boundPaging := true }) (by rw [hdata]; rfl) rfl ?_ h
      intro k'; cases k' <;> simp [Idec.boundTo]
    case vmcs =>
      simp only [IM.ite_ok, IM.modify_bind] at h
      refine class_ (k := .vmcs) (mark := fun s => { s with boundVmcs := true }) (by rw [hdata]; rfl) rfl ?_ h
      intro k'; cases k' <;> simp [Idec.boundTo]
    case ptwrite =>
      refine once (k := .ptwrite) (by rw [hdata]; rfl) rfl rfl
        (mark_ (mark := fun s => { s with boundPtwrite := true }) rfl ?_) h
      intro k'; cases k' <;> simp [Idec.boundTo]
    case iret =>
      refine once (k := .iret) (by rw [hdata]; rfl) rfl rfl
        (mark_ (mark := fun s => { s with boundIret := true }) rfl ?_) h
      intro k'; cases k' <;> simp [Idec.boundTo]
    case vmentry =>
      refine once (k := .vmentry) (by rw [hdata]; rfl) rfl rfl
        (mark_ (mark := fun s => { s with boundVmentry := true }) rfl ?_) h
      intro k'; cases k' <;> simp [Idec.boundTo]
    case uiret =>
      refine once (k := .uiret) (by rw [hdata]; rfl) rfl rfl
        (mark_ (mark := fun s => { s with boundUiret := true }) rfl ?_) h
      intro k'; cases k' <;> simp [Idec.boundTo]

end Ipt
