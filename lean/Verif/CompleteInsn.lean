import Verif.CompleteEvent

/-!
# Helper lemmas: instructions are executed, and get their events
-/

set_option linter.unusedSimpArgs false

namespace Ipt

open Ild Spec Props

variable {c : InsnCfg} {s s' : Idec} {f : Flow}

/-- The part of `pt_insn_check_insn_event` after looking for an event. -/
def insnFor (c : InsnCfg) (i : Insn) (e : Option Event) : IM (Option Flags) :=
  match e with
  | none => pure none
  | some ev => do
    let s ← IM.get
    match ev.data with
    | .tip .. | .tnt .. => IM.fail .internal
    | .disabled ip =>
      if ev.statusUpdate = true then pure none
      else
        match ← IM.lift (atDisabled c ev ip i) with
        | false => pure none
        | true => do
          resumeIp i
          let f ← insnStatus true
          pure (some f)
    | .paging .. =>
      if s.boundPaging = true then pure none
      else if bindsToPip i.ext = false then pure none
      else do
        IM.modify fun s => { s with boundPaging := true }
        postpone i
    | .vmcs .. =>
      if s.boundVmcs = true then pure none
      else if bindsToVmcs i.ext = false then pure none
      else do
        IM.modify fun s => { s with boundVmcs := true }
        postpone i
    | .ptwrite _ _ ip =>
      bindOnce s.boundPtwrite ev (isPtwrite i.ext) ip (fun s => { s with boundPtwrite := true }) i
    | .iret ip => bindOnce s.boundIret ev (isIret i.ext) ip (fun s => { s with boundIret := true }) i
    | .vmentry ip => bindOnce s.boundVmentry ev (isVmentry i.ext) ip (fun s => { s with boundVmentry := true }) i
    | .uiret ip => bindOnce s.boundUiret ev (isUiret i.ext) ip (fun s => { s with boundUiret := true }) i
    | _ => pure none

theorem checkInsn_eq (i : Insn) : checkInsnEvent c i = eventPending c >>= insnFor c i := rfl

/-- The flags for a pending event. -/
def pendingFlags (s : Idec) : Flags :=
  { eventPending := true, ipSuppressed := !s.enabled, eos := s.status.eos && !s.processEvent }

/-- The instruction has its event of this kind. -/
def Idec.mark (s : Idec) : Kind → Idec
  | .paging => { s with boundPaging := true }
  | .vmcs => { s with boundVmcs := true }
  | .ptwrite => { s with boundPtwrite := true }
  | .iret => { s with boundIret := true }
  | .vmentry => { s with boundVmentry := true }
  | .uiret => { s with boundUiret := true }

theorem mark_bound (k k' : Kind) : (s.mark k).boundTo k' = (decide (k' = k) || s.boundTo k') := by
  cases k <;> cases k' <;> rfl

/-- What marking an instruction and postponing it changes. -/
def OnlyInsn (s s1 : Idec) : Prop :=
  s1 = { s with insn := s1.insn, boundPaging := s1.boundPaging, boundVmcs := s1.boundVmcs, boundPtwrite := s1.boundPtwrite,
                boundIret := s1.boundIret, boundVmentry := s1.boundVmentry, boundUiret := s1.boundUiret }

theorem mark_only (k : Kind) (i : Option Insn) : OnlyInsn s { s.mark k with insn := i } := by cases k <;> rfl

/-- The event belongs to the instruction. -/
def belongsHere (s : Idec) (e : Event) (k : Kind) (loc : Option Nat) (i : Insn) : Bool :=
  !s.boundTo k && (match loc with
    | some x => if e.ipSuppressed = true then k.fits i.ext else s.ip == x
    | none => k.fits i.ext)

theorem insnFor_kind {e : Event} {k : Kind} {loc : Option Nat} (j : Insn) (hk : Kind.of e.data = some (k, loc)) :
    insnFor c j (some e) s = if belongsHere s e k loc j = true then
      ({ s.mark k with insn := some (s.insn.getD j) }, .ok (some (pendingFlags s))) else (s, .ok none) := by
  have post : ∀ k, postpone j (s.mark k) = ({ s.mark k with insn := some (s.insn.getD j) }, .ok (some (pendingFlags s))) := by
    intro k; cases k <;> rfl
  have once : ∀ (k : Kind) (isKind : Bool) (x : Nat) (mark : Idec → Idec), mark s = s.mark k → isKind = k.fits j.ext →
      bindOnce (s.boundTo k) e isKind x mark j s = if belongsHere s e k (some x) j = true then
        ({ s.mark k with insn := some (s.insn.getD j) }, .ok (some (pendingFlags s))) else (s, .ok none) := by
    intro k isKind x mark hm hi
    unfold bindOnce belongsHere
    cases hb : s.boundTo k
    · rw [if_neg (by simp), IM.get_bind]
      cases hs : e.ipSuppressed
      · by_cases hx : s.ip = x
        · rw [if_neg (by simp), if_neg (by simp [hx]), IM.modify_bind, hm, post]
          simp [hx]
        · rw [if_neg (by simp), if_pos (by simp [hx])]
          simp [hx]; rfl
      · cases hf : isKind
        · rw [if_pos (by simp)]
          simp [← hi, hf]; rfl
        · rw [if_neg (by simp), if_neg (by simp), IM.modify_bind, hm, post]
          simp [← hi, hf]
    · rfl
  have class_ : ∀ (k : Kind) (mark : Idec → Idec), mark s = s.mark k →
      (if s.boundTo k = true then (pure none : IM (Option Flags)) else if k.fits j.ext = false then pure none
        else IM.modify mark >>= fun _ => postpone j) s = if belongsHere s e k none j = true then
        ({ s.mark k with insn := some (s.insn.getD j) }, .ok (some (pendingFlags s))) else (s, .ok none) := by
    intro k mark hm
    unfold belongsHere
    cases hb : s.boundTo k
    · rw [if_neg (by simp)]
      cases hf : k.fits j.ext
      · rfl
      · rw [if_neg (by simp), IM.modify_bind, hm, post]
        rfl
    · rfl
  unfold insnFor
  dsimp only
  rw [IM.get_bind]
  rcases hd : e.data <;> rw [hd] at hk <;> cases hk <;> dsimp only
  · exact class_ .paging _ rfl
  · exact class_ .vmcs _ rfl
  · exact once .ptwrite _ _ _ rfl rfl
  · exact once .iret _ _ _ rfl rfl
  · exact once .vmentry _ _ _ rfl rfl
  · exact once .uiret _ _ _ rfl rfl

theorem resumeIp_fwd {i : Insn} (hk : Known i.ext) : ∃ t, resumeIp i s = ({ s with ip := t }, .ok ()) := by
  unfold resumeIp
  rcases hcl : i.ext.cls <;> simp only [nextIp, hcl]
  case unknown => exact absurd hcl hk.cls
  all_goals (repeat' split) <;> first
    | contradiction
    | exact ⟨_, rfl⟩
    | (simp_all; done)
    | skip
  all_goals
    rename_i e h
    cases h
    rw [IM.modify_bind, if_neg (by simp)]
    exact ⟨_, rfl⟩

theorem atDisabled_fwd {e : Event} {ip : Nat} {i : Insn} (hk : Known i.ext) (hs : ∀ ip, c.filter.check ip ≠ .ub) :
    ∃ b, atDisabled c e ip i = .ok b := by
  unfold atDisabled
  cases e.ipSuppressed
  · rw [if_neg (by simp)]
    rcases hcl : i.ext.cls <;> dsimp only
    case unknown => exact absurd hcl hk.cls
    all_goals (try split) <;> exact ⟨_, rfl⟩
  · rw [if_pos rfl]
    split
    · exact ⟨_, rfl⟩
    · split
      · unfold atSkl014
        repeat' split
        all_goals first
          | exact ⟨_, rfl⟩
          | (rename_i h; exact absurd h (hs _))
      · exact ⟨_, rfl⟩

theorem insnFor_disabled {e : Event} {ip : Nat} {j : Insn} (hk : Known j.ext) (hs : ∀ ip, c.filter.check ip ≠ .ub)
    (hd : e.data = .disabled ip) (hst : e.statusUpdate = false) :
    (Disables c e ip j ∧ ∃ t, insnFor c j (some e) s = ({ s with ip := t }, .ok (some (pendingFlags s))) ∧ Resume j t) ∨
    (¬ Disables c e ip j ∧ insnFor c j (some e) s = (s, .ok none)) := by
  obtain ⟨b, hb⟩ := atDisabled_fwd (c := c) (e := e) (ip := ip) hk hs
  have hdis := atDisabled_flow hb
  have e1 : insnFor c j (some e) s = (IM.lift (atDisabled c e ip j) >>= fun b => match b with
      | false => (pure none : IM (Option Flags))
      | true => do
        resumeIp j
        let f ← insnStatus true
        pure (some f)) s := by
    unfold insnFor
    dsimp only
    rw [IM.get_bind]
    simp only [hd]
    rw [if_neg (by simp [hst])]
  rw [e1, hb]
  cases b
  · exact .inr ⟨by simpa using hdis, rfl⟩
  · obtain ⟨t, ht⟩ := resumeIp_fwd (s := s) hk
    refine .inl ⟨hdis.1 rfl, t, ?_, ?_⟩
    · rw [IM.bind_ok]
      refine ⟨s, true, rfl, ?_⟩
      dsimp only
      rw [IM.bind_ok]
      exact ⟨_, (), ht, rfl⟩
    · obtain ⟨t', h1, h2⟩ := resumeIp_flow ht
      have : t = t' := by
        have := congrArg Idec.ip h1
        exact this
      rw [this]; exact h2

theorem insnFor_other {e : Event} {j : Insn} (ht : Tame c e) (hk : Kind.of e.data = none)
    (hd : ∀ ip, e.data = .disabled ip → e.statusUpdate = true) : insnFor c j (some e) s = (s, .ok none) := by
  unfold insnFor
  dsimp only
  rw [IM.get_bind]
  rcases hda : e.data <;> rw [hda] at hk <;> first | (cases hk; done) | skip
  case tip ip => exact absurd hda (ht.tip ip)
  case tnt p n => exact absurd hda (ht.tnt p n)
  case disabled ip => dsimp only; rw [if_pos (hd ip hda)]; rfl
  all_goals rfl

/-- Looking for an event of the instruction. -/
theorem checkInsn_fwd {l : List Item} (hu : Usable c.evt) (h : Has c s l) (j : Insn) :
    ∃ s1, checkInsnEvent c j s = insnFor c j (headEvent l) s1 ∧ Has c s1 l ∧ OnlyEvent s s1 ∧
      ∀ e, headEvent l = some e → s1.processEvent = true ∧ s1.event = some e := by
  obtain ⟨s1, a1, a2, a3, a4⟩ := pending_fwd hu h
  refine ⟨s1, ?_, a2, a3, a4⟩
  rw [checkInsn_eq]
  show IM.bind _ _ _ = _
  unfold IM.bind
  rw [a1]

theorem exec_same {i j : Insn} {calls calls' : List Nat} {its : List Item} {t : Nat} (h : SameInsn i j)
    (hx : Exec i calls its t calls') : Exec j calls its t calls' := by
  obtain ⟨h1, h2, h3, h4, -⟩ := h
  have hc : ∀ n, calling i calls n = calling j calls n := by intro n; unfold calling; rw [h4]
  cases hx with
  | fall t a b => exact .fall t (h4 ▸ a) (by rw [h1, h3]; exact b)
  | direct t n a b d e => rw [hc]; exact .direct t n (h4 ▸ a) (by unfold Direct; rw [h4]; exact b) (by rw [h1, h3, h4]; exact d) (by rw [h1, h3]; exact e)
  | cond b t a d => exact .cond b t (h4 ▸ a) (by rw [h1, h3, h4]; exact d)
  | ret t rest a b => exact .ret t _ (h4 ▸ a) b
  | target t n a b d => rw [hc]; exact .target t n (h4 ▸ a) (by unfold Direct; rw [h4]; exact b) (by rw [h1, h3]; exact d)

/-- What executing an instruction changes. -/
def OnlyRun (s s1 : Idec) : Prop :=
  s1 = { s with q := s1.q, status := s1.status, ip := s1.ip, retstack := s1.retstack, event := s1.event, processEvent := s1.processEvent, hasIcnt := s1.hasIcnt, icnt := s1.icnt }

theorem ahead_id {its : List Item} {n : Option Nat} {x t : Nat} {l : List Item} (h : its = [] → n = none) :
    ahead its n x t l = l := by
  rcases l with _ | ⟨it, l⟩
  · rfl
  · cases it with
    | event e =>
      unfold ahead
      dsimp only
      rw [if_neg (fun k => k.2 (h k.1))]
    | _ => rfl

theorem updateTrig_fwd {x : Nat} {l : List Item} (hen : s.enabled = true) (hi : s.icnt < 2 ^ 32) (hh : Has c s l)
    (hpe : ∀ e, headEvent l = some e → s.processEvent = true)
    (hz : ∀ e l' a n m, l = .event e :: l' → s.count ≠ none → e.data = .trig a n m x → n ≠ 0)
    (hb : ∀ n, counting [] s.count = some n → n < 2 ^ 32) :
    ∃ s', updateTrig x s = (s', .ok ()) ∧ s' = { s with icnt := s'.icnt, event := s'.event } ∧
      s'.count = counting [] s.count ∧ s'.icnt < 2 ^ 32 ∧ Has c s' (ahead [] s.count x s.ip l) := by
  unfold updateTrig
  rw [IM.get_bind]
  unfold counting at hb ⊢
  rw [if_pos rfl] at hb ⊢
  rcases Bool.eq_false_or_eq_true s.hasIcnt with hc | hc
  swap
  · have hcn : s.count = none := by unfold Idec.count; simp [hc]
    refine ⟨s, by rw [hc, if_pos rfl]; rfl, rfl, ?_, hi, ?_⟩
    · rw [hcn]; rfl
    · rw [ahead_id fun _ => hcn]; exact hh
  · have hn := hb (s.icnt + 1) (by unfold Idec.count; simp [hc])
    have hcn : s.count ≠ none := by unfold Idec.count; simp [hc]
    have e1 : (s.icnt + 1) % 2 ^ 32 = s.icnt + 1 := by omega
    have hct : ∀ s' : Idec, s'.hasIcnt = s.hasIcnt → s'.icnt = s.icnt + 1 → s'.count = s.count.map (· + 1) := by
      intro s' k1 k2; unfold Idec.count; simp [hc, k1, k2]
    dsimp only
    rw [if_neg (by simp [hc]), if_neg (by simp [hen]), e1, if_neg (by omega), IM.modify_bind]
    cases hh with
    | pend e l a1 a2 a3 a4 a5 =>
      rw [if_pos a1, a2]
      dsimp only
      have same : nearer x s.ip e = e → Has c { s with icnt := s.icnt + 1, event := some e } (ahead [] s.count x s.ip (.event e :: l)) := by
        intro hn
        unfold ahead
        dsimp only
        rw [if_pos ⟨rfl, hcn⟩, hn]
        exact .pend e l a1 rfl a3 a4 a5
      rcases hd : e.data
      case trig a n m y =>
        dsimp only
        by_cases hy : y = x
        · subst hy
          rw [if_pos rfl, if_neg (hz e l a n m rfl hcn hd)]
          refine ⟨{ s with icnt := s.icnt + 1, event := some { e with data := .trig a (n - 1) m s.ip } }, rfl, rfl,
            hct _ rfl rfl, hn, ?_⟩
          unfold ahead
          dsimp only
          rw [if_pos ⟨rfl, hcn⟩]
          have : nearer y s.ip e = { e with data := .trig a (n - 1) m s.ip } := by
            unfold nearer; rw [hd]; dsimp only; rw [if_pos rfl]
          rw [this]
          exact .pend _ l a1 rfl a3 a4 a5
        · rw [if_neg hy]
          exact ⟨{ s with icnt := s.icnt + 1, event := some e }, rfl, rfl, hct _ rfl rfl, hn, same (by
            unfold nearer; rw [hd]; dsimp only; rw [if_neg hy])⟩
      all_goals
        exact ⟨{ s with icnt := s.icnt + 1, event := some e }, rfl, rfl, hct _ rfl rfl, hn, same (by unfold nearer; rw [hd])⟩
    | idle l a1 a2 a3 a4 a5 =>
      rw [if_neg (by simp [a1])]
      refine ⟨{ s with icnt := s.icnt + 1 }, rfl, rfl, hct _ rfl rfl, hn, ?_⟩
      have : ahead [] s.count x s.ip l = l := by
        rcases l with _ | ⟨it, l⟩
        · rfl
        · cases it with
          | event e => rw [hpe e rfl] at a1; cases a1
          | _ => rfl
      rw [this]
      exact .idle l a1 a2 a3 a4 a5

/-- There may be a tick event. -/
def Maybe (c : InsnCfg) (s s' : Idec) : Prop :=
  (s'.event = s.event ∧ s'.processEvent = s.processEvent) ∨
    (c.tick = true ∧ s'.processEvent = true ∧ ∃ e ip, e.data = .tick ip ∧ s'.event = some e)

theorem tick_fwd (x : Nat) (hen : s.enabled = true) (hr : c.tick = true → s.event ≠ none) :
    ∃ s', IM.when c.tick (insnTick x) s = (s', .ok ()) ∧ s' = { s with event := s'.event, processEvent := s'.processEvent } ∧
      Maybe c s s' := by
  rcases Bool.eq_false_or_eq_true c.tick with ht | ht
  · have he := hr ht
    rcases hev : s.event with _ | ev
    · exact absurd hev he
    rw [ht]
    show ∃ s', insnTick x s = _ ∧ _
    unfold insnTick
    rw [IM.get_bind, if_neg (by simp [hen])]
    by_cases hp : s.processEvent = true
    · rw [if_pos hp]
      exact ⟨s, rfl, rfl, .inl ⟨rfl, rfl⟩⟩
    · rw [if_neg hp]
      simp only [hev]
      split
      · exact ⟨s, rfl, rfl, .inl ⟨rfl, rfl⟩⟩
      · exact ⟨_, rfl, rfl, .inr ⟨ht, rfl, _, x, rfl, rfl⟩⟩
  · rw [ht]
    exact ⟨s, rfl, rfl, .inl ⟨rfl, rfl⟩⟩

/-- The items the decoder has to handle, behind a tick event if there is one. -/
def HasT (c : InsnCfg) (s : Idec) (l : List Item) : Prop :=
  Has c s l ∨ (c.tick = true ∧ ∃ e ip, e.data = .tick ip ∧ Has c s (.event e :: l))

theorem Maybe.has {l : List Item} (h : Maybe c s s') (hp : s.processEvent = false) (hr : c.tick = true → s.event ≠ none)
    (hq : QHas c.evt s'.q l) (h1 : s'.status = flagsFor l) : HasT c s' l := by
  rcases h with ⟨a, b⟩ | ⟨a, b, e, ip, d, g⟩
  · exact .inl (.idle l (b.trans hp) hq (by rw [h1]; rfl) (by rw [h1]; rfl) fun h => .inl (by rw [a]; exact hr h))
  · exact .inr ⟨a, e, ip, d, .pend e l b g hq (by rw [h1]; rfl) (by rw [h1]; rfl)⟩

theorem indirect_fwd {t : Nat} {l : List Item} (hu : Usable c.evt) (hen : s.enabled = true) (hr : c.tick = true → s.event ≠ none)
    (hq : QHas c.evt s.q (.target (some t) :: l)) : ∃ s', insnIndirect c s = (s', .ok (flagsFor l)) ∧
      s' = { s with q := s'.q, ip := t, event := s'.event, processEvent := s'.processEvent } ∧ QHas c.evt s'.q l ∧ Maybe c s s' := by
  obtain ⟨q', h1, h2⟩ := hq.target hu
  obtain ⟨s', h3, h4, h5⟩ := tick_fwd (c := c) s.ip (s := { s with q := q', ip := t }) hen hr
  refine ⟨s', ?_, by rw [h4], by rw [h4]; exact h2, h5⟩
  unfold insnIndirect
  rw [IM.get_bind, IM.bind_ok]
  refine ⟨{ s with q := q' }, (some t, flagsFor l), ?_, ?_⟩
  · rw [IM.query_ok]; exact ⟨q', h1, rfl⟩
  · dsimp only
    rw [IM.modify_bind, IM.bind_ok]
    exact ⟨s', (), h3, rfl⟩

theorem cond_fwd {b : Bool} {l : List Item} (hu : Usable c.evt) (hen : s.enabled = true) (hr : c.tick = true → s.event ≠ none)
    (hq : QHas c.evt s.q (.bit b :: l)) : ∃ s', insnCond c s = (s', .ok (b, flagsFor l)) ∧
      s' = { s with q := s'.q, event := s'.event, processEvent := s'.processEvent } ∧ QHas c.evt s'.q l ∧ Maybe c s s' := by
  obtain ⟨q', h1, h2⟩ := hq.bit hu
  obtain ⟨s', h3, h4, h5⟩ := tick_fwd (c := c) s.ip (s := { s with q := q' }) hen hr
  refine ⟨s', ?_, by rw [h4], by rw [h4]; exact h2, h5⟩
  unfold insnCond
  rw [IM.bind_ok]
  refine ⟨{ s with q := q' }, (b, flagsFor l), ?_, ?_⟩
  · rw [IM.query_ok]; exact ⟨q', h1, rfl⟩
  · rw [IM.get_bind, IM.bind_ok]
    exact ⟨s', (), h3, rfl⟩

theorem noCond_fwd {l : List Item} (hu : Usable c.evt) (hq : QHas c.evt s.q l) (hl : ∀ b l', l ≠ .bit b :: l') :
    ∃ q' e, insnCond c s = ({ s with q := q' }, .err e) ∧ QHas c.evt q' l := by
  obtain ⟨q', e, h1, h2⟩ := hq.noBit hu hl
  refine ⟨q', e, ?_, h2⟩
  unfold insnCond
  rw [IM.bind_err]
  left
  unfold IM.query
  rw [h1]

/-- Nothing but an event is in front of an outcome. -/
theorem Has.told {it : Item} {l : List Item} (h : Has c s (it :: l)) (hn : ∀ e, it ≠ .event e) :
    s.processEvent = false ∧ QHas c.evt s.q (it :: l) ∧ (c.tick = true → s.event ≠ none) := by
  cases h with
  | pend e l a1 => exact absurd rfl (hn e)
  | idle l a1 a2 a3 a4 a5 =>
    refine ⟨a1, a2, fun h => (a5 h).resolve_right ?_⟩
    rintro (h | h)
    · cases it with
      | event e => exact hn e rfl
      | _ => cases h
    · cases h

theorem branch_fwd {i : Insn} {its : List Item} {t : Nat} {l : List Item} (hu : Usable c.evt)
    (hen : s.enabled = true) (hi : s.icnt < 2 ^ 32) (hh : Has c s (its ++ l))
    (hpe : ∀ e, headEvent (its ++ l) = some e → s.processEvent = true)
    (hz : ∀ e l' a n m, its ++ l = .event e :: l' → s.count ≠ none → e.data = .trig a n m i.ip → n ≠ 0)
    (hb : ∀ n, counting its s.count = some n → n < 2 ^ 32)
    (hx : (Direct i ∧ its = [] ∧ t = addDisp s.ip i.ext.displacement) ∨ (¬ Direct i ∧ its = [.target (some t)])) :
    ∃ s', proceedBranch c i s = (s', .ok ()) ∧ OnlyRun s s' ∧ s'.ip = t ∧ s'.retstack = s.retstack ∧
      s'.count = counting its s.count ∧ s'.icnt < 2 ^ 32 ∧ HasT c s' (ahead its s.count i.ip t l) := by
  unfold proceedBranch
  rcases hx with ⟨hd, rfl, rfl⟩ | ⟨hd, rfl⟩
  · unfold Direct at hd
    rw [if_pos hd, IM.modify_bind]
    obtain ⟨s', h1, h2, h3, h4, h5⟩ := updateTrig_fwd (c := c) (x := i.ip) (l := l)
      (s := { s with ip := addDisp s.ip i.ext.displacement }) hen hi (hh.of_eq rfl rfl rfl rfl) hpe hz hb
    exact ⟨s', h1, by rw [h2]; rfl, by rw [h2], by rw [h2], h3, h4, .inl h5⟩
  · unfold Direct at hd
    rw [if_neg hd]
    obtain ⟨g1, g2, g3⟩ := hh.told (by simp)
    obtain ⟨s', h1, h3, h2, h4⟩ := indirect_fwd hu hen g3 g2
    refine ⟨anchor { s' with status := flagsFor l }, ?_, by rw [h3]; rfl, by rw [h3]; rfl, by rw [h3]; rfl, ?_, ?_, ?_⟩
    · rw [IM.bind_ok]
      exact ⟨_, _, h1, rfl⟩
    · simp [counting, Idec.count, anchor]
    · simp [anchor]
    · rw [ahead_id (by simp)]; exact Maybe.has (s := s) h4 g1 g3 h2 rfl

theorem proceed_fwd {i : Insn} {its : List Item} {t : Nat} {calls : List Nat} {l : List Item} (hu : Usable c.evt)
    (hk : Known i.ext) (hen : s.enabled = true) (hi : s.icnt < 2 ^ 32) (hip : s.ip = i.ip)
    (hr : s.retstack.Holds f.calls) (hx : Exec i f.calls its t calls) (hh : Has c s (its ++ l))
    (hpe : ∀ e, headEvent (its ++ l) = some e → s.processEvent = true)
    (hz : ∀ e l' a n m, its ++ l = .event e :: l' → s.count ≠ none → e.data = .trig a n m i.ip → n ≠ 0) (hb : ∀ n, counting its s.count = some n → n < 2 ^ 32) :
    ∃ s', proceed c i s = (s', .ok ()) ∧ OnlyRun s s' ∧ s'.ip = t ∧ s'.retstack.Holds calls ∧
      s'.count = counting its s.count ∧ s'.icnt < 2 ^ 32 ∧ HasT c s' (ahead its s.count i.ip t l) := by
  unfold proceed
  rw [IM.modify_bind, hip]
  -- a branch, behind a call or not
  have br : ∀ n, Addr n (i.ip + i.size) → calls = calling i f.calls n → i.ext.cls ∉ [.other, .ptwrite, .unknown, .condJump] →
      ((Direct i ∧ its = [] ∧ Addr t (i.ip + i.size + i.ext.displacement)) ∨ (¬ Direct i ∧ its = [.target (some t)])) →
      ∃ s', (match i.ext.cls with
        | .ptwrite | .other => updateTrig i.ip
        | .condJump => do
          let (taken, f) ← insnCond c
          IM.modify fun s => { s with status := f }
          IM.when taken (IM.modify fun s => { s with ip := addDisp s.ip i.ext.displacement })
          IM.modify anchor
        | .call => do
          let s ← IM.get
          IM.when (i.ext.displacement ≠ 0 ∨ i.ext.isDirect = false) (pushRet s.ip)
          proceedBranch c i
        | .return => do
          match ← IM.try_ (insnCond c) with
          | (some (taken, f), _) => do
            IM.modify fun s => { s with status := f }
            if taken = false then IM.fail .badRetcomp
            else do
              let ip ← popRet
              IM.modify fun s => anchor { s with ip := ip }
          | (none, _) => proceedBranch c i
        | .jump | .farCall | .farReturn | .farJump | .indirect => proceedBranch c i
        | .unknown => IM.fail .badInsn : IM Unit) { s with ip := (i.ip + i.size) % 2 ^ 64 } = (s', .ok ()) ∧ OnlyRun s s' ∧
        s'.ip = t ∧ s'.retstack.Holds calls ∧ s'.count = counting its s.count ∧ s'.icnt < 2 ^ 32 ∧ HasT c s' (ahead its s.count i.ip t l) := by
    intro n hn hcl hcls hd
    have hn' := addr_unique hn (addr_fall i)
    have hd' : (Direct i ∧ its = [] ∧ t = addDisp ((i.ip + i.size) % 2 ^ 64) i.ext.displacement) ∨
        (¬ Direct i ∧ its = [.target (some t)]) := by
      rcases hd with ⟨a, b, d⟩ | d
      · exact .inl ⟨a, b, addr_unique d (addr_target i _)⟩
      · exact .inr d
    have plain : i.ext.cls ≠ .call → ∃ s', proceedBranch c i { s with ip := (i.ip + i.size) % 2 ^ 64 } = (s', .ok ()) ∧
        OnlyRun s s' ∧ s'.ip = t ∧ s'.retstack.Holds calls ∧ s'.count = counting its s.count ∧ s'.icnt < 2 ^ 32 ∧ HasT c s' (ahead its s.count i.ip t l) := by
      intro hnc
      obtain ⟨s', a1, a2, a3, a4, a5, a6, a7⟩ := branch_fwd (s := { s with ip := (i.ip + i.size) % 2 ^ 64 }) hu hen hi
        (hh.of_eq rfl rfl rfl rfl) hpe hz hb hd'
      refine ⟨s', a1, by unfold OnlyRun at a2 ⊢; rw [a2], a3, ?_, a5, a6, a7⟩
      rw [a4, hcl, calling_of_ne hnc]
      exact hr
    rcases hc : i.ext.cls
    case call =>
      dsimp only
      rw [IM.get_bind]
      by_cases hp : i.ext.displacement ≠ 0 ∨ i.ext.isDirect = false
      · obtain ⟨r, h3, h4⟩ := push_holds hr ((i.ip + i.size) % 2 ^ 64)
        obtain ⟨s', a1, a2, a3, a4, a5, a6, a7⟩ := branch_fwd
          (s := { s with ip := (i.ip + i.size) % 2 ^ 64, retstack := r }) hu hen hi
          (hh.of_eq rfl rfl rfl rfl) hpe hz hb hd'
        refine ⟨s', ?_, by unfold OnlyRun at a2 ⊢; rw [a2], a3, ?_, a5, a6, a7⟩
        · rw [IM.bind_ok]
          refine ⟨{ s with ip := (i.ip + i.size) % 2 ^ 64, retstack := r }, (), ?_, a1⟩
          rw [show decide (i.ext.displacement ≠ 0 ∨ i.ext.isDirect = false) = true by simpa using hp, IM.when_ok]
          refine .inl ⟨rfl, ?_⟩
          unfold pushRet
          simp only [h3]
        · rw [a4, hcl, hn']
          unfold calling
          rw [if_pos]
          · exact h4
          · refine ⟨hc, ?_⟩
            rintro ⟨a, b⟩
            simp [a, b] at hp
      · obtain ⟨s', a1, a2, a3, a4, a5, a6, a7⟩ := branch_fwd
          (s := { s with ip := (i.ip + i.size) % 2 ^ 64 }) hu hen hi
          (hh.of_eq rfl rfl rfl rfl) hpe hz hb hd'
        refine ⟨s', ?_, by unfold OnlyRun at a2 ⊢; rw [a2], a3, ?_, a5, a6, a7⟩
        · rw [IM.bind_ok]
          refine ⟨{ s with ip := (i.ip + i.size) % 2 ^ 64 }, (), ?_, a1⟩
          rw [show decide (i.ext.displacement ≠ 0 ∨ i.ext.isDirect = false) = false by simpa using hp]
          rfl
        · rw [a4, hcl]
          unfold calling
          rw [if_neg]
          · exact hr
          · rintro ⟨-, a⟩
            simp only [not_or, ne_eq, not_not, Bool.not_eq_false] at hp
            exact a ⟨hp.2, hp.1⟩
    case «return» =>
      dsimp only
      have hret := hk.ret hc
      have hnd : ¬ Direct i := fun h => by have := h.1; rw [hret] at this; cases this
      rcases hd with ⟨h, -⟩ | ⟨-, rfl⟩
      · exact absurd h hnd
      obtain ⟨g1, g2, -⟩ := hh.told (by simp)
      obtain ⟨q', e, h1, h2⟩ := noCond_fwd (s := { s with ip := (i.ip + i.size) % 2 ^ 64 }) hu (by exact g2) (by simp)
      have hh' : Has c { s with ip := (i.ip + i.size) % 2 ^ 64, q := q' } ([.target (some t)] ++ l) := by
        cases hh with
        | idle l' b1 b2 b3 b4 b5 => exact .idle _ g1 h2 b3 b4 b5
      obtain ⟨s', a1, a2, a3, a4, a5, a6, a7⟩ := branch_fwd
        (s := { s with ip := (i.ip + i.size) % 2 ^ 64, q := q' }) hu hen hi hh' hpe hz hb hd'
      refine ⟨s', ?_, by unfold OnlyRun at a2 ⊢; rw [a2], a3, ?_, a5, a6, a7⟩
      · rw [IM.bind_ok]
        refine ⟨{ s with ip := (i.ip + i.size) % 2 ^ 64, q := q' }, (none, some e), ?_, a1⟩
        rw [IM.try_ok]
        exact .inr ⟨e, h1, rfl⟩
      · rw [a4, hcl, calling_of_ne (by simp [hc])]
        exact hr
    case other | ptwrite | unknown | condJump => exact absurd hcls (by simp [hc])
    all_goals exact plain (by simp [hc])
  cases hx with
  | fall t hc ha =>
    have h0 := addr_unique ha (addr_fall i)
    subst h0
    obtain ⟨s', h1, h2, h3, h4, h5⟩ := updateTrig_fwd (c := c) (x := i.ip) (l := l)
      (s := { s with ip := (i.ip + i.size) % 2 ^ 64 }) hen hi (hh.of_eq rfl rfl rfl rfl) hpe hz hb
    refine ⟨s', ?_, by rw [h2]; rfl, by rw [h2], by rw [h2]; exact hr, h3, h4, .inl h5⟩
    rcases hc with hc | hc <;> rw [hc] <;> exact h1
  | direct t n a b d e => exact br n e rfl a (.inl ⟨b, rfl, d⟩)
  | target t n a b d => exact br n d rfl a (.inr ⟨b, rfl⟩)
  | cond b t hc ha =>
    rw [hc]
    dsimp only
    obtain ⟨g1, g2, g3⟩ := hh.told (by simp)
    obtain ⟨s', h1, h3, h2, h4⟩ := cond_fwd (s := { s with ip := (i.ip + i.size) % 2 ^ 64 }) hu hen g3 (by exact g2)
    refine ⟨anchor { s' with ip := t, status := flagsFor l }, ?_, by rw [h3]; rfl, rfl, by rw [h3]; exact hr, ?_, ?_, ?_⟩
    · rw [IM.bind_ok]
      refine ⟨_, _, h1, ?_⟩
      dsimp only
      rw [IM.modify_bind]
      cases b
      · have h0 := addr_unique ha (by simpa using addr_fall i)
        subst h0
        rw [h3]
        rfl
      · have h0 := addr_unique ha (addr_target i _)
        subst h0
        rw [h3]
        rfl
    · simp [counting, Idec.count, anchor]
    · simp [anchor]
    · rw [ahead_id (by simp)]; exact Maybe.has (s := s) h4 g1 g3 h2 rfl
  | ret t rest hc hcalls =>
    rw [hc]
    dsimp only
    obtain ⟨g1, g2, g3⟩ := hh.told (by simp)
    obtain ⟨s', h1, h3, h2, h4⟩ := cond_fwd (s := { s with ip := (i.ip + i.size) % 2 ^ 64 }) hu hen g3 (by exact g2)
    rw [hcalls] at hr
    obtain ⟨r', p1, p2⟩ := pop_holds hr
    refine ⟨anchor { s' with ip := t, status := flagsFor l, retstack := r' }, ?_, by rw [h3]; rfl, rfl, p2, ?_, ?_, ?_⟩
    · rw [IM.bind_ok]
      refine ⟨s', (some (true, flagsFor l), none), ?_, ?_⟩
      · rw [IM.try_ok]
        exact .inl ⟨_, h1, rfl⟩
      · dsimp only
        rw [IM.modify_bind, if_neg (by simp), IM.bind_ok]
        refine ⟨{ s' with status := flagsFor l, retstack := r' }, t, ?_, rfl⟩
        rw [h3]
        unfold popRet
        simp only [p1]
    · simp [counting, Idec.count, anchor]
    · simp [anchor]
    · rw [ahead_id (by simp)]; exact Maybe.has (s := s) h4 g1 g3 h2 rfl

end Ipt
