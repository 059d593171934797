import Verif.CompleteInsn

/-!
# Helper lemmas: the decoder reconstructs what was traced
-/

set_option linter.unusedSimpArgs false

namespace Ipt

open Ild Spec Props

variable {c : InsnCfg} {s s' s1 : Idec} {f : Flow} {l : List Item}

/-- The decoder is where the program is, and has the rest of the trace. -/
structure With (c : InsnCfg) (s : Idec) (f : Flow) (l : List Item) : Prop where
  enabled : f.enabled = s.enabled
  mode : f.mode = s.mode
  spec : f.speculative = s.speculative
  asid : f.asid = s.sc.asid
  secs : ∀ m, m ∈ s.sc.img.secs ↔ f.sections m
  calls : s.retstack.Holds f.calls
  count : f.count = s.count
  icnt : s.icnt < 2 ^ 32
  inv : ScInv s.sc
  wf : ∀ m, f.sections m → m.WF c.env
  fit : Fit c s
  has : Has c s l

theorem With.core (h : With c s f l) : Core c s { f with pend := s.pend } := by
  refine ⟨h.enabled, h.mode, h.spec, h.asid, h.secs, h.calls, h.count, rfl, fun hp => ?_, h.icnt, h.inv, h.wf⟩
  have := h.has
  cases this with
  | pend e l a1 a2 => simp [Idec.pend, a1, a2] at hp
  | idle l a1 => exact a1

theorem With.of_core {p : Option Event} (h : Core c s { f with pend := p }) (h1 : Fit c s) (h2 : Has c s l) : With c s f l :=
  ⟨h.enabled, h.mode, h.spec, h.asid, h.secs, h.calls, h.count, h.icnt, h.inv, h.wf, h1, h2⟩

theorem With.look (h : With c s f l) (ho : OnlyEvent s s1) (hh : Has c s1 l) : With c s1 f l := by
  unfold OnlyEvent at ho
  obtain ⟨a1, a2, a3, a4, a5, a6, a7, a8, a9, a10, ⟨b1, b2, b3⟩, a12⟩ := h
  rw [ho] at hh ⊢
  exact ⟨a1, a2, a3, a4, a5, a6, a7, a8, a9, a10, ⟨b1, b2, b3⟩, hh⟩

theorem With.insn (h : With c s f l) (ho : OnlyInsn s s1) : With c s1 f l := by
  unfold OnlyInsn at ho
  obtain ⟨a1, a2, a3, a4, a5, a6, a7, a8, a9, a10, ⟨b1, b2, b3⟩, a12⟩ := h
  rw [ho]
  exact ⟨a1, a2, a3, a4, a5, a6, a7, a8, a9, a10, ⟨b1, b2, b3⟩, a12.of_eq rfl rfl rfl rfl⟩

theorem With.at_ (h : With c s f l) (t : Nat) : With c { s with ip := t } f l := by
  obtain ⟨a1, a2, a3, a4, a5, a6, a7, a8, a9, a10, ⟨b1, b2, b3⟩, a12⟩ := h
  exact ⟨a1, a2, a3, a4, a5, a6, a7, a8, a9, a10, ⟨b1, b2, b3⟩, a12.of_eq rfl rfl rfl rfl⟩

theorem With.only (h : With c s f l) {i : Option Insn} {b : List Kind} {x : Nat} :
    With c s { f with cur := i, bound := b, ip := x } l := by
  obtain ⟨a1, a2, a3, a4, a5, a6, a7, a8, a9, a10, b, a12⟩ := h
  exact ⟨a1, a2, a3, a4, a5, a6, a7, a8, a9, a10, b, a12⟩

theorem With.clear (h : With c s f l) : With c (clearPostponed s) f l := h.insn rfl

theorem apply_pend (e : Event) (p : Option Event) : ({ f with pend := p } : Flow).apply e = { f.apply e with pend := p } := by
  unfold Flow.apply
  rcases e.data <;> dsimp only <;> (try split) <;> rfl

/-- Between two instructions. -/
structure Rest (c : InsnCfg) (s : Idec) (f : Flow) (l : List Item) : Prop where
  sim : With c s f l
  ip : f.ip = s.ip
  cur : f.cur = none
  insn : s.insn = none
  bound : ∀ k, s.boundTo k = false

/-- Before an instruction is executed. -/
structure InInsn (c : InsnCfg) (s : Idec) (f : Flow) (l : List Item) (i j : Insn) : Prop where
  sim : With c s f l
  ip : f.ip = s.ip
  cur : f.cur = some i
  same : SameInsn i j
  known : Known j.ext
  at_ : s.ip = j.ip
  enabled : s.enabled = true
  insn : s.insn = some j ∨ (s.insn = none ∧ ∀ k, s.boundTo k = false)
  bound : ∀ k, s.boundTo k = true ↔ k ∈ f.bound

/-- After an instruction disabled tracing, while the decoder still keeps it. -/
structure Off (c : InsnCfg) (s : Idec) (f : Flow) (l : List Item) (j : Insn) : Prop where
  sim : With c s f l
  ip : f.ip = s.ip
  cur : f.cur = none
  enabled : s.enabled = false
  insn : s.insn = some j
  known : Known j.ext

theorem Rest.of_clear (h : With c s f l) (hip : f.ip = s.ip) (hcur : f.cur = none) : Rest c (clearPostponed s) f l :=
  ⟨h.clear, hip, hcur, rfl, fun k => by cases k <;> rfl⟩

/-- What is to be shown is shown. -/
def Wins (c : InsnCfg) (s : Idec) (fl : Flags) (out : List Seen) : Prop :=
  ∃ out' s' fl', Alike c.tick out out' ∧ Follows c s fl out' s' fl' ∧ fl'.eventPending = false ∧ fl'.eos = true

theorem Wins.event {fl fl' : Flags} {e : Event} {b : Bool} {out : List Seen} (h : Wins c s' fl' out)
    (hf : fl.eventPending = true) (he : insnEvent c s = (s', .ok ⟨e, b, fl'⟩)) : Wins c s fl (.event e b :: out) := by
  obtain ⟨o, s2, f2, h1, h2, h3⟩ := h
  exact ⟨.event e b :: o, s2, f2, .cons (.event e b) h1, .event hf he h2, h3⟩

theorem Wins.tick {fl fl' : Flags} {e : Event} {ip : Nat} {out : List Seen} (h : Wins c s' fl' out)
    (ht : c.tick = true) (hd : e.data = .tick ip) (hf : fl.eventPending = true)
    (he : insnEvent c s = (s', .ok ⟨e, false, fl'⟩)) : Wins c s fl out := by
  obtain ⟨o, s2, f2, h1, h2, h3⟩ := h
  exact ⟨.event e false :: o, s2, f2, .tick e ip ht hd h1, .event hf he h2, h3⟩

theorem Wins.insn {fl fl' : Flags} {i j : Insn} {b : Bool} {out : List Seen} (h : Wins c s' fl' out) (hij : SameInsn i j)
    (hf : fl.eventPending = false) (he : insnNext c s = (s', .ok ⟨j, b, fl'⟩)) : Wins c s fl (.insn i b :: out) := by
  obtain ⟨o, s2, f2, h1, h2, h3⟩ := h
  exact ⟨.insn j b :: o, s2, f2, .cons (.insn i j b hij) h1, .next hf he h2, h3⟩

/-- After the events of an instruction. -/
def goOn (c : InsnCfg) (j : Insn) : Option Insn → IM Flags
  | none => do
    proceed c j
    checkIpEvent c (some j)
  | some _ => do
    proceedPostponed c
    checkIpEvent c none

/-- An instruction was shown, or an event that belongs to it. -/
def afterInsn (c : InsnCfg) (j : Insn) (p : Option Insn) : IM Flags :=
  checkInsnEvent c j >>= fun r =>
    match r with
    | some fl => pure fl
    | none => goOn c j p

/-- An event was shown. -/
def afterEvent (c : InsnCfg) : Option Insn → IM Flags
  | none => checkIpEvent c none
  | some j => afterInsn c j (some j)

theorem reachedBy_of {e : Event} (h : ∀ x, location e ≠ some x) : ReachedBy s e := fun x hx => absurd hx (h x)

theorem kind_location {e : Event} {k : Kind} {loc : Option Nat} (h : Kind.of e.data = some (k, loc)) (x : Nat) :
    location e ≠ some x := by
  unfold location
  rcases hd : e.data <;> rw [hd] at h <;> simp [Kind.of] at h <;> simp

theorem kind_countdown {e : Event} {k : Kind} {loc : Option Nat} (h : Kind.of e.data = some (k, loc)) : countdown e = 0 := by
  unfold countdown
  rcases hd : e.data <;> rw [hd] at h <;> simp [Kind.of] at h <;> simp

theorem countdown_due {e : Event} (hcur : f.cur = none) (h : f.Due c e) : countdown e = 0 := by
  rcases h with ⟨-, -, -, h⟩ | ⟨k, l, -, h, -⟩ | ⟨k, l, i, h, -⟩ | ⟨ip, i, h, -⟩
  · exact h
  · exact kind_countdown h
  · rw [hcur] at h; cases h
  · rw [hcur] at h; cases h

theorem reachedBy_due {e : Event} (hcur : f.cur = none) (hip : f.ip = s.ip) (hen : f.enabled = s.enabled) (h : f.Due c e) :
    ReachedBy s e := by
  rcases h with ⟨-, -, h, -⟩ | ⟨k, l, -, h, -⟩ | ⟨k, l, i, h, -⟩ | ⟨ip, i, h, -⟩
  · intro x hx
    have := h x hx
    rw [hip, hen] at this
    exact this
  · exact reachedBy_of (kind_location h)
  · rw [hcur] at h; cases h
  · rw [hcur] at h; cases h

theorem resumed_flow (hip : f.ip = s.ip) (e : Event) : resumed s e = f.resumes e := by
  unfold resumed Flow.resumes; rw [hip]; rfl

theorem afterNone {j : Insn} {g : Flags → EventOut} {m : IM Unit} {fl : Flags}
    (h : (checkInsnEvent c j >>= fun r =>
      match r with
      | some fl => (pure fl : IM Flags)
      | none => do
        m
        checkIpEvent c none) s = (s', .ok fl)) :
    (checkInsnEvent c j >>= fun r =>
      match r with
      | some fl => (pure (g fl) : IM EventOut)
      | none => do
        m
        checkIpEvent c none >>= fun fl => pure (g fl)) s = (s', .ok (g fl)) := by
  rw [IM.bind_ok] at h ⊢
  obtain ⟨s1, r, h1, h2⟩ := h
  refine ⟨s1, r, h1, ?_⟩
  cases r with
  | some x =>
    dsimp only at h2 ⊢
    rw [IM.pure_ok] at h2 ⊢
    exact ⟨h2.1, by rw [h2.2]⟩
  | none =>
    dsimp only at h2 ⊢
    rw [IM.bind_ok] at h2 ⊢
    obtain ⟨s2, u, h3, h4⟩ := h2
    refine ⟨s2, u, h3, ?_⟩
    rw [IM.bind_ok]
    exact ⟨_, _, h4, rfl⟩

/-- Showing an event. -/
theorem event_fwd {e : Event} (h : With c s f (.event e :: l)) (hp : s.processEvent = true) (he : s.event = some e)
    (ht : Tame c e) (ha : f.Allows e) (hr : ReachedBy s e) (hz : countdown e = 0) :
    ∃ s1, With c s1 (f.apply e) l ∧ s1.insn = s.insn ∧ (∀ k, s1.boundTo k = s.boundTo k) ∧
      (f.ip = s.ip → (f.apply e).ip = s1.ip) ∧
      (∀ k l, Kind.of e.data = some (k, l) → s1.ip = s.ip ∧ s1.enabled = s.enabled) ∧
      (∀ ip, e.data = .disabled ip → s1.ip = s.ip ∧ s1.enabled = false) ∧
      ∀ s' fl, afterEvent c s.insn s1 = (s', .ok fl) → insnEvent c s = (s', .ok ⟨e, resumed s e, fl⟩) := by
  obtain ⟨s0, h1, h2, h3⟩ := process_fwd h.fit h.inv ht ha h.enabled h.mode hr hz
  have p := processEvent_flow h.core h1
  have hcore := p.core
  have hfit : Fit c { s0 with processEvent := false } := ⟨h2.sc, h2.maps, h2.placed⟩
  have hhas : Has c { s0 with processEvent := false } l := by
    unfold OnlyState at h3
    have := h.has
    cases this with
    | pend e l a1 a2 a3 a4 a5 => rw [h3]; exact .idle l rfl a3 a4 a5 fun _ => .inl (by show s.event ≠ none; rw [a2]; simp)
    | idle l a1 => rw [hp] at a1; cases a1
  rw [apply_pend] at hcore
  have hip := p.ip
  rw [apply_pend] at hip
  refine ⟨{ s0 with processEvent := false }, With.of_core (p := none) hcore hfit hhas, p.insn, p.bound, hip, p.kind, p.disabled, ?_⟩
  intro s' fl hfl
  unfold insnEvent
  rw [IM.get_bind, if_neg (by simp [hp]), he]
  dsimp only
  rw [IM.bind_ok]
  refine ⟨s0, (), h1, ?_⟩
  rw [IM.modify_bind]
  cases hi : s.insn with
  | none =>
    rw [hi] at hfl
    dsimp only
    rw [IM.bind_ok]
    exact ⟨_, _, hfl, rfl⟩
  | some j =>
    rw [hi] at hfl
    exact afterNone (g := fun fl => ⟨e, resumed s e, fl⟩) (m := proceedPostponed c) hfl

theorem goOn_off {j : Insn} (h : s.enabled = false) (hi : s.insn = some j) {fl : Flags}
    (hx : checkIpEvent c none (clearPostponed s) = (s', .ok fl)) : goOn c j (some j) s = (s', .ok fl) := by
  unfold goOn
  dsimp only
  rw [IM.bind_ok]
  refine ⟨clearPostponed s, (), ?_, hx⟩
  unfold proceedPostponed
  rw [IM.get_bind, hi]
  dsimp only
  rw [if_pos h]
  rfl

theorem onlyEvent_same (h : OnlyEvent s s1) : s1.ip = s.ip ∧ s1.insn = s.insn ∧ s1.enabled = s.enabled ∧
    s1.speculative = s.speculative ∧ ∀ k, s1.boundTo k = s.boundTo k := by
  unfold OnlyEvent at h
  rw [h]
  exact ⟨rfl, rfl, rfl, rfl, fun k => by cases k <;> rfl⟩

/-- The decoder drops an instruction without further events. -/
theorem off_rest {out : List Seen} {j : Insn} (hu : Usable c.evt)
    (ha : ∀ s, Rest c s f l → ∃ s' fl, checkIpEvent c none s = (s', .ok fl) ∧ Wins c s' fl out)
    (h : Off c s f l j) (hn : ∀ s1, OnlyEvent s s1 → insnFor c j (headEvent l) s1 = (s1, .ok none)) :
    ∃ s' fl, afterInsn c j (some j) s = (s', .ok fl) ∧ Wins c s' fl out := by
  obtain ⟨s1, h1, h2, h3, h4⟩ := checkInsn_fwd hu h.sim.has j
  obtain ⟨e1, e2, e3, -, -⟩ := onlyEvent_same h3
  obtain ⟨s', fl, h5, h6⟩ := ha (clearPostponed s1) (.of_clear (h.sim.look h3 h2) (h.ip.trans e1.symm) h.cur)
  refine ⟨s', fl, ?_, h6⟩
  unfold afterInsn
  rw [IM.bind_ok]
  exact ⟨s1, none, by rw [h1, hn s1 h3], goOn_off (e3.trans h.enabled) (e2.trans h.insn) h5⟩

theorem disables_same {e : Event} {ip : Nat} {i j : Insn} (h : SameInsn i j) : Disables c e ip j ↔ Disables c e ip i := by
  unfold Disables Direct
  rw [h.ext, h.ip, h.size]

theorem belongs_same {e : Event} {k : Kind} {loc : Option Nat} {i j : Insn} (h : SameInsn i j) (hip : s.ip = j.ip)
    (hb : s.boundTo k = true ↔ k ∈ f.bound) :
    belongsHere s e k loc j = true ↔ Belongs e k loc i ∧ k ∉ f.bound := by
  unfold belongsHere Belongs
  rw [h.ext, hip, h.ip]
  have hb' : (!s.boundTo k) = true ↔ k ∉ f.bound := by rw [← hb]; simp
  rw [Bool.and_eq_true, hb', and_comm]
  cases loc with
  | none => exact Iff.rfl
  | some x =>
    dsimp only
    split
    · exact Iff.rfl
    · rw [beq_iff_eq]

/-- An event that is not due does not belong to the instruction. -/
theorem insnFor_quiet {e : Event} {i j : Insn} (hs : ∀ ip, c.filter.check ip ≠ .ub) (ht : Tame c e) (h : InInsn c s f l i j)
    (hn : ¬ f.Due c e) : insnFor c j (some e) s = (s, .ok none) := by
  cases hk : Kind.of e.data with
  | some kl =>
    obtain ⟨k, loc⟩ := kl
    rw [insnFor_kind j hk, if_neg]
    intro hb
    obtain ⟨h1, h2⟩ := (belongs_same (f := f) h.same h.at_ (h.bound k)).1 hb
    exact hn (.belongs k loc i h.cur hk (fun _ => h1) h2)
  | none =>
    by_cases hd : ∃ ip, e.data = .disabled ip ∧ e.statusUpdate = false
    · obtain ⟨ip, hd, hst⟩ := hd
      rcases insnFor_disabled (s := s) h.known hs hd hst with ⟨h1, -⟩ | ⟨-, h1⟩
      · exact absurd (.disable ip i h.cur hd hst ((disables_same h.same).1 h1)) hn
      · exact h1
    · refine insnFor_other ht hk fun ip hip => ?_
      by_contra hx
      exact hd ⟨ip, hip, by simpa using hx⟩

theorem resume_unique {i j : Insn} {t t' : Nat} (h : SameInsn i j) (h1 : Resume i t) (h2 : Resume j t') : t' = t := by
  unfold Resume at h1 h2
  rw [h.ext, h.ip, h.size] at h2
  rcases hc : i.ext.cls <;> rw [hc] at h1 h2 <;> dsimp only at h1 h2
  case call | jump =>
    split at h1 <;> rename_i hx
    · rw [if_pos hx] at h2
      exact addr_unique h2 h1
    · rw [if_neg hx] at h2
      first | exact addr_unique h2 h1 | exact h2.trans h1.symm
  all_goals first | exact addr_unique h2 h1 | exact h2.trans h1.symm

theorem onlyRun_same (h : OnlyRun s s1) : s1.insn = s.insn ∧ s1.enabled = s.enabled ∧ ∀ k, s1.boundTo k = s.boundTo k := by
  unfold OnlyRun at h
  rw [h]
  exact ⟨rfl, rfl, fun k => by cases k <;> rfl⟩

/-- What is shown when the program did this. -/
structure Rebuilt (c : InsnCfg) (f : Flow) (out : List Seen) (l : List Item) : Prop where
  rest : ∀ s i, Rest c s f l → ∃ s' fl, checkIpEvent c i s = (s', .ok fl) ∧ Wins c s' fl out
  off : ∀ s j, Off c s f l j → ∃ s' fl, afterInsn c j (some j) s = (s', .ok fl) ∧ Wins c s' fl out
  mid : ∀ s i j, InInsn c s f l i j → ∃ s' fl, afterInsn c j s.insn s = (s', .ok fl) ∧ Wins c s' fl out

/-- The configuration of the theorem. -/
structure PlainCfg (c : InsnCfg) : Prop where
  env : c.env.Ok
  usable : Usable c.evt
  filter : ∀ ip, c.filter.check ip ≠ .ub

/-- Tracing was disabled at this address, and there is a work-around for erratum SKD022. -/
theorem checkIp_off {e : Event} {x y : Nat} (hp : PlainCfg c) (h : With c s f (.event e :: l)) (hip : f.ip = s.ip)
    (hd : e.data = .asyncDisabled x y) (hx : x = s.ip) (hs : c.evt.pkt.errata.skd022 = true) {b : Bool}
    (hlt : f.ip < 2 ^ 64)
    (hv : (∃ i, f.At c i ∧ (i.ext.inst == .vmlaunch || i.ext.inst == .vmresume) = b) ∨ (b = false ∧ ∀ x, ¬ f.Byte c f.ip x))
    (i : Option Insn) :
    ∃ s1, checkIpEvent c i s = insnStatus (!b) s1 ∧
      With c s1 f (.event (if b = true then { e with data := .disabled y } else e) :: l) ∧
      s1.ip = s.ip ∧ s1.insn = s.insn ∧ s1.enabled = s.enabled ∧ (∀ k, s1.boundTo k = s.boundTo k) ∧
      s1.processEvent = true ∧ s1.event = some (if b = true then { e with data := .disabled y } else e) := by
  obtain ⟨s0, a1, a2, a3, a4⟩ := pending_fwd hp.usable h.has
  obtain ⟨p1, p2⟩ := a4 e rfl
  have h0 := h.look a3 a2
  have hip0 : f.ip = s0.ip := by rw [a3]; exact hip
  obtain ⟨s1, b1, b2, b3, b4⟩ := skd022_fwd (f := { f with pend := s0.pend }) hp.env h0.core hip0 hlt h0.fit (b := b) (by
    rcases hv with ⟨i, ⟨q1, q2, q3, q4, q5⟩, q⟩ | q
    · exact .inl ⟨i, ⟨q1, q2, q3, q4, q5⟩, q⟩
    · exact .inr q)
  have e1 : checkIpEvent c i s = (checkSkd022 c >>= fun v => if v = true then
        IM.modify (fun s => { s with event := some { e with data := .disabled y } }) >>= fun _ => insnStatus false
      else insnStatus true) s0 := by
    rw [checkIp_eq]
    have : (eventPending c >>= fun ev => checkIpFor c i ev) s = checkIpFor c i (some e) s0 := by
      show IM.bind _ _ _ = _
      unfold IM.bind
      rw [a1]
      rfl
    rw [this]
    unfold checkIpFor
    dsimp only
    rw [IM.get_bind]
    simp only [hd]
    rw [if_neg (by rw [hx, a3]; simp), if_pos hs]
  have e2 : checkIpEvent c i s = (if b = true then
        IM.modify (fun s => { s with event := some { e with data := .disabled y } }) >>= fun _ => insnStatus false
      else insnStatus true) s1 := by
    rw [e1]
    show IM.bind _ _ _ = _
    unfold IM.bind
    rw [b1]
  have o3 : s0.ip = s.ip ∧ s0.insn = s.insn ∧ s0.enabled = s.enabled ∧ (∀ k, s0.boundTo k = s.boundTo k) := by
    rw [a3]; exact ⟨rfl, rfl, rfl, fun k => by cases k <;> rfl⟩
  have o4 : s1.ip = s0.ip ∧ s1.insn = s0.insn ∧ s1.enabled = s0.enabled ∧ (∀ k, s1.boundTo k = s0.boundTo k) ∧
      s1.processEvent = s0.processEvent ∧ s1.event = s0.event ∧ s1.q = s0.q ∧ s1.status = s0.status := by
    obtain ⟨im, mp, b4⟩ := b4
    rw [b4]; exact ⟨rfl, rfl, rfl, fun k => by cases k <;> rfl, rfl, rfl, rfl, rfl⟩
  obtain ⟨o5, o6, o7, o8⟩ := o3
  obtain ⟨r5, r6, r7, r8, r9, r10, r11, r12⟩ := o4
  have hh : Has c s1 (.event e :: l) := a2.of_eq r9 r10 r11 r12
  have h1 : With c s1 f (.event e :: l) := With.of_core b2 b3 hh
  cases b
  · exact ⟨s1, by rw [e2]; rfl, h1, r5.trans o5, r6.trans o6, r7.trans o7, fun k => (r8 k).trans (o8 k),
      r9.trans p1, r10.trans p2⟩
  · refine ⟨{ s1 with event := some { e with data := .disabled y } }, ?_, ?_, r5.trans o5, r6.trans o6, r7.trans o7,
      fun k => (by cases k <;> rfl : _ = s1.boundTo k).trans ((r8 k).trans (o8 k)), r9.trans p1, rfl⟩
    · rw [e2, if_pos rfl, IM.modify_bind]; rfl
    · obtain ⟨a1, a2, a3, a4, a5, a6, a7, a8, a9, a10, ⟨b1, b2, b3⟩, a12⟩ := h1
      refine ⟨a1, a2, a3, a4, a5, a6, a7, a8, a9, a10, ⟨b1, b2, b3⟩, ?_⟩
      cases a12 with
      | pend e l a1 a2 a3 a4 a5 => exact .pend _ l a1 rfl a3 a4 a5
      | idle l a1 => rw [r9.trans p1] at a1; cases a1

/-- An event between two instructions is told. -/
theorem checkIp_due {e : Event} (hp : PlainCfg c) (ht : Tame c e) (h : Rest c s f (.event e :: l)) (hdue : f.Due c e)
    (hul : ¬ Unlocated e) (hg : c.evt.pkt.errata.skd022 = true → ∀ at_ ip, e.data = .asyncDisabled at_ ip → f.NotAtVmEntry c)
    (i : Option Insn) :
    ∃ s1 fl, checkIpEvent c i s = (s1, .ok fl) ∧ fl.eventPending = true ∧ With c s1 f (.event e :: l) ∧
      s1.ip = s.ip ∧ s1.insn = s.insn ∧ s1.enabled = s.enabled ∧ (∀ k, s1.boundTo k = s.boundTo k) ∧
      s1.processEvent = true ∧ s1.event = some e := by
  by_cases hk : c.evt.pkt.errata.skd022 = true ∧ ∃ x y, e.data = .asyncDisabled x y
  · obtain ⟨hs, x, y, hd⟩ := hk
    have hx : x = s.ip := by
      have := (atEvent_due (c := c) ht h.cur h.ip h.sim.enabled).2 hdue
      simpa [atEvent, hd] using this
    obtain ⟨hlt, hv⟩ := hg hs x y hd
    obtain ⟨s1, b1, b2, b3⟩ := checkIp_off (b := false) hp h.sim h.ip hd hx hs hlt (by
      rcases hv with ⟨j, v1, v2, v3⟩ | hv
      · exact .inl ⟨j, v1, by simp [v2, v3]⟩
      · exact .inr ⟨rfl, hv⟩) i
    exact ⟨s1, _, b1.trans (insnStatus_run _), rfl, b2, b3⟩
  · obtain ⟨s1, fl, h1, h2, h3, h4, h5⟩ := checkIp_fwd hp.usable (l := .event e :: l) (by
      rintro _ x y ⟨⟩ hd _
      by_contra hn
      exact hk ⟨by simpa using hn, x, y, hd⟩) (by rintro _ ⟨⟩; exact ht) (by rintro _ ⟨⟩; exact hul) h.sim.has i
    obtain ⟨h5, p1, p2⟩ := h5
    obtain ⟨e1, e2, e3, -, e5⟩ := onlyEvent_same h3
    refine ⟨s1, fl, h1, ?_, h.sim.look h3 h2, e1, e2, e3, e5, p1, p2⟩
    rw [h5, atEvent_due (c := c) ht h.cur h.ip h.sim.enabled]
    exact hdue

/-- A tick event is shown first. -/
theorem tick_rest {e : Event} {ip : Nat} {out : List Seen} (hp : PlainCfg c) (ht : c.tick = true) (hd : e.data = .tick ip)
    (ih : ∀ s i, Rest c s f l → ∃ s' fl, checkIpEvent c i s = (s', .ok fl) ∧ Wins c s' fl out) (s : Idec) (i : Option Insn)
    (h : Rest c s f (.event e :: l)) : ∃ s' fl, checkIpEvent c i s = (s', .ok fl) ∧ Wins c s' fl out := by
  have hte : Tame c e := by
    refine ⟨?_, ?_, ?_, ?_⟩
    · intro ip h; rw [hd] at h; cases h
    · intro p n h; rw [hd] at h; cases h
    · rintro (h | ⟨v, h⟩) <;> rw [hd] at h <;> cases h
    · intro _ sp x h; rw [hd] at h; cases h
  have hloc : ∀ x, location e ≠ some x := by intro x; unfold location; rw [hd]; simp
  have hct : countdown e = 0 := by unfold countdown; rw [hd]
  have hdue : f.Due c e := .between h.cur (by unfold Between; rw [hd]; trivial) (fun x hx => absurd hx (hloc x)) hct
  have hall : f.Allows e := by unfold Flow.Allows; rw [hd]; trivial
  have happ : f.apply e = f := by unfold Flow.apply; rw [hd]
  obtain ⟨s1, fl, h1, h5, sim1, e1, e2, e3, e5, p1, p2⟩ := checkIp_due hp hte h hdue
    (by rintro ⟨-, _, _, _, h⟩; rw [hd] at h; cases h) (fun _ x y h => by rw [hd] at h; cases h) i
  have hip1 : f.ip = s1.ip := h.ip.trans e1.symm
  obtain ⟨s3, b1, b2, b3, b4, b5, b6, b7⟩ := event_fwd sim1 p1 p2 hte hall (reachedBy_of hloc) hct
  rw [happ] at b1 b4
  obtain ⟨s', fl', k1, k2⟩ := ih s3 none ⟨b1, b4 hip1, h.cur, by rw [b2, e2]; exact h.insn,
    fun k => by rw [b3, e5]; exact h.bound k⟩
  have hi : s1.insn = none := e2.trans h.insn
  have hev := b7 s' fl' (by rw [hi]; exact k1)
  have hres : resumed s1 e = false := by unfold resumed; rw [hd]
  rw [hres] at hev
  exact ⟨s1, fl, h1, k2.tick ht hd h5 hev⟩

theorem shows (hp : PlainCfg c) {out : List Seen} (h : Traced c f out l) (ht : ∀ e, .event e ∈ l → Tame c e) : Rebuilt c f out l := by
  have hd : ∀ {l : List Item}, (∀ e, .event e ∈ l → Tame c e) → ∀ e, headEvent l = some e → Tame c e := by
    intro l ht e he
    obtain ⟨l', rfl⟩ := headEvent_some he
    exact ht e (by simp)
  induction h with
  | done f hcur =>
    have hrest : ∀ s i, Rest c s f [] → ∃ s' fl, checkIpEvent c i s = (s', .ok fl) ∧ Wins c s' fl [] := by
      intro s i h
      obtain ⟨s1, fl, h1, h2, h3, h4, h5⟩ := checkIp_fwd hp.usable (by rintro _ _ _ ⟨⟩) (hd ht) (by rintro _ ⟨⟩) h.sim.has i
      exact ⟨s1, fl, h1, [], s1, fl, .nil, .done _ _, h5, h4⟩
    refine ⟨hrest, fun s j h => off_rest hp.usable (fun s => hrest s none) h fun s1 _ => rfl, fun s i j h => ?_⟩
    have := h.cur; rw [hcur] at this; cases this
  | insn f i out l hen hcur hlt hat hq htr ih =>
    refine ⟨fun s i' h => ?_, fun s j h => ?_, fun s i j h => ?_⟩
    · obtain ⟨s1, fl, h1, h2, h3, h4, h5⟩ := checkIp_fwd hp.usable (by
        intro e x y he hdata hx
        obtain ⟨l', hl⟩ := headEvent_some he
        refine absurd ((atEvent_due (c := c) (s := s) (hd ht e he) h.cur h.ip h.sim.enabled).1 ?_) (hq e l' hl).1
        simpa [atEvent, hdata] using hx) (hd ht) (by
        intro e he
        obtain ⟨l', hl⟩ := headEvent_some he
        exact (hq e l' hl).2 hcur) h.sim.has i'
      obtain ⟨e1, e2, e3, e4, e5⟩ := onlyEvent_same h3
      refine ⟨s1, fl, h1, ?_⟩
      have hfl : fl.eventPending = false := by
        cases he : headEvent l with
        | none => rw [he] at h5; exact h5
        | some e =>
          rw [he] at h5
          have := atEvent_due (c := c) (hd ht e he) h.cur h.ip h.sim.enabled
          obtain ⟨l', hl⟩ := headEvent_some he
          have hnd := (hq e l' hl).1
          rw [← this] at hnd
          exact h5.1.trans (by simpa using hnd)
      have sim1 := h.sim.look h3 h2
      obtain ⟨s2, j, g1, g2, g3⟩ := fetch_fwd hp.env (f := { f with pend := s1.pend }) sim1.core (h.ip.trans e1.symm) hlt
        sim1.fit (by obtain ⟨a, b, d, e, g⟩ := hat; exact ⟨a, b, d, e, g⟩)
      obtain ⟨g4, g5, sc, mp, g6⟩ := fetch_flow hp.env (f := { f with pend := s1.pend }) sim1.core (h.ip.trans e1.symm) g1
      have x1 : s2.ip = s1.ip ∧ s2.insn = s1.insn ∧ s2.enabled = s1.enabled ∧ ∀ k, s2.boundTo k = s1.boundTo k := by
        rw [g6]; exact ⟨rfl, rfl, rfl, fun k => by cases k <;> rfl⟩
      have hh2 : Has c s2 l := by rw [g6]; exact h2.of_eq rfl rfl rfl rfl
      have hen1 : s1.enabled = true := by rw [← sim1.enabled, hen]
      have mid : InInsn c s2 { f with cur := some i, bound := [] } l i j := by
        refine ⟨(With.of_core g4 g2 hh2).only (x := f.ip), ?_, rfl, g3, ?_, ?_, x1.2.2.1.trans hen1, .inr ⟨?_, fun k => ?_⟩, fun k => ?_⟩
        · exact h.ip.trans (e1.symm.trans x1.1.symm)
        · exact ild_known g5.decodes
        · rw [x1.1, e1, ← h.ip]; exact g5.ip.symm
        · rw [x1.2.1, e2]; exact h.insn
        · rw [x1.2.2.2, e5]; exact h.bound k
        · rw [x1.2.2.2, e5, h.bound k]; simp
      obtain ⟨s', fl', k1, k2⟩ := (ih ht).mid s2 i j mid
      have hi2 : s2.insn = none := by rw [x1.2.1, e2]; exact h.insn
      rw [hi2] at k1
      rw [sim1.spec]
      refine k2.insn g3 hfl ?_
      unfold insnNext
      rw [IM.get_bind, if_neg (by simp [hen1]), IM.bind_ok]
      refine ⟨s2, j, g1, ?_⟩
      unfold afterInsn at k1
      rw [IM.bind_ok] at k1 ⊢
      obtain ⟨s3, r, k3, k4⟩ := k1
      refine ⟨s3, r, k3, ?_⟩
      cases r with
      | some x => dsimp only at k4 ⊢; rw [IM.pure_ok] at k4 ⊢; exact ⟨k4.1, by rw [k4.2]⟩
      | none =>
        dsimp only [goOn] at k4 ⊢
        rw [IM.bind_ok] at k4 ⊢
        obtain ⟨s4, u, k5, k6⟩ := k4
        refine ⟨s4, u, k5, ?_⟩
        rw [IM.bind_ok]
        exact ⟨_, _, k6, rfl⟩
    · have := h.sim.enabled; rw [hen, h.enabled] at this; cases this
    · have := h.cur; rw [hcur] at this; cases this
  | belongs f i e k loc out l hen hcur hk hdue htr ih =>
    have hte : Tame c e := ht e (by simp)
    refine ⟨fun s i' h => ?_, fun s j h => ?_, fun s i' j h => ?_⟩
    · have := h.cur; rw [hcur] at this; cases this
    · have := h.cur; rw [hcur] at this; cases this
    · have hi' : i' = i := by have := h.cur; rw [hcur] at this; cases this; rfl
      subst hi'
      obtain ⟨s1, h1, h2, h3, h4⟩ := checkInsn_fwd hp.usable h.sim.has j
      obtain ⟨e1, e2, e3, e4, e5⟩ := onlyEvent_same h3
      obtain ⟨p1, p2⟩ := h4 e rfl
      have hb : belongsHere s1 e k loc j = true := by
        rw [belongs_same (f := f) h.same (e1.trans h.at_) (by rw [e5]; exact h.bound k)]
        rcases hdue with ⟨a, -⟩ | ⟨_, _, a, -⟩ | ⟨k', l', i'', a1, a2, a3, a4⟩ | ⟨ip, i'', a1, a2, -⟩
        · rw [hcur] at a; cases a
        · rw [hcur] at a; cases a
        · rw [hcur] at a1; cases a1
          rw [hk] at a2; cases a2
          exact ⟨a3 hen, a4⟩
        · rw [a2] at hk; cases hk
      have h5 : insnFor c j (some e) s1 = ({ s1.mark k with insn := some (s1.insn.getD j) }, .ok (some (pendingFlags s1))) := by
        rw [insnFor_kind j hk, if_pos hb]
      have hj : s1.insn.getD j = j := by
        rcases h.insn with x | ⟨x, -⟩ <;> rw [e2, x] <;> rfl
      rw [hj] at h5
      have hso := mark_only (s := s1) k (some j)
      have m1 : ({ s1.mark k with insn := some j } : Idec).ip = s1.ip ∧ (s1.mark k).processEvent = s1.processEvent ∧
          (s1.mark k).event = s1.event ∧ (s1.mark k).enabled = s1.enabled := by cases k <;> exact ⟨rfl, rfl, rfl, rfl⟩
      have sim2 := (h.sim.look h3 h2).insn hso
      have hall : f.Allows e := by
        unfold Flow.Allows
        rcases hd : e.data <;> rw [hd] at hk <;> simp [Kind.of] at hk <;> trivial
      obtain ⟨s3, b1, b2, b3, b4, b5, b6, b7⟩ := event_fwd sim2 (m1.2.1.trans p1) (m1.2.2.1.trans p2) hte hall
        (reachedBy_of (kind_location hk)) (kind_countdown hk)
      obtain ⟨b8, b9⟩ := b5 k loc hk
      obtain ⟨a1, a2, a3, a4⟩ := apply_same f e
      have mid : InInsn c s3 { f.apply e with bound := k :: f.bound } l i' j := by
        refine ⟨b1.only (x := (f.apply e).ip) (i := (f.apply e).cur), ?_, ?_, h.same, h.known, ?_, ?_, .inl b2, fun k' => ?_⟩
        · exact b4 (h.ip.trans (e1.symm.trans m1.1.symm))
        · exact a3.trans hcur
        · exact b8.trans (m1.1.trans (e1.trans h.at_))
        · exact b9.trans (m1.2.2.2.trans (e3.trans h.enabled))
        · rw [b3]
          have : ({ s1.mark k with insn := some j } : Idec).boundTo k' = (s1.mark k).boundTo k' := by cases k' <;> rfl
          rw [this, mark_bound, e5]
          simp only [Bool.or_eq_true, decide_eq_true_eq, List.mem_cons]
          rw [h.bound k']
      obtain ⟨s', fl', k1, k2⟩ := (ih fun e' he' => ht e' (by simp [he'])).mid s3 i' j mid
      rw [b2] at k1
      have hev := b7 s' fl' k1
      have hres : resumed { s1.mark k with insn := some j } e = false := by
        unfold resumed
        rcases hd : e.data <;> rw [hd] at hk <;> simp [Kind.of] at hk <;> rfl
      rw [hres] at hev
      refine ⟨{ s1.mark k with insn := some j }, pendingFlags s1, ?_, k2.event rfl hev⟩
      unfold afterInsn
      rw [IM.bind_ok]
      exact ⟨_, some (pendingFlags s1), by rw [h1]; exact h5, rfl⟩
  | exec f i its t calls out l hen hcur hx hq hcnt hzero htr ih =>
    refine ⟨fun s i' h => ?_, fun s j h => ?_, fun s i' j h => ?_⟩
    · have := h.cur; rw [hcur] at this; cases this
    · have := h.cur; rw [hcur] at this; cases this
    · have hi' : i' = i := by have := h.cur; rw [hcur] at this; cases this; rfl
      subst hi'
      obtain ⟨s1, h1, h2, h3, h4⟩ := checkInsn_fwd hp.usable h.sim.has j
      obtain ⟨e1, e2, e3, e4, e5⟩ := onlyEvent_same h3
      have sim1 := h.sim.look h3 h2
      have mid1 : InInsn c s1 f (its ++ l) i' j :=
        ⟨sim1, h.ip.trans e1.symm, h.cur, h.same, h.known, e1.trans h.at_, e3.trans h.enabled,
          by rcases h.insn with x | ⟨x, y⟩
             · exact .inl (e2.trans x)
             · exact .inr ⟨e2.trans x, fun k => (e5 k).trans (y k)⟩,
          fun k => by rw [e5]; exact h.bound k⟩
      have hnone : insnFor c j (headEvent (its ++ l)) s1 = (s1, .ok none) := by
        cases he : headEvent (its ++ l) with
        | none => rfl
        | some e =>
          obtain ⟨l', hl⟩ := headEvent_some he
          exact insnFor_quiet hp.filter (hd ht e he) mid1 (hq e l' hl).1
      obtain ⟨s2, g1, g2, g3, g4, g5, g6, g7⟩ := proceed_fwd (f := f) hp.usable h.known mid1.enabled sim1.icnt mid1.at_
        sim1.calls (exec_same h.same hx) sim1.has (fun e he => (h4 e he).1) (by
          intro e l' a n m k1 k2 k3
          rw [h.same.ip] at k3
          exact (hzero e l' a n m k1 (by rw [sim1.count]; exact k2) k3).1) (by rw [← sim1.count]; exact hcnt)
      obtain ⟨r1, r2, r3⟩ := onlyRun_same g2
      rw [← sim1.count, h.same.ip] at g7
      have sim2 : ∀ l, Has c s2 l → With c s2 { f with ip := t, calls := calls, cur := none, count := counting its f.count } l := by
        intro l g7
        unfold OnlyRun at g2
        obtain ⟨a1, a2, a3, a4, a5, a6, a7, a8, a9, a10, ⟨b1, b2, b3⟩, a12⟩ := sim1
        have q1 : s2.enabled = s1.enabled ∧ s2.mode = s1.mode ∧ s2.speculative = s1.speculative ∧ s2.sc = s1.sc ∧ s2.maps = s1.maps := by
          rw [g2]; exact ⟨rfl, rfl, rfl, rfl, rfl⟩
        obtain ⟨q1, q2, q3, q4, q5⟩ := q1
        refine ⟨a1.trans q1.symm, a2.trans q2.symm, a3.trans q3.symm, by rw [q4]; exact a4, by rw [q4]; exact a5, g4, ?_, g6,
          by rw [q4]; exact a9, a10, ⟨by rw [q4]; exact b1, q5.trans b2, by rw [q4]; exact b3⟩, g7⟩
        rw [g5, ← a7]
      have htl := (ahead_tame (c := c) (its := its) (n := f.count) (x := i'.ip) (t := t) (l := l)).2 fun e' he' =>
        ht e' (List.mem_append.2 (.inr he'))
      have hrest : ∀ s i, (∀ l, Has c s2 l → Rest c s { f with ip := t, calls := calls, cur := none, count := counting its f.count } l) →
          ∃ s' fl, checkIpEvent c i s = (s', .ok fl) ∧ Wins c s' fl out := by
        intro s i hs
        rcases g7 with g7 | ⟨k1, e, ip, k2, g7⟩
        · exact (ih htl).rest s i (hs _ g7)
        · exact tick_rest hp k1 k2 (ih htl).rest s i (hs _ g7)
      rcases h.insn with x | ⟨x, y⟩
      · obtain ⟨s', fl, k1, k2⟩ := hrest (clearPostponed s2) none fun l hl => .of_clear (sim2 l hl) g3.symm rfl
        refine ⟨s', fl, ?_, k2⟩
        rw [x]
        unfold afterInsn
        rw [IM.bind_ok]
        refine ⟨s1, none, by rw [h1, hnone], ?_⟩
        dsimp only [goOn]
        rw [IM.bind_ok]
        refine ⟨clearPostponed s2, (), ?_, k1⟩
        unfold proceedPostponed
        rw [IM.get_bind, e2, x]
        dsimp only
        rw [if_neg (by simp [mid1.enabled]), IM.bind_ok]
        exact ⟨s2, (), g1, rfl⟩
      · obtain ⟨s', fl, k1, k2⟩ := hrest s2 (some j) fun l hl =>
          ⟨sim2 l hl, g3.symm, rfl, by rw [r1, e2, x], fun k => by rw [r3, e5]; exact y k⟩
        refine ⟨s', fl, ?_, k2⟩
        rw [x]
        unfold afterInsn
        rw [IM.bind_ok]
        refine ⟨s1, none, by rw [h1, hnone], ?_⟩
        dsimp only [goOn]
        rw [IM.bind_ok]
        exact ⟨s2, (), g1, k1⟩
  | disable f i e ip t out l hen hcur hdata hdue hres htr ih =>
    have hte : Tame c e := ht e (by simp)
    refine ⟨fun s i' h => ?_, fun s j h => ?_, fun s i' j h => ?_⟩
    · have := h.cur; rw [hcur] at this; cases this
    · have := h.cur; rw [hcur] at this; cases this
    · have hi' : i' = i := by have := h.cur; rw [hcur] at this; cases this; rfl
      subst hi'
      obtain ⟨s1, h1, h2, h3, h4⟩ := checkInsn_fwd hp.usable h.sim.has j
      obtain ⟨e1, e2, e3, e4, e5⟩ := onlyEvent_same h3
      obtain ⟨p1, p2⟩ := h4 e rfl
      have hdis : e.statusUpdate = false ∧ Disables c e ip i' := by
        rcases hdue with ⟨a, -⟩ | ⟨_, _, a, -⟩ | ⟨k', l', i'', a1, a2, a3, a4⟩ | ⟨ip, i'', a1, a2, a3, a4⟩
        · rw [hcur] at a; cases a
        · rw [hcur] at a; cases a
        · rw [hdata] at a2; cases a2
        · rw [hcur] at a1; cases a1
          rw [hdata] at a2; cases a2
          exact ⟨a3, a4⟩
      have h5 : insnFor c j (some e) s1 = ({ s1 with ip := t }, .ok (some (pendingFlags s1))) := by
        rcases insnFor_disabled (s := s1) h.known hp.filter hdata hdis.1 with ⟨-, t', x1, x2⟩ | ⟨x1, -⟩
        · rw [x1, resume_unique h.same hres x2]
        · exact absurd ((disables_same h.same).2 hdis.2) x1
      have sim2 := (h.sim.look h3 h2).at_ t
      have hall : f.Allows e := by
        unfold Flow.Allows
        simp only [hdata, hdis.1]
        exact hen
      obtain ⟨s3, b1, b2, b3, b4, b5, b6, b7⟩ := event_fwd sim2 p1 p2 hte hall
        (reachedBy_of (by intro x hx; simp [location, hdata] at hx)) (by unfold countdown; rw [hdata])
      obtain ⟨b8, b9⟩ := b6 ip hdata
      have hsim := b1.only (x := t) (i := none) (b := (f.apply e).bound)
      have hresm : resumed { s1 with ip := t } e = false := by unfold resumed; rw [hdata]
      have fin : ∀ {s' fl'}, afterEvent c s1.insn s3 = (s', .ok fl') → Wins c s' fl' out →
          ∃ s' fl, afterInsn c j s.insn s = (s', .ok fl) ∧ Wins c s' fl (.event e false :: out) := by
        intro s' fl' k1 k2
        have hev := b7 s' fl' k1
        rw [hresm] at hev
        refine ⟨{ s1 with ip := t }, pendingFlags s1, ?_, k2.event rfl hev⟩
        unfold afterInsn
        rw [IM.bind_ok]
        exact ⟨_, some (pendingFlags s1), by rw [h1]; exact h5, rfl⟩
      have htl : ∀ e, .event e ∈ l → Tame c e := fun e' he' => ht e' (by simp [he'])
      rcases h.insn with x | ⟨x, y⟩
      · obtain ⟨s', fl, k1, k2⟩ := (ih htl).off s3 j ⟨hsim, b8.symm, rfl, b9, by rw [b2]; exact e2.trans x, h.known⟩
        refine fin ?_ k2
        rw [e2, x]
        exact k1
      · obtain ⟨s', fl, k1, k2⟩ := (ih htl).rest s3 none ⟨hsim, b8.symm, rfl, by rw [b2]; exact e2.trans x,
          fun k => by
            rw [b3]
            have : ({ s1 with ip := t } : Idec).boundTo k = s1.boundTo k := by cases k <;> rfl
            rw [this, e5]; exact y k⟩
        refine fin ?_ k2
        rw [e2, x]
        exact k1
  | event f e out l hcur hdue hall hnt hgen htr ih =>
    have hte : Tame c e := ht e (by simp)
    have htl : ∀ e, .event e ∈ l → Tame c e := fun e' he' => ht e' (by simp [he'])
    obtain ⟨a1, a2, a3, a4⟩ := apply_same f e
    have hrest : ∀ s i, Rest c s f (.event e :: l) → ∃ s' fl, checkIpEvent c i s = (s', .ok fl) ∧
        Wins c s' fl (.event e (f.resumes e) :: out) := by
      intro s i h
      obtain ⟨s1, fl, h1, h5, sim1, e1, e2, e3, e5, p1, p2⟩ := checkIp_due hp hte h hdue hnt hgen i
      have hip1 : f.ip = s1.ip := h.ip.trans e1.symm
      obtain ⟨s3, b1, b2, b3, b4, b5, b6, b7⟩ := event_fwd sim1 p1 p2 hte hall (reachedBy_due hcur hip1 sim1.enabled hdue)
        (countdown_due hcur hdue)
      obtain ⟨s', fl', k1, k2⟩ := (ih htl).rest s3 none ⟨b1, b4 hip1, a3.trans hcur, by rw [b2, e2]; exact h.insn,
        fun k => by rw [b3, e5]; exact h.bound k⟩
      have hi : s1.insn = none := e2.trans h.insn
      have hev := b7 s' fl' (by rw [hi]; exact k1)
      rw [resumed_flow hip1] at hev
      exact ⟨s1, fl, h1, k2.event h5 hev⟩
    refine ⟨hrest, fun s j h => ?_, fun s i j h => ?_⟩
    · cases hk : Kind.of e.data with
      | none =>
        refine off_rest hp.usable (fun s => hrest s none) h fun s1 _ => insnFor_other hte hk fun ip hip => ?_
        rcases hdue with ⟨-, hb, -⟩ | ⟨_, _, -, a, -⟩ | ⟨_, _, _, a, -⟩ | ⟨_, _, a, -⟩
        · simpa [Between, hip] using hb
        · rw [hk] at a; cases a
        · rw [hcur] at a; cases a
        · rw [hcur] at a; cases a
      | some kl =>
        obtain ⟨k, loc⟩ := kl
        rcases Bool.eq_false_or_eq_true (belongsHere s e k loc j) with hb | hb
        · obtain ⟨s1, h1, h2, h3, h4⟩ := checkInsn_fwd hp.usable h.sim.has j
          obtain ⟨e1, e2, e3, e4, e5⟩ := onlyEvent_same h3
          obtain ⟨p1, p2⟩ := h4 e rfl
          have hb1 : belongsHere s1 e k loc j = true := by
            have : belongsHere s1 e k loc j = belongsHere s e k loc j := by unfold belongsHere; rw [e5, e1]
            rw [this]; exact hb
          have h5 : insnFor c j (some e) s1 = ({ s1.mark k with insn := some (s1.insn.getD j) }, .ok (some (pendingFlags s1))) := by
            rw [insnFor_kind j hk, if_pos hb1]
          have hj : s1.insn.getD j = j := by rw [e2, h.insn]; rfl
          rw [hj] at h5
          have hso := mark_only (s := s1) k (some j)
          have m1 : ({ s1.mark k with insn := some j } : Idec).ip = s1.ip ∧ (s1.mark k).processEvent = s1.processEvent ∧
              (s1.mark k).event = s1.event ∧ (s1.mark k).enabled = s1.enabled := by cases k <;> exact ⟨rfl, rfl, rfl, rfl⟩
          have sim2 := (h.sim.look h3 h2).insn hso
          have hip2 : f.ip = ({ s1.mark k with insn := some j } : Idec).ip := h.ip.trans (e1.symm.trans m1.1.symm)
          obtain ⟨s3, b1, b2, b3, b4, b5, b6, b7⟩ := event_fwd sim2 (m1.2.1.trans p1) (m1.2.2.1.trans p2) hte hall
            (reachedBy_of (kind_location hk)) (kind_countdown hk)
          obtain ⟨b8, b9⟩ := b5 k loc hk
          obtain ⟨s', fl', k1, k2⟩ := (ih htl).off s3 j ⟨b1, b4 hip2, a3.trans hcur,
            b9.trans (m1.2.2.2.trans (e3.trans h.enabled)), b2, h.known⟩
          have hev := b7 s' fl' k1
          rw [resumed_flow hip2] at hev
          refine ⟨{ s1.mark k with insn := some j }, pendingFlags s1, ?_, k2.event rfl hev⟩
          unfold afterInsn
          rw [IM.bind_ok]
          exact ⟨_, some (pendingFlags s1), by rw [h1]; exact h5, rfl⟩
        · refine off_rest hp.usable (fun s => hrest s none) h fun s1 hs1 => ?_
          obtain ⟨e1, e2, e3, e4, e5⟩ := onlyEvent_same hs1
          show insnFor c j (some e) s1 = _
          rw [insnFor_kind j hk, if_neg]
          have : belongsHere s1 e k loc j = belongsHere s e k loc j := by unfold belongsHere; rw [e5, e1]
          rw [this, hb]
          simp
    · have := h.cur; rw [hcur] at this; cases this
  | skd022 f e x y out l hs hcur hdata hst hx hvm htr ih =>
    have htl : ∀ e', .event e' ∈ (.event { e with data := .disabled y } :: l : List Item) → Tame c e' := by
      intro e' he'
      rcases List.mem_cons.1 he' with he' | he'
      · cases he'
        refine ⟨?_, ?_, ?_, ?_⟩
        · intro ip h; cases h
        · intro p n h; cases h
        · rintro (h | ⟨v, h⟩) <;> cases h
        · intro _ sp x h; cases h
      · exact ht e' (by simp [he'])
    have hrest : ∀ s i, Rest c s f (.event e :: l) → ∃ s' fl, checkIpEvent c i s = (s', .ok fl) ∧ Wins c s' fl out := by
      intro s i h
      obtain ⟨hlt, j, v1, v2⟩ := hvm
      obtain ⟨s1, b1, b2, b3, b4, b5, b6, b7, b8⟩ := checkIp_off (b := true) hp h.sim h.ip hdata (hx.symm.trans h.ip) hs hlt
        (.inl ⟨j, v1, by simpa using v2⟩) i
      obtain ⟨s', fl, k1, k2⟩ := (ih htl).rest s1 i ⟨b2, h.ip.trans b3.symm, hcur, b4.trans h.insn, fun k => (b6 k).trans (h.bound k)⟩
      refine ⟨s', fl, ?_, k2⟩
      rw [b1, ← k1, checkIp_eq]
      show _ = IM.bind _ _ _
      unfold IM.bind eventPending
      rw [IM.get_bind, if_pos b7, b8]
      show _ = checkIpFor c i (some { e with data := .disabled y }) s1
      unfold checkIpFor
      dsimp only
      rw [IM.get_bind, hst]
      rfl
    refine ⟨hrest, fun s j h => off_rest hp.usable (fun s => hrest s none) h fun s1 _ => ?_, fun s i j h => ?_⟩
    · refine insnFor_other (ht e (by simp)) (by rw [hdata]; rfl) fun ip h => ?_
      rw [hdata] at h; cases h
    · have := h.cur; rw [hcur] at this; cases this
  | locate f e a n m k out l hcur hdata hs hcnt hk hip0 htr ih =>
    have htl : ∀ e', .event e' ∈ (.event { e with data := .trig a (n - k) m f.ip } :: l : List Item) → Tame c e' := by
      intro e' he'
      rcases List.mem_cons.1 he' with he' | he'
      · cases he'
        exact tame_trig rfl
      · exact ht e' (by simp [he'])
    have hrest : ∀ s i, Rest c s f (.event e :: l) → ∃ s' fl, checkIpEvent c i s = (s', .ok fl) ∧ Wins c s' fl out := by
      intro s i h
      obtain ⟨s0, a1, a2, a3, a4⟩ := pending_fwd hp.usable h.sim.has
      obtain ⟨p1, p2⟩ := a4 e rfl
      have h0 := h.sim.look a3 a2
      obtain ⟨e1, e2, e3, e4, e5⟩ := onlyEvent_same a3
      have hic : s0.hasIcnt = true ∧ s0.icnt = k := by
        have := h0.count
        rw [hcnt] at this
        unfold Idec.count at this
        split at this
        · rename_i hh; exact ⟨hh, by cases this; rfl⟩
        · cases this
      have hb : ∀ k, ({ s0 with event := some { e with data := .trig a (n - s0.icnt) m s0.ip } } : Idec).boundTo k = false := by
        intro k
        have : ({ s0 with event := some { e with data := .trig a (n - s0.icnt) m s0.ip } } : Idec).boundTo k = s0.boundTo k := by
          cases k <;> rfl
        rw [this, e5]; exact h.bound k
      have sim1 : With c { s0 with event := some { e with data := .trig a (n - s0.icnt) m s0.ip } } f
          (.event { e with data := .trig a (n - k) m f.ip } :: l) := by
        obtain ⟨a1, a2, a3, a4, a5, a6, a7, a8, a9, a10, ⟨b1, b2, b3⟩, a12⟩ := h0
        refine ⟨a1, a2, a3, a4, a5, a6, a7, a8, a9, a10, ⟨b1, b2, b3⟩, ?_⟩
        cases a12 with
        | pend e l a1 a2 a3 a4 a5 => exact .pend _ l a1 (by rw [hic.2, h.ip, e1]) a3 a4 a5
        | idle l a1 => rw [p1] at a1; cases a1
      obtain ⟨s', fl, k1, k2⟩ := (ih htl).rest _ i ⟨sim1, h.ip.trans e1.symm, hcur, e2.trans h.insn, hb⟩
      refine ⟨s', fl, ?_, k2⟩
      rw [← k1, checkIp_eq]
      have l1 : (eventPending c >>= fun ev => checkIpFor c i ev) s = checkTrig e a n m 0 s0 := by
        show IM.bind _ _ _ = _
        unfold IM.bind
        rw [a1]
        show checkIpFor c i (some e) s0 = _
        unfold checkIpFor
        dsimp only
        rw [IM.get_bind]
        simp only [hdata]
      have l2 : (eventPending c >>= fun ev => checkIpFor c i ev)
          { s0 with event := some { e with data := .trig a (n - s0.icnt) m s0.ip } } =
          checkTrig { e with data := .trig a (n - s0.icnt) m s0.ip } a (n - s0.icnt) m s0.ip
            { s0 with event := some { e with data := .trig a (n - s0.icnt) m s0.ip } } := by
        show IM.bind _ _ _ = _
        unfold IM.bind eventPending
        rw [IM.get_bind, if_pos p1]
        rfl
      rw [l1, l2]
      unfold checkTrig
      rw [if_neg (by simp [hs]), if_neg (by simp [hs]), IM.get_bind, IM.get_bind]
      show IM.bind _ _ _ = IM.bind _ _ _
      unfold IM.bind locateTrig
      rw [IM.get_bind, IM.get_bind, if_pos rfl, if_neg (by simp [hic.1]), if_neg (by omega), if_neg (by rw [e1, ← h.ip]; exact hip0)]
      rfl
    refine ⟨hrest, fun s j h => off_rest hp.usable (fun s => hrest s none) h fun s1 _ => ?_, fun s i j h => ?_⟩
    · refine insnFor_other (ht e (by simp)) (by rw [hdata]; rfl) fun ip h => ?_
      rw [hdata] at h; cases h
    · have := h.cur; rw [hcur] at this; cases this

end Ipt
