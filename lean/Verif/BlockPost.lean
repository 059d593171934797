import Verif.BlockTrail
import Verif.InsnFlowStep

/-!
# Helper lemmas: the decoder and the machine between two calls, and the instruction at the end of a block
-/

set_option linter.unusedSimpArgs false

namespace Ipt

open Ild Spec Props BM

variable {c : BlkCfg} {f0 f g : Flow} {its : List Item} {s s' : Bdec} {i : Insn} {e : Event} {d : Evd} {out : List BlkSeen}

/-! ### The decoder and the machine -/

/-- The machine is in the decoder's state. -/
structure Base (c : BlkCfg) (s : Bdec) (f : Flow) : Prop where
  enabled : f.enabled = s.enabled
  ip : f.ip = s.ip
  mode : f.mode = s.mode
  speculative : f.speculative = s.speculative
  asid : f.asid = s.sc.asid
  sections : ∀ m, m ∈ s.sc.img.secs ↔ f.sections m
  wf : ∀ m, f.sections m → m.WF c.env
  inv : ScInv s.sc
  insn : f.cur = s.insn
  calls : s.insn = none → s.retstack.Holds f.calls
  called : ∀ i, s.insn = some i → s.retstack.Holds (calling i f.calls ((i.ip + i.size) % 2 ^ 64)) ∧ InsnShape i
  here : ∀ i, s.insn = some i → s.enabled = true → i.ip = s.ip
  bound : ∀ k, k ∈ f.bound ↔ s.boundTo k = true
  free : s.insn = none → f.bound = []
  pend : ∀ e, f.pend = some e → s.event = some e ∧ Normal e
  live : s.status = none ↔ s.event ≠ none

/-- What `Base` says something about, except for the sections, the event and the status. -/
def Bdec.core (s : Bdec) : Bdec := { s.calm with ip := s.ip, retstack := s.retstack, cbr := 0 }

theorem boundTo_core (h : s'.core = s.core) (k : Kind) : s'.boundTo k = s.boundTo k := by
  cases k
  · exact congrArg (·.boundPaging) h
  · exact congrArg (·.boundVmcs) h
  · exact congrArg (·.boundPtwrite) h
  · exact congrArg (·.boundIret) h
  · exact congrArg (·.boundVmentry) h
  · exact congrArg (·.boundUiret) h

theorem Base.congr (h : Base c s f) (hc : s'.core = s.core) (hs : ∀ m, m ∈ s'.sc.img.secs ↔ m ∈ s.sc.img.secs)
    (hp : ∀ e, f.pend = some e → s'.event = some e) (hl : s'.status = none ↔ s'.event ≠ none) : Base c s' f := by
  have h1 : s'.enabled = s.enabled := congrArg (·.enabled) hc
  have h2 : s'.ip = s.ip := congrArg (·.ip) hc
  have h3 : s'.mode = s.mode := congrArg (·.mode) hc
  have h4 : s'.speculative = s.speculative := congrArg (·.speculative) hc
  have h5 : s'.sc.asid = s.sc.asid := congrArg (·.sc.asid) hc
  have h6 : s'.sc.cache = s.sc.cache := congrArg (·.sc.cache) hc
  have h7 : s'.insn = s.insn := congrArg (·.insn) hc
  have h8 : s'.retstack = s.retstack := congrArg (·.retstack) hc
  exact ⟨h.enabled.trans h1.symm, h.ip.trans h2.symm, h.mode.trans h3.symm, h.speculative.trans h4.symm,
    h.asid.trans h5.symm, fun m => (hs m).trans (h.sections m), h.wf, fun m hm => by rw [h6] at hm; rw [h5]; exact h.inv m hm,
    h.insn.trans h7.symm, by rw [h7, h8]; exact h.calls, by rw [h7, h8]; exact h.called, by rw [h7, h1, h2]; exact h.here,
    fun k => by rw [boundTo_core hc]; exact h.bound k, by rw [h7]; exact h.free, fun e he => ⟨hp e he, (h.pend e he).2⟩, hl⟩

/-- Taking the event. -/
theorem Base.take (h : Base c s f) (he : s.event = some e) (hn : Normal e) : Base c s { f with pend := some e } :=
  ⟨h.enabled, h.ip, h.mode, h.speculative, h.asid, h.sections, h.wf, h.inv, h.insn, h.calls, h.called, h.here, h.bound, h.free,
    fun e' he' => by cases he'; exact ⟨he, hn⟩, h.live⟩

theorem Base.late (h : Base c s f) {l : Bool} : Base c s { f with late := l } :=
  ⟨h.enabled, h.ip, h.mode, h.speculative, h.asid, h.sections, h.wf, h.inv, h.insn, h.calls, h.called, h.here, h.bound, h.free,
    h.pend, h.live⟩

/-- The event is not taken. -/
theorem Base.give (h : Base c s f) : Base c s { f with pend := none } :=
  ⟨h.enabled, h.ip, h.mode, h.speculative, h.asid, h.sections, h.wf, h.inv, h.insn, h.calls, h.called, h.here, h.bound, h.free,
    fun e' he' => (by cases he'), h.live⟩

/-- The event may already have been taken. -/
theorem Base.taken (h : Base c s f) (ht : Trail c d f0 out s f) (he : s.event = some e) (hn : Normal e) :
    ∃ l, Base c s { f with pend := some e, late := l } ∧ Trail c d f0 out s { f with pend := some e, late := l } := by
  rcases hp : f.pend with _ | e'
  · exact ⟨false, (h.take he hn).late, ht.take hp he hn⟩
  · have : e' = e := by have := (h.pend e' hp).1; rw [he] at this; cases this; rfl
    subst this
    refine ⟨f.late, h.take he hn, ?_⟩
    rw [← hp]
    exact ht

/-- The decoder expects the user to call `pt_blk_event`. -/
inductive Pending (c : BlkCfg) (s : Bdec) (f : Flow) : Prop
  /-- It will fail. -/
  | doomed : (s.status ≠ none ∨ ∃ e ip, s.event = some e ∧ e.data = .disabled ip ∧ e.statusUpdate = s.enabled) → Pending c s f
  | event (e : Event) : Base c s f → f.pend = some e →
    (s.insn = none ∨ (s.enabled = false ∧ (Kind.of e.data ≠ none ∨ ∃ ip, e.data = .disabled ip))) → f.Comes e → Pending c s f
  | belongs (s1 : Bdec) (e : Event) (k : Kind) (l : Option Nat) (i : Insn) : Base c s1 f → s = s1.mark k →
    s1.boundTo k = false → s1.enabled = true → s1.insn = some i → f.pend = some e → Kind.of e.data = some (k, l) →
    Belongs e k l i → Pending c s f
  | leaving (s1 : Bdec) (e : Event) (ip t : Nat) (i : Insn) : Base c s1 f → s1.insn = some i → s1.enabled = true →
    f.pend = some e → e.data = .disabled ip → e.statusUpdate = false → Leaves c e i t →
    s = { s1 with ip := t } ∨ (s = { s1 with ip := t, insn := none } ∧ f.bound = []) → Pending c s f
  | tick (e : Event) (b n : Nat) : Base c s f → s.event = some e → e.data = .tnt b n → c.tick = true → f.pend = none →
    s.insn = none → Pending c s f

/-- Events wait, and TNT events that are used up are replaced. -/
def BReady (s : Bdec) (f : Flow) : Prop :=
  f.pend = none → f.late = false → ∀ e, s.event = some e → ¬ Normal e ∧ blkItems e ≠ []

/-- The end of a call. -/
def Done (c : BlkCfg) (d : Evd) (f0 : Flow) (out : List BlkSeen) (fl : Flags) (s : Bdec) : Prop :=
  ∃ f, Trail c d f0 out s f ∧ if fl.eventPending = true then Pending c s f else Base c s f ∧ s.insn = none ∧ BReady s f

/-! ### The instruction at the end of a block -/

theorem leftover_event (h : s'.event = s.event) : leftover s' f = leftover s f := by
  unfold leftover
  rw [h]

theorem leftover_pend (h : g.pend = f.pend) : leftover s g = leftover s f := by
  unfold leftover
  rw [h]

theorem clear_core : (clearPostponedInsn s).sc = s.sc ∧ (clearPostponedInsn s).ev = s.ev ∧ (clearPostponedInsn s).event = s.event ∧
    (clearPostponedInsn s).status = s.status := ⟨rfl, rfl, rfl, rfl⟩

theorem clear_bound (k : Kind) : (clearPostponedInsn s).boundTo k = false := by cases k <;> rfl

/-- Nothing can be taken from other events. -/
theorem normal_takes {it : Item} {tr : Evd × Option Event × Option Err} (h : s.event = some e) (hn : Normal e) :
    ¬ Takes c s.trace [it] tr := by
  have hi : items e = [.event e] := by
    unfold items
    rcases hx : e.data <;> dsimp only <;> first | exact absurd hx (hn.1 _) | exact absurd hx (hn.2 _ _)
  intro ht
  unfold Bdec.trace at ht
  rw [h] at ht
  cases ht with
  | bit d1 e1 e2 b x1 h1 => rw [hi] at h1; cases h1
  | target d1 e1 ip d2 e2 x1 h1 h2 => rw [hi] at h1; cases h1
  | last d1 e1 ip d2 x1 y1 h1 h2 => rw [hi] at h1; cases h1
  | tick d1 e1 ip a x1 h1 h2 => rw [hi] at h2; cases h2
  | deferred d1 e1 d2 e2 bits n ip x1 h1 h2 h3 => exact hn.2 _ _ h1

theorem none_takes {it : Item} {tr : Evd × Option Event × Option Err} (h : s.event = none) : ¬ Takes c s.trace [it] tr := by
  intro ht
  unfold Bdec.trace at ht
  rw [h] at ht
  cases ht

theorem takes_live {x y : Evd × Option Event × Option Err} (h : Takes c x its y) (hl : x.2.2 = none ↔ x.2.1 ≠ none) :
    y.2.2 = none ↔ y.2.1 ≠ none := by
  cases h with
  | nothing => exact hl
  | bit d1 e1 e2 b x1 h1 => simp at hl ⊢; exact hl
  | target d1 e1 ip d2 e2 x1 h1 h2 => simp at hl ⊢; exact hl
  | last d1 e1 ip d2 x1 y1 h1 h2 => simp
  | tick d1 e1 ip a x1 h1 h2 => simp at hl ⊢; exact hl
  | deferred d1 e1 d2 e2 bits n ip x1 h1 h2 h3 => simp at hl ⊢; exact hl

/-- The postponed instruction does not keep the event back. -/
def Frees (s : Bdec) (f : Flow) : Prop :=
  ∀ i e k l, s.insn = some i → f.pend = some e → Kind.of e.data = some (k, l) →
    k ∈ f.bound ∨ k.fits i.ext = false ∨ (l ≠ none ∧ e.ipSuppressed = false)

theorem ready_pend (hp : f.pend = some e) : BReady s f := by
  intro h; rw [hp] at h; cases h

theorem ready_none (h : s.event = none) : BReady s f := by
  intro _ _ e he; rw [h] at he; cases he

theorem ready_tip {ip : Nat} (h : s.event = some e) (hx : e.data = .tip ip) : BReady s f := by
  intro _ _ e' he
  rw [h] at he; cases he
  refine ⟨fun hn => hn.1 _ hx, ?_⟩
  unfold blkItems; rw [hx]; simp

theorem ready_tnt {b n : Nat} (h : s.event = some e) (hx : e.data = .tnt b n) (hn : n ≠ 0) : BReady s f := by
  intro _ _ e' he
  rw [h] at he; cases he
  refine ⟨fun hn => hn.2 _ _ hx, ?_⟩
  obtain ⟨n, rfl⟩ : ∃ k, n = k + 1 := ⟨n - 1, by omega⟩
  unfold blkItems items; rw [hx]; simp [tntBits]

/-- Instructions may be executed. -/
theorem BReady.passes (h : BReady s f) {its rest : List Item} (hp : f.pend = none) (hf : its = [] → s'.event = s.event ∧ Fair s' g rest)
    (hg : g.pend = none) : f.Passes its rest := by
  intro _ hi hl
  obtain ⟨h1, h2⟩ := hf hi
  refine h2 hg ?_
  rw [h1]
  rcases he : s.event with _ | e
  · exact .inl rfl
  · exact .inr ⟨e, rfl, (h hp hl e he).1, (h hp hl e he).2⟩

/-- The instruction at the end of the block was dealt with. -/
structure Freed (c : BlkCfg) (d : Evd) (f0 : Flow) (out : List BlkSeen) (s : Bdec) (f : Flow) (s' : Bdec) (f' : Flow) :
    Prop where
  trail : Trail c d f0 out s' f'
  base : Base c s' f'
  insn : s'.insn = none
  enabled : s'.enabled = s.enabled
  pend : ∀ e, f.pend = some e → f'.pend = some e
  status : s.status ≠ none → s'.status = s.status
  same : s.insn = none → s' = s ∧ f' = f
  ready : BReady s' f'

/-- The state after the instruction was executed or dropped. -/
theorem Base.clear (h : Base c s f) {t : Nat} {calls : List Nat} {r : RetStack} {late : Bool} (hr : r.Holds calls)
    (hp : ∀ e, f.pend = some e → s'.event = some e) (hl : s'.status = none ↔ s'.event ≠ none)
    (hc : s'.calm = s.calm) (hsc : s'.sc = s.sc) (hi : s'.ip = t) (hrr : s'.retstack = r) :
    Base c (clearPostponedInsn s') { f with ip := t, calls := calls, cur := none, bound := [], late := late } := by
  have h1 : s'.enabled = s.enabled := congrArg (·.enabled) hc
  have h3 : s'.mode = s.mode := congrArg (·.mode) hc
  have h4 : s'.speculative = s.speculative := congrArg (·.speculative) hc
  refine ⟨h.enabled.trans h1.symm, hi.symm, h.mode.trans h3.symm, h.speculative.trans h4.symm, ?_, ?_, h.wf, ?_, rfl, ?_, ?_, ?_,
    ?_, fun _ => rfl, fun e he => ⟨hp e he, (h.pend e he).2⟩, hl⟩
  · show f.asid = s'.sc.asid
    rw [hsc]; exact h.asid
  · intro m
    show m ∈ s'.sc.img.secs ↔ _
    rw [hsc]; exact h.sections m
  · show ScInv s'.sc
    rw [hsc]; exact h.inv
  · intro _
    show s'.retstack.Holds calls
    rw [hrr]; exact hr
  · intro i hi; cases hi
  · intro i hi; cases hi
  · intro k
    rw [clear_bound]
    simp

theorem postponed_base (hb : Base c s f) (ht : Trail c d f0 out s f) (hx : Frees s f) (hr : BReady s f) :
    wp (proceedPostponedInsn c) (fun _ s' => ∃ f', Freed c d f0 out s f s' f') (fun _ _ => True) s := by
  unfold proceedPostponedInsn
  rw [wp_bind, wp_get]
  rcases hi : s.insn with _ | i
  · exact ⟨f, ht, hb, hi, rfl, fun _ h => h, fun _ => rfl, fun _ => ⟨rfl, rfl⟩, hr⟩
  dsimp only
  obtain ⟨hcl, hsh⟩ := hb.called i hi
  rw [wp_ite]
  refine ⟨fun hen => ?_, fun hen => ?_⟩
  · rw [wp_modify]
    have hstep := fun rest => Flow.BlkStep.drop (c := c) (rest := rest) f i (hb.enabled.trans hen) (hb.insn.trans hi)
    have htr := ht.quiet (s' := clearPostponedInsn s) hstep (leftover_event rfl) (fun h => ⟨h, rfl⟩)
    rw [List.append_nil] at htr
    refine ⟨_, htr, ?_, rfl, rfl, fun _ h => h, fun _ => rfl, fun h => (by rw [hi] at h; cases h), hr⟩
    have := hb.clear (s' := s) (late := f.late) hcl (fun e he => (hb.pend e he).1) hb.live rfl rfl rfl rfl
    rw [← hb.ip] at this
    exact this
  have hen : s.enabled = true := by simpa using hen
  rw [wp_bind, wp_orQuery]
  refine wp_mono (nextInsn_exec (calls := f.calls) hsh) (fun _ s1 h1 => ?_) fun er s1 h1 => ⟨fun hq => ?_, fun _ => trivial⟩
  · obtain ⟨t, h2, -, rfl⟩ := h1
    rw [wp_modify]
    have hstep := fun rest hf => Flow.BlkStep.exec (c := c) (rest := rest) f i [] t _ (hb.enabled.trans hen) (hb.insn.trans hi) h2
      (fun e k l a b => hx i e k l hi a b) fun hp => hr.passes (s' := clearPostponedInsn { s with ip := t })
        (g := { f with ip := t, calls := calling i f.calls ((i.ip + i.size) % 2 ^ 64), cur := none, bound := [], late := f.late || false })
        hp (fun _ => ⟨rfl, hf⟩) hp hp
    have htr := ht.quiet1 (s' := clearPostponedInsn { s with ip := t }) hstep (leftover_event rfl) (fun h => ⟨h, rfl⟩) (.inr ⟨rfl, rfl⟩)
    rw [List.append_nil] at htr
    refine ⟨_, htr, ?_, rfl, rfl, fun _ h => h, fun _ => rfl, fun h => (by rw [hi] at h; cases h), fun a b => hr a (by simpa using b)⟩
    exact hb.clear (s' := { s with ip := t }) hcl (fun e he => (hb.pend e he).1) hb.live rfl rfl rfl rfl
  · obtain ⟨rfl, -⟩ := h1
    refine wp_mono (withTrace_took (c := c) hsh hcl) (fun _ s2 h2 => ?_) fun _ _ _ => trivial
    obtain ⟨it, t, calls', h3, h4, h5, h6, h7, h8⟩ := h2
    rw [wp_modify]
    have hpn : f.pend = none := by
      rcases hp : f.pend with _ | e
      · rfl
      · have := hb.pend e hp
        exact absurd h4 (normal_takes this.1 this.2)
    have hst : s1.status = none := by
      rcases hst : s1.status with _ | x
      · rfl
      · exfalso
        have : s1.event = none := by
          rcases hev : s1.event with _ | y
          · rfl
          · have := hb.live.2 (by rw [hev]; simp)
            rw [hst] at this; cases this
        exact none_takes this h4
    have hstep := fun rest (_ : [it] = [] → (clearPostponedInsn s2).event = s1.event ∧ Fair (clearPostponedInsn s2)
        { f with ip := t, calls := calls', cur := none, bound := [], late := f.late || true } rest) => Flow.BlkStep.exec (c := c) (rest := rest) f i [it] t calls' (hb.enabled.trans hen) (hb.insn.trans hi) h3
      (fun e k l a b => hx i e k l hi a b) fun _ h => by cases h
    have hl := takes_live h4 hb.live
    have hbase := hb.clear (s' := s2) (late := f.late || true) h8 (fun e he => by rw [hpn] at he; cases he) hl h5 h6 h7 rfl
    have h1 : s2.enabled = s1.enabled := congrArg (·.enabled) h5
    rcases ht.takes (s' := clearPostponedInsn s2) hpn hstep hpn h4 with h9 | ⟨e, ip, h9, h10, h11, h12⟩
    · exact ⟨_, by simpa using h9, hbase, rfl, h1, fun e he => (by rw [hpn] at he; cases he), fun h => absurd hst h,
        fun h => (by rw [hi] at h; cases h), fun _ b => (by simp at b)⟩
    · refine ⟨_, by simpa using h12, hbase.take h10 ⟨?_, ?_⟩, rfl, h1, fun e he => (by rw [hpn] at he; cases he),
        fun h => absurd hst h, fun h => (by rw [hi] at h; cases h), fun _ b => (by simp at b)⟩
      · intro ip; rw [h11]; simp
      · intro b n; rw [h11]; simp

/-- `noTrailing`: the next event does not come now. -/
theorem noTrailing_done (hb : Base c s f) (ht : Trail c d f0 out s f) (hx : Frees s f) (hr : BReady s f) :
    wp (noTrailing c) (Done c d f0 out) (fun _ _ => True) s := by
  unfold noTrailing
  rw [wp_bind]
  refine wp_mono (postponed_base hb ht hx hr) (fun _ s1 h1 => ?_) fun _ _ _ => trivial
  obtain ⟨f1, h1⟩ := h1
  exact ⟨f1, h1.trail, h1.base, h1.insn, h1.ready⟩

/-- The event comes now. -/
theorem status_done (hb : Pending c s f) (ht : Trail c d f0 out s f) :
    wp (blkStatus true) (Done c d f0 out) (fun _ _ => True) s := ⟨f, ht, hb⟩

theorem frees_none (h : s.insn = none) : Frees s f := by
  intro i e k l hi
  rw [h] at hi; cases hi

theorem frees_kind (hp : f.pend = some e) (h : Kind.of e.data = none) : Frees s f := by
  intro i e' k l hi he hk
  rw [hp] at he; cases he
  rw [h] at hk; cases hk

theorem frees_pend (hp : f.pend = none) : Frees s f := by
  intro i e' k l hi he hk
  rw [hp] at he; cases he

/-- An event that does not bind to an instruction. -/
theorem trailingAt_done {p : Bdec → Bool} (hb : Base c s f) (ht : Trail c d f0 out s f) (hp : f.pend = some e)
    (hk : Kind.of e.data = none) (hc : ∀ (s' : Bdec) (g : Flow), g.ip = s'.ip → g.enabled = s'.enabled → p s' = true → g.Comes e) :
    wp (trailingAt c p) (Done c d f0 out) (fun _ _ => True) s := by
  unfold trailingAt
  rw [wp_bind]
  refine wp_mono (postponed_base hb ht (frees_kind hp hk) (ready_pend hp)) (fun _ s1 h1 => ?_) fun _ _ _ => trivial
  obtain ⟨f1, h1⟩ := h1
  rw [wp_bind, wp_get, wp_ite]
  refine ⟨fun h2 => status_done (.event e h1.base (h1.pend e hp) (.inl h1.insn) (hc s1 f1 h1.base.ip h1.base.enabled h2)) h1.trail,
    fun _ => noTrailing_done h1.base h1.trail (frees_none h1.insn) h1.ready⟩

/-- An event that may bind to the postponed instruction. -/
theorem trailingBind_done {p : Iext → Bool} {k : Kind} {l : Option Nat} (hb : Base c s f) (ht : Trail c d f0 out s f)
    (hp : f.pend = some e) (hk : Kind.of e.data = some (k, l)) (h1 : ∀ i : Insn, p i.ext = true → Belongs e k l i)
    (h2 : ∀ i : Insn, p i.ext = false → k.fits i.ext = false ∨ (l ≠ none ∧ e.ipSuppressed = false)) :
    wp (trailingBind c (·.boundTo k) p (Bdec.mark k)) (Done c d f0 out) (fun _ _ => True) s := by
  unfold trailingBind
  have hcomes : f.enabled = false → f.Comes e := by
    intro hen
    unfold Flow.Comes
    have hl : location e = none := by
      unfold location
      rcases hx : e.data <;> rw [hx] at hk <;> first | rfl | (cases hk; done)
    have : (Kind.of e.data ≠ none → f.enabled = false) ∧ f.Reached e ∧ (countdown e = 0 ∨ f.enabled = false) := by
      refine ⟨fun _ => hen, fun x hx => ?_, .inr hen⟩
      rw [hl] at hx; cases hx
    rcases hx : e.data <;> rw [hx] at hk this <;> first | exact this | (cases hk; done)
  rw [wp_bind, wp_get, wp_ite]
  refine ⟨fun hen => ?_, fun hen => ?_⟩
  · exact status_done (.event e hb hp (.inr ⟨hen, .inl (by rw [hk]; simp)⟩) (hcomes (hb.enabled.trans hen))) ht
  rcases hi : s.insn with _ | i
  · exact noTrailing_done hb ht (frees_none hi) (ready_pend hp)
  dsimp only
  rw [wp_ite, wp_ite]
  refine ⟨fun h3 => noTrailing_done hb ht ?_ (ready_pend hp), fun h3 => ⟨fun h4 => noTrailing_done hb ht ?_ (ready_pend hp), fun h4 => ?_⟩⟩
  · intro j e' k' l' hj he hk'
    rw [hp] at he; cases he
    rw [hk] at hk'; cases hk'
    exact .inl ((hb.bound _).2 h3)
  · intro j e' k' l' hj he hk'
    rw [hp] at he; cases he
    rw [hk] at hk'; cases hk'
    rw [hi] at hj; cases hj
    exact .inr (h2 _ h4)
  · rw [wp_bind, wp_modify]
    have hm : (s.mark k).event = s.event ∧ (s.mark k).ev = s.ev ∧ (s.mark k).status = s.status := by cases k <;> exact ⟨rfl, rfl, rfl⟩
    refine status_done (.belongs s e k l i hb rfl (by simpa using h3) (by simpa using hen) hi hp hk (h1 i (by simpa using h4))) ?_
    exact ht.still hm.1 (fun h => ⟨by rw [← hm.1]; exact h, hm.2.1⟩) fun h => ⟨by rw [← hm.1]; exact h, hm.2.2⟩

end Ipt
