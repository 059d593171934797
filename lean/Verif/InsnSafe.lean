import Verif.FlowSafe
import Verif.Props.QueryFlags
import Verif.Props.RetStack
import Verif.Props.Asid

/-!
# Helper lemmas: the instruction flow decoder is defined
-/

set_option linter.unusedSimpArgs false
set_option linter.unusedVariables false

namespace Ipt

open Ild Spec Props

/-- The query decoder has no branch to give out before the current event. -/
def Blocked (c : EvtCfg) (q : Qdec) : Prop := ∃ d es, QInv c d q es [] ∧ ∀ e, q.event = .ok e → Spec.isBranch e = false

/-- What holds between the calls.  The field `tick`: if tick events are requested, there is an event while tracing is
enabled, or branches cannot be queried.  There is an event if `N`. -/
structure ISafe (c : InsnCfg) (secs : Msec → Prop) (N : Prop) (s : Idec) : Prop where
  q : QSafe c.evt s.q
  img : ∀ m ∈ s.sc.img.secs, secs m
  maps : ∀ r ∈ s.maps, r ≠ .ub
  ret : ∃ l, s.retstack.Holds l
  pend : s.processEvent = true → s.event.isSome = true
  tick : c.tick = true → s.enabled = true → s.event.isSome = true ∨ Blocked c.evt s.q
  known : N → s.event.isSome = true

/-- What the configuration must be like. -/
structure CfgSafe (c : InsnCfg) (secs : Msec → Prop) : Prop where
  use : Usable c.evt
  mem : SafeMemory c secs
  filter : c.filter.addr.length = 16

/-- A function is defined and keeps the invariant. -/
def Sure {α : Type} (c : InsnCfg) (secs : Msec → Prop) (N : Prop) (p : IM α) : Prop :=
  ∀ s, ISafe c secs N s → (p s).2 ≠ .ub ∧ ISafe c secs N (p s).1

variable {c : InsnCfg} {secs : Msec → Prop} {N : Prop} {s : Idec} {α β : Type}

theorem sure_pure {a : α} : Sure c secs N (pure a) := fun _ h => ⟨fun h => (by cases h), h⟩
theorem sure_fail {e : Err} : Sure c secs N (IM.fail (α := α) e) := fun _ h => ⟨fun h => (by cases h), h⟩
theorem sure_get : Sure c secs N IM.get := fun _ h => ⟨fun h => (by cases h), h⟩
theorem sure_lift {r : Res α} (hr : r ≠ .ub) : Sure c secs N (IM.lift r) := fun _ h => ⟨hr, h⟩
theorem sure_modify {f : Idec → Idec} (hf : ∀ s, ISafe c secs N s → ISafe c secs N (f s)) : Sure c secs N (IM.modify f) :=
  fun s h => ⟨fun h => (by cases h), hf s h⟩
theorem sure_bind {p : IM α} {q : α → IM β} (h1 : Sure c secs N p) (h2 : ∀ a, Sure c secs N (q a)) :
    Sure c secs N (p >>= q) := by
  intro s h
  have := h1 s h
  show (IM.bind p q s).2 ≠ .ub ∧ ISafe c secs N (IM.bind p q s).1
  unfold IM.bind
  rcases hp : p s with ⟨s', a | e | _⟩ <;> rw [hp] at this
  · exact h2 a s' this.2
  · exact ⟨fun h => (by cases h), this.2⟩
  · exact absurd rfl this.1
theorem sure_try {p : IM α} (h1 : Sure c secs N p) : Sure c secs N (IM.try_ p) := by
  intro s h
  have := h1 s h
  unfold IM.try_
  rcases hp : p s with ⟨s', a | e | _⟩ <;> rw [hp] at this
  · exact ⟨fun h => (by cases h), this.2⟩
  · exact ⟨fun h => (by cases h), this.2⟩
  · exact absurd rfl this.1
theorem sure_when {b : Bool} {p : IM Unit} (h1 : Sure c secs N p) : Sure c secs N (IM.when b p) := by
  unfold IM.when
  split
  · exact h1
  · exact sure_pure
theorem sure_mapped : Sure c secs N IM.mapped := fun s h =>
  ⟨fun h => (by cases h), ⟨h.q, h.img, tail_safe h.maps, h.ret, h.pend, h.tick, h.known⟩⟩
theorem sure_cache {f : ScSt → ScSt × Res α}
    (hf : ∀ sc, (∀ m ∈ sc.img.secs, secs m) → (f sc).2 ≠ .ub ∧ ∀ m ∈ (f sc).1.img.secs, secs m) :
    Sure c secs N (IM.cache f) := fun s h =>
  ⟨(hf s.sc h.img).1, ⟨h.q, (hf s.sc h.img).2, h.maps, h.ret, h.pend, h.tick, h.known⟩⟩
theorem sure_image {f : Img × List (Res Unit) → (Img × List (Res Unit)) × Res α}
    (hf : ∀ st, ImgSafe secs st → ImgSafe secs (f st).1 ∧ (f st).2 ≠ .ub) : Sure c secs N (IM.image f) := fun s h =>
  have := hf (s.sc.img, s.maps) ⟨h.img, h.maps⟩
  ⟨this.2, ⟨h.q, this.1.1, this.1.2, h.ret, h.pend, h.tick, h.known⟩⟩

/-- As `Sure`, from one state. -/
def SureAt {α : Type} (c : InsnCfg) (secs : Msec → Prop) (N : Prop) (p : IM α) (s : Idec) : Prop :=
  (p s).2 ≠ .ub ∧ ISafe c secs N (p s).1

theorem Sure.at {p : IM α} (hp : Sure c secs N p) (h : ISafe c secs N s) : SureAt c secs N p s := hp s h

theorem sure_getAt {f : Idec → IM α} (hf : ∀ s, ISafe c secs N s → SureAt c secs N (f s) s) :
    Sure c secs N (IM.get >>= f) := fun s h => hf s h

theorem sure_decode (hc : CfgSafe c secs) {asid : Asid} {i : Insn} (hl : i.raw.length = 15) :
    Sure c secs N (IM.image fun m => insnDecode (imgReader c.env c.cb asid) m i) :=
  sure_image fun st h =>
    ⟨(decode_rel (image_safe hc.mem asid).toReadsRel st i h hl).1, decode_safe (image_safe hc.mem asid) hc.mem.rex2 st i h hl⟩

theorem range_good {asid : Asid} (hc : CfgSafe c secs) (end_ : Nat) : ∀ (n : Nat) (st : Img × List (Res Unit)) (i : Insn),
    ImgSafe secs st → i.raw.length = 15 →
    ImgSafe secs (rangeContiguous (imgReader c.env c.cb asid) end_ n st i).1 := fun n st i h hl =>
  range_rel (image_safe hc.mem asid).toReadsRel end_ n st i h hl

theorem sure_range (hc : CfgSafe c secs) {asid : Asid} {i : Insn} {n e : Nat} (hl : i.raw.length = 15) :
    Sure c secs N (IM.image fun m => rangeContiguous (imgReader c.env c.cb asid) e n m i) :=
  sure_image fun st h => ⟨range_good hc e n st i h hl, range_safe (image_safe hc.mem asid) hc.mem.rex2 e n st i h hl⟩

theorem sure_cached (hc : CfgSafe c secs) {asid : Asid} {msec : Option Msec} {i : Insn} (hs : ∀ m, msec = some m → secs m)
    (hl : i.raw.length = 15) :
    Sure c secs N (IM.image fun im => insnDecodeCached c.env (imgReader c.env c.cb asid) msec im i) :=
  sure_image fun st h => cached_safe hc.mem asid msec hs st h i hl

/-! ### The query decoder -/

theorem qry_safe (hc : CfgSafe c secs) (x : Query) {q : Qdec} (h : QSafe c.evt q) :
    (x.run c.evt q).2 ≠ .ub ∧ QSafe c.evt (x.run c.evt q).1 := by
  have := qsafe_step hc.use (.query x) (fun h => by cases h) h
  refine ⟨fun hu => this.1 ?_, this.2⟩
  show ((x.run c.evt q).2.bind fun _ => Res.ok ()) = .ub
  rw [hu]; rfl

theorem blocked_time {e : EvtCfg} {q : Qdec} {t : Time} (h : Blocked e q) : Blocked e { q with lastTime := t } := by
  obtain ⟨d, es, h1, h2⟩ := h
  exact ⟨d, es, ⟨h1.del, h1.cur, h1.tnt, h1.inv⟩, h2⟩

theorem isBranch_tnt {e : Event} {p n : Nat} (h : e.data = .tnt p n) : Spec.isBranch e = true := by
  unfold Spec.isBranch; rw [h]
theorem isBranch_tip {e : Event} {ip : Nat} (h : e.data = .tip ip) : Spec.isBranch e = true := by
  unfold Spec.isBranch; rw [h]

theorem blocked_cond (hc : CfgSafe c secs) {q : Qdec} (h : Blocked c.evt q) :
    ∃ q' x, condBranch c.evt q = (q', .err x) ∧ Blocked c.evt q' := by
  obtain ⟨d, es, h1, h2⟩ := h
  rcases cond_step hc.use h1 with ⟨b, bs, _, _, h, -⟩ | ⟨-, x, -, h⟩ | ⟨-, e, he, h⟩
  · cases h
  · exact ⟨_, _, h, blocked_time ⟨d, es, h1, h2⟩⟩
  · rcases h with ⟨p, n, b, bs, s', f, h, -⟩ | ⟨-, h⟩
    · have := h2 e he.2.1; rw [isBranch_tnt h] at this; cases this
    · exact ⟨_, _, h, blocked_time ⟨d, es, h1, h2⟩⟩

theorem blocked_indirect (hc : CfgSafe c secs) {q : Qdec} (h : Blocked c.evt q) :
    ∃ q' x, indirectBranch c.evt q = (q', .err x) ∧ Blocked c.evt q' := by
  obtain ⟨d, es, h1, h2⟩ := h
  rcases indirect_step hc.use h1 with ⟨x, -, h⟩ | ⟨e, he, h⟩
  · exact ⟨_, _, h, ⟨d, es, h1, h2⟩⟩
  · rcases h with ⟨ip, _, _, h, -⟩ | ⟨p, n, h⟩ | ⟨-, h⟩
    · have := h2 e he.2.1; rw [isBranch_tip h] at this; cases this
    · have := h2 e he.2.1; rw [isBranch_tnt h] at this; cases this
    · exact ⟨_, _, h, ⟨d, es, h1, h2⟩⟩

theorem blocked_event (hc : CfgSafe c secs) {q : Qdec} (h : Blocked c.evt q) :
    (∃ x, qryEvent c.evt q = (q, .err x)) ∨ ∃ q' r, qryEvent c.evt q = (q', .ok r) := by
  obtain ⟨d, es, h1, h2⟩ := h
  rcases event_step hc.use h1 with ⟨-, h⟩ | ⟨-, x, -, h⟩ | ⟨-, e, -, h⟩
  · exact .inl ⟨_, h⟩
  · exact .inl ⟨_, h⟩
  · rcases h with ⟨-, _, _, h, -⟩ | ⟨-, h⟩
    · exact .inr ⟨_, _, h⟩
    · exact .inl ⟨_, h⟩

/-! ### The functions of the decoder -/

/-- One step of `sure`. -/
syntax "sure1" : tactic
macro_rules | `(tactic| sure1) => `(tactic| split)
macro_rules | `(tactic| sure1) => `(tactic| dsimp only)
macro_rules | `(tactic| sure1) => `(tactic| with_reducible refine sure_bind ?_ fun _ => ?_)
macro_rules | `(tactic| sure1) => `(tactic| with_reducible refine sure_try ?_)
macro_rules | `(tactic| sure1) => `(tactic| with_reducible refine sure_when ?_)
macro_rules | `(tactic| sure1) => `(tactic| with_reducible exact sure_pure)
macro_rules | `(tactic| sure1) => `(tactic| with_reducible exact sure_fail)
macro_rules | `(tactic| sure1) => `(tactic| with_reducible exact sure_get)
macro_rules | `(tactic| sure1) => `(tactic| with_reducible exact sure_mapped)
macro_rules | `(tactic| sure1) => `(tactic| (with_reducible refine sure_modify fun _ h => ?_); exact ⟨h.q, h.img, h.maps, h.ret, h.pend, h.tick, h.known⟩)
macro_rules | `(tactic| sure1) => `(tactic| (with_reducible refine sure_modify fun _ h => ?_); exact ⟨h.q, h.img, h.maps, h.ret, fun _ => rfl, fun _ _ => .inl rfl, fun _ => rfl⟩)
macro_rules | `(tactic| sure1) => `(tactic| with_reducible assumption)

/-- Prove that a function is defined, from the functions it calls. -/
macro "sure" : tactic => `(tactic| repeat' sure1)

theorem sure_insnStatus {b : Bool} : Sure c secs N (insnStatus b) := by unfold insnStatus; sure
macro_rules | `(tactic| sure1) => `(tactic| with_reducible exact sure_insnStatus)

/-- There is an event: branches and ticks. -/
theorem tick_after (hc : CfgSafe c secs) {f : QM α} {g : α → IM β} (x : Query)
    (h1 : ∀ q, (f q).2 = .ub → (x.run c.evt q).2 = .ub) (h2 : ∀ q, (f q).1 = (x.run c.evt q).1)
    (hb : ∀ q, Blocked c.evt q → ∃ q' e, f q = (q', .err e) ∧ Blocked c.evt q')
    (hg : ∀ a, ∀ s, ISafe c secs N s → (c.tick = true → s.enabled = true → s.event.isSome = true) →
      SureAt c secs N (g a) s) : Sure c secs N (IM.query f >>= g) := by
  intro s h
  have hq := qry_safe hc x h.q
  show (IM.bind (IM.query f) g s).2 ≠ .ub ∧ ISafe c secs N (IM.bind (IM.query f) g s).1
  unfold IM.bind IM.query
  have hn : (f s.q).2 ≠ .ub := fun hu => hq.1 (h1 _ hu)
  have hs : QSafe c.evt (f s.q).1 := by rw [h2]; exact hq.2
  by_cases hbl : Blocked c.evt s.q
  · obtain ⟨q', e, hr, hbl'⟩ := hb _ hbl
    rw [hr] at hs ⊢
    exact ⟨fun h => (by cases h), ⟨hs, h.img, h.maps, h.ret, h.pend, fun _ _ => .inr hbl', h.known⟩⟩
  · have ht : c.tick = true → s.enabled = true → s.event.isSome = true := fun h1 h2 => (h.tick h1 h2).resolve_right hbl
    have hs' : ISafe c secs N { s with q := (f s.q).1 } :=
      ⟨hs, h.img, h.maps, h.ret, h.pend, fun h1 h2 => .inl (ht h1 h2), h.known⟩
    rcases hr : (f s.q).2 with a | e | _
    · exact hg a _ hs' ht
    · exact ⟨fun h => (by cases h), hs'⟩
    · exact absurd hr hn

theorem tick_at {ip : Nat} (h : ISafe c secs N s) (ht : c.tick = true → s.enabled = true → s.event.isSome = true) :
    SureAt c secs N (IM.when c.tick (insnTick ip)) s := by
  unfold IM.when
  split
  · rename_i htc
    unfold insnTick
    show SureAt c secs N (if s.enabled = false then _ else if s.processEvent = true then _ else _) s
    split
    · exact sure_fail.at h
    · rename_i he
      split
      · exact sure_pure.at h
      · dsimp only
        split
        · rename_i hn
          have := ht htc (by simpa using he)
          rw [hn] at this
          cases this
        · refine Sure.at ?_ h
          sure
  · exact sure_pure.at h

theorem SureAt.then {p : IM α} {q : α → IM β} (h1 : SureAt c secs N p s) (h2 : ∀ a, Sure c secs N (q a)) :
    SureAt c secs N (p >>= q) s := by
  show (IM.bind p q s).2 ≠ .ub ∧ ISafe c secs N (IM.bind p q s).1
  unfold IM.bind
  unfold SureAt at h1
  rcases hp : p s with ⟨s', a | e | _⟩ <;> rw [hp] at h1
  · exact h2 a s' h1.2
  · exact ⟨fun h => (by cases h), h1.2⟩
  · exact absurd rfl h1.1

theorem sure_insnIndirect (hc : CfgSafe c secs) : Sure c secs N (insnIndirect c) := by
  unfold insnIndirect
  refine sure_bind sure_get fun s => ?_
  refine tick_after hc .indirect (fun q h => by rw [run_indirect, h]; rfl) (fun q => by rw [run_indirect])
    (fun q => blocked_indirect hc) fun a s h ht => ?_
  obtain ⟨ip, f⟩ := a
  exact (tick_at (s := { s with ip := ip.getD s.ip }) ⟨h.q, h.img, h.maps, h.ret, h.pend, h.tick, h.known⟩ ht).then
    fun _ => sure_pure
macro_rules | `(tactic| sure1) => `(tactic| with_reducible exact sure_insnIndirect ‹CfgSafe _ _›)
theorem sure_insnCond (hc : CfgSafe c secs) : Sure c secs N (insnCond c) := by
  unfold insnCond
  refine tick_after hc .cond (fun q h => by rw [run_cond, h]; rfl) (fun q => by rw [run_cond])
    (fun q => blocked_cond hc) fun a s h ht => ?_
  exact (tick_at h ht).then fun _ => sure_pure
macro_rules | `(tactic| sure1) => `(tactic| with_reducible exact sure_insnCond ‹CfgSafe _ _›)

theorem sure_eventPending (hc : CfgSafe c secs) : Sure c secs N (eventPending c) := by
  unfold eventPending
  refine sure_getAt fun s h => ?_
  split
  · rename_i hp
    have := h.pend hp
    split
    · exact sure_pure.at h
    · rename_i hn
      rw [hn] at this
      cases this
  split
  · exact sure_pure.at h
  · have hq := qry_safe hc .event h.q
    rw [run_event] at hq
    show (IM.bind (IM.query (qryEvent c.evt)) _ s).2 ≠ .ub ∧ ISafe c secs N (IM.bind (IM.query (qryEvent c.evt)) _ s).1
    unfold IM.bind IM.query
    rcases hr : qryEvent c.evt s.q with ⟨q, ⟨e, f⟩ | e | _⟩ <;> rw [hr] at hq
    · exact ⟨fun h => (by cases h), ⟨hq.2, h.img, h.maps, h.ret, fun _ => rfl, fun _ _ => .inl rfl, fun _ => rfl⟩⟩
    · refine ⟨fun h => (by cases h), ⟨hq.2, h.img, h.maps, h.ret, h.pend, fun h1 h2 => ?_, h.known⟩⟩
      refine (h.tick h1 h2).imp id fun hb => ?_
      rcases blocked_event hc hb with ⟨x, hx⟩ | ⟨_, _, hx⟩ <;> rw [hr] at hx <;> cases hx
      exact hb
    · exact absurd rfl hq.1
macro_rules | `(tactic| sure1) => `(tactic| with_reducible exact sure_eventPending ‹CfgSafe _ _›)

theorem sure_checkSkd022 (hc : CfgSafe c secs) : Sure c secs N (checkSkd022 c) := by
  unfold checkSkd022
  refine sure_bind sure_get fun s => ?_
  refine sure_bind (sure_try (sure_decode hc (by simp))) fun r => ?_
  sure
macro_rules | `(tactic| sure1) => `(tactic| with_reducible exact sure_checkSkd022 ‹CfgSafe _ _›)

theorem sure_updateTrig {ip : Nat} : Sure c secs N (updateTrig ip) := by
  unfold updateTrig
  refine sure_getAt fun s h => ?_
  split
  · exact sure_pure.at h
  split
  · exact sure_fail.at h
  dsimp only
  split
  · exact sure_fail.at h
  refine Sure.at ?_ h
  refine sure_bind (by sure) fun _ => ?_
  split
  · rename_i hp
    have := h.pend hp
    split
    · rename_i hn
      rw [hn] at this
      cases this
    · sure
  · sure
macro_rules | `(tactic| sure1) => `(tactic| with_reducible exact sure_updateTrig)

theorem sure_pushRet {ip : Nat} : Sure c secs N (pushRet ip) := by
  intro s h
  obtain ⟨l, hl⟩ := h.ret
  obtain ⟨r, h1, h2⟩ := push_holds hl ip
  unfold pushRet
  rw [h1]
  exact ⟨fun h => (by cases h), ⟨h.q, h.img, h.maps, ⟨_, h2⟩, h.pend, h.tick, h.known⟩⟩
macro_rules | `(tactic| sure1) => `(tactic| with_reducible exact sure_pushRet)
theorem sure_popRet : Sure c secs N popRet := by
  intro s h
  obtain ⟨l, hl⟩ := h.ret
  have := pop_holds hl
  unfold popRet
  cases l with
  | nil =>
    dsimp only at this
    rw [this]
    exact ⟨fun h => (by cases h), ⟨h.q, h.img, h.maps, ⟨_, hl⟩, h.pend, h.tick, h.known⟩⟩
  | cons a l =>
    obtain ⟨r, h1, h2⟩ := this
    rw [h1]
    exact ⟨fun h => (by cases h), ⟨h.q, h.img, h.maps, ⟨_, h2⟩, h.pend, h.tick, h.known⟩⟩
macro_rules | `(tactic| sure1) => `(tactic| with_reducible exact sure_popRet)

theorem sure_proceedBranch (hc : CfgSafe c secs) {i : Insn} : Sure c secs N (proceedBranch c i) := by
  unfold proceedBranch; sure
macro_rules | `(tactic| sure1) => `(tactic| with_reducible exact sure_proceedBranch ‹CfgSafe _ _›)

theorem sure_proceed (hc : CfgSafe c secs) {i : Insn} : Sure c secs N (proceed c i) := by
  unfold proceed; sure
macro_rules | `(tactic| sure1) => `(tactic| with_reducible exact sure_proceed ‹CfgSafe _ _›)

theorem filter_safe (hc : CfgSafe c secs) (ip : Nat) : c.filter.check ip ≠ .ub := by
  obtain ⟨on, h, -⟩ := C18_addr_filter c.filter ip hc.filter
  rw [h]
  exact fun h => (by cases h)

theorem atSkl014_safe (hc : CfgSafe c secs) (ev : Event) (i : Insn) : atSkl014 c ev i ≠ .ub := by
  unfold atSkl014
  repeat' split
  all_goals first
    | simp; done
    | (rename_i h; exact absurd h (filter_safe hc _))

theorem atDisabled_safe (hc : CfgSafe c secs) (ev : Event) (ip : Nat) (i : Insn) : atDisabled c ev ip i ≠ .ub := by
  unfold atDisabled
  repeat' split
  all_goals first
    | simp; done
    | exact atSkl014_safe hc _ _

theorem sure_postpone {i : Insn} : Sure c secs N (postpone i) := by unfold postpone; sure
macro_rules | `(tactic| sure1) => `(tactic| with_reducible exact sure_postpone)
theorem sure_clearPostponed : Sure c secs N (IM.modify clearPostponed) := sure_modify fun _ h =>
  ⟨h.q, h.img, h.maps, h.ret, h.pend, h.tick, h.known⟩
macro_rules | `(tactic| sure1) => `(tactic| with_reducible exact sure_clearPostponed)
theorem sure_proceedPostponed (hc : CfgSafe c secs) : Sure c secs N (proceedPostponed c) := by
  unfold proceedPostponed; sure
macro_rules | `(tactic| sure1) => `(tactic| with_reducible exact sure_proceedPostponed ‹CfgSafe _ _›)
theorem sure_resumeIp {i : Insn} : Sure c secs N (resumeIp i) := by
  unfold resumeIp
  have := nextIp_safe i
  split
  · sure
  · rename_i h; exact absurd h this
  · sure
macro_rules | `(tactic| sure1) => `(tactic| with_reducible exact sure_resumeIp)

theorem sure_bindOnce {b k : Bool} {ev : Event} {ip : Nat} {mark : Idec → Idec} {i : Insn}
    (hm : Sure c secs N (IM.modify mark)) : Sure c secs N (bindOnce b ev k ip mark i) := by
  unfold bindOnce; sure

theorem sure_checkInsnEvent (hc : CfgSafe c secs) {i : Insn} : Sure c secs N (checkInsnEvent c i) := by
  unfold checkInsnEvent
  refine sure_bind (sure_eventPending hc) fun r => ?_
  split
  · sure
  refine sure_bind sure_get fun s => ?_
  split
  case h_8 => exact sure_bindOnce (by sure)
  all_goals first
    | exact sure_bindOnce (by sure)
    | (split
       · sure
       · exact sure_bind (sure_lift (atDisabled_safe hc _ _ _)) fun _ => (by sure))
    | (sure; done)

macro_rules | `(tactic| sure1) => `(tactic| with_reducible exact sure_checkInsnEvent ‹CfgSafe _ _›)

theorem sure_handleBdm64 (hc : CfgSafe c secs) {a : Bool} {ip : Nat} {i : Insn} : Sure c secs N (handleBdm64 c a ip i) := by
  unfold handleBdm64
  split
  · sure
  split
  · sure
  refine sure_bind sure_get fun s => ?_
  refine sure_bind (sure_try (sure_range hc (by simp))) fun r => ?_
  sure

macro_rules | `(tactic| sure1) => `(tactic| with_reducible exact sure_handleBdm64 ‹CfgSafe _ _›)

theorem sure_postponeTsx (hc : CfgSafe c secs) {ev : Event} {a : Bool} {ip : Nat} {i : Option Insn} :
    Sure c secs N (postponeTsx c ev a ip i) := by
  unfold postponeTsx; sure
macro_rules | `(tactic| sure1) => `(tactic| with_reducible exact sure_postponeTsx ‹CfgSafe _ _›)

theorem sure_waitFor {ev : Event} {ip : Nat} : Sure c secs N (waitFor ev ip) := by unfold waitFor; sure
macro_rules | `(tactic| sure1) => `(tactic| with_reducible exact sure_waitFor)
theorem sure_locateTrig {ev : Event} {a b d : Nat} {m : Bool} : Sure c secs N (locateTrig ev a b m d) := by
  unfold locateTrig; sure
macro_rules | `(tactic| sure1) => `(tactic| with_reducible exact sure_locateTrig)
theorem sure_checkTrig {ev : Event} {a b d : Nat} {m : Bool} : Sure c secs N (checkTrig ev a b m d) := by
  unfold checkTrig; sure
macro_rules | `(tactic| sure1) => `(tactic| with_reducible exact sure_checkTrig)

theorem sure_checkIpEvent (hc : CfgSafe c secs) {i : Option Insn} : Sure c secs N (checkIpEvent c i) := by
  unfold checkIpEvent; sure
macro_rules | `(tactic| sure1) => `(tactic| with_reducible exact sure_checkIpEvent ‹CfgSafe _ _›)

theorem sure_fetchInsn (hc : CfgSafe c secs) : Sure c secs N (fetchInsn c) := by
  intro s h
  unfold fetchInsn
  show (IM.bind IM.mapped _ s).2 ≠ .ub ∧ ISafe c secs N (IM.bind IM.mapped _ s).1
  have hu := headD_safe h.maps
  have hp := headD_safe (tail_safe h.maps)
  have h1 := (sure_mapped (N := N) s h).2
  have h2 := (sure_mapped (N := N) _ h1).2
  unfold IM.bind IM.mapped
  dsimp only
  show (IM.bind IM.mapped _ { s with maps := s.maps.tail }).2 ≠ .ub ∧
    ISafe c secs N (IM.bind IM.mapped _ { s with maps := s.maps.tail }).1
  unfold IM.bind IM.mapped
  dsimp only
  generalize hs2 : ({ s with maps := s.maps.tail.tail } : Idec) = s2
  have h2 : ISafe c secs N s2 := by rw [← hs2]; exact h2
  have hL := msecLookup_safe (secs := secs) s2.sc (s.maps.headD (.ok ())) (s.maps.tail.headD (.ok ())) s2.ip hu hp h2.img
  show (IM.bind IM.get _ s2).2 ≠ .ub ∧ ISafe c secs N (IM.bind IM.get _ s2).1
  unfold IM.bind IM.get
  dsimp only
  show (IM.bind (IM.try_ (IM.cache _)) _ s2).2 ≠ .ub ∧ ISafe c secs N (IM.bind (IM.try_ (IM.cache _)) _ s2).1
  unfold IM.bind IM.try_ IM.cache
  dsimp only
  have h3 : ISafe c secs N { s2 with sc := (msecLookup s2.sc (s.maps.headD (.ok ())) (s.maps.tail.headD (.ok ())) s2.ip).1 } :=
    ⟨h2.q, hL.1, h2.maps, h2.ret, h2.pend, h2.tick, h2.known⟩
  rcases hr : (msecLookup s2.sc (s.maps.headD (.ok ())) (s.maps.tail.headD (.ok ())) s2.ip).2 with m | e | _
  · exact sure_cached hc (fun m' hm => by cases hm; exact hL.2.2 m hr) (by simp) _ h3
  · dsimp only
    split
    · exact sure_fail _ h3
    · exact sure_cached hc (fun m' hm => by cases hm) (by simp) _ h3
  · exact absurd hr hL.2.1

macro_rules | `(tactic| sure1) => `(tactic| with_reducible exact sure_fetchInsn ‹CfgSafe _ _›)

theorem sure_insnNext (hc : CfgSafe c secs) : Sure c secs N (insnNext c) := by
  unfold insnNext; sure

theorem sure_processPaging {v : Nat} : Sure c secs N (processPaging v) := by
  intro s h
  have h1 := (sure_mapped (N := N) s h).2
  unfold processPaging
  show (IM.bind IM.mapped _ s).2 ≠ .ub ∧ ISafe c secs N (IM.bind IM.mapped _ s).1
  unfold IM.bind
  exact sure_cache (fun sc hsc => setCr3_safe sc _ v (headD_safe h.maps) hsc) _ h1
macro_rules | `(tactic| sure1) => `(tactic| with_reducible exact sure_processPaging)

theorem sure_processVmcs {ev : Event} {v : Nat} : Sure c secs N (processVmcs ev v) := by
  intro s h
  have h1 := (sure_mapped (N := N) s h).2
  unfold processVmcs
  show (IM.bind IM.mapped _ s).2 ≠ .ub ∧ ISafe c secs N (IM.bind IM.mapped _ s).1
  unfold IM.bind
  refine (sure_bind (sure_cache (fun sc hsc => setVmcs_safe sc _ v (headD_safe h.maps) hsc)) fun _ => ?_) _ h1
  refine sure_when (sure_modify fun s h => ⟨h.q, h.img, h.maps, h.ret, h.pend, h.tick, h.known⟩)
macro_rules | `(tactic| sure1) => `(tactic| with_reducible exact sure_processVmcs)

theorem sure_anchor : Sure c secs N (IM.modify anchor) := sure_modify fun _ h =>
  ⟨h.q, h.img, h.maps, h.ret, h.pend, h.tick, h.known⟩
macro_rules | `(tactic| sure1) => `(tactic| with_reducible exact sure_anchor)

/-- There is an event. -/
theorem ISafe.some {s' : Idec} (h : ISafe c secs True s) (h1 : s'.q = s.q) (h2 : s'.sc = s.sc) (h3 : s'.maps = s.maps)
    (h4 : s'.retstack = s.retstack) (h5 : s'.event = s.event) : ISafe c secs True s' := by
  have := h.known trivial
  exact ⟨by rw [h1]; exact h.q, by rw [h2]; exact h.img, by rw [h3]; exact h.maps, by rw [h4]; exact h.ret,
    fun _ => by rw [h5]; exact this, fun _ _ => .inl (by rw [h5]; exact this), fun _ => by rw [h5]; exact this⟩
macro_rules | `(tactic| sure1) => `(tactic| (with_reducible refine sure_modify fun _ h => ?_); exact h.some rfl rfl rfl rfl rfl)

theorem sure_processEvent {ev : Event} : Sure c secs True (processEvent ev) := by
  unfold processEvent processEnabled processDisabled processAsyncBranch processExecMode processTsx processStop
    mustBeAt
  have ho : ∀ ip, Sure c secs True (processOverflow ev ip) := by
    intro ip
    unfold processOverflow
    split
    · sure
    · refine sure_bind (sure_modify fun s h => ?_) fun _ => (by sure)
      split
      · exact h.some rfl rfl rfl rfl rfl
      · exact h.some rfl rfl rfl rfl rfl
  sure
  all_goals exact ho _

macro_rules | `(tactic| sure1) => `(tactic| with_reducible exact sure_processEvent)

theorem ISafe.weaken (h : ISafe c secs True s) : ISafe c secs N s :=
  ⟨h.q, h.img, h.maps, h.ret, h.pend, h.tick, fun _ => h.known trivial⟩

theorem Sure.weaken {p : IM α} (hp : Sure c secs True p) (h : ISafe c secs N s) (he : s.event.isSome = true) :
    (p s).2 ≠ .ub ∧ ISafe c secs N (p s).1 := by
  have := hp s ⟨h.q, h.img, h.maps, h.ret, h.pend, h.tick, fun _ => he⟩
  exact ⟨this.1, this.2.weaken⟩

theorem sure_insnEvent (hc : CfgSafe c secs) : Sure c secs N (insnEvent c) := by
  unfold insnEvent
  refine sure_getAt fun s h => ?_
  split
  · exact sure_fail.at h
  · rename_i hp
    have he := h.pend (by simpa using hp)
    split
    · rename_i hn
      rw [hn] at he
      cases he
    · refine Sure.weaken ?_ h he
      sure

/-! ### Synchronization -/

/-- After synchronization, there is no branch before the first event. -/
theorem synced_blocked {e : EvtCfg} (hu : Usable e) {d : Evd} {q : Qdec} (h : QInv e d q [] []) (hs : Synced e d) :
    Blocked e q := by
  refine ⟨d, [], h, fun x hx => ?_⟩
  rcases h.cases with ⟨y, hy⟩ | ⟨y, hy⟩
  · have : y = x := by have := hy.2.1; rw [hx] at this; cases this; rfl
    subst this
    have h1 := hy.2.2
    rw [show evtFinal e (nexts ([] : List Event).length) d = d from rfl] at h1
    have := (EM.wlp_ok (evtNext_inv hu.time hs.inv hs.1) h1).1
    cases hb : Spec.isBranch y with
    | false => rfl
    | true => exact absurd (this hb) (by simp)
  · have := hy.2.1; rw [hx] at this; cases this

theorem sure_insnReset : Sure c secs N (IM.modify insnReset) := sure_modify fun s h =>
  ⟨h.q, h.img, h.maps,
    (by obtain ⟨l, hl⟩ := h.ret; exact ⟨[], hl.size, (by show 0 < 65; omega), (by show 0 = (0 + 65 - 0) % 65; rfl), by simp, by simp⟩),
    fun h => (by cases h), fun _ h => (by cases h), h.known⟩

theorem sure_insnStart (hc : CfgSafe c secs) {f : Flags} (h : ISafe c secs N s) (hb : Blocked c.evt s.q) :
    SureAt c secs N (insnStart c f) s := by
  unfold insnStart
  show SureAt c secs N (checkIpEvent c none) { s with status := f, enabled := s.enabled || !f.ipSuppressed }
  exact (sure_checkIpEvent hc).at ⟨h.q, h.img, h.maps, h.ret, h.pend, fun _ _ => .inr hb, h.known⟩

theorem sure_sync (hc : CfgSafe c secs) (o : SyncCall) (hb : o = .backward → IsolatedPsbs c.evt.pkt.mem) :
    Sure c secs N (o.insn c) := by
  have key : ∀ (s : Idec), ISafe c secs N s → s.enabled = false →
      SureAt c secs N (do
        let (f, ip) ← IM.query (o.run c.evt)
        IM.modify fun s => { s with ip := ip.getD s.ip }
        insnStart c f) s := by
    intro s h he
    show ((IM.bind (IM.query (o.run c.evt)) _) s).2 ≠ .ub ∧ ISafe c secs N ((IM.bind (IM.query (o.run c.evt)) _) s).1
    have ht := sync_total hc.use o hb s.q
    unfold IM.bind IM.query
    rcases hr : o.run c.evt s.q with ⟨q, ⟨f, ip⟩ | e | _⟩ <;> rw [hr] at ht
    · dsimp only
      obtain ⟨d, hd, hs⟩ := ht
      have hbl := synced_blocked hc.use hd hs
      have hs : ISafe c secs N { s with q := q, ip := ip.getD s.ip } :=
        ⟨.inr ⟨d, _, _, hd⟩, h.img, h.maps, h.ret, h.pend, fun _ _ => .inr hbl, h.known⟩
      exact sure_insnStart hc hs hbl
    · exact ⟨fun h => (by cases h), ⟨.inl ht, h.img, h.maps, h.ret, h.pend, (fun _ h => by rw [he] at h; cases h), h.known⟩⟩
    · exact ht.elim
  have : ∀ s, ISafe c secs N s → SureAt c secs N (do
        IM.modify insnReset
        let (f, ip) ← IM.query (o.run c.evt)
        IM.modify fun s => { s with ip := ip.getD s.ip }
        insnStart c f) s := fun s h => key (insnReset s) (sure_insnReset s h).2 rfl
  cases o with
  | forward => exact this
  | backward => exact this
  | set off => exact this

/-- One call. -/
theorem insn_step (hc : CfgSafe c secs) (o : InsnCall)
    (hb : o = .sync .backward → IsolatedPsbs c.evt.pkt.mem)
    (hi : ∀ img, o = .image img → ∀ m ∈ img.secs, secs m) (h : ISafe c secs False s) :
    (o.run c s).2 ≠ .ub ∧ ISafe c secs False (o.run c s).1 := by
  have drop : ∀ {α : Type} {r : Idec × Res α}, r.2 ≠ .ub ∧ ISafe c secs False r.1 →
      (InsnCall.run.drop r).2 ≠ .ub ∧ ISafe c secs False (InsnCall.run.drop r).1 := by
    intro α r hr
    refine ⟨?_, hr.2⟩
    unfold InsnCall.run.drop
    rcases r with ⟨s, _ | _ | _⟩
    · exact fun h => (by cases h)
    · exact fun h => (by cases h)
    · exact absurd rfl hr.1
  cases o with
  | next => exact drop (sure_insnNext hc s h)
  | event => exact drop (sure_insnEvent hc s h)
  | sync o => exact drop (sure_sync hc o (fun ho => hb (by rw [ho])) s h)
  | image img =>
    exact ⟨fun h => (by cases h), ⟨h.q, hi img rfl, h.maps, h.ret, h.pend, h.tick, h.known⟩⟩

end Ipt
