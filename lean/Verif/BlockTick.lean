import Verif.BlockDecoder
import Verif.EventDecoderTick
import Verif.Spec.Block

/-!
# Tick events of block decoders

An invariant of all functions of the block decoder: if the current event is a tick event, then tick events are enabled and the
time of the event is not the decoder's time.
-/

namespace Ipt

open Ild

/-- If the current event is a tick event, then it was asked for and tells a new time. -/
def BTick (c : BlkCfg) (s : Bdec) : Prop :=
  ∀ e x, s.event = some e → e.data = .tick x → c.tick = true ∧ e.tsc ≠ s.tsc

/-- A function keeps the invariant, if it is defined. -/
def Tk {α : Type} (c : BlkCfg) (p : BM α) : Prop := ∀ s, BTick c s → (p s).2 ≠ .ub → BTick c (p s).1

namespace BTick

variable {c : BlkCfg} {s : Bdec} {α β : Type}

theorem tk_pure {a : α} : Tk c (pure a) := fun _ h _ => h
theorem tk_fail {e : Err} : Tk c (BM.fail (α := α) e) := fun _ h _ => h
theorem tk_undef : Tk c (BM.undef (α := α)) := fun _ h _ => h
theorem tk_get : Tk c BM.get := fun _ h _ => h
theorem tk_lift {r : Res α} : Tk c (BM.lift r) := fun _ h _ => h
theorem tk_modify {f : Bdec → Bdec} (hf : ∀ s, BTick c s → BTick c (f s)) : Tk c (BM.modify f) := fun s h _ => hf s h
theorem tk_block {f : Block → Block} : Tk c (BM.block f) := fun _ h _ => h
theorem tk_evt {f : EM α} : Tk c (BM.evt f) := fun _ h _ => h
theorem tk_image {f : Img × List (Res Unit) → (Img × List (Res Unit)) × Res α} : Tk c (BM.image f) := fun _ h _ => h
theorem tk_mapped : Tk c BM.mapped := fun _ h _ => h
theorem tk_request : Tk c BM.request := fun _ h _ => h
theorem tk_available : Tk c BM.available := fun _ h _ => h
theorem tk_cache {f : ScSt → ScSt × Res α} : Tk c (BM.cache f) := fun _ h _ => h

theorem get_bind {f : Bdec → BM β} : (BM.get >>= f) s = f s s := rfl
theorem modify_bind {g : Bdec → Bdec} {f : Unit → BM β} : (BM.modify g >>= f) s = f () (g s) := rfl

theorem bind_ok {p : BM α} {q : α → BM β} {s' : Bdec} {b : β} (h : (p >>= q) s = (s', .ok b)) :
    ∃ s1 a, p s = (s1, .ok a) ∧ q a s1 = (s', .ok b) := by
  have h : BM.bind p q s = (s', .ok b) := h
  unfold BM.bind at h
  rcases hp : p s with ⟨s1, a | e | _⟩ <;> rw [hp] at h
  · exact ⟨s1, a, rfl, h⟩
  · cases h
  · cases h

theorem tk_bind {p : BM α} {q : α → BM β} (h1 : Tk c p) (h2 : ∀ a, Tk c (q a)) : Tk c (p >>= q) := by
  intro s h
  show (BM.bind p q s).2 ≠ .ub → BTick c (BM.bind p q s).1
  unfold BM.bind
  have := h1 s h
  rcases hp : p s with ⟨s', a | e | _⟩ <;> rw [hp] at this
  · exact h2 a s' (this (by intro h; cases h))
  · exact fun _ => this (by intro h; cases h)
  · exact fun h => absurd rfl h

theorem tk_try {p : BM α} (h1 : Tk c p) : Tk c (BM.try_ p) := by
  intro s h
  unfold BM.try_
  have := h1 s h
  rcases hp : p s with ⟨s', a | e | _⟩ <;> rw [hp] at this
  · exact fun _ => this (by intro h; cases h)
  · exact fun _ => this (by intro h; cases h)
  · exact fun h => absurd rfl h

theorem tk_orQuery {p q : BM α} (h1 : Tk c p) (h2 : Tk c q) : Tk c (BM.orQuery p q) := by
  intro s h
  unfold BM.orQuery
  have := h1 s h
  rcases hp : p s with ⟨s', a | e | _⟩ <;> rw [hp] at this
  · exact fun _ => this (by intro h; cases h)
  · have := this (by intro h; cases h)
    cases e <;> first | exact h2 s' this | exact fun _ => this
  · exact fun h => absurd rfl h

theorem tk_when {b : Bool} {p : BM Unit} (h1 : Tk c p) : Tk c (BM.when b p) := by
  unfold BM.when
  split
  · exact h1
  · exact tk_pure

/-- One step of `tk`. -/
syntax "tk1" : tactic
macro_rules | `(tactic| tk1) => `(tactic| split)
macro_rules | `(tactic| tk1) => `(tactic| dsimp only)
macro_rules | `(tactic| tk1) => `(tactic| with_reducible refine tk_bind ?_ fun _ => ?_)
macro_rules | `(tactic| tk1) => `(tactic| with_reducible refine tk_try ?_)
macro_rules | `(tactic| tk1) => `(tactic| with_reducible refine tk_orQuery ?_ ?_)
macro_rules | `(tactic| tk1) => `(tactic| with_reducible refine tk_when ?_)
macro_rules | `(tactic| tk1) => `(tactic| with_reducible exact tk_pure)
macro_rules | `(tactic| tk1) => `(tactic| with_reducible exact tk_fail)
macro_rules | `(tactic| tk1) => `(tactic| with_reducible exact tk_undef)
macro_rules | `(tactic| tk1) => `(tactic| with_reducible exact tk_get)
macro_rules | `(tactic| tk1) => `(tactic| with_reducible exact tk_lift)
macro_rules | `(tactic| tk1) => `(tactic| with_reducible exact tk_block)
macro_rules | `(tactic| tk1) => `(tactic| with_reducible exact tk_evt)
macro_rules | `(tactic| tk1) => `(tactic| with_reducible exact tk_image)
macro_rules | `(tactic| tk1) => `(tactic| with_reducible exact tk_mapped)
macro_rules | `(tactic| tk1) => `(tactic| with_reducible exact tk_request)
macro_rules | `(tactic| tk1) => `(tactic| with_reducible exact tk_available)
macro_rules | `(tactic| tk1) => `(tactic| with_reducible exact tk_cache)
macro_rules | `(tactic| tk1) => `(tactic| (with_reducible refine tk_modify fun s h => ?_); exact h)
macro_rules | `(tactic| tk1) => `(tactic| (with_reducible refine tk_modify fun s h => ?_); (intro e x he hx; cases he; cases hx))
macro_rules | `(tactic| tk1) => `(tactic| with_reducible assumption)

/-- All steps. -/
macro "tk" : tactic => `(tactic| repeat' tk1)

theorem tk_decodeAt {ip : Nat} {mode : Mode} : Tk c (decodeAt c ip mode) := by unfold decodeAt; tk
macro_rules | `(tactic| tk1) => `(tactic| with_reducible exact tk_decodeAt)

theorem tk_findTrigAnchor {ev : Event} : Tk c (findTrigAnchor ev) := by
  have h1 : Tk c (BM.modify setTrigAnchor) := fun _ h _ => h
  have h2 : Tk c (BM.modify clearTrigAnchor) := fun _ h _ => h
  have h3 : Tk c (BM.modify (if ev.ipSuppressed = true then clearTrigAnchor else setTrigAnchor)) := by
    split
    · exact h2
    · exact h1
  unfold findTrigAnchor
  tk
macro_rules | `(tactic| tk1) => `(tactic| with_reducible exact tk_findTrigAnchor)

/-- Anchors of TRIG events do not concern the event and the time, and there is always one for tick events. -/
theorem findTrigAnchor_same (ev : Event) (s : Bdec) :
    (findTrigAnchor ev s).1.event = s.event ∧ ((∃ x, ev.data = .tick x) → (findTrigAnchor ev s).2 = .ok ()) := by
  constructor
  · unfold findTrigAnchor
    cases ev.data <;> dsimp only <;> first | rfl | (split <;> rfl) | (cases ev.ipSuppressed <;> rfl)
  · rintro ⟨x, hx⟩
    unfold findTrigAnchor
    simp only [hx]
    split <;> rfl

theorem tk_fetchEvent : Tk c (fetchEvent c) := by
  intro s h
  unfold fetchEvent
  rw [get_bind]
  rcases he : s.event with _ | ev <;> dsimp only
  · exact fun _ => h
  rw [modify_bind]
  have h2 := findTrigAnchor_same ev
    { s with tsc := ev.tsc, hasTsc := ev.hasTsc, lostMtc := ev.lostMtc, lostCyc := ev.lostCyc }
  show (BM.bind _ _ _).2 ≠ .ub → BTick c (BM.bind _ _ _).1
  unfold BM.bind
  rcases hp : findTrigAnchor ev
    { s with tsc := ev.tsc, hasTsc := ev.hasTsc, lostMtc := ev.lostMtc, lostCyc := ev.lostCyc } with ⟨t, a | e | _⟩
  · dsimp only
    show (BM.bind _ _ _).2 ≠ .ub → BTick c (BM.bind _ _ _).1
    unfold BM.bind BM.try_ BM.evt
    dsimp only
    rcases hn : evtNext c.evt t.ev with ⟨d, e | e | _⟩ <;> dsimp only
    · intro _ e' x h3 h4
      cases h3
      exact absurd h4 (evtNext_tick hn x)
    · intro _ e' x h3 h4
      cases h3
    · exact fun h => absurd rfl h
  · rw [hp] at h2
    intro _ e' x h3 h4
    dsimp only at h2 h3
    rw [h2.1, he] at h3
    cases h3
    cases h2.2 ⟨x, h4⟩
  · exact fun h => absurd rfl h

theorem tk_blkTick {ip : Nat} : Tk c (blkTick c ip) := by
  intro s h
  unfold blkTick
  rw [get_bind]
  rcases he : s.event with _ | ev <;> dsimp only
  · exact tk_fetchEvent s h
  · split
    · rename_i ht
      intro _ e x h1 h2
      cases h1
      exact ht
    · exact tk_fetchEvent s h
macro_rules | `(tactic| tk1) => `(tactic| with_reducible exact tk_fetchEvent)
macro_rules | `(tactic| tk1) => `(tactic| with_reducible exact tk_blkTick)

theorem tk_proceedIndirect : Tk c (proceedIndirect c) := by unfold proceedIndirect; tk
macro_rules | `(tactic| tk1) => `(tactic| with_reducible exact tk_proceedIndirect)
theorem tk_blkCond : Tk c blkCond := by unfold blkCond; tk
macro_rules | `(tactic| tk1) => `(tactic| with_reducible exact tk_blkCond)
theorem tk_blkPush {ip : Nat} : Tk c (blkPush ip) := fun _ h _ => h
macro_rules | `(tactic| tk1) => `(tactic| with_reducible exact tk_blkPush)
theorem tk_blkPop : Tk c blkPop := by
  unfold blkPop
  refine tk_bind (fun _ h _ => h) fun _ => ?_
  tk
macro_rules | `(tactic| tk1) => `(tactic| with_reducible exact tk_blkPop)
theorem tk_compressedReturn {p : BM Unit} (h : Tk c p) : Tk c (compressedReturn p) := by unfold compressedReturn; tk
macro_rules | `(tactic| tk1) => `(tactic| with_reducible refine tk_compressedReturn ?_)
theorem tk_proceedWithTrace {i : Insn} : Tk c (proceedWithTrace c i) := by unfold proceedWithTrace; tk
macro_rules | `(tactic| tk1) => `(tactic| with_reducible exact tk_proceedWithTrace)
theorem tk_proceedOut : Tk c (proceedOut c) := by unfold proceedOut; tk
macro_rules | `(tactic| tk1) => `(tactic| with_reducible exact tk_proceedOut)
theorem tk_logCall {i : Insn} : Tk c (logCall i) := by unfold logCall; tk
macro_rules | `(tactic| tk1) => `(tactic| with_reducible exact tk_logCall)
theorem tk_countInsn {n : Nat} : Tk c (countInsn n) := by unfold countInsn; tk
macro_rules | `(tactic| tk1) => `(tactic| with_reducible exact tk_countInsn)
theorem tk_addInsn {i : Insn} : Tk c (addInsn i) := by unfold addInsn; tk
macro_rules | `(tactic| tk1) => `(tactic| with_reducible exact tk_addInsn)
theorem tk_oneInsn : Tk c (oneInsn c) := by unfold oneInsn; tk
macro_rules | `(tactic| tk1) => `(tactic| with_reducible exact tk_oneInsn)
theorem tk_nextInsn {i : Insn} : Tk c (nextInsn i) := by unfold nextInsn; tk
macro_rules | `(tactic| tk1) => `(tactic| with_reducible exact tk_nextInsn)
theorem tk_insn : Tk c BM.insn := by unfold BM.insn; tk
macro_rules | `(tactic| tk1) => `(tactic| with_reducible exact tk_insn)
theorem tk_toInsnLoop {p : Iext → Bool} : ∀ n, Tk c (toInsnLoop c p n)
  | 0 => tk_undef
  | n + 1 => by have := tk_toInsnLoop (p := p) n; unfold toInsnLoop; tk
theorem tk_toInsn {p : Iext → Bool} : Tk c (toInsn c p) := tk_toInsnLoop _
macro_rules | `(tactic| tk1) => `(tactic| with_reducible exact tk_toInsn)
theorem tk_toIpLoop {ip : Nat} : ∀ n, Tk c (toIpLoop c ip n)
  | 0 => tk_undef
  | n + 1 => by have := tk_toIpLoop (ip := ip) n; unfold toIpLoop; tk
theorem tk_toIp {ip : Nat} : Tk c (toIp c ip) := tk_toIpLoop _
macro_rules | `(tactic| tk1) => `(tactic| with_reducible exact tk_toIp)
theorem tk_skl014Loop : ∀ n, Tk c (skl014Loop c n)
  | 0 => tk_undef
  | n + 1 => by have := tk_skl014Loop n; unfold skl014Loop; tk
macro_rules | `(tactic| tk1) => `(tactic| with_reducible exact tk_skl014Loop _)
theorem tk_toDisabled {ev : Event} {ip : Nat} : Tk c (toDisabled c ev ip) := by unfold toDisabled; tk
macro_rules | `(tactic| tk1) => `(tactic| with_reducible exact tk_toDisabled)
theorem tk_setDisableResumeIp {i : Insn} : Tk c (BM.modify (setDisableResumeIp i)) := by
  intro s h _
  show BTick c (setDisableResumeIp i s)
  unfold setDisableResumeIp
  split <;> exact h
macro_rules | `(tactic| tk1) => `(tactic| with_reducible exact tk_setDisableResumeIp)
theorem tk_toKind {ev : Event} {p : Iext → Bool} {ip : Nat} : Tk c (toKind c ev p ip) := by unfold toKind; tk
macro_rules | `(tactic| tk1) => `(tactic| with_reducible exact tk_toKind)
theorem tk_provideTrigAnchor {ev : Event} {a b d : Nat} {m : Bool} : Tk c (provideTrigAnchor ev a b m d) := by
  unfold provideTrigAnchor; tk
macro_rules | `(tactic| tk1) => `(tactic| with_reducible exact tk_provideTrigAnchor)
theorem tk_trigLoop {ev : Event} {a : Nat} {m : Bool} : ∀ n, Tk c (trigLoop c ev a m n)
  | 0 => tk_pure
  | n + 1 => by have := tk_trigLoop (ev := ev) (a := a) (m := m) n; unfold trigLoop; tk
macro_rules | `(tactic| tk1) => `(tactic| with_reducible exact tk_trigLoop _)
theorem tk_toTrig {ev : Event} {a b d : Nat} {m : Bool} : Tk c (toTrig c ev a b m d) := by unfold toTrig; tk
macro_rules | `(tactic| tk1) => `(tactic| with_reducible exact tk_toTrig)
theorem tk_blkSkd022 {a : Nat} : Tk c (blkSkd022 c a) := by unfold blkSkd022; tk
macro_rules | `(tactic| tk1) => `(tactic| with_reducible exact tk_blkSkd022)
theorem tk_blkStatus {b : Bool} : Tk c (blkStatus b) := by unfold blkStatus; tk
macro_rules | `(tactic| tk1) => `(tactic| with_reducible exact tk_blkStatus)
theorem tk_postponeInsn : Tk c postponeInsn := by unfold postponeInsn; tk
macro_rules | `(tactic| tk1) => `(tactic| with_reducible exact tk_postponeInsn)
theorem tk_clearPostponedInsn : Tk c (BM.modify clearPostponedInsn) := fun _ h _ => h
macro_rules | `(tactic| tk1) => `(tactic| with_reducible exact tk_clearPostponedInsn)
theorem tk_proceedPostponedInsn : Tk c (proceedPostponedInsn c) := by unfold proceedPostponedInsn; tk
macro_rules | `(tactic| tk1) => `(tactic| with_reducible exact tk_proceedPostponedInsn)
theorem tk_reachIp {ip : Nat} : Tk c (reachIp c ip) := by unfold reachIp; tk
macro_rules | `(tactic| tk1) => `(tactic| with_reducible exact tk_reachIp)
theorem tk_reachInsn {p : BM Bool} {f : Bdec → Bdec} (h1 : Tk c p) (h2 : Tk c (BM.modify f)) : Tk c (reachInsn p f) := by
  unfold reachInsn; tk
macro_rules | `(tactic| tk1) => `(tactic| with_reducible refine tk_reachInsn ?_ ?_)
theorem tk_reachDisabled {ev : Event} {ip : Nat} : Tk c (reachDisabled c ev ip) := by unfold reachDisabled; tk
macro_rules | `(tactic| tk1) => `(tactic| with_reducible exact tk_reachDisabled)
theorem tk_proceedEvent : Tk c (proceedEvent c) := by unfold proceedEvent; tk
macro_rules | `(tactic| tk1) => `(tactic| with_reducible exact tk_proceedEvent)
theorem tk_noEventUncached : Tk c (noEventUncached c) := by unfold noEventUncached; tk
macro_rules | `(tactic| tk1) => `(tactic| with_reducible exact tk_noEventUncached)
theorem tk_bcAdd {m : Msec} {i : Nat} {e : Bce} : Tk c (bcAdd c m i e) := fun _ h _ => h
macro_rules | `(tactic| tk1) => `(tactic| with_reducible exact tk_bcAdd)
theorem tk_bcLookup {m : Msec} {i : Nat} : Tk c (bcLookup c m i) := fun _ h _ => h
macro_rules | `(tactic| tk1) => `(tactic| with_reducible exact tk_bcLookup)
theorem tk_extendEntry {m : Msec} {i : Insn} {n : Nat} {e : Bce} : Tk c (extendEntry c m i n e) := by unfold extendEntry; tk
macro_rules | `(tactic| tk1) => `(tactic| with_reducible exact tk_extendEntry)
theorem tk_fillCache {m : Msec} : ∀ n, Tk c (fillCache c m n)
  | 0 => tk_fail
  | n + 1 => by have := tk_fillCache (m := m) n; unfold fillCache; tk
macro_rules | `(tactic| tk1) => `(tactic| with_reducible exact tk_fillCache _)
theorem tk_proceedTruncated : Tk c (proceedTruncated c) := by unfold proceedTruncated; tk
macro_rules | `(tactic| tk1) => `(tactic| with_reducible exact tk_proceedTruncated)
theorem tk_condCached {m : Msec} {e : Bce} : Tk c (condCached c m e) := by unfold condCached; tk
macro_rules | `(tactic| tk1) => `(tactic| with_reducible exact tk_condCached)
theorem tk_indCallCached {m : Msec} {e : Bce} : Tk c (indCallCached c m e) := by unfold indCallCached; tk
macro_rules | `(tactic| tk1) => `(tactic| with_reducible exact tk_indCallCached)
theorem tk_decodeCached {m : Msec} {a : Mode} {p : BM Unit} (h : Tk c p) : Tk c (decodeCached c m a p) := by
  unfold decodeCached; tk
macro_rules | `(tactic| tk1) => `(tactic| with_reducible refine tk_decodeCached ?_)
theorem tk_noEventCached {m : Msec} : ∀ n, Tk c (noEventCached c m n)
  | 0 => tk_undef
  | n + 1 => by have := tk_noEventCached (m := m) n; unfold noEventCached; tk
macro_rules | `(tactic| tk1) => `(tactic| with_reducible exact tk_noEventCached _)
theorem tk_blkLookup : Tk c blkLookup := by unfold blkLookup; tk
macro_rules | `(tactic| tk1) => `(tactic| with_reducible exact tk_blkLookup)
theorem tk_noEvent : Tk c (noEvent c) := by unfold noEvent; tk
macro_rules | `(tactic| tk1) => `(tactic| with_reducible exact tk_noEvent)
theorem tk_blkBdm64 {a : Bool} {b : Nat} : Tk c (blkBdm64 c a b) := by unfold blkBdm64; tk
macro_rules | `(tactic| tk1) => `(tactic| with_reducible exact tk_blkBdm64)
theorem tk_postponeTrailingTsx {a b : Bool} {e : Event} {d : Nat} : Tk c (postponeTrailingTsx c a e b d) := by
  unfold postponeTrailingTsx; tk
macro_rules | `(tactic| tk1) => `(tactic| with_reducible exact tk_postponeTrailingTsx)
theorem tk_noTrailing : Tk c (noTrailing c) := by unfold noTrailing; tk
macro_rules | `(tactic| tk1) => `(tactic| with_reducible exact tk_noTrailing)
theorem tk_trailingAt {p : Bdec → Bool} : Tk c (trailingAt c p) := by unfold trailingAt; tk
macro_rules | `(tactic| tk1) => `(tactic| with_reducible exact tk_trailingAt)
theorem tk_trailingBind {b : Bdec → Bool} {p : Iext → Bool} {f : Bdec → Bdec} (h : Tk c (BM.modify f)) :
    Tk c (trailingBind c b p f) := by unfold trailingBind; tk
macro_rules | `(tactic| tk1) => `(tactic| with_reducible refine tk_trailingBind ?_)
theorem tk_trailingDisabled {e : Event} {a : Nat} : Tk c (trailingDisabled c e a) := by unfold trailingDisabled; tk
macro_rules | `(tactic| tk1) => `(tactic| with_reducible exact tk_trailingDisabled)
theorem tk_trailingAsyncDisabled {e : Event} {a b : Nat} : Tk c (trailingAsyncDisabled c e a b) := by
  unfold trailingAsyncDisabled; tk
macro_rules | `(tactic| tk1) => `(tactic| with_reducible exact tk_trailingAsyncDisabled)
theorem tk_trailingTrig {ev : Event} {a b d : Nat} {m : Bool} : Tk c (trailingTrig c ev a b m d) := by
  unfold trailingTrig; tk
macro_rules | `(tactic| tk1) => `(tactic| with_reducible exact tk_trailingTrig)
theorem tk_trailingEvent {b : Bool} : ∀ n, Tk c (trailingEvent c b n)
  | 0 => tk_undef
  | n + 1 => by have := tk_trailingEvent (b := b) n; unfold trailingEvent; tk
macro_rules | `(tactic| tk1) => `(tactic| with_reducible exact tk_trailingEvent _)
theorem tk_blkProceed : Tk c (blkProceed c) := by unfold blkProceed; tk
macro_rules | `(tactic| tk1) => `(tactic| with_reducible exact tk_blkProceed)
theorem tk_blkNext : Tk c (blkNext c) := by
  have : Tk c (BM.modify newBlock) := fun _ h _ => h
  unfold blkNext; tk

/-- After a reset there is no event. -/
theorem tk_blkReset : Tk c (BM.modify blkReset) := by
  intro s _ _ e x h
  cases h
macro_rules | `(tactic| tk1) => `(tactic| with_reducible exact tk_blkReset)

theorem tk_blkStart : Tk c (blkStart c) := by
  unfold blkStart
  refine tk_bind tk_get fun s => tk_bind tk_lift fun ip => tk_bind ?_ fun _ => ?_
  · refine tk_modify fun s h => ?_
    cases ip <;> exact h
  intro s h
  show (BM.bind _ _ _).2 ≠ .ub → BTick c (BM.bind _ _ _).1
  unfold BM.bind BM.try_ BM.evt
  dsimp only
  rcases hn : evtNext c.evt s.ev with ⟨d, e | e | _⟩ <;> dsimp only
  · rw [modify_bind]
    refine tk_trailingEvent _ _ ?_
    intro e' x h3 h4
    cases h3
    exact absurd h4 (evtNext_tick hn x)
  · rw [modify_bind]
    exact tk_trailingEvent _ _ h
  · exact fun h => absurd rfl h
macro_rules | `(tactic| tk1) => `(tactic| with_reducible exact tk_blkStart)
theorem tk_blkSyncForward : Tk c (blkSyncForward c) := by unfold blkSyncForward; tk
theorem tk_blkSyncBackInner {a : Nat} : ∀ n, Tk c (blkSyncBackInner c a n)
  | 0 => tk_undef
  | n + 1 => by have := tk_blkSyncBackInner (a := a) n; unfold blkSyncBackInner; tk
macro_rules | `(tactic| tk1) => `(tactic| with_reducible exact tk_blkSyncBackInner _)
theorem tk_blkSyncBackLoop {a : Nat} : ∀ n b, Tk c (blkSyncBackLoop c a n b)
  | 0, _ => tk_undef
  | n + 1, b => by have := tk_blkSyncBackLoop (a := a) n; unfold blkSyncBackLoop; tk; all_goals exact this _
theorem tk_blkSyncBackward : Tk c (blkSyncBackward c) := by
  unfold blkSyncBackward
  exact tk_bind tk_get fun _ => tk_blkSyncBackLoop _ _
theorem tk_blkSyncSet {a : Nat} : Tk c (blkSyncSet c a) := by unfold blkSyncSet; tk

theorem tk_unlessAt {b : Bool} {p : BM Unit} (h : Tk c p) : Tk c (unlessAt b p) := by unfold unlessAt; tk
macro_rules | `(tactic| tk1) => `(tactic| with_reducible refine tk_unlessAt ?_)
theorem tk_blkProcessEvent {ev : Event} : Tk c (blkProcessEvent ev) := by
  unfold blkProcessEvent
  unfold blkProcessEnabled blkProcessDisabled blkProcessAsyncBranch blkProcessPaging blkProcessVmcs blkProcessOverflow
    blkProcessExecMode blkProcessStop
  tk
  all_goals (refine tk_modify fun s h => ?_; split <;> exact h)
macro_rules | `(tactic| tk1) => `(tactic| with_reducible exact tk_blkProcessEvent)

theorem tk_blkEvent : Tk c (blkEvent c) := by
  intro s h
  unfold blkEvent
  rw [get_bind]
  rcases hs : s.status with _ | e
  rotate_left
  · exact fun _ => h
  dsimp only
  rcases he : s.event with _ | ev
  · exact fun _ => h
  dsimp only
  have other : Tk c (do
        blkProcessEvent ev
        fetchEvent c
        let f ← trailingEvent c false c.evt.fuel
        pure (⟨ev, blkResumed s ev, f⟩ : EventOut)) := by tk
  rcases hd : ev.data
  case tnt bits size =>
    dsimp only
    unfold blkTickEvent
    rw [get_bind]
    split
    · exact fun _ => h
    split
    · exact fun _ => h
    rw [modify_bind]
    refine (?_ : Tk c _) _ ?_
    · tk
    · intro e x h3 h4
      dsimp only at h3
      rw [he] at h3
      cases h3
      rw [hd] at h4
      cases h4
  all_goals exact other s h

/-- The invariant holds after every call. -/
theorem blk_run_tick (o : Spec.BlkCall) {s' : Bdec} (h : BTick c s) (hr : o.run c s = some s') : BTick c s' := by
  have key : ∀ {α : Type} (p : BM α), Tk c p → Spec.BlkCall.run.after (p s) = some s' → BTick c s' := by
    intro α p hp hr
    unfold Spec.BlkCall.run.after at hr
    have := hp s h
    rcases hr' : (p s).2 with a | e | _ <;> simp only [hr'] at hr this
    · cases hr; exact this (by intro h; cases h)
    · cases hr; exact this (by intro h; cases h)
    · cases hr
  rcases o with _ | _ | (_ | _ | _) | _ | _
  · exact key _ tk_blkNext hr
  · exact key _ tk_blkEvent hr
  · exact key _ tk_blkSyncForward hr
  · exact key _ tk_blkSyncBackward hr
  · exact key _ tk_blkSyncSet hr
  · cases hr; exact h
  · cases hr; exact h

theorem blkRun_tick : ∀ (l : List Spec.BlkCall) (s s' : Bdec), BTick c s → Spec.blkRun c s l = some s' → BTick c s'
  | [], _, _, h, hr => by cases hr; exact h
  | o :: l, s, s', h, hr => by
    unfold Spec.blkRun at hr
    rcases h1 : o.run c s with _ | s1
    · rw [h1] at hr; cases hr
    · rw [h1] at hr
      exact blkRun_tick l s1 s' (blk_run_tick o h h1) hr

end BTick

end Ipt
