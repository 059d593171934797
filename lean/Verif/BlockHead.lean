import Verif.BlockLoop

/-!
# Helper lemmas: the start of a block, and the block caches while nothing is added to them
-/

namespace Ipt

open Ild Spec Props BM

/-- A property of the block and of the block caches. -/
class Sealed (K : Bdec → Prop) : Prop where
  of : ∀ {s s' : Bdec}, s'.blk = s.blk → s'.bc = s.bc → s'.others = s.others → K s → K s'

/-- A property of the block's address and whether it is speculative, and of the block caches. -/
class Blind (K : Bdec → Prop) : Prop where
  of : ∀ {s s' : Bdec}, s'.blk.ip = s.blk.ip → s'.blk.speculative = s.blk.speculative → s'.bc = s.bc → s'.others = s.others →
    K s → K s'

instance (K : Bdec → Prop) [Blind K] : Sealed K where
  of h1 h2 h3 h := Blind.of (congrArg (·.ip) h1) (congrArg (·.speculative) h1) h2 h3 h

/-- A property of the block's address and whether it is speculative. -/
class Blinder (K : Bdec → Prop) : Prop extends Blind K where
  cache : ∀ {s : Bdec} (b l), K s → K { s with bc := b, others := l }

/-- The start of the block. -/
def HeadIs (a : Nat) (b : Bool) (s : Bdec) : Prop := s.blk.ip = a ∧ s.blk.speculative = b

/-- The block caches. -/
def CachesAre (s0 s : Bdec) : Prop := SameCache s0 s

instance (a : Nat) (b : Bool) : Blinder (HeadIs a b) where
  of h1 h2 _ _ h := ⟨h1.trans h.1, h2.trans h.2⟩
  cache _ _ h := h

instance (s0 : Bdec) : Blind (CachesAre s0) where
  of _ _ h3 h4 h := ⟨h3.trans h.1, h4.trans h.2⟩

instance (b : Block) : Sealed (fun s => s.blk = b) where
  of h1 _ _ h := h1.trans h

/-- A function that keeps the property. -/
def HoldsB {α : Type} (K : Bdec → Prop) (p : BM α) : Prop := ∀ s, K s → wp p (fun _ s' => K s') (fun _ s' => K s') s

variable {c : BlkCfg} {K : Bdec → Prop} {α β : Type} {m : Msec}

theorem holds_pure {a : α} : HoldsB K (pure a) := fun _ h => h
theorem holds_fail {e : Err} : HoldsB K (BM.fail (α := α) e) := fun _ h => h
theorem holds_undef : HoldsB K (BM.undef (α := α)) := fun _ _ => trivial
theorem holds_get : HoldsB K BM.get := fun _ h => h
theorem holds_lift {r : Res α} : HoldsB K (BM.lift r) := by
  intro s h
  rw [wp_lift]
  rcases r with a | e | _
  · exact h
  · exact h
  · trivial
theorem holds_bind {p : BM α} {q : α → BM β} (h1 : HoldsB K p) (h2 : ∀ a, HoldsB K (q a)) : HoldsB K (p >>= q) := by
  intro s hs
  rw [wp_bind]
  exact wp_mono (h1 s hs) (fun a s' h => h2 a s' h) fun _ _ h => h
theorem holds_try {p : BM α} (h1 : HoldsB K p) : HoldsB K (BM.try_ p) := by
  intro s hs
  rw [wp_try]
  exact h1 s hs
theorem holds_orQuery {p q : BM α} (h1 : HoldsB K p) (h2 : HoldsB K q) : HoldsB K (BM.orQuery p q) := by
  intro s hs
  rw [wp_orQuery]
  exact wp_mono (h1 s hs) (fun _ _ h => h) fun _ s' h => ⟨fun _ => h2 s' h, fun _ => h⟩
theorem holds_when {b : Bool} {p : BM Unit} (h1 : HoldsB K p) : HoldsB K (BM.when b p) := by
  intro s hs
  rw [wp_when]
  exact ⟨fun _ => h1 s hs, fun _ => hs⟩

theorem holds_fun [Blind K] {p : BM α} (hp : ∀ s, (p s).1.blk.ip = s.blk.ip ∧ (p s).1.blk.speculative = s.blk.speculative ∧
    (p s).1.bc = s.bc ∧ (p s).1.others = s.others) : HoldsB K p := by
  intro s h
  have := hp s
  unfold wp
  rcases hs : p s with ⟨d, _ | _ | _⟩ <;> rw [hs] at this
  · exact Blind.of this.1 this.2.1 this.2.2.1 this.2.2.2 h
  · exact Blind.of this.1 this.2.1 this.2.2.1 this.2.2.2 h
  · trivial

theorem holds_sealed [Sealed K] {p : BM α} (hp : ∀ s, (p s).1.blk = s.blk ∧ (p s).1.bc = s.bc ∧ (p s).1.others = s.others) :
    HoldsB K p := by
  intro s h
  have := hp s
  unfold wp
  rcases hs : p s with ⟨d, _ | _ | _⟩ <;> rw [hs] at this
  · exact Sealed.of this.1 this.2.1 this.2.2 h
  · exact Sealed.of this.1 this.2.1 this.2.2 h
  · trivial

/-- One step of `hold`. -/
syntax "hold1" : tactic
macro_rules | `(tactic| hold1) => `(tactic| split)
macro_rules | `(tactic| hold1) => `(tactic| dsimp only)
macro_rules | `(tactic| hold1) => `(tactic| with_reducible refine holds_bind ?_ fun _ => ?_)
macro_rules | `(tactic| hold1) => `(tactic| with_reducible refine holds_try ?_)
macro_rules | `(tactic| hold1) => `(tactic| with_reducible refine holds_orQuery ?_ ?_)
macro_rules | `(tactic| hold1) => `(tactic| with_reducible refine holds_when ?_)
macro_rules | `(tactic| hold1) => `(tactic| with_reducible exact holds_pure)
macro_rules | `(tactic| hold1) => `(tactic| with_reducible exact holds_fail)
macro_rules | `(tactic| hold1) => `(tactic| with_reducible exact holds_undef)
macro_rules | `(tactic| hold1) => `(tactic| with_reducible exact holds_get)
macro_rules | `(tactic| hold1) => `(tactic| with_reducible exact holds_lift)
macro_rules | `(tactic| hold1) => `(tactic| exact holds_fun fun _ => ⟨rfl, rfl, rfl, rfl⟩)
macro_rules | `(tactic| hold1) => `(tactic| exact holds_sealed fun _ => ⟨rfl, rfl, rfl⟩)
macro_rules | `(tactic| hold1) => `(tactic| assumption)

/-- Prove that a function keeps the property, from what the functions it calls do. -/
macro "hold" : tactic => `(tactic| repeat' hold1)

section
variable [Sealed K]

theorem holds_findTrigAnchor {ev : Event} : HoldsB K (findTrigAnchor ev) := by
  unfold findTrigAnchor setTrigAnchor clearTrigAnchor
  split
  all_goals first
    | exact holds_pure
    | exact holds_sealed fun _ => ⟨rfl, rfl, rfl⟩
    | (split <;> hold; done)
    | (exact holds_sealed fun s => by dsimp only [BM.modify]; split <;> exact ⟨rfl, rfl, rfl⟩)
macro_rules | `(tactic| hold1) => `(tactic| with_reducible exact holds_findTrigAnchor)
theorem holds_fetchEvent : HoldsB K (fetchEvent c) := by unfold fetchEvent; hold
macro_rules | `(tactic| hold1) => `(tactic| with_reducible exact holds_fetchEvent)
theorem holds_blkStatus {b : Bool} : HoldsB K (blkStatus b) := by unfold blkStatus; hold
macro_rules | `(tactic| hold1) => `(tactic| with_reducible exact holds_blkStatus)
theorem holds_blkTick {ip : Nat} : HoldsB K (blkTick c ip) := by unfold blkTick; hold
macro_rules | `(tactic| hold1) => `(tactic| with_reducible exact holds_blkTick)
theorem holds_proceedIndirect : HoldsB K (proceedIndirect c) := by unfold proceedIndirect; hold
macro_rules | `(tactic| hold1) => `(tactic| with_reducible exact holds_proceedIndirect)
theorem holds_blkCond : HoldsB K blkCond := by unfold blkCond; hold
macro_rules | `(tactic| hold1) => `(tactic| with_reducible exact holds_blkCond)
theorem holds_blkPush {x : Nat} : HoldsB K (blkPush x) := by unfold blkPush; hold
macro_rules | `(tactic| hold1) => `(tactic| with_reducible exact holds_blkPush)
theorem holds_blkPop : HoldsB K blkPop := by
  intro s h
  rw [wp_pop]
  rcases s.retstack.pop with ⟨r, a | e | _⟩
  · exact Sealed.of (s := s) rfl rfl rfl h
  · exact Sealed.of (s := s) rfl rfl rfl h
  · trivial
macro_rules | `(tactic| hold1) => `(tactic| with_reducible exact holds_blkPop)
theorem holds_compressedReturn : HoldsB K (compressedReturn (proceedIndirect c)) := by unfold compressedReturn; hold
macro_rules | `(tactic| hold1) => `(tactic| with_reducible exact holds_compressedReturn)
theorem holds_proceedWithTrace {i : Insn} : HoldsB K (proceedWithTrace c i) := by unfold proceedWithTrace; hold
macro_rules | `(tactic| hold1) => `(tactic| with_reducible exact holds_proceedWithTrace)
theorem holds_proceedOut : HoldsB K (proceedOut c) := by unfold proceedOut; hold
macro_rules | `(tactic| hold1) => `(tactic| with_reducible exact holds_proceedOut)
theorem holds_logCall {i : Insn} : HoldsB K (logCall i) := by unfold logCall; hold
macro_rules | `(tactic| hold1) => `(tactic| with_reducible exact holds_logCall)
theorem holds_countInsn {n : Nat} : HoldsB K (countInsn n) := by unfold countInsn; hold
macro_rules | `(tactic| hold1) => `(tactic| with_reducible exact holds_countInsn)
theorem holds_decodeAt {ip : Nat} {mode : Mode} : HoldsB K (decodeAt c ip mode) := by unfold decodeAt; hold
macro_rules | `(tactic| hold1) => `(tactic| with_reducible exact holds_decodeAt)
theorem holds_insn : HoldsB K BM.insn := by unfold BM.insn; hold
macro_rules | `(tactic| hold1) => `(tactic| with_reducible exact holds_insn)
theorem holds_nextInsn {i : Insn} : HoldsB K (nextInsn i) := by unfold nextInsn; hold
macro_rules | `(tactic| hold1) => `(tactic| with_reducible exact holds_nextInsn)
theorem holds_provideTrigAnchor {ev : Event} {trbv n : Nat} {mult : Bool} {ip : Nat} :
    HoldsB K (provideTrigAnchor ev trbv n mult ip) := by unfold provideTrigAnchor; hold
macro_rules | `(tactic| hold1) => `(tactic| with_reducible exact holds_provideTrigAnchor)
theorem holds_blkSkd022 {at_ : Nat} : HoldsB K (blkSkd022 c at_) := by unfold blkSkd022; hold
macro_rules | `(tactic| hold1) => `(tactic| with_reducible exact holds_blkSkd022)
theorem holds_postponeInsn : HoldsB K postponeInsn := by unfold postponeInsn; hold
macro_rules | `(tactic| hold1) => `(tactic| with_reducible exact holds_postponeInsn)
theorem holds_proceedPostponedInsn : HoldsB K (proceedPostponedInsn c) := by
  unfold proceedPostponedInsn clearPostponedInsn; hold
macro_rules | `(tactic| hold1) => `(tactic| with_reducible exact holds_proceedPostponedInsn)
theorem holds_setDisableResumeIp {i : Insn} : HoldsB K (BM.modify (setDisableResumeIp i)) :=
  holds_sealed fun s => by unfold BM.modify setDisableResumeIp; dsimp only; split <;> exact ⟨rfl, rfl, rfl⟩
macro_rules | `(tactic| hold1) => `(tactic| with_reducible exact holds_setDisableResumeIp)
theorem holds_blkBdm64 {aborted : Bool} {evip : Nat} : HoldsB K (blkBdm64 c aborted evip) := by unfold blkBdm64; hold
macro_rules | `(tactic| hold1) => `(tactic| with_reducible exact holds_blkBdm64)
theorem holds_postponeTrailingTsx {blk : Bool} {ev : Event} {aborted : Bool} {evip : Nat} :
    HoldsB K (postponeTrailingTsx c blk ev aborted evip) := by unfold postponeTrailingTsx; hold
macro_rules | `(tactic| hold1) => `(tactic| with_reducible exact holds_postponeTrailingTsx)
theorem holds_noTrailing : HoldsB K (noTrailing c) := by unfold noTrailing; hold
macro_rules | `(tactic| hold1) => `(tactic| with_reducible exact holds_noTrailing)
theorem holds_trailingAt {p : Bdec → Bool} : HoldsB K (trailingAt c p) := by unfold trailingAt; hold
macro_rules | `(tactic| hold1) => `(tactic| with_reducible exact holds_trailingAt)
theorem holds_trailingBind {bound : Bdec → Bool} {p : Iext → Bool} {mark : Bdec → Bdec} (hm : HoldsB K (BM.modify mark)) :
    HoldsB K (trailingBind c bound p mark) := by unfold trailingBind; hold
macro_rules | `(tactic| hold1) => `(tactic| with_reducible refine holds_trailingBind ?_)
theorem holds_trailingDisabled {ev : Event} {ip : Nat} : HoldsB K (trailingDisabled c ev ip) := by
  have : HoldsB K (BM.modify clearPostponedInsn) := holds_sealed fun _ => ⟨rfl, rfl, rfl⟩
  unfold trailingDisabled; hold
macro_rules | `(tactic| hold1) => `(tactic| with_reducible exact holds_trailingDisabled)
theorem holds_trailingAsyncDisabled {ev : Event} {at_ ip : Nat} : HoldsB K (trailingAsyncDisabled c ev at_ ip) := by
  unfold trailingAsyncDisabled; hold
macro_rules | `(tactic| hold1) => `(tactic| with_reducible exact holds_trailingAsyncDisabled)
theorem holds_trailingTrig {ev : Event} {trbv n : Nat} {mult : Bool} {ip : Nat} :
    HoldsB K (trailingTrig c ev trbv n mult ip) := by unfold trailingTrig; hold
macro_rules | `(tactic| hold1) => `(tactic| with_reducible exact holds_trailingTrig)
theorem holds_trailingEvent {blk : Bool} : ∀ n, HoldsB K (trailingEvent c blk n)
  | 0 => by unfold trailingEvent; hold
  | n + 1 => by
    have := holds_trailingEvent (blk := blk) n
    unfold trailingEvent; hold
macro_rules | `(tactic| hold1) => `(tactic| with_reducible exact holds_trailingEvent _)
theorem holds_unlessAt {b : Bool} {p : BM Unit} (h : HoldsB K p) : HoldsB K (unlessAt b p) := by unfold unlessAt; hold
macro_rules | `(tactic| hold1) => `(tactic| with_reducible refine holds_unlessAt ?_)
theorem holds_blkProcessOverflow {ev : Event} {ip : Nat} : HoldsB K (blkProcessOverflow ev ip) := by
  unfold blkProcessOverflow
  split
  · exact holds_fail
  · exact holds_sealed fun s => by dsimp only [BM.modify]; split <;> exact ⟨rfl, rfl, rfl⟩
macro_rules | `(tactic| hold1) => `(tactic| with_reducible exact holds_blkProcessOverflow)
theorem holds_blkProcessEvent {ev : Event} : HoldsB K (blkProcessEvent ev) := by
  unfold blkProcessEvent blkProcessEnabled blkProcessDisabled blkProcessAsyncBranch blkProcessPaging blkProcessVmcs
    blkProcessExecMode blkProcessStop
  hold
macro_rules | `(tactic| hold1) => `(tactic| with_reducible exact holds_blkProcessEvent)
theorem holds_blkEvent : HoldsB K (blkEvent c) := by unfold blkEvent blkTickEvent; hold
macro_rules | `(tactic| hold1) => `(tactic| with_reducible exact holds_blkEvent)
theorem holds_blkStart : HoldsB K (blkStart c) := by
  have : ∀ ip : Option Nat, HoldsB K (BM.modify fun s => match ip with
      | some ip => { s with enabled := true, ip := ip }
      | none => s) := fun ip => holds_sealed fun s => by cases ip <;> exact ⟨rfl, rfl, rfl⟩
  unfold blkStart
  refine holds_bind holds_get fun s => holds_bind holds_lift fun ip => holds_bind (this ip) fun _ => ?_
  hold
macro_rules | `(tactic| hold1) => `(tactic| with_reducible exact holds_blkStart)
theorem holds_blkReset : HoldsB K (BM.modify blkReset) := holds_sealed fun _ => ⟨rfl, rfl, rfl⟩
macro_rules | `(tactic| hold1) => `(tactic| with_reducible exact holds_blkReset)
theorem holds_blkSyncForward : HoldsB K (blkSyncForward c) := by unfold blkSyncForward; hold
theorem holds_blkSyncSet {o : Nat} : HoldsB K (blkSyncSet c o) := by unfold blkSyncSet; hold
theorem holds_blkSyncBackInner {x : Nat} : ∀ n, HoldsB K (blkSyncBackInner c x n)
  | 0 => by unfold blkSyncBackInner; hold
  | n + 1 => by
    have := holds_blkSyncBackInner (x := x) n
    unfold blkSyncBackInner; hold
macro_rules | `(tactic| hold1) => `(tactic| with_reducible exact holds_blkSyncBackInner _)
theorem holds_blkSyncBackLoop {x : Nat} : ∀ n y, HoldsB K (blkSyncBackLoop c x n y)
  | 0, _ => by unfold blkSyncBackLoop; hold
  | n + 1, y => by
    have := holds_blkSyncBackLoop (x := x) n
    unfold blkSyncBackLoop
    refine holds_bind holds_blkReset fun _ => holds_bind (holds_blkSyncBackInner _) fun z => holds_bind (holds_try holds_blkStart) fun r => ?_
    have := this z
    hold
theorem holds_blkSyncBackward : HoldsB K (blkSyncBackward c) := by
  unfold blkSyncBackward
  exact holds_bind holds_get fun s => holds_blkSyncBackLoop _ _
end

section
variable [Blind K]

theorem holds_addInsn {i : Insn} : HoldsB K (addInsn i) := by unfold addInsn; hold
macro_rules | `(tactic| hold1) => `(tactic| with_reducible exact holds_addInsn)
theorem holds_oneInsn : HoldsB K (oneInsn c) := by unfold oneInsn; hold
macro_rules | `(tactic| hold1) => `(tactic| with_reducible exact holds_oneInsn)
theorem holds_toInsnLoop {p : Iext → Bool} : ∀ n, HoldsB K (toInsnLoop c p n)
  | 0 => by unfold toInsnLoop; hold
  | n + 1 => by
    have := holds_toInsnLoop (p := p) n
    unfold toInsnLoop; hold
theorem holds_toInsn {p : Iext → Bool} : HoldsB K (toInsn c p) := holds_toInsnLoop _
macro_rules | `(tactic| hold1) => `(tactic| with_reducible exact holds_toInsn)
theorem holds_noEventUncached : HoldsB K (noEventUncached c) := by unfold noEventUncached; hold
macro_rules | `(tactic| hold1) => `(tactic| with_reducible exact holds_noEventUncached)
theorem holds_toIpLoop {ip : Nat} : ∀ n, HoldsB K (toIpLoop c ip n)
  | 0 => by unfold toIpLoop; hold
  | n + 1 => by
    have := holds_toIpLoop (ip := ip) n
    unfold toIpLoop; hold
theorem holds_toIp {ip : Nat} : HoldsB K (toIp c ip) := holds_toIpLoop _
macro_rules | `(tactic| hold1) => `(tactic| with_reducible exact holds_toIp)
theorem holds_skl014Loop : ∀ n, HoldsB K (skl014Loop c n)
  | 0 => by unfold skl014Loop; hold
  | n + 1 => by
    have := holds_skl014Loop n
    unfold skl014Loop; hold
theorem holds_toDisabled {ev : Event} {ip : Nat} : HoldsB K (toDisabled c ev ip) := by
  have := holds_skl014Loop (c := c) (K := K) blkFuel
  unfold toDisabled; hold
macro_rules | `(tactic| hold1) => `(tactic| with_reducible exact holds_toDisabled)
theorem holds_toKind {ev : Event} {p : Iext → Bool} {ip : Nat} : HoldsB K (toKind c ev p ip) := by unfold toKind; hold
macro_rules | `(tactic| hold1) => `(tactic| with_reducible exact holds_toKind)
theorem holds_trigLoop {ev : Event} {trbv : Nat} {mult : Bool} : ∀ n, HoldsB K (trigLoop c ev trbv mult n)
  | 0 => by unfold trigLoop; hold
  | n + 1 => by
    have := holds_trigLoop (ev := ev) (trbv := trbv) (mult := mult) n
    unfold trigLoop; hold
macro_rules | `(tactic| hold1) => `(tactic| with_reducible exact holds_trigLoop _)
theorem holds_toTrig {ev : Event} {trbv n : Nat} {mult : Bool} {ip : Nat} : HoldsB K (toTrig c ev trbv n mult ip) := by
  unfold toTrig; hold
macro_rules | `(tactic| hold1) => `(tactic| with_reducible exact holds_toTrig)
theorem holds_reachIp {ip : Nat} : HoldsB K (reachIp c ip) := by unfold reachIp; hold
macro_rules | `(tactic| hold1) => `(tactic| with_reducible exact holds_reachIp)
theorem holds_reachInsn {p : BM Bool} {mark : Bdec → Bdec} (h : HoldsB K p)
    (hm : HoldsB K (BM.modify mark)) : HoldsB K (reachInsn p mark) := by unfold reachInsn; hold
macro_rules | `(tactic| hold1) => `(tactic| with_reducible refine holds_reachInsn ?_ ?_)
theorem holds_reachDisabled {ev : Event} {ip : Nat} : HoldsB K (reachDisabled c ev ip) := by unfold reachDisabled; hold
macro_rules | `(tactic| hold1) => `(tactic| with_reducible exact holds_reachDisabled)
theorem holds_proceedEvent : HoldsB K (proceedEvent c) := by unfold proceedEvent; hold
macro_rules | `(tactic| hold1) => `(tactic| with_reducible exact holds_proceedEvent)
end

section
variable [Blinder K]

theorem holds_bcAdd {i : Nat} {e : Bce} : HoldsB K (bcAdd c m i e) := by
  intro s h
  unfold wp bcAdd
  have := Blinder.cache (s := s) (s.bc.add c.env m.sec i e).1 s.others h
  rcases hs : s.bc.add c.env m.sec i e with ⟨d, _ | _ | _⟩ <;> rw [hs] at this
  · exact this
  · exact this
  · trivial
macro_rules | `(tactic| hold1) => `(tactic| with_reducible exact holds_bcAdd)
theorem holds_bcLookup {i : Nat} : HoldsB K (bcLookup c m i) := by
  intro s h
  unfold wp bcLookup
  dsimp only
  have := Blinder.cache (s := s) (s.bc.writes (s.others.headD [])) s.others.tail h
  rcases hs : (s.bc.writes (s.others.headD [])).lookup c.env m.sec i with _ | _ | _
  · exact this
  · exact this
  · trivial
macro_rules | `(tactic| hold1) => `(tactic| with_reducible exact holds_bcLookup)
theorem holds_extendEntry {i : Insn} {nip : Nat} {e : Bce} : HoldsB K (extendEntry c m i nip e) := by unfold extendEntry; hold
macro_rules | `(tactic| hold1) => `(tactic| with_reducible exact holds_extendEntry)
theorem holds_fillCache : ∀ n, HoldsB K (fillCache c m n)
  | 0 => by unfold fillCache; hold
  | n + 1 => by
    have := holds_fillCache n
    unfold fillCache; hold
macro_rules | `(tactic| hold1) => `(tactic| with_reducible exact holds_fillCache _)
theorem holds_proceedTruncated : HoldsB K (proceedTruncated c) := by unfold proceedTruncated; hold
macro_rules | `(tactic| hold1) => `(tactic| with_reducible exact holds_proceedTruncated)
theorem holds_condCached {e : Bce} : HoldsB K (condCached c m e) := by unfold condCached; hold
macro_rules | `(tactic| hold1) => `(tactic| with_reducible exact holds_condCached)
theorem holds_indCallCached {e : Bce} : HoldsB K (indCallCached c m e) := by unfold indCallCached; hold
macro_rules | `(tactic| hold1) => `(tactic| with_reducible exact holds_indCallCached)
theorem holds_decodeCached {mode : Mode} {p : BM Unit} (h : HoldsB K p) : HoldsB K (decodeCached c m mode p) := by
  unfold decodeCached; hold
macro_rules | `(tactic| hold1) => `(tactic| with_reducible refine holds_decodeCached ?_)
theorem holds_noEventCached : ∀ n, HoldsB K (noEventCached c m n)
  | 0 => by unfold noEventCached; hold
  | n + 1 => by
    have := holds_noEventCached n
    unfold noEventCached; hold
macro_rules | `(tactic| hold1) => `(tactic| with_reducible exact holds_noEventCached _)
theorem holds_blkLookup : HoldsB K blkLookup := by unfold blkLookup; hold
macro_rules | `(tactic| hold1) => `(tactic| with_reducible exact holds_blkLookup)
theorem holds_noEvent : HoldsB K (noEvent c) := by unfold noEvent; hold
macro_rules | `(tactic| hold1) => `(tactic| with_reducible exact holds_noEvent)
theorem holds_blkProceed : HoldsB K (blkProceed c) := by unfold blkProceed; hold
end

end Ipt
