import Verif.BlockDecoder

/-!
# Helper lemmas: the block decoder says that the trace has ended only when it has
-/

namespace Ipt

open BM

variable {c : BlkCfg} {α : Type}

/-- If the flags say that the trace has ended, so does the status. -/
def Tells (m : BM Flags) : Prop := ∀ s s' fl, m s = (s', .ok fl) → fl.eos = true → s'.status = some .eos

/-- The same for `pt_blk_event`. -/
def TellsEv (m : BM EventOut) : Prop := ∀ s s' o, m s = (s', .ok o) → o.flags.eos = true → s'.status = some .eos

theorem tells_bind {m : BM α} {k : α → BM Flags} (h : ∀ a, Tells (k a)) : Tells (m >>= k) := by
  intro s s' fl h1
  have h1 : BM.bind m k s = (s', .ok fl) := h1
  unfold BM.bind at h1
  rcases hm : m s with ⟨t, a | e | _⟩ <;> rw [hm] at h1 <;> dsimp only at h1
  · exact h a t s' fl h1
  · cases h1
  · cases h1

theorem tells_fail {e : Err} : Tells (BM.fail e) := by
  intro s s' fl h; cases h

theorem tells_undef : Tells BM.undef := by
  intro s s' fl h; cases h

theorem tells_empty : Tells (pure {}) := by
  intro s s' fl h
  cases h
  intro h; cases h

theorem tells_status {b : Bool} : Tells (blkStatus b) := by
  intro s s' fl h
  cases h
  intro h
  simpa using h

theorem tells_ite {p : Prop} [Decidable p] {m n : BM Flags} (h1 : Tells m) (h2 : Tells n) : Tells (if p then m else n) := by
  split <;> assumption

/-- Go through the code. -/
macro "tells" : tactic => `(tactic|
  repeat' first
    | exact tells_fail | exact tells_undef | exact tells_empty | exact tells_status | assumption
    | (refine tells_bind fun _ => ?_) | (refine tells_ite ?_ ?_) | split | dsimp only)

theorem tells_noTrailing : Tells (noTrailing c) := by unfold noTrailing; tells

theorem tells_postponeInsn : Tells postponeInsn := by unfold postponeInsn; tells

theorem tells_reachIp {ip : Nat} : Tells (reachIp c ip) := by unfold reachIp; tells

theorem tells_reachInsn {t : BM Bool} {mark : Bdec → Bdec} : Tells (reachInsn t mark) := by
  have := tells_postponeInsn
  unfold reachInsn; tells

theorem tells_reachDisabled {ev : Event} {ip : Nat} : Tells (reachDisabled c ev ip) := by unfold reachDisabled; tells

theorem tells_trailingAt {p : Bdec → Bool} : Tells (trailingAt c p) := by
  have := tells_noTrailing (c := c)
  unfold trailingAt; tells

theorem tells_trailingBind {a : Bdec → Bool} {p : Ild.Iext → Bool} {m : Bdec → Bdec} : Tells (trailingBind c a p m) := by
  have := tells_noTrailing (c := c)
  unfold trailingBind; tells

theorem tells_trailingDisabled {ev : Event} {ip : Nat} : Tells (trailingDisabled c ev ip) := by
  have := tells_noTrailing (c := c)
  unfold trailingDisabled; tells

theorem tells_trailingAsyncDisabled {ev : Event} {a ip : Nat} : Tells (trailingAsyncDisabled c ev a ip) := by
  have := tells_noTrailing (c := c)
  unfold trailingAsyncDisabled; tells

theorem tells_trailingTrig {ev : Event} {a n : Nat} {m : Bool} {ip : Nat} : Tells (trailingTrig c ev a n m ip) := by
  have := tells_noTrailing (c := c)
  unfold trailingTrig; tells

theorem tells_trailing {blk : Bool} : ∀ n, Tells (trailingEvent c blk n)
  | 0 => tells_undef
  | n + 1 => by
    have h1 := tells_noTrailing (c := c)
    have h2 := tells_trailing (blk := blk) n
    unfold trailingEvent
    repeat' first
      | exact tells_trailingAt | exact tells_trailingBind | exact tells_trailingDisabled | exact tells_trailingAsyncDisabled
      | exact tells_trailingTrig
      | exact tells_fail | exact tells_undef | exact tells_empty | exact tells_status | assumption
      | (refine tells_bind fun _ => ?_) | (refine tells_ite ?_ ?_) | split | dsimp only

theorem tells_proceedEvent : Tells (proceedEvent c) := by
  unfold proceedEvent
  repeat' first
    | exact tells_reachIp | exact tells_reachInsn | exact tells_reachDisabled
    | exact tells_fail | exact tells_undef | exact tells_empty | exact tells_status | assumption
    | (refine tells_bind fun _ => ?_) | (refine tells_ite ?_ ?_) | split | dsimp only

/-! ### Calls -/

theorem blkStart_tells : Tells (blkStart c) := by
  unfold blkStart
  repeat' first
    | exact tells_trailing _
    | (refine tells_bind fun _ => ?_) | split | dsimp only

theorem sync_tells : Tells (blkSyncForward c) ∧ ∀ o, Tells (blkSyncSet c o) :=
  ⟨by unfold blkSyncForward; exact tells_bind fun _ => tells_bind fun _ => blkStart_tells,
    fun o => by unfold blkSyncSet; exact tells_bind fun _ => tells_bind fun _ => blkStart_tells⟩

theorem tellsEv_bind {m : BM α} {k : α → BM EventOut} (h : ∀ a, TellsEv (k a)) : TellsEv (m >>= k) := by
  intro s s' fl h1
  have h1 : BM.bind m k s = (s', .ok fl) := h1
  unfold BM.bind at h1
  rcases hm : m s with ⟨t, a | e | _⟩ <;> rw [hm] at h1 <;> dsimp only at h1
  · exact h a t s' fl h1
  · cases h1
  · cases h1

theorem tellsEv_fail {e : Err} : TellsEv (BM.fail e) := by
  intro s s' fl h; cases h

theorem tellsEv_flags {m : BM Flags} {e : Event} {b : Bool} (h : Tells m) : TellsEv (do let f ← m; pure ⟨e, b, f⟩) := by
  intro s s' o h1
  have h1 : BM.bind m (fun f => pure ⟨e, b, f⟩) s = (s', .ok o) := h1
  unfold BM.bind at h1
  rcases hm : m s with ⟨t, a | x | _⟩ <;> rw [hm] at h1 <;> dsimp only at h1
  · cases h1
    exact h s _ a hm
  · cases h1
  · cases h1

theorem event_tells : TellsEv (blkEvent c) := by
  unfold blkEvent blkTickEvent
  repeat' first
    | exact tellsEv_fail | exact tellsEv_flags (tells_trailing _) | (refine tellsEv_bind fun _ => ?_) | split | dsimp only

end Ipt
