import Verif.RetStack

/-!
# The return stack is a LIFO of the 64 newest return addresses (C14)
-/

namespace Ipt.Spec

inductive StackOp
  | push (ip : Nat)
  | pop
  | reset
  | isEmpty

inductive StackOut
  | pushed
  | popped (ip : Nat)
  | empty
  | cleared
  | answer (b : Bool)
deriving DecidableEq, Repr

/-- The reference: a list, newest first, of which only the 64 newest entries are kept. -/
def stackSpec (s : List Nat) : List StackOp → List StackOut
  | [] => []
  | .push ip :: t => .pushed :: stackSpec ((ip :: s).take 64) t
  | .pop :: t =>
    match s with
    | [] => .empty :: stackSpec [] t
    | ip :: s => .popped ip :: stackSpec s t
  | .reset :: t => .cleared :: stackSpec [] t
  | .isEmpty :: t => .answer (s = []) :: stackSpec s t

end Ipt.Spec

namespace Ipt
open Spec

/-- Run the modelled code. -/
def stackRun (s : RetStack) : List StackOp → Option (List StackOut)
  | [] => some []
  | .push ip :: t =>
    match s.push ip with
    | (s', .ok _) => (stackRun s' t).map (.pushed :: ·)
    | _ => none
  | .pop :: t =>
    match s.pop with
    | (s', .ok ip) => (stackRun s' t).map (.popped ip :: ·)
    | (s', .err .retstackEmpty) => (stackRun s' t).map (.empty :: ·)
    | _ => none
  | .reset :: t => (stackRun s.init t).map (.cleared :: ·)
  | .isEmpty :: t => (stackRun s t).map (.answer s.isEmpty :: ·)

/-- The ring holds the entries `l`, newest first. -/
structure RetStack.Holds (s : RetStack) (l : List Nat) : Prop where
  size : s.stack.length = 65
  top : s.top < 65
  bottom : s.bottom = (s.top + 65 - l.length) % 65
  len : l.length ≤ 64
  get : ∀ i, i < l.length → l[i]? = s.stack[(s.top + 65 - 1 - i) % 65]?

theorem push_holds {s : RetStack} {l : List Nat} (h : s.Holds l) (ip : Nat) :
    ∃ s', s.push ip = (s', .ok ()) ∧ s'.Holds ((ip :: l).take 64) := by
  obtain ⟨h1, h2, h3, h4, h5⟩ := h
  simp only [RetStack.push, if_pos (show s.top < s.stack.length by omega)]
  refine ⟨_, rfl, by simp [h1], ?_, ?_, by simp; omega, ?_⟩
  · dsimp only; split <;> omega
  · dsimp only
    simp only [List.length_take, List.length_cons]
    by_cases ht : s.top = 64
    · rw [if_pos ht]
      by_cases hl : l.length = 64
      · rw [if_pos (by omega), if_neg (by omega)]; omega
      · rw [if_neg (by omega)]; omega
    · rw [if_neg ht]
      by_cases hl : l.length = 64
      · rw [if_pos (by omega)]; split <;> omega
      · rw [if_neg (by omega)]; omega
  · intro i hi
    simp only [List.length_take, List.length_cons] at hi
    dsimp only
    rw [List.getElem?_take, if_pos (by omega)]
    have etop : ((if s.top = 64 then 0 else s.top + 1) + 65 - 1 - i) % 65 = (s.top + 65 - i) % 65 := by
      split <;> omega
    rw [etop]
    cases i with
    | zero =>
      rw [show (s.top + 65 - 0) % 65 = s.top by omega, List.getElem?_set_self (by omega)]
      rfl
    | succ i =>
      rw [List.getElem?_set_ne (by omega), List.getElem?_cons_succ, h5 i (by omega)]
      congr 1
      omega

theorem pop_holds {s : RetStack} {l : List Nat} (h : s.Holds l) :
    match l with
    | [] => s.pop = (s, .err .retstackEmpty)
    | ip :: l => ∃ s', s.pop = (s', .ok ip) ∧ s'.Holds l := by
  obtain ⟨h1, h2, h3, h4, h5⟩ := h
  cases l with
  | nil =>
    simp at h3
    have : s.top = s.bottom := by omega
    simp [RetStack.pop, this]
  | cons ip l =>
    simp only [List.length_cons] at h3 h4 h5
    have hne : ¬ s.top = s.bottom := by omega
    have e0 := h5 0 (by omega)
    have etop : (if s.top = 0 then 64 else s.top - 1) = (s.top + 65 - 1 - 0) % 65 := by
      split <;> omega
    refine ⟨{ s with top := (s.top + 65 - 1 - 0) % 65 }, ?_, h1, ?_, ?_, by omega, ?_⟩
    · simp only [RetStack.pop, if_neg hne, etop]
      rw [← e0]
      simp
    · dsimp only; omega
    · dsimp only; omega
    · intro i hi
      dsimp only
      have := h5 (i + 1) (by omega)
      rw [List.getElem?_cons_succ] at this
      rw [this]
      congr 1
      omega

theorem stackInit_holds {s : RetStack} {l : List Nat} (h : s.Holds l) : s.init.Holds [] :=
  ⟨h.size, by simp [RetStack.init], by simp [RetStack.init], by simp, by simp⟩

theorem stackEmpty_holds {s : RetStack} {l : List Nat} (h : s.Holds l) : s.isEmpty = decide (l = []) := by
  obtain ⟨h1, h2, h3, h4, h5⟩ := h
  unfold RetStack.isEmpty
  rw [Bool.eq_iff_iff, beq_iff_eq, decide_eq_true_iff, ← List.length_eq_zero_iff]
  omega

end Ipt

namespace Ipt.Props
open Ipt Spec

/-- C14: for every sequence of pushes, pops, resets and questions whether it is empty the return stack answers exactly like a stack
that keeps the 64 newest entries: a pop returns the newest pending address, an overflow drops
only the oldest one, and an empty stack is reported as such. -/
theorem C14_retstack_is_bounded_lifo (ops : List StackOp) :
    stackRun {} ops = some (stackSpec [] ops) := by
  have key : ∀ ops (s : RetStack) l, s.Holds l → stackRun s ops = some (stackSpec l ops) := by
    intro ops
    induction ops with
    | nil => intros; rfl
    | cons op ops ih =>
      intro s l hl
      cases op with
      | push ip =>
        obtain ⟨s', h1, h2⟩ := push_holds hl ip
        simp only [stackRun, stackSpec, h1]
        simp [ih s' _ h2]
      | pop =>
        have := pop_holds hl
        simp only [stackRun, stackSpec]
        cases l with
        | nil => simp only at this; rw [this]; simp [ih s _ hl]
        | cons ip l =>
          obtain ⟨s', h1, h2⟩ := this
          rw [h1]
          simp [ih s' _ h2]
      | reset => simp [stackRun, stackSpec, ih _ _ (stackInit_holds hl)]
      | isEmpty => simp [stackRun, stackSpec, ih _ _ hl, stackEmpty_holds hl]
  exact key ops {} [] ⟨rfl, by simp, by simp, by simp, by simp⟩

example : stackRun {} ([.pop] ++ (List.range 66).map .push ++ List.replicate 65 .pop) =
    some ([.empty] ++ List.replicate 66 .pushed ++ ((List.range 64).map fun i => .popped (65 - i)) ++ [.empty]) := by
  decide +kernel

example : stackRun {} [.isEmpty, .push 1, .push 2, .isEmpty, .reset, .isEmpty, .pop, .push 3, .pop] =
    some [.answer true, .pushed, .pushed, .answer false, .cleared, .answer true, .empty, .pushed, .popped 3] := by
  decide +kernel

end Ipt.Props
