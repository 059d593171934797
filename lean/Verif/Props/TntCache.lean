import Verif.TntCache

/-!
# The TNT cache is a FIFO of branch outcomes (C13)
-/

namespace Ipt.Spec

/-- The branch outcomes of a TNT packet with `size` bits, oldest first.  The processor puts
the oldest outcome into the most significant bit (Intel SDM, vol. 3C, "TNT packet"). -/
def tntBits (payload : Nat) : Nat → List Bool
  | 0 => []
  | n + 1 => payload.testBit n :: tntBits payload n

/-- An operation on the TNT cache: add a TNT packet's outcomes, or query the next outcome. -/
inductive TntOp
  | add (payload size : Nat)
  | query

/-- The visible answer of an operation. -/
inductive TntOut
  | added
  | refused
  | outcome (taken : Bool)
  | empty
deriving DecidableEq, Repr

/-- The reference: a queue of at most 64 outcomes. -/
def tntSpec (q : List Bool) : List TntOp → List TntOut
  | [] => []
  | .add p n :: t =>
    if q.length + n ≤ 64 then .added :: tntSpec (q ++ tntBits p n) t
    else .refused :: tntSpec q t
  | .query :: t =>
    match q with
    | [] => .empty :: tntSpec [] t
    | b :: q => .outcome b :: tntSpec q t

end Ipt.Spec

namespace Ipt

open Spec

/-- Run the modelled code. -/
def tntRun (c : TntCache) : List TntOp → Option (List TntOut)
  | [] => some []
  | .add p n :: t =>
    match c.add p n with
    | (c', .ok _) => (tntRun c' t).map (.added :: ·)
    | (c', .err .overflow) => (tntRun c' t).map (.refused :: ·)
    | _ => none
  | .query :: t =>
    match c.query with
    | (c', .ok b) => (tntRun c' t).map (.outcome b :: ·)
    | (c', .err .badQuery) => (tntRun c' t).map (.empty :: ·)
    | _ => none

/-- The cache holds the queue `q`. -/
structure TntCache.Holds (c : TntCache) (q : List Bool) : Prop where
  len : q.length ≤ 64
  index : c.index = if q.length = 0 then 0 else 2 ^ (q.length - 1)
  bits : q = tntBits c.tnt q.length
  tnt : c.tnt < 2 ^ 64

@[simp] theorem tntBits_length (p n : Nat) : (tntBits p n).length = n := by
  induction n with
  | zero => rfl
  | succ n ih => simp [tntBits, ih]

theorem tntBits_append (a b : Nat) (m : Nat) : ∀ n, n + m ≤ 64 → 
    tntBits (a * 2 ^ m % 2 ^ 64 + b % 2 ^ m) (n + m) = tntBits a n ++ tntBits b m := by
  intro n
  have hsplit : ∀ n, n + m ≤ 64 → a * 2 ^ m % 2 ^ 64 = 2 ^ m * (a % 2 ^ (64 - m)) := by
    intro n h
    rw [Nat.mul_comm, show (2 : Nat) ^ 64 = 2 ^ m * 2 ^ (64 - m) by rw [← Nat.pow_add]; congr 1; omega,
      Nat.mul_mod_mul_left]
  induction n with
  | zero =>
    intro h
    rw [hsplit 0 h]
    simp only [Nat.zero_add, tntBits, List.nil_append]
    have : ∀ k, k ≤ m → tntBits (2 ^ m * (a % 2 ^ (64 - m)) + b % 2 ^ m) k = tntBits b k := by
      intro k
      induction k with
      | zero => intro _; rfl
      | succ k ih =>
        intro hk
        simp only [tntBits]
        rw [ih (by omega), Nat.testBit_two_pow_mul_add _ (Nat.mod_lt _ (Nat.two_pow_pos _)), if_pos (by omega),
          Nat.testBit_mod_two_pow]
        simp; omega
    exact this m (Nat.le_refl _)
  | succ n ih =>
    intro h
    rw [show n + 1 + m = n + m + 1 by omega]
    simp only [tntBits]
    rw [ih (by omega), hsplit (n + 1) h, Nat.testBit_two_pow_mul_add _ (Nat.mod_lt _ (Nat.two_pow_pos _)),
      if_neg (by omega), Nat.testBit_mod_two_pow]
    simp; omega

theorem tntAdd_holds {c : TntCache} {q : List Bool} (h : c.Holds q) (p n : Nat) (hn : n < 64) :
    (q.length + n ≤ 64 → ∃ c', c.add p n = (c', .ok ()) ∧ c'.Holds (q ++ tntBits p n)) ∧
    (64 < q.length + n → c.add p n = (c, .err .overflow)) := by
  obtain ⟨h1, h2, h3, h4⟩ := h
  by_cases hz : n = 0
  · subst hz
    refine ⟨fun _ => ⟨c, by simp [TntCache.add], ?_⟩, fun h => by omega⟩
    simp only [tntBits, List.append_nil]
    exact ⟨h1, h2, h3, h4⟩
  · simp only [TntCache.add, if_neg hz, if_neg (show ¬ 64 ≤ n by omega)]
    have hidx : (if c.index ≠ 0 then c.index * 2 ^ n % 2 ^ 64 else 2 ^ (n - 1)) =
        if q.length + n ≤ 64 then 2 ^ (q.length + n - 1) else 0 := by
      by_cases hq : q.length = 0
      · rw [h2, if_pos hq, if_neg (by simp), if_pos (by omega)]
        congr 1; omega
      · rw [h2, if_neg hq, if_pos (Nat.pos_iff_ne_zero.1 (Nat.two_pow_pos _)), ← Nat.pow_add]
        by_cases hle : q.length + n ≤ 64
        · rw [if_pos hle, Nat.mod_eq_of_lt (Nat.pow_lt_pow_right (by omega) (by omega))]
          congr 1; omega
        · rw [if_neg hle]
          apply Nat.mod_eq_zero_of_dvd
          exact Nat.pow_dvd_pow 2 (by omega)
    rw [hidx]
    constructor
    · intro hle
      rw [if_pos hle, if_neg (Nat.pos_iff_ne_zero.1 (Nat.two_pow_pos _))]
      refine ⟨_, rfl, ?_, ?_, ?_, ?_⟩
      · simp; omega
      · simp only [List.length_append, tntBits_length]
        rw [if_neg (by omega)]
      · simp only [List.length_append, tntBits_length]
        rw [tntBits_append _ _ _ _ hle, ← h3]
      · dsimp only
        have := Nat.mod_lt p (Nat.two_pow_pos n)
        have e : c.tnt * 2 ^ n % 2 ^ 64 = 2 ^ n * (c.tnt % 2 ^ (64 - n)) := by
          rw [Nat.mul_comm, show (2 : Nat) ^ 64 = 2 ^ n * 2 ^ (64 - n) by rw [← Nat.pow_add]; congr 1; omega,
            Nat.mul_mod_mul_left]
        have h5 := Nat.mod_lt c.tnt (Nat.two_pow_pos (64 - n))
        rw [e]
        have h6 : 2 ^ n * (c.tnt % 2 ^ (64 - n) + 1) ≤ 2 ^ n * 2 ^ (64 - n) := Nat.mul_le_mul_left _ h5
        rw [← Nat.pow_add, show n + (64 - n) = 64 by omega, Nat.mul_add] at h6
        omega
    · intro hgt
      simp only [if_neg (show ¬ q.length + n ≤ 64 by omega), if_true]

theorem land_two_pow_ne_zero (a k : Nat) : decide (a &&& 2 ^ k ≠ 0) = a.testBit k := by
  cases h : a.testBit k with
  | true =>
    simp only [ne_eq, decide_eq_true_eq]
    intro h0
    have := congrArg (fun x => x.testBit k) h0
    simp [h] at this
  | false =>
    simp only [ne_eq, decide_eq_false_iff_not, Decidable.not_not]
    apply Nat.eq_of_testBit_eq
    intro i
    simp only [Nat.testBit_and, Nat.testBit_two_pow, Nat.zero_testBit, Bool.and_eq_false_iff,
      decide_eq_false_iff_not]
    by_cases hk : k = i
    · subst hk; exact .inl h
    · exact .inr hk

theorem tntQuery_holds {c : TntCache} {q : List Bool} (h : c.Holds q) :
    match q with
    | [] => c.query = (c, .err .badQuery)
    | b :: q => ∃ c', c.query = (c', .ok b) ∧ c'.Holds q := by
  obtain ⟨h1, h2, h3, h4⟩ := h
  cases q with
  | nil => simp at h2; simp [TntCache.query, h2]
  | cons b q =>
    simp only [List.length_cons, Nat.add_one_ne_zero, if_false, Nat.add_sub_cancel, tntBits,
      List.cons.injEq] at h1 h2 h3
    have hne : c.index ≠ 0 := by rw [h2]; exact Nat.pos_iff_ne_zero.1 (Nat.two_pow_pos _)
    refine ⟨_, by rw [TntCache.query, if_neg hne, h2, land_two_pow_ne_zero, ← h3.1], ?_⟩
    refine ⟨by omega, ?_, h3.2, h4⟩
    dsimp only
    cases hq : q.length with
    | zero => simp
    | succ n => rw [if_neg (by omega), Nat.pow_succ]; simp

end Ipt

namespace Ipt.Props

open Ipt Spec

/-- C13: for every sequence of operations (with TNT packets of fewer than 64 bits; libipt's
packets have at most 47) the cache answers exactly like a queue of at most 64 branch
outcomes: in order, each outcome once, and an add that does not fit is refused without any
effect on what follows. -/
theorem C13_tnt_cache_is_fifo (ops : List TntOp) (h : ∀ p n, TntOp.add p n ∈ ops → n < 64) :
    tntRun {} ops = some (tntSpec [] ops) := by
  have key : ∀ ops, (∀ p n, TntOp.add p n ∈ ops → n < 64) → ∀ (c : TntCache) (q : List Bool), c.Holds q →
      tntRun c ops = some (tntSpec q ops) := by
    intro ops
    induction ops with
    | nil => intros; rfl
    | cons op ops ih =>
      intro hs c q hq
      have hs' : ∀ p n, TntOp.add p n ∈ ops → n < 64 := fun p n h => hs p n (List.mem_cons_of_mem _ h)
      cases op with
      | add p n =>
        obtain ⟨h1, h2⟩ := tntAdd_holds hq p n (hs p n (List.mem_cons_self ..))
        simp only [tntRun, tntSpec]
        by_cases hle : q.length + n ≤ 64
        · obtain ⟨c', h3, h4⟩ := h1 hle
          rw [h3, if_pos hle]
          simp [ih hs' c' _ h4]
        · rw [h2 (by omega), if_neg hle]
          simp [ih hs' c _ hq]
      | query =>
        have := tntQuery_holds hq
        simp only [tntRun, tntSpec]
        cases q with
        | nil => simp only at this; rw [this]; simp [ih hs' c _ hq]
        | cons b q =>
          obtain ⟨c', h3, h4⟩ := this
          rw [h3]
          simp [ih hs' c' _ h4]
  exact key ops h {} [] ⟨by simp, by simp, rfl, by simp⟩

/-- Adding to the cache never overruns: with at most 63 bits no undefined shift is performed,
whatever the cache holds. -/
theorem C13_tnt_add_defined (c : TntCache) (p n : Nat) (h : n < 64) : (c.add p n).2.safe := by
  unfold TntCache.add
  split
  · simp
  · rw [if_neg (by omega)]
    dsimp only
    split
    · split <;> simp
    · split <;> simp

example : tntRun {} [.add 0b101 3, .query, .add 0b10 2, .query, .query, .query, .query, .query] =
    some [.added, .outcome true, .added, .outcome false, .outcome true, .outcome true, .outcome false, .empty] ∧
    tntRun {} [.add 0 47, .add 0 47, .add 0 17, .add 1 1] = some [.added, .refused, .added, .refused] := by
  decide +kernel

end Ipt.Props
