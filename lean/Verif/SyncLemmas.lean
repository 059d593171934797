import Verif.Sync
import Verif.Spec.Sync
import Verif.PacketLemmas

/-! Helper lemmas on PSB synchronization. -/

set_option linter.unusedSimpArgs false

namespace Ipt
open Spec

theorem rd_eq_iff {m : List UInt8} {i : Nat} {b : UInt8} :
    rd m i = .ok b.toNat ↔ m[i]? = some b := by
  unfold rd
  split
  · rename_i x hx
    rw [hx]
    simp only [Res.ok.injEq, Option.some.injEq]
    exact UInt8.toNat_inj
  · rename_i hx; simp [hx]

theorem psbPair_bound {m : List UInt8} {i : Nat} (h : PsbPair m i) : i + 1 < m.length := by
  obtain ⟨_, h⟩ := h
  exact (List.getElem?_eq_some_iff.1 h).1

theorem isPsb_bound {m : List UInt8} {q : Nat} (h : IsPsb m q) : q + 16 ≤ m.length := by
  have := psbPair_bound (h 7 (by omega))
  omega

theorem psbPair_rd {m : List UInt8} {i : Nat} :
    PsbPair m i ↔ rd m i = .ok 0x02 ∧ rd m (i + 1) = .ok 0x82 := by
  unfold PsbPair
  rw [← rd_eq_iff, ← rd_eq_iff]
  rfl

theorem psbRunEnd_spec {m : List UInt8} : ∀ {fuel pos : Nat}, m.length < pos + 2 * fuel → 0 < fuel →
    ∃ k, psbRunEnd m fuel pos = .ok (pos + 2 * k) ∧ (∀ j, j < k → PsbPair m (pos + 2 * j)) ∧
      ¬ PsbPair m (pos + 2 * k) := by
  intro fuel
  induction fuel with
  | zero => intro pos h h0; omega
  | succ fuel ih =>
    intro pos h h0
    simp only [psbRunEnd]
    split
    · rename_i hl
      obtain ⟨b0, _, e0⟩ := rd_ex (m := m) (i := pos) (by omega)
      obtain ⟨b1, _, e1⟩ := rd_ex (m := m) (i := pos + 1) (by omega)
      simp only [e0, e1, Res.bind_ok]
      split
      · rename_i hb
        refine ⟨0, by simp, by simp, ?_⟩
        simp only [Nat.mul_zero, Nat.add_zero]
        rw [psbPair_rd, e0]
        rintro ⟨h, _⟩
        simp at h; omega
      · split
        · rename_i hb
          refine ⟨0, by simp, by simp, ?_⟩
          simp only [Nat.mul_zero, Nat.add_zero]
          rw [psbPair_rd, e1]
          rintro ⟨_, h⟩
          simp at h; omega
        · rename_i h1 h2
          have hp : PsbPair m pos := by
            rw [psbPair_rd, e0, e1]
            simp at h1 h2; simp [h1, h2]
          obtain ⟨k, hk, hj, hn⟩ := ih (pos := pos + 2) (by omega) (by omega)
          refine ⟨k + 1, by rw [hk]; simp; omega, ?_, ?_⟩
          · intro j hjk
            cases j with
            | zero => exact hp
            | succ j =>
              have := hj j (by omega)
              rwa [show pos + 2 * (j + 1) = pos + 2 + 2 * j by omega]
          · rwa [show pos + 2 * (k + 1) = pos + 2 + 2 * k by omega]
    · rename_i hl
      refine ⟨0, by simp, by simp, ?_⟩
      intro hp
      have := psbPair_bound hp
      omega

theorem readPsbPairs_ok {m : List UInt8} : ∀ {n pos : Nat}, pos + 2 * n ≤ m.length →
    ((readPsbPairs m pos n = .ok ()) ↔ ∀ j, j < n → PsbPair m (pos + 2 * j)) := by
  intro n
  induction n with
  | zero => intro pos _; simp [readPsbPairs]
  | succ n ih =>
    intro pos h
    obtain ⟨b0, _, e0⟩ := rd_ex (m := m) (i := pos) (by omega)
    obtain ⟨b1, _, e1⟩ := rd_ex (m := m) (i := pos + 1) (by omega)
    have hp : PsbPair m pos ↔ b0 = 0x02 ∧ b1 = 0x82 := by rw [psbPair_rd, e0, e1]; simp
    have hiff : (∀ j, j < n + 1 → PsbPair m (pos + 2 * j)) ↔
        PsbPair m pos ∧ ∀ j, j < n → PsbPair m (pos + 2 + 2 * j) := by
      constructor
      · intro h
        refine ⟨h 0 (by omega), fun j hj => ?_⟩
        have := h (j + 1) (by omega)
        rwa [show pos + 2 * (j + 1) = pos + 2 + 2 * j by omega] at this
      · rintro ⟨h0, h1⟩ j hj
        cases j with
        | zero => exact h0
        | succ j =>
          rw [show pos + 2 * (j + 1) = pos + 2 + 2 * j by omega]
          exact h1 j (by omega)
    rw [hiff, hp, ← ih (by omega)]
    simp only [readPsbPairs, e0, e1, Res.bind_ok]
    split
    · rename_i hb; simp [hb]
    · rename_i hb
      split
      · rename_i hb'; simp [hb']
      · rename_i hb'; simp at hb hb'; simp [hb, hb']

/-- `IsPsb` in terms of its first pair and the rest. -/
theorem isPsb_iff {m : List UInt8} {q : Nat} (h : q + 16 ≤ m.length) :
    IsPsb m q ↔ PsbPair m q ∧ readPsb m q = .ok 16 := by
  have h1 : readPsb m q = .ok 16 ↔ readPsbPairs m (q + 2) 7 = .ok () := by
    simp only [readPsb, show ¬ m.length < q + 16 by omega, if_false]
    match hx : readPsbPairs m (q + 2) 7 with
    | .ok () => simp
    | .err e => simp
    | .ub => simp
  rw [h1, readPsbPairs_ok (by omega)]
  constructor
  · intro h
    refine ⟨h 0 (by omega), fun j hj => ?_⟩
    have := h (j + 1) (by omega)
    rwa [show q + 2 * (j + 1) = q + 2 + 2 * j by omega] at this
  · rintro ⟨h0, h1⟩ j hj
    cases j with
    | zero => exact h0
    | succ j =>
      rw [show q + 2 * (j + 1) = q + 2 + 2 * j by omega]
      exact h1 j (by omega)

theorem readPsb_cases {m : List UInt8} {q : Nat} (h : q + 16 ≤ m.length) :
    readPsb m q = .ok 16 ∨ ∃ e, readPsb m q = .err e := by
  have hs : (readPsbPairs m (q + 2) 7).safe := readPsbPairs_safe (by omega)
  simp only [readPsb, show ¬ m.length < q + 16 by omega, if_false]
  match hx : readPsbPairs m (q + 2) 7 with
  | .ok () => simp
  | .err e => simp
  | .ub => rw [hx] at hs; simp at hs

/-- The start of the pattern pairs that `pt_find_psb` uses. -/
def pairStart (m : List UInt8) (pos : Nat) : Nat := if m[pos]? = some 0x02 then pos else pos + 1

open Classical in
theorem findPsb_spec {m : List UInt8} {pos : Nat} (h : pos < m.length) :
    ∃ k, (∀ j, j < k → PsbPair m (pairStart m pos + 2 * j)) ∧
      ¬ PsbPair m (pairStart m pos + 2 * k) ∧
      findPsb m pos = .ok (if 16 ≤ pairStart m pos + 2 * k ∧ IsPsb m (pairStart m pos + 2 * k - 16)
        then some (pairStart m pos + 2 * k - 16) else none) := by
  obtain ⟨b, _, e⟩ := rd_ex (m := m) (i := pos) h
  have hs : (if b ≠ 0x02 then pos + 1 else pos) = pairStart m pos := by
    have hi : m[pos]? = some 0x02 ↔ b = 2 := by rw [← rd_eq_iff, e]; simp
    unfold pairStart
    by_cases hb : b = 2
    · rw [if_pos (hi.2 hb)]; simp [hb]
    · rw [if_pos hb, if_neg (fun h => hb (hi.1 h))]
  obtain ⟨k, hk, hj, hn⟩ := psbRunEnd_spec (m := m) (fuel := m.length + 1) (pos := pairStart m pos)
    (by unfold pairStart; split <;> omega) (by omega)
  refine ⟨k, hj, hn, ?_⟩
  have hle : pairStart m pos + 2 * k ≤ m.length := by
    cases k with
    | zero => unfold pairStart; split <;> omega
    | succ k => have := psbPair_bound (hj k (by omega)); omega
  simp only [findPsb, e, Res.bind_ok, hs, hk]
  generalize pairStart m pos + 2 * k = x at hle
  by_cases h16 : x < 16
  · rw [if_pos h16, if_neg (by omega)]
  · rw [if_neg h16]
    obtain ⟨b0, _, e0⟩ := rd_ex (m := m) (i := x - 16) (by omega)
    obtain ⟨b1, _, e1⟩ := rd_ex (m := m) (i := x - 16 + 1) (by omega)
    simp only [e0, e1, Res.bind_ok]
    have hiff := isPsb_iff (m := m) (q := x - 16) (by omega)
    rw [psbPair_rd, e0, e1] at hiff
    simp only [Res.ok.injEq] at hiff
    rcases readPsb_cases (m := m) (q := x - 16) (by omega) with hr | ⟨er, hr⟩
    · rw [hr] at hiff ⊢
      by_cases hb : b0 = 2 ∧ b1 = 0x82
      · rw [if_neg (by omega), if_pos ⟨by omega, hiff.2 ⟨hb, rfl⟩⟩]
      · rw [if_pos (by omega), if_neg (by rintro ⟨_, hx⟩; exact hb (hiff.1 hx).1)]
    · rw [hr] at hiff ⊢
      rw [if_neg (c := 16 ≤ x ∧ _) (by rintro ⟨_, hx⟩; have := (hiff.1 hx).2; simp at this)]
      split <;> rfl

/-- A 64-bit word of the search that consists of PSB pattern. -/
def PatWord (m : List UInt8) (o : Nat) : Prop :=
  (PsbPair m o ∧ PsbPair m (o + 2) ∧ PsbPair m (o + 4) ∧ PsbPair m (o + 6)) ∨
  (m[o]? = some 0x82 ∧ PsbPair m (o + 1) ∧ PsbPair m (o + 3) ∧ PsbPair m (o + 5) ∧ m[o + 7]? = some 0x02)

theorem rdLE_pattern {m : List UInt8} {o : Nat} (h : o + 8 ≤ m.length) :
    ∃ v, rdLE m o 8 = .ok v ∧ ((v = psbPattern0 ∨ v = psbPattern1) ↔ PatWord m o) := by
  obtain ⟨b0, l0, e0⟩ := rd_ex (m := m) (i := o) (by omega)
  obtain ⟨b1, l1, e1⟩ := rd_ex (m := m) (i := o + 1) (by omega)
  obtain ⟨b2, l2, e2⟩ := rd_ex (m := m) (i := o + 2) (by omega)
  obtain ⟨b3, l3, e3⟩ := rd_ex (m := m) (i := o + 3) (by omega)
  obtain ⟨b4, l4, e4⟩ := rd_ex (m := m) (i := o + 4) (by omega)
  obtain ⟨b5, l5, e5⟩ := rd_ex (m := m) (i := o + 5) (by omega)
  obtain ⟨b6, l6, e6⟩ := rd_ex (m := m) (i := o + 6) (by omega)
  obtain ⟨b7, l7, e7⟩ := rd_ex (m := m) (i := o + 7) (by omega)
  refine ⟨_, by simp [rdLE, e0, e1, e2, e3, e4, e5, e6, e7]; rfl, ?_⟩
  unfold PatWord
  simp only [psbPair_rd, ← rd_eq_iff, e0, e1, e2, e3, e4, e5, e6, e7, Res.ok.injEq, Nat.add_assoc,
    Nat.reduceAdd, psbPattern0, psbPattern1]
  rw [show (0x82 : UInt8).toNat = 0x82 from rfl, show (0x02 : UInt8).toNat = 0x02 from rfl]
  omega

/-- A word at offset `o` at which the forward search stops. -/
def Hit (m : List UInt8) (start o q : Nat) : Prop :=
  PatWord m o ∧ findPsb m o = .ok (some q) ∧ start ≤ q

theorem syncForwardLoop_spec {m : List UInt8} {base start : Nat} : ∀ {fuel a : Nat}, base ≤ a →
    base + m.length < a + 8 * fuel → 0 < fuel →
    (∃ w q, syncForwardLoop m base start fuel a = .ok q ∧ a ≤ w ∧ w % 8 = a % 8 ∧
      w + 8 ≤ base + m.length ∧ Hit m start (w - base) q ∧
      ∀ w' q', a ≤ w' → w' < w → w' % 8 = a % 8 → ¬ Hit m start (w' - base) q') ∨
    (syncForwardLoop m base start fuel a = .err .eos ∧
      ∀ w' q', a ≤ w' → w' + 8 ≤ base + m.length → w' % 8 = a % 8 →
        ¬ Hit m start (w' - base) q') := by
  intro fuel
  induction fuel with
  | zero =>
    intro a hb h h0
    omega
  | succ fuel ih =>
    intro a hb h h0
    simp only [syncForwardLoop]
    split
    · exact .inr ⟨rfl, fun w' q' h1 h2 _ => by omega⟩
    · rename_i hl
      obtain ⟨v, hv, hiff⟩ := rdLE_pattern (m := m) (o := a - base) (by omega)
      simp only [hv, Res.bind_ok]
      have next : (∀ q', ¬ Hit m start (a - base) q') →
          (∃ w q, syncForwardLoop m base start fuel (a + 8) = .ok q ∧ a ≤ w ∧ w % 8 = a % 8 ∧
            w + 8 ≤ base + m.length ∧ Hit m start (w - base) q ∧
            ∀ w' q', a ≤ w' → w' < w → w' % 8 = a % 8 → ¬ Hit m start (w' - base) q') ∨
          (syncForwardLoop m base start fuel (a + 8) = .err .eos ∧
            ∀ w' q', a ≤ w' → w' + 8 ≤ base + m.length → w' % 8 = a % 8 →
              ¬ Hit m start (w' - base) q') := by
        intro hno
        rcases ih (a := a + 8) (by omega) (by omega) (by omega) with ⟨w, q, h1, h2, h3, h4, h5, h6⟩ | ⟨h1, h2⟩
        · refine .inl ⟨w, q, h1, by omega, by omega, h4, h5, ?_⟩
          intro w' q' h7 h8 h9
          by_cases hw : w' = a
          · subst hw; exact hno q'
          · exact h6 w' q' (by omega) h8 (by omega)
        · refine .inr ⟨h1, ?_⟩
          intro w' q' h7 h8 h9
          by_cases hw : w' = a
          · subst hw; exact hno q'
          · exact h2 w' q' (by omega) h8 (by omega)
      split
      · apply next
        intro q' hh
        have := hiff.2 hh.1
        omega
      · rename_i hpat
        have hw : PatWord m (a - base) := hiff.1 (by omega)
        obtain ⟨k, hk1, hk2, hf⟩ := findPsb_spec (m := m) (pos := a - base) (by omega)
        rw [hf]
        simp only [Res.bind_ok]
        split
        · rename_i hnone
          apply next
          intro q' hh
          have := hh.2.1
          rw [hf, hnone] at this
          simp at this
        · rename_i q hsome
          split
          · apply next
            intro q' hh
            have := hh.2.1
            rw [hf, hsome] at this
            simp at this
            have := hh.2.2
            omega
          · refine .inl ⟨a, q, rfl, by omega, rfl, by omega, ⟨hw, by rw [hf, hsome], by omega⟩, ?_⟩
            intro w' q' h1 h2
            omega

/-- The aligned word inside a PSB is a hit, and what is found there is the end of the run that
the PSB belongs to. -/
theorem psb_word {m : List UInt8} {q o : Nat} (hq : IsPsb m q) (h1 : q ≤ o) (h2 : o ≤ q + 8) :
    PatWord m o ∧ ∃ k, findPsb m o = .ok (some (q + 2 * k)) ∧
      (∀ j, j < k + 8 → PsbPair m (q + 2 * j)) ∧ ¬ PsbPair m (q + 2 * (k + 8)) := by
  have hb := isPsb_bound hq
  have hp : ∀ i, i ≤ 14 → i % 2 = 0 → PsbPair m (q + i) := by
    intro i hi he
    have := hq (i / 2) (by omega)
    rwa [show q + 2 * (i / 2) = q + i by omega] at this
  have hstart : ∃ i, pairStart m o = q + i ∧ i ≤ 8 ∧ i % 2 = 0 := by
    unfold pairStart
    by_cases he : (o - q) % 2 = 0
    · have := (hp (o - q) (by omega) he).1
      rw [show q + (o - q) = o by omega] at this
      rw [if_pos this]
      exact ⟨o - q, by omega, by omega, he⟩
    · have := (hp (o - q - 1) (by omega) (by omega)).2
      rw [show q + (o - q - 1) + 1 = o by omega] at this
      rw [if_neg (by rw [this]; decide)]
      exact ⟨o + 1 - q, by omega, by omega, by omega⟩
  obtain ⟨i, hi, hi8, hi2⟩ := hstart
  constructor
  · by_cases he : (o - q) % 2 = 0
    · left
      refine ⟨?_, ?_, ?_, ?_⟩
      · have := hp (o - q) (by omega) he; rwa [show q + (o - q) = o by omega] at this
      · have := hp (o + 2 - q) (by omega) (by omega); rwa [show q + (o + 2 - q) = o + 2 by omega] at this
      · have := hp (o + 4 - q) (by omega) (by omega); rwa [show q + (o + 4 - q) = o + 4 by omega] at this
      · have := hp (o + 6 - q) (by omega) (by omega); rwa [show q + (o + 6 - q) = o + 6 by omega] at this
    · right
      refine ⟨?_, ?_, ?_, ?_, ?_⟩
      · have := (hp (o - q - 1) (by omega) (by omega)).2
        rwa [show q + (o - q - 1) + 1 = o by omega] at this
      · have := hp (o + 1 - q) (by omega) (by omega); rwa [show q + (o + 1 - q) = o + 1 by omega] at this
      · have := hp (o + 3 - q) (by omega) (by omega); rwa [show q + (o + 3 - q) = o + 3 by omega] at this
      · have := hp (o + 5 - q) (by omega) (by omega); rwa [show q + (o + 5 - q) = o + 5 by omega] at this
      · have := (hp (o + 7 - q) (by omega) (by omega)).1; rwa [show q + (o + 7 - q) = o + 7 by omega] at this
  · obtain ⟨k, hk1, hk2, hf⟩ := findPsb_spec (m := m) (pos := o) (by omega)
    rw [hi] at hk1 hk2 hf
    -- the run covers the rest of the PSB
    have hk : 16 ≤ i + 2 * k := by
      apply Classical.byContradiction
      intro hlt
      apply hk2
      have := hp (i + 2 * k) (by omega) (by omega)
      rwa [show q + (i + 2 * k) = q + i + 2 * k by omega] at this
    have hall : ∀ j, 2 * j < i + 2 * k → PsbPair m (q + 2 * j) := by
      intro j hj
      by_cases hji : 2 * j < i
      · exact hp (2 * j) (by omega) (by omega)
      · have := hk1 (j - i / 2) (by omega)
        rwa [show q + i + 2 * (j - i / 2) = q + 2 * j by omega] at this
    refine ⟨(i + 2 * k) / 2 - 8, ?_, ?_, ?_⟩
    · rw [hf, if_pos]
      · simp; omega
      · refine ⟨by omega, ?_⟩
        intro j hj
        have := hall ((i + 2 * k - 16) / 2 + j) (by omega)
        rwa [show q + 2 * ((i + 2 * k - 16) / 2 + j) = q + i + 2 * k - 16 + 2 * j by omega] at this
    · intro j hj; exact hall j (by omega)
    · rwa [show q + 2 * ((i + 2 * k) / 2 - 8 + 8) = q + i + 2 * k by omega]

/-- What a hit tells about the pattern. -/
theorem findPsb_some {m : List UInt8} {o q : Nat} (ho : o < m.length) (h : findPsb m o = .ok (some q)) :
    IsPsb m q ∧ ¬ PsbPair m (q + 16) ∧ o ≤ q + 16 ∧
    (∀ i, o < i → i < q + 16 → (q + 16 - i) % 2 = 0 → PsbPair m i) := by
  obtain ⟨k, hk1, hk2, hf⟩ := findPsb_spec ho
  rw [h] at hf
  by_cases hc : 16 ≤ pairStart m o + 2 * k ∧ IsPsb m (pairStart m o + 2 * k - 16)
  · rw [if_pos hc] at hf
    simp at hf
    have hps : pairStart m o = o ∨ pairStart m o = o + 1 := by unfold pairStart; split <;> simp
    refine ⟨by rw [hf]; exact hc.2, ?_, by omega, ?_⟩
    · rwa [show q + 16 = pairStart m o + 2 * k by omega]
    · intro i h1 h2 h3
      have := hk1 ((i - pairStart m o) / 2) (by omega)
      rwa [show pairStart m o + 2 * ((i - pairStart m o) / 2) = i by omega] at this
  · rw [if_neg hc] at hf
    simp at hf

end Ipt

namespace Ipt
open Spec

/-- A word at offset `o` at which the backward search stops. -/
def HitB (m : List UInt8) (o q : Nat) : Prop := PatWord m o ∧ findPsb m o = .ok (some q)

theorem syncBackwardLoop_spec {m : List UInt8} {base : Nat} : ∀ {fuel a : Nat},
    a ≤ base + m.length → a < base + 8 * fuel → 0 < fuel →
    (∃ w q, syncBackwardLoop m base fuel a = .ok q ∧ w + 8 ≤ a ∧ w % 8 = a % 8 ∧
      base ≤ w ∧ HitB m (w - base) q ∧
      ∀ w' q', w < w' → w' + 8 ≤ a → w' % 8 = a % 8 → ¬ HitB m (w' - base) q') ∨
    (syncBackwardLoop m base fuel a = .err .eos ∧
      ∀ w' q', base ≤ w' → w' + 8 ≤ a → w' % 8 = a % 8 → ¬ HitB m (w' - base) q') := by
  intro fuel
  induction fuel with
  | zero => intro a hb h h0; omega
  | succ fuel ih =>
    intro a hb h h0
    simp only [syncBackwardLoop]
    split
    · exact .inr ⟨rfl, fun w' q' h1 h2 _ => by omega⟩
    · rename_i hl
      obtain ⟨v, hv, hiff⟩ := rdLE_pattern (m := m) (o := a - 8 - base) (by omega)
      simp only [hv, Res.bind_ok]
      have next : (∀ q', ¬ HitB m (a - 8 - base) q') →
          (∃ w q, syncBackwardLoop m base fuel (a - 8) = .ok q ∧ w + 8 ≤ a ∧ w % 8 = a % 8 ∧
            base ≤ w ∧ HitB m (w - base) q ∧
            ∀ w' q', w < w' → w' + 8 ≤ a → w' % 8 = a % 8 → ¬ HitB m (w' - base) q') ∨
          (syncBackwardLoop m base fuel (a - 8) = .err .eos ∧
            ∀ w' q', base ≤ w' → w' + 8 ≤ a → w' % 8 = a % 8 → ¬ HitB m (w' - base) q') := by
        intro hno
        rcases ih (a := a - 8) (by omega) (by omega) (by omega) with
          ⟨w, q, h1, h2, h3, h4, h5, h6⟩ | ⟨h1, h2⟩
        · refine .inl ⟨w, q, h1, by omega, by omega, h4, h5, ?_⟩
          intro w' q' h7 h8 h9
          by_cases hw : w' = a - 8
          · subst hw; exact hno q'
          · exact h6 w' q' (by omega) (by omega) (by omega)
        · refine .inr ⟨h1, ?_⟩
          intro w' q' h7 h8 h9
          by_cases hw : w' = a - 8
          · subst hw; exact hno q'
          · exact h2 w' q' (by omega) (by omega) (by omega)
      split
      · apply next
        intro q' hh
        have := hiff.2 hh.1
        omega
      · rename_i hpat
        have hw : PatWord m (a - 8 - base) := hiff.1 (by omega)
        obtain ⟨k, hk1, hk2, hf⟩ := findPsb_spec (m := m) (pos := a - 8 - base) (by omega)
        rw [hf]
        simp only [Res.bind_ok]
        split
        · rename_i hnone
          apply next
          intro q' hh
          have := hh.2
          rw [hf, hnone] at this
          simp at this
        · rename_i q hsome
          refine .inl ⟨a - 8, q, rfl, by omega, by omega, by omega, ⟨hw, by rw [hf, hsome]⟩, ?_⟩
          intro w' q' h1 h2
          omega

theorem hitB_run {m : List UInt8} {o q : Nat} (ho : o < m.length) (h : HitB m o q) :
    o + 7 ≤ q + 16 ∧ ∃ s, s ≤ o + 1 ∧ PsbRun m s (q + 16) := by
  obtain ⟨hw, hf⟩ := h
  obtain ⟨k, k1, k2, k3⟩ := findPsb_spec ho
  rw [hf] at k3
  have hk : 3 ≤ k ∧ (pairStart m o = o → 4 ≤ k) := by
    rcases hw with ⟨p0, p1, p2, p3⟩ | ⟨p0, p1, p2, p3, p4⟩
    · have hps : pairStart m o = o := by unfold pairStart; rw [if_pos p0.1]
      rw [hps] at k2
      have : 4 ≤ k := by
        apply Classical.byContradiction
        intro hn
        have : k = 0 ∨ k = 1 ∨ k = 2 ∨ k = 3 := by omega
        rcases this with rfl | rfl | rfl | rfl
        · exact k2 p0
        · exact k2 p1
        · exact k2 p2
        · exact k2 p3
      omega
    · have hps : pairStart m o = o + 1 := by unfold pairStart; rw [if_neg (by rw [p0]; decide)]
      rw [hps] at k2
      have : 3 ≤ k := by
        apply Classical.byContradiction
        intro hn
        have : k = 0 ∨ k = 1 ∨ k = 2 := by omega
        rcases this with rfl | rfl | rfl
        · exact k2 p1
        · exact k2 p2
        · exact k2 p3
      omega
  have hps : pairStart m o = o ∨ pairStart m o = o + 1 := by unfold pairStart; split <;> simp
  split at k3
  · simp at k3
    exact ⟨by omega, pairStart m o, by omega, k, by omega, k1⟩
  · simp at k3

end Ipt
