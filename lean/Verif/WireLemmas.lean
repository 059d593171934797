import Verif.PacketDispatch
import Verif.Spec.Wire

set_option linter.unusedSimpArgs false

/-! Helper lemmas: the decoder accepts exactly the wire format. -/

namespace Ipt

open Spec

theorem rd_wire {m : List UInt8} {pos i : Nat} (h : pos + i < m.length) :
    rd m (pos + i) = .ok (bytesAt m pos i) := by
  rw [rd_lt h]
  unfold bytesAt
  simp [List.getD, List.getElem?_eq_getElem h]

theorem bytesAt_lt (m : List UInt8) (pos i : Nat) : bytesAt m pos i < 256 := by
  unfold bytesAt
  have := (m.getD (pos + i) 0).toNat_lt
  omega

theorem rdLE_wire {m : List UInt8} {pos : Nat} (k : Nat) : ∀ {i : Nat}, pos + i + k ≤ m.length →
    rdLE m (pos + i) k = .ok (le (bytesAt m pos) i k) := by
  induction k with
  | zero => intro i _; rfl
  | succ k ih =>
    intro i h
    unfold rdLE le
    rw [rd_wire (by omega)]
    simp only [Res.bind_ok]
    rw [show pos + i + 1 = pos + (i + 1) by omega, ih (by omega)]
    rfl

theorem le_lt {b : Nat → Nat} (h : ∀ i, b i < 256) (k : Nat) : ∀ i, le b i k < 256 ^ k := by
  induction k with
  | zero => intro i; simp [le]
  | succ k ih => intro i; have := ih (i + 1); have := h i; unfold le; rw [Nat.pow_succ]; omega

theorem ipSize_bytes (ipc s : Nat) : ipSize ipc = .ok s ↔ ipBytes ipc = some s := by
  unfold ipSize ipBytes
  by_cases h0 : ipc = 0
  · subst h0; simp
  by_cases h1 : ipc = 1
  · subst h1; simp
  by_cases h2 : ipc = 2
  · subst h2; simp
  by_cases h3 : ipc = 3
  · subst h3; simp
  by_cases h4 : ipc = 4
  · subst h4; simp
  by_cases h6 : ipc = 6
  · subst h6; simp
  simp only [h0, h1, h2, h3, h4, h6, if_false]
  simp

theorem ptwSize_bytes (plc s : Nat) : ptwSize plc = .ok s ↔ ptwBytes plc = some s := by
  unfold ptwSize ptwBytes
  by_cases h0 : plc = 0
  · subst h0; simp
  by_cases h1 : plc = 1
  · subst h1; simp
  simp only [h0, h1, if_false]
  by_cases h2 : plc = 2 ∨ plc = 3
  · rw [if_pos h2]; simp
  · rw [if_neg h2]; simp

theorem log2_split {v : Nat} (h : Nat.log2 v ≠ 0) :
    1 ≤ Nat.log2 v ∧ v - 2 ^ Nat.log2 v < 2 ^ Nat.log2 v ∧ v = 2 ^ Nat.log2 v + (v - 2 ^ Nat.log2 v) := by
  have hv : v ≠ 0 := by rintro rfl; simp at h
  have h1 := (Nat.log2_eq_iff hv).mp rfl
  rw [Nat.pow_succ] at h1
  omega

theorem readTnt_iff (v s p : Nat) : readTnt v = .ok (s, p) ↔ 1 ≤ s ∧ p < 2 ^ s ∧ v = 2 ^ s + p := by
  unfold readTnt
  simp only
  constructor
  · intro h
    by_cases h0 : Nat.log2 v = 0
    · rw [if_pos h0] at h; cases h
    · rw [if_neg h0] at h
      simp only [Res.ok.injEq, Prod.mk.injEq] at h
      obtain ⟨rfl, rfl⟩ := h
      exact log2_split h0
  · rintro ⟨h1, h2, rfl⟩
    have hl : Nat.log2 (2 ^ s + p) = s := by
      rw [Nat.log2_eq_iff (by have : 0 < 2 ^ s := Nat.two_pow_pos _; omega), Nat.pow_succ]; omega
    rw [hl, if_neg (by omega)]
    simp

theorem readCycLoop_iff {m : List UInt8} {pos : Nat} (k : Nat) : ∀ (fuel i shl value v q : Nat),
    k ≤ fuel → shl + 7 * k = 68 →
    (readCycLoop m fuel (pos + i) shl value true = .ok (v, q) ↔
      ∃ j w, q = pos + i + j ∧ q ≤ m.length ∧ shl + 7 * j ≤ 64 ∧ CycTail (bytesAt m pos) i j w ∧
        v = value + w * 2 ^ shl) := by
  induction k with
  | zero =>
    intro fuel i shl value v q hf hs
    cases fuel with
    | zero =>
      unfold readCycLoop
      constructor
      · intro h; cases h
      · rintro ⟨j, w, _, _, hj, ht, _⟩
        have : j = 0 := by omega
        subst this; exact absurd ht (by simp [CycTail])
    | succ fuel =>
      unfold readCycLoop
      constructor
      · intro h
        simp only [Bool.true_eq_false, if_false] at h
        by_cases hl : m.length ≤ pos + i
        · rw [if_pos hl] at h; cases h
        · rw [if_neg hl, rd_wire (by omega)] at h
          simp only [Res.bind_ok] at h
          rw [if_pos (by omega)] at h; cases h
      · rintro ⟨j, w, _, _, hj, ht, _⟩
        have : j = 0 := by omega
        subst this; exact absurd ht (by simp [CycTail])
  | succ k ih =>
    intro fuel i shl value v q hf hs
    obtain ⟨fuel, rfl⟩ : ∃ f, fuel = f + 1 := ⟨fuel - 1, by omega⟩
    rw [readCycLoop]
    simp only [Bool.true_eq_false, if_false]
    by_cases hl : m.length ≤ pos + i
    · rw [if_pos hl]
      constructor
      · intro h; cases h
      · rintro ⟨j, w, hq, hq', hj, ht, _⟩
        cases j with
        | zero => exact absurd ht (by simp [CycTail])
        | succ j => omega
    · rw [if_neg hl, rd_wire (by omega)]
      simp only [Res.bind_ok]
      by_cases h64 : 64 < shl + 7
      · rw [if_pos h64]
        constructor
        · intro h; cases h
        · rintro ⟨j, w, hq, hq', hj, ht, _⟩
          cases j with
          | zero => exact absurd ht (by simp [CycTail])
          | succ j => omega
      · rw [if_neg h64]
        have hbit : (bytesAt m pos i).testBit 0 = decide (bytesAt m pos i % 2 = 1) := by
          rw [Nat.testBit_eq_decide_div_mod_eq]; simp
        rw [hbit]
        by_cases hb : bytesAt m pos i % 2 = 1
        · simp only [hb, decide_true]
          rw [show pos + i + 1 = pos + (i + 1) by omega, ih fuel (i + 1) (shl + 7) _ v q (by omega) (by omega)]
          constructor
          · rintro ⟨j, w, hq, hq', hj, ht, hv⟩
            cases j with
            | zero => exact absurd ht (by simp [CycTail])
            | succ j =>
              refine ⟨j + 2, bytesAt m pos i / 2 + 128 * w, by omega, hq', by omega, ⟨hb, w, ht, rfl⟩, ?_⟩
              rw [hv, Nat.pow_add, Nat.add_mul, show (2 : Nat) ^ 7 = 128 by decide]
              rw [Nat.mul_right_comm 128 w, Nat.mul_comm 128 (2 ^ shl), Nat.mul_comm _ w]
              omega
          · rintro ⟨j, w, hq, hq', hj, ht, hv⟩
            match j, ht with
            | 1, ht => exact absurd ht.1 (by omega)
            | j + 2, ht =>
              obtain ⟨_, w', ht', rfl⟩ := ht
              refine ⟨j + 1, w', by omega, hq', by omega, ht', ?_⟩
              rw [hv, Nat.pow_add, Nat.add_mul, show (2 : Nat) ^ 7 = 128 by decide]
              rw [Nat.mul_right_comm 128 w', Nat.mul_comm 128 (2 ^ shl), Nat.mul_comm _ w']
              omega
        · simp only [hb, decide_false]
          cases fuel with
          | zero => omega
          | succ fuel =>
            unfold readCycLoop
            simp only [if_true, Res.ok.injEq, Prod.mk.injEq]
            constructor
            · rintro ⟨hv, hq⟩
              exact ⟨1, bytesAt m pos i / 2, by omega, by omega, by omega, ⟨by omega, rfl⟩, hv.symm⟩
            · rintro ⟨j, w, hq, hq', hj, ht, hv⟩
              match j, ht with
              | 1, ht => rw [ht.2] at hv; exact ⟨hv.symm, by omega⟩
              | j + 2, ht => exact absurd ht.1 (by omega)

/-- A reader that reads `k` bytes and always succeeds then. -/
theorem fixed_iff {p' : Packet} {k n : Nat} {p : Packet} {m : List UInt8} {pos : Nat} {r : Res (Packet × Nat)}
    (h1 : m.length < pos + k → r = .err .eos) (h2 : ¬ m.length < pos + k → r = .ok (p', k)) :
    r = .ok (p, n) ↔ pos + k ≤ m.length ∧ n = k ∧ p = p' := by
  by_cases h : m.length < pos + k
  · rw [h1 h]; constructor
    · intro x; cases x
    · intro x; omega
  · rw [h2 h]
    simp only [Res.ok.injEq, Prod.mk.injEq]
    constructor
    · rintro ⟨rfl, rfl⟩; exact ⟨by omega, rfl, rfl⟩
    · rintro ⟨_, rfl, rfl⟩; exact ⟨rfl, rfl⟩

theorem readTsc_iff {m : List UInt8} {pos n : Nat} {p : Packet} :
    readTsc m pos = .ok (p, n) ↔ pos + 8 ≤ m.length ∧ n = 8 ∧ p = .tsc (le (bytesAt m pos) 1 7) := by
  refine fixed_iff (fun h => ?_) (fun h => ?_)
  · unfold readTsc; rw [if_pos h]
  · unfold readTsc; rw [if_neg h]
    simp only [rdLE_wire (m := m) (pos := pos) (i := 1) 7 (by omega), Res.bind_ok, Res.pure_eq]

theorem readCbr_iff {m : List UInt8} {pos n : Nat} {p : Packet} :
    readCbr m pos = .ok (p, n) ↔ pos + 4 ≤ m.length ∧ n = 4 ∧ p = .cbr ((bytesAt m pos) 2) := by
  refine fixed_iff (fun h => ?_) (fun h => ?_)
  · unfold readCbr; rw [if_pos h]
  · unfold readCbr; rw [if_neg h]
    simp only [rd_wire (m := m) (pos := pos) (i := 2) (by omega), Res.bind_ok, Res.pure_eq]

theorem readMtc_iff {m : List UInt8} {pos n : Nat} {p : Packet} :
    readMtc m pos = .ok (p, n) ↔ pos + 2 ≤ m.length ∧ n = 2 ∧ p = .mtc ((bytesAt m pos) 1) := by
  refine fixed_iff (fun h => ?_) (fun h => ?_)
  · unfold readMtc; rw [if_pos h]
  · unfold readMtc; rw [if_neg h]
    simp only [rd_wire (m := m) (pos := pos) (i := 1) (by omega), Res.bind_ok, Res.pure_eq]

theorem readVmcs_iff {m : List UInt8} {pos n : Nat} {p : Packet} :
    readVmcs m pos = .ok (p, n) ↔ pos + 7 ≤ m.length ∧ n = 7 ∧ p = .vmcs (le (bytesAt m pos) 2 5 * 4096) := by
  refine fixed_iff (fun h => ?_) (fun h => ?_)
  · unfold readVmcs; rw [if_pos h]
  · unfold readVmcs; rw [if_neg h]
    simp only [rdLE_wire (m := m) (pos := pos) (i := 2) 5 (by omega), Res.bind_ok, Res.pure_eq]

theorem readMnt_iff {m : List UInt8} {pos n : Nat} {p : Packet} :
    readMnt m pos = .ok (p, n) ↔ pos + 11 ≤ m.length ∧ n = 11 ∧ p = .mnt (le (bytesAt m pos) 3 8) := by
  refine fixed_iff (fun h => ?_) (fun h => ?_)
  · unfold readMnt; rw [if_pos h]
  · unfold readMnt; rw [if_neg h]
    simp only [rdLE_wire (m := m) (pos := pos) (i := 3) 8 (by omega), Res.bind_ok, Res.pure_eq]

theorem readExstop_iff {m : List UInt8} {pos n : Nat} {p : Packet} :
    readExstop m pos = .ok (p, n) ↔ pos + 2 ≤ m.length ∧ n = 2 ∧ p = .exstop (((bytesAt m pos) 1).testBit 7) := by
  refine fixed_iff (fun h => ?_) (fun h => ?_)
  · unfold readExstop; rw [if_pos h]
  · unfold readExstop; rw [if_neg h]
    simp only [rd_wire (m := m) (pos := pos) (i := 1) (by omega), Res.bind_ok, Res.pure_eq]

theorem readMwait_iff {m : List UInt8} {pos n : Nat} {p : Packet} :
    readMwait m pos = .ok (p, n) ↔ pos + 10 ≤ m.length ∧ n = 10 ∧ p = .mwait (le (bytesAt m pos) 2 4) (le (bytesAt m pos) 6 4) := by
  refine fixed_iff (fun h => ?_) (fun h => ?_)
  · unfold readMwait; rw [if_pos h]
  · unfold readMwait; rw [if_neg h]
    simp only [rdLE_wire (m := m) (pos := pos) (i := 2) 4 (by omega), rdLE_wire (m := m) (pos := pos) (i := 6) 4 (by omega), Res.bind_ok, Res.pure_eq]

theorem readPwre_iff {m : List UInt8} {pos n : Nat} {p : Packet} :
    readPwre m pos = .ok (p, n) ↔ pos + 4 ≤ m.length ∧ n = 4 ∧ p = .pwre (le (bytesAt m pos) 2 2 / 4096 % 16) (le (bytesAt m pos) 2 2 / 256 % 16) ((le (bytesAt m pos) 2 2).testBit 3) := by
  refine fixed_iff (fun h => ?_) (fun h => ?_)
  · unfold readPwre; rw [if_pos h]
  · unfold readPwre; rw [if_neg h]
    simp only [rdLE_wire (m := m) (pos := pos) (i := 2) 2 (by omega), Res.bind_ok, Res.pure_eq]

theorem readPwrx_iff {m : List UInt8} {pos n : Nat} {p : Packet} :
    readPwrx m pos = .ok (p, n) ↔ pos + 7 ≤ m.length ∧ n = 7 ∧ p = .pwrx (le (bytesAt m pos) 2 5 / 16 % 16) (le (bytesAt m pos) 2 5 % 16) ((le (bytesAt m pos) 2 5).testBit 8) ((le (bytesAt m pos) 2 5).testBit 10) ((le (bytesAt m pos) 2 5).testBit 11) := by
  refine fixed_iff (fun h => ?_) (fun h => ?_)
  · unfold readPwrx; rw [if_pos h]
  · unfold readPwrx; rw [if_neg h]
    simp only [rdLE_wire (m := m) (pos := pos) (i := 2) 5 (by omega), Res.bind_ok, Res.pure_eq]

theorem readCfe_iff {m : List UInt8} {pos n : Nat} {p : Packet} :
    readCfe m pos = .ok (p, n) ↔ pos + 4 ≤ m.length ∧ n = 4 ∧ p = .cfe ((bytesAt m pos) 2 % 32) ((bytesAt m pos) 3) (((bytesAt m pos) 2).testBit 7) := by
  refine fixed_iff (fun h => ?_) (fun h => ?_)
  · unfold readCfe; rw [if_pos h]
  · unfold readCfe; rw [if_neg h]
    simp only [rd_wire (m := m) (pos := pos) (i := 2) (by omega), rd_wire (m := m) (pos := pos) (i := 3) (by omega), Res.bind_ok, Res.pure_eq]

theorem readEvd_iff {m : List UInt8} {pos n : Nat} {p : Packet} :
    readEvd m pos = .ok (p, n) ↔ pos + 11 ≤ m.length ∧ n = 11 ∧ p = .evd ((bytesAt m pos) 2 % 32) (le (bytesAt m pos) 3 8) := by
  refine fixed_iff (fun h => ?_) (fun h => ?_)
  · unfold readEvd; rw [if_pos h]
  · unfold readEvd; rw [if_neg h]
    simp only [rdLE_wire (m := m) (pos := pos) (i := 3) 8 (by omega), rd_wire (m := m) (pos := pos) (i := 2) (by omega), Res.bind_ok, Res.pure_eq]

theorem readPip_iff {m : List UInt8} {pos n : Nat} {p : Packet} :
    readPip m pos = .ok (p, n) ↔ pos + 8 ≤ m.length ∧ n = 8 ∧ p = .pip (le (bytesAt m pos) 2 6 / 2 * 32) ((le (bytesAt m pos) 2 6).testBit 0) := by
  refine fixed_iff (fun h => ?_) (fun h => ?_)
  · unfold readPip; rw [if_pos h]
  · unfold readPip; rw [if_neg h]
    simp only [rdLE_wire (m := m) (pos := pos) (i := 2) 6 (by omega), Res.bind_ok, Res.pure_eq]

theorem readTnt8_iff {m : List UInt8} {pos n : Nat} {p : Packet} (h0 : pos < m.length) :
    readTnt8 m pos = .ok (p, n) ↔
      ∃ s v, n = 1 ∧ p = .tnt8 s v ∧ 1 ≤ s ∧ v < 2 ^ s ∧ bytesAt m pos 0 / 2 = 2 ^ s + v := by
  unfold readTnt8
  have := rd_wire (m := m) (pos := pos) (i := 0) h0
  rw [Nat.add_zero] at this
  rw [this]
  simp only [Res.bind_ok]
  cases hr : readTnt (bytesAt m pos 0 / 2) with
  | ub => simp [readTnt] at hr; split at hr <;> cases hr
  | err e =>
    constructor
    · intro h; cases h
    · rintro ⟨s, v, _, _, h1⟩
      rw [(readTnt_iff _ s v).2 h1] at hr; cases hr
  | ok a =>
    obtain ⟨s, v⟩ := a
    simp only [Res.bind_ok, Res.pure_eq, Res.ok.injEq, Prod.mk.injEq]
    have h1 := (readTnt_iff _ s v).1 hr
    constructor
    · rintro ⟨rfl, rfl⟩; exact ⟨s, v, rfl, rfl, h1⟩
    · rintro ⟨s', v', rfl, rfl, h2⟩
      have h3 := (readTnt_iff _ s' v').2 h2
      rw [hr] at h3
      simp only [Res.ok.injEq, Prod.mk.injEq] at h3
      obtain ⟨rfl, rfl⟩ := h3
      exact ⟨rfl, rfl⟩

theorem readTnt64_iff {m : List UInt8} {pos n : Nat} {p : Packet} :
    readTnt64 m pos = .ok (p, n) ↔
      pos + 8 ≤ m.length ∧ ∃ s v, n = 8 ∧ p = .tnt64 s v ∧ 1 ≤ s ∧ v < 2 ^ s ∧
        le (bytesAt m pos) 2 6 = 2 ^ s + v := by
  unfold readTnt64
  by_cases h : m.length < pos + 8
  · rw [if_pos h]; constructor
    · intro x; cases x
    · intro x; omega
  rw [if_neg h, rdLE_wire 6 (by omega)]
  simp only [Res.bind_ok]
  cases hr : readTnt (le (bytesAt m pos) 2 6) with
  | ub => simp only [readTnt] at hr; split at hr <;> cases hr
  | err e =>
    constructor
    · intro h; cases h
    · rintro ⟨_, s, v, _, _, h1⟩
      rw [(readTnt_iff _ s v).2 h1] at hr; cases hr
  | ok a =>
    obtain ⟨s, v⟩ := a
    simp only [Res.bind_ok, Res.pure_eq, Res.ok.injEq, Prod.mk.injEq]
    have h1 := (readTnt_iff _ s v).1 hr
    constructor
    · rintro ⟨rfl, rfl⟩; exact ⟨by omega, s, v, rfl, rfl, h1⟩
    · rintro ⟨_, s', v', rfl, rfl, h2⟩
      have h3 := (readTnt_iff _ s' v').2 h2
      rw [hr] at h3
      simp only [Res.ok.injEq, Prod.mk.injEq] at h3
      obtain ⟨rfl, rfl⟩ := h3
      exact ⟨rfl, rfl⟩

theorem readTma_iff {m : List UInt8} {pos n : Nat} {p : Packet} :
    readTma m pos = .ok (p, n) ↔ pos + 7 ≤ m.length ∧ n = 7 ∧ bytesAt m pos 4 = 0 ∧
      le (bytesAt m pos) 5 2 < 512 ∧ p = .tma (le (bytesAt m pos) 2 2) (le (bytesAt m pos) 5 2) := by
  unfold readTma
  by_cases h : m.length < pos + 7
  · rw [if_pos h]; constructor
    · intro x; cases x
    · intro x; omega
  rw [if_neg h]
  have r (i) (hi : i < 7) := rd_wire (m := m) (pos := pos) (i := i) (by omega)
  rw [r 2 (by omega), r 3 (by omega), r 4 (by omega), r 5 (by omega), r 6 (by omega)]
  simp only [Res.bind_ok]
  have e1 : le (bytesAt m pos) 5 2 = bytesAt m pos 5 + 256 * bytesAt m pos 6 := by simp [le]
  have e2 : le (bytesAt m pos) 2 2 = bytesAt m pos 2 + 256 * bytesAt m pos 3 := by simp [le]
  rw [e1, e2]
  by_cases h1 : (bytesAt m pos 5 + 256 * bytesAt m pos 6) / 512 ≠ 0
  · rw [if_pos h1]; constructor
    · intro x; cases x
    · intro x; omega
  rw [if_neg h1]
  by_cases h2 : bytesAt m pos 4 ≠ 0
  · rw [if_pos h2]; constructor
    · intro x; cases x
    · intro x; exact absurd x.2.2.1 h2
  rw [if_neg h2]
  simp only [Res.pure_eq, Res.ok.injEq, Prod.mk.injEq]
  constructor
  · rintro ⟨rfl, rfl⟩; exact ⟨by omega, rfl, by omega, by omega, rfl⟩
  · rintro ⟨_, rfl, _, _, rfl⟩; exact ⟨rfl, rfl⟩

theorem testBit_dec (v i : Nat) : v.testBit i = decide (v / 2 ^ i % 2 = 1) :=
  Nat.testBit_eq_decide_div_mod_eq

theorem readMode_iff {m : List UInt8} {pos n : Nat} {p : Packet} :
    readMode m pos = .ok (p, n) ↔ pos + 2 ≤ m.length ∧ n = 2 ∧
      ((bytesAt m pos 1 / 32 = 0 ∧ p = .modeExec ((bytesAt m pos 1).testBit 0) ((bytesAt m pos 1).testBit 1)
          ((bytesAt m pos 1).testBit 2)) ∨
       (bytesAt m pos 1 / 32 = 1 ∧ p = .modeTsx ((bytesAt m pos 1).testBit 0) ((bytesAt m pos 1).testBit 1))) := by
  unfold readMode
  by_cases h : m.length < pos + 2
  · rw [if_pos h]; constructor
    · intro x; cases x
    · intro x; omega
  rw [if_neg h, rd_wire (i := 1) (by omega)]
  simp only [Res.bind_ok]
  by_cases h1 : bytesAt m pos 1 / 32 * 32 = 0
  · rw [if_pos h1]
    simp only [Res.pure_eq, Res.ok.injEq, Prod.mk.injEq]
    constructor
    · rintro ⟨rfl, rfl⟩; exact ⟨by omega, rfl, .inl ⟨by omega, rfl⟩⟩
    · rintro ⟨_, rfl, ⟨_, rfl⟩ | ⟨h3, _⟩⟩
      · exact ⟨rfl, rfl⟩
      · omega
  rw [if_neg h1]
  by_cases h2 : bytesAt m pos 1 / 32 * 32 = 0x20
  · rw [if_pos h2]
    simp only [Res.pure_eq, Res.ok.injEq, Prod.mk.injEq]
    constructor
    · rintro ⟨rfl, rfl⟩; exact ⟨by omega, rfl, .inr ⟨by omega, rfl⟩⟩
    · rintro ⟨_, rfl, ⟨h3, _⟩ | ⟨_, rfl⟩⟩
      · omega
      · exact ⟨rfl, rfl⟩
  rw [if_neg h2]
  constructor
  · intro x; cases x
  · rintro ⟨_, _, ⟨h3, _⟩ | ⟨h3, _⟩⟩ <;> omega

theorem readIpPkt_iff {m : List UInt8} {pos n : Nat} {p : Packet} {mk : Nat → Nat → Packet} (h0 : pos < m.length) :
    readIpPkt mk m pos = .ok (p, n) ↔ ∃ ipc k, ipBytes ipc = some k ∧ bytesAt m pos 0 / 32 = ipc ∧
      n = 1 + k ∧ pos + n ≤ m.length ∧ p = mk ipc (le (bytesAt m pos) 1 k) := by
  have hb := bytesAt_lt m pos 0
  have hr := rd_wire (m := m) (pos := pos) (i := 0) h0
  rw [Nat.add_zero] at hr
  unfold readIpPkt readIp
  rw [hr]
  simp only [Res.bind_ok]
  have h8 : bytesAt m pos 0 / 32 % 8 = bytesAt m pos 0 / 32 := by omega
  rw [h8]
  cases hs : ipSize (bytesAt m pos 0 / 32) with
  | ub => exact absurd hs (ipSize_safe _)
  | err e =>
    constructor
    · intro x; cases x
    · rintro ⟨ipc, k, h1, rfl, _⟩
      rw [(ipSize_bytes _ k).2 h1] at hs; cases hs
  | ok s =>
    have h1 := (ipSize_bytes _ s).1 hs
    simp only [Res.bind_ok]
    by_cases h : m.length < pos + 1 + s
    · rw [if_pos h]
      constructor
      · intro x; cases x
      · rintro ⟨ipc, k, h2, rfl, h3, h4, _⟩
        rw [h1] at h2; cases h2; omega
    · rw [if_neg h, rdLE_wire s (by omega)]
      simp only [Res.bind_ok, Res.pure_eq, Res.ok.injEq, Prod.mk.injEq]
      constructor
      · rintro ⟨rfl, rfl⟩; exact ⟨_, s, h1, rfl, by omega, by omega, rfl⟩
      · rintro ⟨ipc, k, h2, rfl, rfl, h4, rfl⟩
        rw [h1] at h2; cases h2; exact ⟨rfl, by omega⟩

theorem readPtw_iff {m : List UInt8} {pos n : Nat} {p : Packet} (h0 : pos + 1 < m.length) :
    readPtw m pos = .ok (p, n) ↔ ∃ plc k, ptwBytes plc = some k ∧ bytesAt m pos 1 / 32 % 4 = plc ∧
      n = 2 + k ∧ pos + n ≤ m.length ∧
      p = .ptw (le (bytesAt m pos) 2 k) plc ((bytesAt m pos 1).testBit 7) := by
  unfold readPtw
  rw [rd_wire (i := 1) h0]
  simp only [Res.bind_ok]
  cases hs : ptwSize (bytesAt m pos 1 / 32 % 4) with
  | ub => exact absurd hs (ptwSize_safe _)
  | err e =>
    constructor
    · intro x; cases x
    · rintro ⟨ipc, k, h1, rfl, _⟩
      rw [(ptwSize_bytes _ k).2 h1] at hs; cases hs
  | ok s =>
    have h1 := (ptwSize_bytes _ s).1 hs
    simp only [Res.bind_ok]
    by_cases h : m.length < pos + 2 + s
    · rw [if_pos h]
      constructor
      · intro x; cases x
      · rintro ⟨ipc, k, h2, rfl, h3, h4, _⟩
        rw [h1] at h2; cases h2; omega
    · rw [if_neg h, rdLE_wire s (by omega)]
      simp only [Res.bind_ok, Res.pure_eq, Res.ok.injEq, Prod.mk.injEq]
      constructor
      · rintro ⟨rfl, rfl⟩; exact ⟨_, s, h1, rfl, by omega, by omega, rfl⟩
      · rintro ⟨ipc, k, h2, rfl, rfl, h4, rfl⟩
        rw [h1] at h2; cases h2; exact ⟨rfl, by omega⟩

theorem readTrig_iff {m : List UInt8} {pos n : Nat} {p : Packet} :
    readTrig m pos = .ok (p, n) ↔ pos + n ≤ m.length ∧
      ((bytesAt m pos 1 / 64 % 2 = 1 ∧ n = 5 ∧
          p = .trig (bytesAt m pos 2) (some (le (bytesAt m pos) 3 2)) ((bytesAt m pos 1).testBit 7)
            ((bytesAt m pos 1).testBit 5)) ∨
       (bytesAt m pos 1 / 64 % 2 = 0 ∧ n = 3 ∧
          p = .trig (bytesAt m pos 2) none ((bytesAt m pos 1).testBit 7) ((bytesAt m pos 1).testBit 5))) := by
  unfold readTrig
  by_cases h : m.length < pos + 3
  · rw [if_pos h]; constructor
    · intro x; cases x
    · rintro ⟨hl, ⟨_, rfl, _⟩ | ⟨_, rfl, _⟩⟩ <;> omega
  rw [if_neg h, rd_wire (i := 1) (by omega)]
  simp only [Res.bind_ok]
  have ht : (bytesAt m pos 1).testBit 6 = decide (bytesAt m pos 1 / 64 % 2 = 1) := testBit_dec _ _
  by_cases h1 : bytesAt m pos 1 / 64 % 2 = 1
  · rw [if_pos (by rw [ht]; simpa using h1)]
    by_cases h2 : m.length < pos + 5
    · rw [if_pos h2]; constructor
      · intro x; cases x
      · rintro ⟨hl, ⟨_, rfl, _⟩ | ⟨_, rfl, _⟩⟩ <;> omega
    · rw [if_neg h2, rdLE_wire 2 (by omega), rd_wire (i := 2) (by omega)]
      simp only [Res.bind_ok, Res.pure_eq, Res.ok.injEq, Prod.mk.injEq]
      constructor
      · rintro ⟨rfl, rfl⟩; exact ⟨by omega, .inl ⟨h1, rfl, rfl⟩⟩
      · rintro ⟨hl, ⟨_, rfl, rfl⟩ | ⟨h3, _⟩⟩
        · exact ⟨rfl, rfl⟩
        · omega
  · rw [if_neg (by rw [ht]; simpa using h1), rd_wire (i := 2) (by omega)]
    simp only [Res.bind_ok, Res.pure_eq, Res.ok.injEq, Prod.mk.injEq]
    constructor
    · rintro ⟨rfl, rfl⟩; exact ⟨by omega, .inr ⟨by omega, rfl, rfl⟩⟩
    · rintro ⟨hl, ⟨h3, _⟩ | ⟨_, rfl, rfl⟩⟩
      · omega
      · exact ⟨rfl, rfl⟩

theorem readCyc_iff {m : List UInt8} {pos n : Nat} {p : Packet} (h0 : pos < m.length)
    (h3 : bytesAt m pos 0 % 4 = 3) :
    readCyc m pos = .ok (p, n) ↔ ∃ v, p = .cyc v ∧ pos + n ≤ m.length ∧ Wire (.cyc v) (bytesAt m pos) n := by
  have hr := rd_wire (m := m) (pos := pos) (i := 0) h0
  rw [Nat.add_zero] at hr
  unfold readCyc
  rw [hr]
  simp only [Res.bind_ok]
  have ht : (bytesAt m pos 0).testBit 2 = decide (bytesAt m pos 0 / 4 % 2 = 1) := testBit_dec _ _
  by_cases hb : bytesAt m pos 0 / 4 % 2 = 1
  · simp only [ht, hb, decide_true]
    constructor
    · intro h
      obtain ⟨⟨v, q⟩, hl, h⟩ := Res.bind_eq_ok.1 h
      simp only [Res.pure_eq, Res.ok.injEq, Prod.mk.injEq] at h
      obtain ⟨rfl, rfl⟩ := h
      obtain ⟨j, w, hq, hqm, hj, htl, hv⟩ := (readCycLoop_iff (m := m) (pos := pos) 9 10 1 5 _ v q (by omega) rfl).1 hl
      refine ⟨v, rfl, by omega, h3, by omega, .inr ⟨hb, by omega, w, ?_, by omega⟩⟩
      rw [show q - pos - 1 = j by omega]; exact htl
    · rintro ⟨v, rfl, hl, _, hn9, ⟨hx, _⟩ | ⟨_, hn, w, htl, hv⟩⟩
      · omega
      · have := (readCycLoop_iff (m := m) (pos := pos) 9 10 1 5 (bytesAt m pos 0 / 8) v (pos + n) (by omega) rfl).2
          ⟨n - 1, w, by omega, hl, by omega, htl, by omega⟩
        rw [this]
        simp
  · simp only [ht, hb, decide_false]
    rw [show readCycLoop m 10 (pos + 1) 5 (bytesAt m pos 0 / 8) false = .ok (bytesAt m pos 0 / 8, pos + 1) by
      unfold readCycLoop; rfl]
    simp only [Res.bind_ok, Res.pure_eq, Res.ok.injEq, Prod.mk.injEq]
    constructor
    · rintro ⟨rfl, rfl⟩
      exact ⟨_, rfl, by omega, h3, by omega, .inl ⟨by omega, by omega, rfl⟩⟩
    · rintro ⟨v, rfl, hl, _, hn9, ⟨_, hn, hv⟩ | ⟨hx, _⟩⟩
      · rw [hv]; exact ⟨rfl, by omega⟩
      · omega

theorem readPsbPairs_wire {m : List UInt8} {pos : Nat} (k : Nat) : ∀ {i : Nat}, pos + i + 2 * k ≤ m.length →
    (readPsbPairs m (pos + i) k = .ok () ↔
      ∀ j, j < k → bytesAt m pos (i + 2 * j) = 0x02 ∧ bytesAt m pos (i + 2 * j + 1) = 0x82) := by
  induction k with
  | zero => intro i _; unfold readPsbPairs; simp
  | succ k ih =>
    intro i h
    unfold readPsbPairs
    rw [rd_wire (by omega), show pos + i + 1 = pos + (i + 1) by omega, rd_wire (i := i + 1) (by omega)]
    simp only [Res.bind_ok]
    by_cases h1 : bytesAt m pos i ≠ 0x02
    · rw [if_pos h1]
      constructor
      · intro x; cases x
      · intro x; exact absurd (x 0 (by omega)).1 h1
    rw [if_neg h1]
    by_cases h2 : bytesAt m pos (i + 1) ≠ 0x82
    · rw [if_pos h2]
      constructor
      · intro x; cases x
      · intro x; exact absurd (x 0 (by omega)).2 h2
    rw [if_neg h2, show pos + i + 2 = pos + (i + 2) by omega, ih (by omega)]
    constructor
    · intro x j hj
      cases j with
      | zero => exact ⟨by simpa using h1, by simpa using h2⟩
      | succ j =>
        have := x j (by omega)
        rwa [show i + 2 + 2 * j = i + 2 * (j + 1) by omega] at this
    · intro x j hj
      have := x (j + 1) (by omega)
      rwa [show i + 2 * (j + 1) = i + 2 + 2 * j by omega] at this

theorem readPsb_iff {m : List UInt8} {pos n : Nat} (h0 : bytesAt m pos 0 = 0x02) (h1 : bytesAt m pos 1 = 0x82) :
    readPsb m pos = .ok n ↔ pos + n ≤ m.length ∧ Wire .psb (bytesAt m pos) n := by
  unfold readPsb
  by_cases h : m.length < pos + 16
  · rw [if_pos h]; constructor
    · intro x; cases x
    · rintro ⟨_, rfl, _⟩; omega
  rw [if_neg h]
  have hw := readPsbPairs_wire (m := m) (pos := pos) 7 (i := 2) (by omega)
  constructor
  · intro x
    obtain ⟨u, hu, x⟩ := Res.bind_eq_ok.1 x
    simp only [Res.pure_eq, Res.ok.injEq] at x
    subst x
    refine ⟨by omega, rfl, ?_⟩
    intro j hj
    cases j with
    | zero => exact ⟨h0, h1⟩
    | succ j =>
      have := (hw.1 hu) j (by omega)
      rwa [show 2 + 2 * j = 2 * (j + 1) by omega] at this
  · rintro ⟨_, rfl, x⟩
    rw [hw.2 (fun j hj => by
      have := x (j + 1) (by omega)
      rwa [show 2 * (j + 1) = 2 + 2 * j by omega] at this)]
    rfl

/-- The extended opcodes. -/
theorem decodeExt_iff {c : PktCfg} {pos n : Nat} {p : Packet} (hz : c.errata.skz84 = false) (hcb : c.cb = none)
    (h0 : bytesAt c.mem pos 0 = 0x02) :
    decodeExt c pos = .ok (p, n) ↔ pos + n ≤ c.mem.length ∧ Wire p (bytesAt c.mem pos) n := by
  have hunk : ∀ q, readUnknown c q = .err .badOpc := by intro q; unfold readUnknown; rw [hcb]
  constructor
  · intro h
    unfold decodeExt at h
    by_cases hl : c.mem.length ≤ pos + 1
    · rw [if_pos hl] at h; cases h
    rw [if_neg hl, rd_wire (i := 1) (by omega)] at h
    simp only [Res.bind_ok] at h
    have hb1 := bytesAt_lt c.mem pos 1
    have hb2 := bytesAt_lt c.mem pos 2
    have hb3 := bytesAt_lt c.mem pos 3
    unfold decodeExtSwitch at h
    refine Res.ok_ite h (fun hx h => ?_) (fun hx h => ?_)
    · obtain ⟨k, hk, h⟩ := Res.bind_eq_ok.1 h
      simp only [Res.ok.injEq, Prod.mk.injEq] at h
      obtain ⟨rfl, rfl⟩ := h
      exact (readPsb_iff h0 hx).1 hk
    refine Res.ok_ite h (fun hx h => ?_) (fun hx h => ?_)
    · simp only [Res.ok.injEq, Prod.mk.injEq] at h
      obtain ⟨rfl, rfl⟩ := h
      exact ⟨by omega, rfl, h0, hx⟩
    refine Res.ok_ite h (fun hx h => ?_) (fun hx h => ?_)
    · simp only [Res.ok.injEq, Prod.mk.injEq] at h
      obtain ⟨rfl, rfl⟩ := h
      exact ⟨by omega, rfl, h0, hx⟩
    refine Res.ok_ite h (fun hx h => ?_) (fun hx h => ?_)
    · obtain ⟨a, rfl, rfl⟩ := readCbr_iff.1 h
      exact ⟨a, rfl, h0, hx, rfl⟩
    refine Res.ok_ite h (fun hx h => ?_) (fun hx h => ?_)
    · rw [decodeTma_off hz] at h
      obtain ⟨a, rfl, h4, h5, rfl⟩ := readTma_iff.1 h
      exact ⟨a, rfl, h0, hx, rfl, h4, rfl, h5⟩
    refine Res.ok_ite h (fun hx h => ?_) (fun hx h => ?_)
    · obtain ⟨a, rfl, rfl⟩ := readPip_iff.1 h
      refine ⟨a, rfl, h0, hx, ?_, rfl⟩
      unfold isBit
      rw [testBit_dec, decide_eq_decide]
      simp only [le, Nat.reduceAdd]; omega
    refine Res.ok_ite h (fun hx h => ?_) (fun hx h => ?_)
    · obtain ⟨a, rfl, rfl⟩ := readVmcs_iff.1 h
      exact ⟨a, rfl, h0, hx, rfl⟩
    refine Res.ok_ite h (fun hx h => ?_) (fun hx h => ?_)
    · obtain ⟨a, rfl, rfl⟩ := readExstop_iff.1 h
      exact ⟨a, rfl, h0, by omega, testBit_dec _ _⟩
    refine Res.ok_ite h (fun hx h => ?_) (fun hx h => ?_)
    · obtain ⟨a, rfl, rfl⟩ := readMwait_iff.1 h
      exact ⟨a, rfl, h0, hx, rfl, rfl⟩
    refine Res.ok_ite h (fun hx h => ?_) (fun hx h => ?_)
    · obtain ⟨a, rfl, rfl⟩ := readPwre_iff.1 h
      refine ⟨a, rfl, h0, hx, ?_, ?_, ?_⟩
      · unfold isBit; rw [testBit_dec, decide_eq_decide]; simp only [le, Nat.reduceAdd]; omega
      · simp only [le, Nat.reduceAdd]; omega
      · simp only [le, Nat.reduceAdd]; omega
    refine Res.ok_ite h (fun hx h => ?_) (fun hx h => ?_)
    · obtain ⟨a, rfl, rfl⟩ := readPwrx_iff.1 h
      refine ⟨a, rfl, h0, hx, ?_, ?_, ?_, ?_, ?_⟩
      · simp only [le, Nat.reduceAdd]; omega
      · simp only [le, Nat.reduceAdd]; omega
      · unfold isBit; rw [testBit_dec, decide_eq_decide]; simp only [le, Nat.reduceAdd]; omega
      · unfold isBit; rw [testBit_dec, decide_eq_decide]; simp only [le, Nat.reduceAdd]; omega
      · unfold isBit; rw [testBit_dec, decide_eq_decide]; simp only [le, Nat.reduceAdd]; omega
    refine Res.ok_ite h (fun hx h => ?_) (fun hx h => ?_)
    · simp only [Res.ok.injEq, Prod.mk.injEq] at h
      obtain ⟨rfl, rfl⟩ := h
      exact ⟨by omega, rfl, h0, hx⟩
    refine Res.ok_ite h (fun hx h => ?_) (fun hx h => ?_)
    · obtain ⟨a, s, v, rfl, rfl, h1, h2, h3⟩ := readTnt64_iff.1 h
      exact ⟨a, rfl, h0, hx, h1, h2, h3⟩
    refine Res.ok_ite h (fun hx h => ?_) (fun hx h => ?_)
    · obtain ⟨a, rfl, rfl⟩ := readCfe_iff.1 h
      exact ⟨a, rfl, h0, hx, rfl, testBit_dec _ _, rfl⟩
    refine Res.ok_ite h (fun hx h => ?_) (fun hx h => ?_)
    · obtain ⟨a, rfl, rfl⟩ := readEvd_iff.1 h
      exact ⟨a, rfl, h0, hx, rfl, rfl⟩
    refine Res.ok_ite h (fun hx h => ?_) (fun hx h => ?_)
    · unfold decodeExt2 at h
      by_cases hl2 : c.mem.length ≤ pos + 2
      · rw [if_pos hl2] at h; cases h
      rw [if_neg hl2, rd_wire (i := 2) (by omega)] at h
      simp only [Res.bind_ok, hunk] at h
      refine Res.ok_ite h (fun hx2 h => ?_) (fun hx2 h => by cases h)
      obtain ⟨a, rfl, rfl⟩ := readMnt_iff.1 h
      exact ⟨a, rfl, h0, hx, hx2, rfl⟩
    refine Res.ok_ite h (fun hx h => ?_) (fun hx h => by rw [hunk] at h; cases h)
    obtain ⟨plc, k, h1, h2, rfl, h4, rfl⟩ := (readPtw_iff (by omega)).1 h
    exact ⟨h4, k, h1, rfl, h0, hx, h2, testBit_dec _ _, rfl⟩
  · rintro ⟨hlen, hw⟩
    have main : ∀ {r}, pos + 1 < c.mem.length → decodeExtSwitch c pos (bytesAt c.mem pos 1) = r → decodeExt c pos = r := by
      intro r hl hr
      unfold decodeExt
      rw [if_neg (by omega), rd_wire (i := 1) (by omega)]
      exact hr
    have bit : ∀ {v i : Nat} {x : Bool}, isBit v i x → x = v.testBit i := by
      intro v i x h; rw [testBit_dec]; exact h
    cases p with
    | unknown => exact hw.elim
    | invalid => exact hw.elim
    | modeOther => exact hw.elim
    | pad => exact absurd (h0.symm.trans hw.2) (by omega)
    | psb =>
      obtain ⟨rfl, hj⟩ := hw
      have h1 := (hj 0 (by omega)).2
      refine main (by omega) ?_
      unfold decodeExtSwitch
      rw [if_pos h1, (readPsb_iff h0 h1).2 ⟨hlen, rfl, hj⟩]; rfl
    | psbend =>
      obtain ⟨rfl, _, h1⟩ := hw
      exact main (by omega) (by rw [h1]; rfl)
    | ovf =>
      obtain ⟨rfl, _, h1⟩ := hw
      exact main (by omega) (by rw [h1]; rfl)
    | stop =>
      obtain ⟨rfl, _, h1⟩ := hw
      exact main (by omega) (by rw [h1]; rfl)
    | fup => obtain ⟨k, _, _, h, _⟩ := hw; omega
    | tip => obtain ⟨k, _, _, h, _⟩ := hw; omega
    | tipPge => obtain ⟨k, _, _, h, _⟩ := hw; omega
    | tipPgd => obtain ⟨k, _, _, h, _⟩ := hw; omega
    | tnt8 s v =>
      obtain ⟨_, h1, _, h⟩ := hw
      have : 2 ^ 1 ≤ 2 ^ s := Nat.pow_le_pow_right (by omega) h1
      omega
    | tnt64 s v =>
      obtain ⟨rfl, _, h1, h2⟩ := hw
      exact main (by omega) (by rw [h1]; exact readTnt64_iff.2 ⟨hlen, s, v, rfl, rfl, h2⟩)
    | modeExec => exact absurd (h0.symm.trans hw.2.1) (by omega)
    | modeTsx => exact absurd (h0.symm.trans hw.2.1) (by omega)
    | pip cr3 nr =>
      obtain ⟨rfl, _, h1, h2, rfl⟩ := hw
      refine main (by omega) (by
        rw [h1]; refine readPip_iff.2 ⟨hlen, rfl, ?_⟩
        rw [h2, testBit_dec]
        congr 1
        rw [decide_eq_decide]; simp only [le, Nat.reduceAdd]; omega)
    | vmcs base =>
      obtain ⟨rfl, _, h1, rfl⟩ := hw
      exact main (by omega) (by rw [h1]; exact readVmcs_iff.2 ⟨hlen, rfl, rfl⟩)
    | cbr r =>
      obtain ⟨rfl, _, h1, rfl⟩ := hw
      exact main (by omega) (by rw [h1]; exact readCbr_iff.2 ⟨hlen, rfl, rfl⟩)
    | tsc => exact absurd (h0.symm.trans hw.2.1) (by omega)
    | tma ctc fc =>
      obtain ⟨rfl, _, h1, rfl, h4, rfl, h5⟩ := hw
      exact main (by omega) (by
        rw [h1]
        show decodeTma c pos = _
        rw [decodeTma_off hz]; exact readTma_iff.2 ⟨hlen, rfl, h4, h5, rfl⟩)
    | mtc => exact absurd (h0.symm.trans hw.2.1) (by omega)
    | cyc => have := hw.1; omega
    | mnt v =>
      obtain ⟨rfl, _, h1, h2, rfl⟩ := hw
      exact main (by omega) (by
        rw [h1]
        show decodeExt2 c pos = _
        unfold decodeExt2
        rw [if_neg (by omega), rd_wire (i := 2) (by omega), h2]
        exact readMnt_iff.2 ⟨hlen, rfl, rfl⟩)
    | exstop ip =>
      obtain ⟨rfl, _, h1, h2⟩ := hw
      have hb1 := bytesAt_lt c.mem pos 1
      refine main (by omega) ?_
      rcases (by omega : bytesAt c.mem pos 1 = 0x62 ∨ bytesAt c.mem pos 1 = 0xe2) with hb | hb
      · rw [hb]; exact readExstop_iff.2 ⟨hlen, rfl, by rw [bit h2]⟩
      · rw [hb]; exact readExstop_iff.2 ⟨hlen, rfl, by rw [bit h2]⟩
    | mwait hints ext =>
      obtain ⟨rfl, _, h1, rfl, rfl⟩ := hw
      exact main (by omega) (by rw [h1]; exact readMwait_iff.2 ⟨hlen, rfl, rfl⟩)
    | pwre st sub hw' =>
      obtain ⟨rfl, _, h1, h2, rfl, rfl⟩ := hw
      have hb3 := bytesAt_lt c.mem pos 3
      have hb2 := bytesAt_lt c.mem pos 2
      refine main (by omega) (by
        rw [h1]; refine readPwre_iff.2 ⟨hlen, rfl, ?_⟩
        rw [h2, testBit_dec]
        congr 1
        · simp only [le, Nat.reduceAdd]; omega
        · simp only [le, Nat.reduceAdd]; omega
        · rw [decide_eq_decide]; simp only [le, Nat.reduceAdd]; omega)
    | pwrx last deepest a b d =>
      obtain ⟨rfl, _, h1, rfl, rfl, h2, h3, h4⟩ := hw
      have hb3 := bytesAt_lt c.mem pos 3
      have hb2 := bytesAt_lt c.mem pos 2
      refine main (by omega) (by
        rw [h1]; refine readPwrx_iff.2 ⟨hlen, rfl, ?_⟩
        rw [h2, h3, h4, testBit_dec, testBit_dec, testBit_dec]
        congr 1
        · simp only [le, Nat.reduceAdd]; omega
        · simp only [le, Nat.reduceAdd]; omega
        · rw [decide_eq_decide]; simp only [le, Nat.reduceAdd]; omega
        · rw [decide_eq_decide]; simp only [le, Nat.reduceAdd]; omega
        · rw [decide_eq_decide]; simp only [le, Nat.reduceAdd]; omega)
    | ptw v plc ip =>
      obtain ⟨k, h1, rfl, _, h2, h3, h4, rfl⟩ := hw
      have hb1 := bytesAt_lt c.mem pos 1
      refine main (by omega) ?_
      unfold decodeExtSwitch
      iterate 16 rw [if_neg (by omega)]
      rw [if_pos h2]
      exact (readPtw_iff (by omega)).2 ⟨plc, k, h1, h3, rfl, hlen, by rw [bit h4]⟩
    | cfe type vec ip =>
      obtain ⟨rfl, _, h1, rfl, h2, rfl⟩ := hw
      exact main (by omega) (by rw [h1]; exact readCfe_iff.2 ⟨hlen, rfl, by rw [bit h2]⟩)
    | evd type v =>
      obtain ⟨rfl, _, h1, rfl, rfl⟩ := hw
      exact main (by omega) (by rw [h1]; exact readEvd_iff.2 ⟨hlen, rfl, rfl⟩)
    | trig => exact absurd (h0.symm.trans hw.1) (by omega)

theorem decode_wire {c : PktCfg} (hs : c.errata.skd007 = false) (hz : c.errata.skz84 = false) (hcb : c.cb = none)
    {pos n k : Nat} {p : Packet} :
    pktDecode c pos = .ok (p, n, k) ↔ k = 0 ∧ pos < c.mem.length ∧ pos + n ≤ c.mem.length ∧ Wire p (bytesAt c.mem pos) n := by
  have hunk : ∀ q, readUnknown c q = .err .badOpc := by intro q; unfold readUnknown; rw [hcb]
  have hr : pos < c.mem.length → rd c.mem pos = .ok (bytesAt c.mem pos 0) := fun h => rd_wire (i := 0) h
  have hb0 := bytesAt_lt c.mem pos 0
  have bit : ∀ {v i : Nat} {x : Bool}, isBit v i x → x = v.testBit i := by
    intro v i x h; rw [testBit_dec]; exact h
  constructor
  · intro h
    unfold pktDecode at h
    by_cases hl : c.mem.length ≤ pos
    · rw [if_pos hl] at h; cases h
    rw [if_neg hl, hr (by omega)] at h
    simp only [Res.bind_ok] at h
    unfold pktDecodeSwitch at h
    have hp : ∀ {r : Res (Packet × Nat)}, plain r = .ok (p, n, k) →
        (r = .ok (p, n) → pos + n ≤ c.mem.length ∧ Wire p (bytesAt c.mem pos) n) →
        k = 0 ∧ pos < c.mem.length ∧ pos + n ≤ c.mem.length ∧ Wire p (bytesAt c.mem pos) n := by
      intro r h1 h2
      obtain ⟨h3, rfl⟩ := plain_ok.1 h1
      exact ⟨rfl, by omega, h2 h3⟩
    refine Res.ok_ite h (fun hx h => hp h fun h => ?_) (fun hx h => ?_)
    · obtain ⟨a, rfl, ⟨h1, rfl⟩ | ⟨h1, rfl⟩⟩ := readMode_iff.1 h
      · exact ⟨a, rfl, hx, h1, testBit_dec _ _, testBit_dec _ _, testBit_dec _ _⟩
      · exact ⟨a, rfl, hx, h1, testBit_dec _ _, testBit_dec _ _⟩
    refine Res.ok_ite h (fun hx h => hp h fun h => ?_) (fun hx h => ?_)
    · obtain ⟨a, rfl, rfl⟩ := readMtc_iff.1 h
      exact ⟨a, rfl, hx, rfl⟩
    refine Res.ok_ite h (fun hx h => hp h fun h => ?_) (fun hx h => ?_)
    · obtain ⟨a, rfl, rfl⟩ := readTsc_iff.1 h
      exact ⟨a, rfl, hx, rfl⟩
    refine Res.ok_ite h (fun hx h => ?_) (fun hx h => ?_)
    · simp only [Res.ok.injEq, Prod.mk.injEq] at h
      obtain ⟨rfl, rfl, rfl⟩ := h
      exact ⟨rfl, by omega, by omega, rfl, hx⟩
    refine Res.ok_ite h (fun hx h => hp h fun h => ?_) (fun hx h => ?_)
    · obtain ⟨a, ⟨h1, rfl, rfl⟩ | ⟨h1, rfl, rfl⟩⟩ := readTrig_iff.1 h
      · exact ⟨a, hx, rfl, testBit_dec _ _, testBit_dec _ _, .inl ⟨h1, rfl, rfl⟩⟩
      · exact ⟨a, hx, rfl, testBit_dec _ _, testBit_dec _ _, .inr ⟨h1, rfl, rfl⟩⟩
    refine Res.ok_ite h (fun hx h => hp h fun h => ?_) (fun hx h => ?_)
    · exact (decodeExt_iff hz hcb hx).1 h
    refine Res.ok_ite h (fun hx h => ?_) (fun hx h => ?_)
    · rw [decodeCyc_off hs] at h
      refine hp h fun h => ?_
      obtain ⟨v, rfl, h1, h2⟩ := (readCyc_iff (by omega) hx).1 h
      exact ⟨h1, h2⟩
    refine Res.ok_ite h (fun hx h => hp h fun h => ?_) (fun hx h => ?_)
    · obtain ⟨s, v, rfl, rfl, h1, h2, h3⟩ := (readTnt8_iff (by omega)).1 h
      exact ⟨by omega, rfl, h1, h2, by omega⟩
    refine Res.ok_ite h (fun hx h => hp h fun h => ?_) (fun hx h => ?_)
    · rw [decodeIp_eq] at h
      obtain ⟨ipc, k', h1, h2, rfl, h4, rfl⟩ := (readIpPkt_iff (by omega)).1 h
      exact ⟨h4, k', h1, rfl, by omega, rfl⟩
    refine Res.ok_ite h (fun hx h => hp h fun h => ?_) (fun hx h => ?_)
    · rw [decodeIp_eq] at h
      obtain ⟨ipc, k', h1, h2, rfl, h4, rfl⟩ := (readIpPkt_iff (by omega)).1 h
      exact ⟨h4, k', h1, rfl, by omega, rfl⟩
    refine Res.ok_ite h (fun hx h => hp h fun h => ?_) (fun hx h => ?_)
    · rw [decodeIp_eq] at h
      obtain ⟨ipc, k', h1, h2, rfl, h4, rfl⟩ := (readIpPkt_iff (by omega)).1 h
      exact ⟨h4, k', h1, rfl, by omega, rfl⟩
    refine Res.ok_ite h (fun hx h => hp h fun h => ?_) (fun hx h => hp h fun h => ?_)
    · rw [decodeIp_eq] at h
      obtain ⟨ipc, k', h1, h2, rfl, h4, rfl⟩ := (readIpPkt_iff (by omega)).1 h
      exact ⟨h4, k', h1, rfl, by omega, rfl⟩
    · rw [hunk] at h; cases h
  · rintro ⟨rfl, hl, hlen, hw⟩
    have main : ∀ {r : Res (Packet × Nat × Nat)}, pktDecodeSwitch c pos (bytesAt c.mem pos 0) = r → pktDecode c pos = r := by
      intro r h
      unfold pktDecode
      rw [if_neg (by omega), hr hl]
      exact h
    by_cases hext : bytesAt c.mem pos 0 = 0x02
    · refine main ?_
      rw [hext]
      exact plain_ok.2 ⟨(decodeExt_iff hz hcb hext).2 ⟨hlen, hw⟩, rfl⟩
    refine main ?_
    have ipc7 : ∀ {ipc k : Nat}, ipBytes ipc = some k → ipc < 7 := by
      intro ipc k h
      unfold ipBytes at h
      split at h <;> first | omega | cases h
    cases p with
    | unknown => exact hw.elim
    | invalid => exact hw.elim
    | modeOther => exact hw.elim
    | pad => rw [hw.2, hw.1]; rfl
    | psb => exact absurd ((hw.2 0 (by omega)).1) hext
    | psbend => exact absurd hw.2.1 hext
    | ovf => exact absurd hw.2.1 hext
    | stop => exact absurd hw.2.1 hext
    | tnt64 => exact absurd hw.2.1 hext
    | pip => exact absurd hw.2.1 hext
    | vmcs => exact absurd hw.2.1 hext
    | cbr => exact absurd hw.2.1 hext
    | tma => exact absurd hw.2.1 hext
    | mnt => exact absurd hw.2.1 hext
    | exstop => exact absurd hw.2.1 hext
    | mwait => exact absurd hw.2.1 hext
    | pwre => exact absurd hw.2.1 hext
    | pwrx => exact absurd hw.2.1 hext
    | cfe => exact absurd hw.2.1 hext
    | evd => exact absurd hw.2.1 hext
    | ptw v plc ip => obtain ⟨_, _, _, h, _⟩ := hw; exact absurd h hext
    | fup ipc ip =>
      obtain ⟨k, h1, rfl, h2, rfl⟩ := hw
      have := ipc7 h1
      unfold pktDecodeSwitch
      iterate 8 rw [if_neg (by omega)]
      rw [if_pos (by omega)]
      exact plain_ok.2 ⟨(readIpPkt_iff hl).2 ⟨ipc, k, h1, by omega, rfl, hlen, rfl⟩, rfl⟩
    | tip ipc ip =>
      obtain ⟨k, h1, rfl, h2, rfl⟩ := hw
      have := ipc7 h1
      unfold pktDecodeSwitch
      iterate 9 rw [if_neg (by omega)]
      rw [if_pos (by omega)]
      exact plain_ok.2 ⟨(readIpPkt_iff hl).2 ⟨ipc, k, h1, by omega, rfl, hlen, rfl⟩, rfl⟩
    | tipPge ipc ip =>
      obtain ⟨k, h1, rfl, h2, rfl⟩ := hw
      have := ipc7 h1
      unfold pktDecodeSwitch
      iterate 10 rw [if_neg (by omega)]
      rw [if_pos (by omega)]
      exact plain_ok.2 ⟨(readIpPkt_iff hl).2 ⟨ipc, k, h1, by omega, rfl, hlen, rfl⟩, rfl⟩
    | tipPgd ipc ip =>
      obtain ⟨k, h1, rfl, h2, rfl⟩ := hw
      have := ipc7 h1
      unfold pktDecodeSwitch
      iterate 11 rw [if_neg (by omega)]
      rw [if_pos (by omega)]
      exact plain_ok.2 ⟨(readIpPkt_iff hl).2 ⟨ipc, k, h1, by omega, rfl, hlen, rfl⟩, rfl⟩
    | tnt8 s v =>
      obtain ⟨rfl, h1, h2, h3⟩ := hw
      have : 2 ^ 1 ≤ 2 ^ s := Nat.pow_le_pow_right (by omega) h1
      unfold pktDecodeSwitch
      iterate 7 rw [if_neg (by omega)]
      rw [if_pos (by omega)]
      exact plain_ok.2 ⟨(readTnt8_iff hl).2 ⟨s, v, rfl, rfl, h1, h2, by omega⟩, rfl⟩
    | modeExec a b d =>
      obtain ⟨rfl, h0, h1, h2, h3, h4⟩ := hw
      rw [h0]
      exact plain_ok.2 ⟨readMode_iff.2 ⟨hlen, rfl, .inl ⟨h1, by rw [bit h2, bit h3, bit h4]⟩⟩, rfl⟩
    | modeTsx a b =>
      obtain ⟨rfl, h0, h1, h2, h3⟩ := hw
      rw [h0]
      exact plain_ok.2 ⟨readMode_iff.2 ⟨hlen, rfl, .inr ⟨h1, by rw [bit h2, bit h3]⟩⟩, rfl⟩
    | tsc v =>
      obtain ⟨rfl, h0, rfl⟩ := hw
      rw [h0]
      exact plain_ok.2 ⟨readTsc_iff.2 ⟨hlen, rfl, rfl⟩, rfl⟩
    | mtc v =>
      obtain ⟨rfl, h0, rfl⟩ := hw
      rw [h0]
      exact plain_ok.2 ⟨readMtc_iff.2 ⟨hlen, rfl, rfl⟩, rfl⟩
    | cyc v =>
      have h0 := hw.1
      unfold pktDecodeSwitch
      iterate 6 rw [if_neg (by omega)]
      rw [if_pos h0, decodeCyc_off hs]
      exact plain_ok.2 ⟨(readCyc_iff hl h0).2 ⟨v, rfl, hlen, hw⟩, rfl⟩
    | trig trbv icnt ip mult =>
      obtain ⟨h0, rfl, h1, h2, h3⟩ := hw
      rw [h0]
      refine plain_ok.2 ⟨readTrig_iff.2 ⟨hlen, ?_⟩, rfl⟩
      rw [bit h1, bit h2]
      rcases h3 with ⟨h3, rfl, rfl⟩ | ⟨h3, rfl, rfl⟩
      · exact .inl ⟨h3, rfl, rfl⟩
      · exact .inr ⟨h3, rfl, rfl⟩

end Ipt
