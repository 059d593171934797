import Verif.Packet

/-! Helper lemmas about the packet readers. -/

set_option linter.unusedSimpArgs false

namespace Ipt

/-- Two buffers hold the same `k` bytes at the given positions. -/
structure Agree (m : List UInt8) (pos : Nat) (m' : List UInt8) (pos' k : Nat) : Prop where
  left : pos + k ≤ m.length
  right : pos' + k ≤ m'.length
  eq : ∀ i, i < k → m[pos + i]? = m'[pos' + i]?

namespace Agree
variable {m m' : List UInt8} {pos pos' k : Nat}

theorem mono (h : Agree m pos m' pos' k) {j : Nat} (hj : j ≤ k) : Agree m pos m' pos' j :=
  ⟨by have := h.left; omega, by have := h.right; omega, fun i hi => h.eq i (by omega)⟩

theorem rd (h : Agree m pos m' pos' k) (i : Nat) (hi : i < k) :
    Ipt.rd m' (pos' + i) = Ipt.rd m (pos + i) := rd_congr (h.eq i hi).symm

theorem rd0 (h : Agree m pos m' pos' k) (hk : 0 < k) :
    Ipt.rd m' pos' = Ipt.rd m pos := by simpa using h.rd 0 hk

theorem rdLE (h : Agree m pos m' pos' k) (i n : Nat) (hi : i + n ≤ k) :
    Ipt.rdLE m' (pos' + i) n = Ipt.rdLE m (pos + i) n := by
  apply rdLE_congr
  intro j hj
  have := h.eq (i + j) (by omega)
  rw [show pos' + i + j = pos' + (i + j) by omega, show pos + i + j = pos + (i + j) by omega, this]
end Agree

/-- What is needed of a reader that is entered with `need` bytes available. -/
structure Reader (need : Nat) (R : List UInt8 → Nat → Res (Packet × Nat)) : Prop where
  safe : ∀ m pos, pos + need ≤ m.length → (R m pos).safe
  size : ∀ m pos p n, pos + need ≤ m.length → R m pos = .ok (p, n) →
    0 < n ∧ n ≤ 255 ∧ need ≤ n ∧ pos + n ≤ m.length
  congr : ∀ m pos m' pos' p n, R m pos = .ok (p, n) → pos + need ≤ m.length →
    Agree m pos m' pos' n → R m' pos' = .ok (p, n)
  cut : ∀ m pos m' pos' p n, R m pos = .ok (p, n) → pos + need ≤ m.length →
    pos' + need ≤ m'.length → m'.length < pos' + n →
    (∀ i, pos' + i < m'.length → m[pos + i]? = m'[pos' + i]?) →
    R m' pos' = .err .eos

/-- A reader with a fixed packet size `k` that checks the bound first. -/
theorem Reader.fixed {R : List UInt8 → Nat → Res (Packet × Nat)} (k need : Nat) (hk : 0 < k)
    (hk' : k ≤ 255) (hneed : need ≤ k)
    (h1 : ∀ m pos, m.length < pos + k → R m pos = .err .eos)
    (h2 : ∀ m pos, pos + k ≤ m.length → (R m pos).safe)
    (h3 : ∀ m pos m' pos', Agree m pos m' pos' k → R m' pos' = R m pos)
    (h4 : ∀ m pos p n, R m pos = .ok (p, n) → n = k) : Reader need R where
  safe := by
    intro m pos _
    by_cases h : m.length < pos + k
    · simp [h1 m pos h]
    · exact h2 m pos (by omega)
  size := by
    intro m pos p n _ h
    have hn := h4 m pos p n h
    by_cases hl : m.length < pos + k
    · rw [h1 m pos hl] at h; cases h
    · omega
  congr := by
    intro m pos m' pos' p n h _ ha
    rw [h4 m pos p n h] at ha
    rw [h3 m pos m' pos' ha, h]
  cut := by
    intro m pos m' pos' p n h _ _ hl _
    rw [h4 m pos p n h] at hl
    exact h1 m' pos' hl

theorem readMode_reader (need : Nat) (h : need ≤ 2) : Reader need readMode := by
  refine Reader.fixed 2 need (by omega) (by omega) h ?_ ?_ ?_ ?_
  · intro m pos h; simp [readMode, h]
  · intro m pos h
    obtain ⟨b, _, e⟩ := rd_ex (m := m) (i := pos + 1) (by omega)
    simp only [readMode, show ¬ m.length < pos + 2 by omega, e]
    simp only [Res.bind_ok, if_false]
    split
    · simp
    · split <;> simp
  · intro m pos m' pos' ha
    simp only [readMode, show ¬ m.length < pos + 2 by have := ha.left; omega,
      show ¬ m'.length < pos' + 2 by have := ha.right; omega, ha.rd 1 (by omega)]
  · intro m pos p n h
    simp only [readMode] at h
    split at h
    · cases h
    · obtain ⟨v, _, h⟩ := Res.bind_eq_ok.1 h
      split at h
      · simp at h; omega
      · split at h
        · simp at h; omega
        · cases h

theorem readTsc_reader (need : Nat) (h : need ≤ 8) : Reader need readTsc := by
  refine Reader.fixed 8 need (by omega) (by omega) h ?_ ?_ ?_ ?_
  · intro m pos h; simp [readTsc, h]
  · intro m pos h
    obtain ⟨v, _, e⟩ := rdLE_ex (m := m) (n := 7) (pos := pos + 1) (by omega)
    simp [readTsc, show ¬ m.length < pos + 8 by omega, e]
  · intro m pos m' pos' ha
    simp only [readTsc, show ¬ m.length < pos + 8 by have := ha.left; omega,
      show ¬ m'.length < pos' + 8 by have := ha.right; omega, ha.rdLE 1 7 (by omega)]
  · intro m pos p n h
    simp only [readTsc] at h
    split at h
    · cases h
    · obtain ⟨v, _, h⟩ := Res.bind_eq_ok.1 h
      simp at h; omega

theorem readPip_reader (need : Nat) (h : need ≤ 8) : Reader need readPip := by
  refine Reader.fixed 8 need (by omega) (by omega) h ?_ ?_ ?_ ?_
  · intro m pos h; simp [readPip, h]
  · intro m pos h
    obtain ⟨v, _, e⟩ := rdLE_ex (m := m) (n := 6) (pos := pos + 2) (by omega)
    simp [readPip, show ¬ m.length < pos + 8 by omega, e]
  · intro m pos m' pos' ha
    simp only [readPip, show ¬ m.length < pos + 8 by have := ha.left; omega,
      show ¬ m'.length < pos' + 8 by have := ha.right; omega, ha.rdLE 2 6 (by omega)]
  · intro m pos p n h
    simp only [readPip] at h
    split at h
    · cases h
    · obtain ⟨v, _, h⟩ := Res.bind_eq_ok.1 h
      simp at h; omega

theorem readTnt_safe (v : Nat) : (readTnt v).safe := by
  unfold readTnt; simp only; split <;> simp

theorem readTnt64_reader (need : Nat) (h : need ≤ 8) : Reader need readTnt64 := by
  refine Reader.fixed 8 need (by omega) (by omega) h ?_ ?_ ?_ ?_
  · intro m pos h; simp [readTnt64, h]
  · intro m pos h
    obtain ⟨v, _, e⟩ := rdLE_ex (m := m) (n := 6) (pos := pos + 2) (by omega)
    simp only [readTnt64, show ¬ m.length < pos + 8 by omega, e, if_false, Res.bind_ok]
    exact Res.bind_ne_ub (readTnt_safe v) (by intro a _; simp)
  · intro m pos m' pos' ha
    simp only [readTnt64, show ¬ m.length < pos + 8 by have := ha.left; omega,
      show ¬ m'.length < pos' + 8 by have := ha.right; omega, ha.rdLE 2 6 (by omega)]
  · intro m pos p n h
    simp only [readTnt64] at h
    split at h
    · cases h
    · obtain ⟨v, _, h⟩ := Res.bind_eq_ok.1 h
      obtain ⟨⟨a, b⟩, _, h⟩ := Res.bind_eq_ok.1 h
      simp at h; omega

theorem readCbr_reader (need : Nat) (h : need ≤ 4) : Reader need readCbr := by
  refine Reader.fixed 4 need (by omega) (by omega) h ?_ ?_ ?_ ?_
  · intro m pos h; simp [readCbr, h]
  · intro m pos h
    obtain ⟨v, _, e⟩ := rd_ex (m := m) (i := pos + 2) (by omega)
    simp [readCbr, show ¬ m.length < pos + 4 by omega, e]
  · intro m pos m' pos' ha
    simp only [readCbr, show ¬ m.length < pos + 4 by have := ha.left; omega,
      show ¬ m'.length < pos' + 4 by have := ha.right; omega, ha.rd 2 (by omega)]
  · intro m pos p n h
    simp only [readCbr] at h
    split at h
    · cases h
    · obtain ⟨v, _, h⟩ := Res.bind_eq_ok.1 h
      simp at h; omega

theorem readTma_reader (need : Nat) (h : need ≤ 7) : Reader need readTma := by
  refine Reader.fixed 7 need (by omega) (by omega) h ?_ ?_ ?_ ?_
  · intro m pos h; simp [readTma, h]
  · intro m pos h
    obtain ⟨v2, _, e2⟩ := rd_ex (m := m) (i := pos + 2) (by omega)
    obtain ⟨v3, _, e3⟩ := rd_ex (m := m) (i := pos + 3) (by omega)
    obtain ⟨v4, _, e4⟩ := rd_ex (m := m) (i := pos + 4) (by omega)
    obtain ⟨v5, _, e5⟩ := rd_ex (m := m) (i := pos + 5) (by omega)
    obtain ⟨v6, _, e6⟩ := rd_ex (m := m) (i := pos + 6) (by omega)
    simp only [readTma, show ¬ m.length < pos + 7 by omega, e2, e3, e4, e5, e6, if_false,
      Res.bind_ok]
    split
    · simp
    · split <;> simp
  · intro m pos m' pos' ha
    simp only [readTma, show ¬ m.length < pos + 7 by have := ha.left; omega,
      show ¬ m'.length < pos' + 7 by have := ha.right; omega, ha.rd 2 (by omega),
      ha.rd 3 (by omega), ha.rd 4 (by omega), ha.rd 5 (by omega), ha.rd 6 (by omega)]
  · intro m pos p n h
    simp only [readTma] at h
    split at h
    · cases h
    · obtain ⟨v, _, h⟩ := Res.bind_eq_ok.1 h
      obtain ⟨v, _, h⟩ := Res.bind_eq_ok.1 h
      obtain ⟨v, _, h⟩ := Res.bind_eq_ok.1 h
      obtain ⟨v, _, h⟩ := Res.bind_eq_ok.1 h
      split at h
      · cases h
      · obtain ⟨v, _, h⟩ := Res.bind_eq_ok.1 h
        split at h
        · cases h
        · simp at h; omega

theorem readMtc_reader (need : Nat) (h : need ≤ 2) : Reader need readMtc := by
  refine Reader.fixed 2 need (by omega) (by omega) h ?_ ?_ ?_ ?_
  · intro m pos h; simp [readMtc, h]
  · intro m pos h
    obtain ⟨v, _, e⟩ := rd_ex (m := m) (i := pos + 1) (by omega)
    simp [readMtc, show ¬ m.length < pos + 2 by omega, e]
  · intro m pos m' pos' ha
    simp only [readMtc, show ¬ m.length < pos + 2 by have := ha.left; omega,
      show ¬ m'.length < pos' + 2 by have := ha.right; omega, ha.rd 1 (by omega)]
  · intro m pos p n h
    simp only [readMtc] at h
    split at h
    · cases h
    · obtain ⟨v, _, h⟩ := Res.bind_eq_ok.1 h
      simp at h; omega

theorem readVmcs_reader (need : Nat) (h : need ≤ 7) : Reader need readVmcs := by
  refine Reader.fixed 7 need (by omega) (by omega) h ?_ ?_ ?_ ?_
  · intro m pos h; simp [readVmcs, h]
  · intro m pos h
    obtain ⟨v, _, e⟩ := rdLE_ex (m := m) (n := 5) (pos := pos + 2) (by omega)
    simp [readVmcs, show ¬ m.length < pos + 7 by omega, e]
  · intro m pos m' pos' ha
    simp only [readVmcs, show ¬ m.length < pos + 7 by have := ha.left; omega,
      show ¬ m'.length < pos' + 7 by have := ha.right; omega, ha.rdLE 2 5 (by omega)]
  · intro m pos p n h
    simp only [readVmcs] at h
    split at h
    · cases h
    · obtain ⟨v, _, h⟩ := Res.bind_eq_ok.1 h
      simp at h; omega

theorem readMnt_reader (need : Nat) (h : need ≤ 11) : Reader need readMnt := by
  refine Reader.fixed 11 need (by omega) (by omega) h ?_ ?_ ?_ ?_
  · intro m pos h; simp [readMnt, h]
  · intro m pos h
    obtain ⟨v, _, e⟩ := rdLE_ex (m := m) (n := 8) (pos := pos + 3) (by omega)
    simp [readMnt, show ¬ m.length < pos + 11 by omega, e]
  · intro m pos m' pos' ha
    simp only [readMnt, show ¬ m.length < pos + 11 by have := ha.left; omega,
      show ¬ m'.length < pos' + 11 by have := ha.right; omega, ha.rdLE 3 8 (by omega)]
  · intro m pos p n h
    simp only [readMnt] at h
    split at h
    · cases h
    · obtain ⟨v, _, h⟩ := Res.bind_eq_ok.1 h
      simp at h; omega

theorem readExstop_reader (need : Nat) (h : need ≤ 2) : Reader need readExstop := by
  refine Reader.fixed 2 need (by omega) (by omega) h ?_ ?_ ?_ ?_
  · intro m pos h; simp [readExstop, h]
  · intro m pos h
    obtain ⟨v, _, e⟩ := rd_ex (m := m) (i := pos + 1) (by omega)
    simp [readExstop, show ¬ m.length < pos + 2 by omega, e]
  · intro m pos m' pos' ha
    simp only [readExstop, show ¬ m.length < pos + 2 by have := ha.left; omega,
      show ¬ m'.length < pos' + 2 by have := ha.right; omega, ha.rd 1 (by omega)]
  · intro m pos p n h
    simp only [readExstop] at h
    split at h
    · cases h
    · obtain ⟨v, _, h⟩ := Res.bind_eq_ok.1 h
      simp at h; omega

theorem readMwait_reader (need : Nat) (h : need ≤ 10) : Reader need readMwait := by
  refine Reader.fixed 10 need (by omega) (by omega) h ?_ ?_ ?_ ?_
  · intro m pos h; simp [readMwait, h]
  · intro m pos h
    obtain ⟨v, _, e⟩ := rdLE_ex (m := m) (n := 4) (pos := pos + 2) (by omega)
    obtain ⟨v', _, e'⟩ := rdLE_ex (m := m) (n := 4) (pos := pos + 6) (by omega)
    simp [readMwait, show ¬ m.length < pos + 10 by omega, e, e']
  · intro m pos m' pos' ha
    simp only [readMwait, show ¬ m.length < pos + 10 by have := ha.left; omega,
      show ¬ m'.length < pos' + 10 by have := ha.right; omega, ha.rdLE 2 4 (by omega),
      ha.rdLE 6 4 (by omega)]
  · intro m pos p n h
    simp only [readMwait] at h
    split at h
    · cases h
    · obtain ⟨v, _, h⟩ := Res.bind_eq_ok.1 h
      obtain ⟨v, _, h⟩ := Res.bind_eq_ok.1 h
      simp at h; omega

theorem readPwre_reader (need : Nat) (h : need ≤ 4) : Reader need readPwre := by
  refine Reader.fixed 4 need (by omega) (by omega) h ?_ ?_ ?_ ?_
  · intro m pos h; simp [readPwre, h]
  · intro m pos h
    obtain ⟨v, _, e⟩ := rdLE_ex (m := m) (n := 2) (pos := pos + 2) (by omega)
    simp [readPwre, show ¬ m.length < pos + 4 by omega, e]
  · intro m pos m' pos' ha
    simp only [readPwre, show ¬ m.length < pos + 4 by have := ha.left; omega,
      show ¬ m'.length < pos' + 4 by have := ha.right; omega, ha.rdLE 2 2 (by omega)]
  · intro m pos p n h
    simp only [readPwre] at h
    split at h
    · cases h
    · obtain ⟨v, _, h⟩ := Res.bind_eq_ok.1 h
      simp at h; omega

theorem readPwrx_reader (need : Nat) (h : need ≤ 7) : Reader need readPwrx := by
  refine Reader.fixed 7 need (by omega) (by omega) h ?_ ?_ ?_ ?_
  · intro m pos h; simp [readPwrx, h]
  · intro m pos h
    obtain ⟨v, _, e⟩ := rdLE_ex (m := m) (n := 5) (pos := pos + 2) (by omega)
    simp [readPwrx, show ¬ m.length < pos + 7 by omega, e]
  · intro m pos m' pos' ha
    simp only [readPwrx, show ¬ m.length < pos + 7 by have := ha.left; omega,
      show ¬ m'.length < pos' + 7 by have := ha.right; omega, ha.rdLE 2 5 (by omega)]
  · intro m pos p n h
    simp only [readPwrx] at h
    split at h
    · cases h
    · obtain ⟨v, _, h⟩ := Res.bind_eq_ok.1 h
      simp at h; omega

theorem readCfe_reader (need : Nat) (h : need ≤ 4) : Reader need readCfe := by
  refine Reader.fixed 4 need (by omega) (by omega) h ?_ ?_ ?_ ?_
  · intro m pos h; simp [readCfe, h]
  · intro m pos h
    obtain ⟨v, _, e⟩ := rd_ex (m := m) (i := pos + 2) (by omega)
    obtain ⟨v', _, e'⟩ := rd_ex (m := m) (i := pos + 3) (by omega)
    simp [readCfe, show ¬ m.length < pos + 4 by omega, e, e']
  · intro m pos m' pos' ha
    simp only [readCfe, show ¬ m.length < pos + 4 by have := ha.left; omega,
      show ¬ m'.length < pos' + 4 by have := ha.right; omega, ha.rd 2 (by omega),
      ha.rd 3 (by omega)]
  · intro m pos p n h
    simp only [readCfe] at h
    split at h
    · cases h
    · obtain ⟨v, _, h⟩ := Res.bind_eq_ok.1 h
      obtain ⟨v, _, h⟩ := Res.bind_eq_ok.1 h
      simp at h; omega

theorem readEvd_reader (need : Nat) (h : need ≤ 11) : Reader need readEvd := by
  refine Reader.fixed 11 need (by omega) (by omega) h ?_ ?_ ?_ ?_
  · intro m pos h; simp [readEvd, h]
  · intro m pos h
    obtain ⟨v, _, e⟩ := rd_ex (m := m) (i := pos + 2) (by omega)
    obtain ⟨v', _, e'⟩ := rdLE_ex (m := m) (n := 8) (pos := pos + 3) (by omega)
    simp [readEvd, show ¬ m.length < pos + 11 by omega, e, e']
  · intro m pos m' pos' ha
    simp only [readEvd, show ¬ m.length < pos + 11 by have := ha.left; omega,
      show ¬ m'.length < pos' + 11 by have := ha.right; omega, ha.rd 2 (by omega),
      ha.rdLE 3 8 (by omega)]
  · intro m pos p n h
    simp only [readEvd] at h
    split at h
    · cases h
    · obtain ⟨v, _, h⟩ := Res.bind_eq_ok.1 h
      obtain ⟨v, _, h⟩ := Res.bind_eq_ok.1 h
      simp at h; omega

theorem readPsbPairs_safe {m : List UInt8} : ∀ {n pos : Nat}, pos + 2 * n ≤ m.length →
    (readPsbPairs m pos n).safe := by
  intro n
  induction n with
  | zero => intro pos _; simp [readPsbPairs]
  | succ n ih =>
    intro pos h
    obtain ⟨v, _, e⟩ := rd_ex (m := m) (i := pos) (by omega)
    obtain ⟨v', _, e'⟩ := rd_ex (m := m) (i := pos + 1) (by omega)
    simp only [readPsbPairs, e, e', Res.bind_ok]
    split
    · simp
    · split
      · simp
      · exact ih (by omega)

theorem readPsbPairs_congr {m m' : List UInt8} : ∀ {n pos pos' : Nat},
    (∀ i, i < 2 * n → m[pos + i]? = m'[pos' + i]?) →
    readPsbPairs m' pos' n = readPsbPairs m pos n := by
  intro n
  induction n with
  | zero => intros; rfl
  | succ n ih =>
    intro pos pos' h
    have h0 : rd m' pos' = rd m pos := rd_congr (by simpa using (h 0 (by omega)).symm)
    have h1 : rd m' (pos' + 1) = rd m (pos + 1) := rd_congr (by simpa using (h 1 (by omega)).symm)
    have h2 : readPsbPairs m' (pos' + 2) n = readPsbPairs m (pos + 2) n := by
      apply ih
      intro i hi
      have := h (i + 2) (by omega)
      rw [show pos + 2 + i = pos + (i + 2) by omega, show pos' + 2 + i = pos' + (i + 2) by omega, this]
    simp only [readPsbPairs, h0, h1, h2]

/-- PSB reader as a packet reader. -/
def readPsbPkt (m : List UInt8) (pos : Nat) : Res (Packet × Nat) := do
  let n ← readPsb m pos
  return (.psb, n)

theorem readPsbPkt_reader (need : Nat) (h : need ≤ 16) : Reader need readPsbPkt := by
  refine Reader.fixed 16 need (by omega) (by omega) h ?_ ?_ ?_ ?_
  · intro m pos h; simp [readPsbPkt, readPsb, h]
  · intro m pos h
    simp only [readPsbPkt, readPsb, show ¬ m.length < pos + 16 by omega, if_false]
    refine Res.bind_ne_ub (Res.bind_ne_ub (readPsbPairs_safe (by omega)) ?_) ?_ <;> simp
  · intro m pos m' pos' ha
    simp only [readPsbPkt, readPsb, show ¬ m.length < pos + 16 by have := ha.left; omega,
      show ¬ m'.length < pos' + 16 by have := ha.right; omega]
    rw [readPsbPairs_congr (m := m) (pos := pos + 2)]
    intro i hi
    have := ha.eq (i + 2) (by omega)
    rw [show pos + 2 + i = pos + (i + 2) by omega, show pos' + 2 + i = pos' + (i + 2) by omega, this]
  · intro m pos p n h
    simp only [readPsbPkt, readPsb] at h
    split at h
    · cases h
    · obtain ⟨v, hv, h⟩ := Res.bind_eq_ok.1 h
      obtain ⟨w, _, hv⟩ := Res.bind_eq_ok.1 hv
      simp at h hv; omega

/-- A packet without payload. -/
theorem const_reader (p : Packet) (need n : Nat) (hn : 0 < n) (hn' : n ≤ 255) (h : need = n) :
    Reader need (fun _ _ => .ok (p, n)) where
  safe := by simp
  size := by intro m pos q k hl h; simp at h; omega
  congr := by intro m pos m' pos' q k h _ _; exact h
  cut := by intro m pos m' pos' q k h _ hl hl' _; simp at h; omega

theorem readTnt8_reader : Reader 1 readTnt8 where
  safe := by
    intro m pos h
    obtain ⟨v, _, e⟩ := rd_ex (m := m) (i := pos) (by omega)
    simp only [readTnt8, e, Res.bind_ok]
    exact Res.bind_ne_ub (readTnt_safe _) (by intro a _; simp)
  size := by
    intro m pos p n hl h
    simp only [readTnt8] at h
    obtain ⟨v, _, h⟩ := Res.bind_eq_ok.1 h
    obtain ⟨v, _, h⟩ := Res.bind_eq_ok.1 h
    simp at h; omega
  congr := by
    intro m pos m' pos' p n h hl ha
    have hn : 0 < n := by
      simp only [readTnt8] at h
      obtain ⟨v, _, h⟩ := Res.bind_eq_ok.1 h
      obtain ⟨v, _, h⟩ := Res.bind_eq_ok.1 h
      simp at h; omega
    rw [← h]; simp only [readTnt8, ha.rd0 hn]
  cut := by
    intro m pos m' pos' p n h hl hl' hl'' _
    simp only [readTnt8] at h
    obtain ⟨v, _, h⟩ := Res.bind_eq_ok.1 h
    obtain ⟨v, _, h⟩ := Res.bind_eq_ok.1 h
    simp at h; omega

theorem ipSize_le {ipc s : Nat} (h : ipSize ipc = .ok s) : s ≤ 8 := by
  unfold ipSize at h
  repeat' split at h
  all_goals first | (simp at h; omega) | cases h

theorem ipSize_safe (ipc : Nat) : (ipSize ipc).safe := by
  unfold ipSize
  repeat' split
  all_goals simp

/-- IP reader as a packet reader. -/
def readIpPkt (mk : Nat → Nat → Packet) (m : List UInt8) (pos : Nat) : Res (Packet × Nat) := do
  let (ipc, ip, size) ← readIp m pos
  return (mk ipc ip, size)

theorem readIp_ok {m : List UInt8} {pos ipc ip n : Nat} (h : readIp m pos = .ok (ipc, ip, n)) :
    ∃ opc s, rd m pos = .ok opc ∧ ipc = opc / 32 % 8 ∧ ipSize ipc = .ok s ∧ n = s + 1 ∧
      pos + n ≤ m.length ∧ rdLE m (pos + 1) s = .ok ip := by
  simp only [readIp] at h
  obtain ⟨opc, e1, h⟩ := Res.bind_eq_ok.1 h
  obtain ⟨s, e2, h⟩ := Res.bind_eq_ok.1 h
  split at h
  · cases h
  · obtain ⟨v, e3, h⟩ := Res.bind_eq_ok.1 h
    simp at h
    obtain ⟨rfl, rfl, rfl⟩ := h
    exact ⟨opc, s, e1, rfl, e2, rfl, by omega, e3⟩

theorem readIpPkt_reader (mk : Nat → Nat → Packet) : Reader 1 (readIpPkt mk) where
  safe := by
    intro m pos h
    obtain ⟨v, _, e⟩ := rd_ex (m := m) (i := pos) (by omega)
    simp only [readIpPkt, readIp, e, Res.bind_ok]
    refine Res.bind_ne_ub (Res.bind_ne_ub (ipSize_safe _) ?_) (by intro a _; simp)
    intro s hs
    split
    · simp
    · obtain ⟨w, _, e'⟩ := rdLE_ex (m := m) (n := s) (pos := pos + 1) (by omega)
      simp [e']
  size := by
    intro m pos p n hl h
    simp only [readIpPkt] at h
    obtain ⟨⟨ipc, ip, k⟩, hi, h⟩ := Res.bind_eq_ok.1 h
    obtain ⟨opc, s, _, _, hs, hk, hle, _⟩ := readIp_ok hi
    have := ipSize_le hs
    simp at h; omega
  congr := by
    intro m pos m' pos' p n h hl ha
    simp only [readIpPkt] at h ⊢
    obtain ⟨⟨ipc, ip, k⟩, hi, h⟩ := Res.bind_eq_ok.1 h
    obtain ⟨opc, s, e1, e2, hs, hk, hle, e3⟩ := readIp_ok hi
    simp at h
    obtain ⟨rfl, rfl⟩ := h
    have hr := ha.right
    simp only [readIp, ha.rd0 (by omega), e1, Res.bind_ok]
    rw [← e2, hs]
    simp only [Res.bind_ok, show ¬ m'.length < pos' + 1 + s by omega, if_false,
      ha.rdLE 1 s (by omega), e3]
    simp [hk]
  cut := by
    intro m pos m' pos' p n h hl hl' hl'' heq
    simp only [readIpPkt] at h ⊢
    obtain ⟨⟨ipc, ip, k⟩, hi, h⟩ := Res.bind_eq_ok.1 h
    obtain ⟨opc, s, e1, e2, hs, hk, hle, e3⟩ := readIp_ok hi
    simp at h
    obtain ⟨rfl, rfl⟩ := h
    have hrd : rd m' pos' = rd m pos := rd_congr (by simpa using (heq 0 (by omega)).symm)
    simp only [readIp, hrd, e1, Res.bind_ok]
    rw [← e2, hs]
    simp only [Res.bind_ok, show m'.length < pos' + 1 + s by omega, if_true, Res.bind_err]

theorem ptwSize_le {plc s : Nat} (h : ptwSize plc = .ok s) : s ≤ 8 := by
  unfold ptwSize at h
  repeat' split at h
  all_goals first | (simp at h; omega) | cases h

theorem ptwSize_safe (plc : Nat) : (ptwSize plc).safe := by
  unfold ptwSize
  repeat' split
  all_goals simp

theorem readPtw_reader : Reader 2 readPtw where
  safe := by
    intro m pos h
    obtain ⟨v, _, e⟩ := rd_ex (m := m) (i := pos + 1) (by omega)
    simp only [readPtw, e, Res.bind_ok]
    refine Res.bind_ne_ub (ptwSize_safe _) ?_
    intro s hs
    split
    · simp
    · obtain ⟨w, _, e'⟩ := rdLE_ex (m := m) (n := s) (pos := pos + 2) (by omega)
      simp [e']
  size := by
    intro m pos p n hl h
    simp only [readPtw] at h
    obtain ⟨opc, e1, h⟩ := Res.bind_eq_ok.1 h
    obtain ⟨s, e2, h⟩ := Res.bind_eq_ok.1 h
    have := ptwSize_le e2
    split at h
    · cases h
    · obtain ⟨v, e3, h⟩ := Res.bind_eq_ok.1 h
      simp at h; omega
  congr := by
    intro m pos m' pos' p n h hl ha
    simp only [readPtw] at h ⊢
    obtain ⟨opc, e1, h⟩ := Res.bind_eq_ok.1 h
    obtain ⟨s, e2, h⟩ := Res.bind_eq_ok.1 h
    split at h
    · cases h
    · obtain ⟨v, e3, h⟩ := Res.bind_eq_ok.1 h
      simp at h
      obtain ⟨rfl, rfl⟩ := h
      have := ha.right
      simp only [ha.rd 1 (by omega), e1, Res.bind_ok, e2, show ¬ m'.length < pos' + 2 + s by omega,
        if_false, ha.rdLE 2 s (by omega), e3, Res.pure_eq]
  cut := by
    intro m pos m' pos' p n h hl hl' hl'' heq
    simp only [readPtw] at h ⊢
    obtain ⟨opc, e1, h⟩ := Res.bind_eq_ok.1 h
    obtain ⟨s, e2, h⟩ := Res.bind_eq_ok.1 h
    split at h
    · cases h
    · obtain ⟨v, e3, h⟩ := Res.bind_eq_ok.1 h
      simp at h
      obtain ⟨rfl, rfl⟩ := h
      have hrd : rd m' (pos' + 1) = rd m (pos + 1) := rd_congr (heq 1 (by omega)).symm
      simp only [hrd, e1, Res.bind_ok, e2, show m'.length < pos' + 2 + s by omega, if_true]

theorem readTrig_reader (need : Nat) (h : need ≤ 3) : Reader need readTrig where
  safe := by
    intro m pos _
    simp only [readTrig]
    split
    · simp
    · obtain ⟨v1, _, e1⟩ := rd_ex (m := m) (i := pos + 1) (by omega)
      obtain ⟨v2, _, e2⟩ := rd_ex (m := m) (i := pos + 2) (by omega)
      simp only [e1, e2, Res.bind_ok]
      split
      · split
        · simp
        · obtain ⟨v3, _, e3⟩ := rdLE_ex (m := m) (n := 2) (pos := pos + 3) (by omega)
          simp [e3]
      · simp
  size := by
    intro m pos p n hl h
    simp only [readTrig] at h
    split at h
    · cases h
    · obtain ⟨v, e1, h⟩ := Res.bind_eq_ok.1 h
      split at h
      · split at h
        · cases h
        · obtain ⟨v, e2, h⟩ := Res.bind_eq_ok.1 h
          obtain ⟨v, e3, h⟩ := Res.bind_eq_ok.1 h
          simp at h; omega
      · obtain ⟨v, e3, h⟩ := Res.bind_eq_ok.1 h
        simp at h; omega
  congr := by
    intro m pos m' pos' p n h hl ha
    have hr := ha.right
    simp only [readTrig] at h ⊢
    split at h
    · cases h
    · obtain ⟨v, e1, h⟩ := Res.bind_eq_ok.1 h
      split at h
      · rename_i hv
        split at h
        · cases h
        · obtain ⟨ic, e2, h⟩ := Res.bind_eq_ok.1 h
          obtain ⟨tr, e3, h⟩ := Res.bind_eq_ok.1 h
          simp at h
          obtain ⟨rfl, rfl⟩ := h
          simp only [show ¬ m'.length < pos' + 3 by omega, if_false, ha.rd 1 (by omega), e1,
            Res.bind_ok, hv, if_true, show ¬ m'.length < pos' + 5 by omega, ha.rdLE 3 2 (by omega),
            e2, ha.rd 2 (by omega), e3, Res.pure_eq]
      · rename_i hv
        obtain ⟨tr, e3, h⟩ := Res.bind_eq_ok.1 h
        simp at h
        obtain ⟨rfl, rfl⟩ := h
        simp [show ¬ m'.length < pos' + 3 by omega, ha.rd 1 (by omega), e1,
            hv, ha.rd 2 (by omega), e3]
  cut := by
    intro m pos m' pos' p n h hl hl' hl'' heq
    simp only [readTrig] at h ⊢
    split at h
    · cases h
    · obtain ⟨v, e1, h⟩ := Res.bind_eq_ok.1 h
      split
      · rfl
      · have hrd : rd m' (pos' + 1) = rd m (pos + 1) := rd_congr (heq 1 (by omega)).symm
        simp only [hrd, e1, Res.bind_ok]
        split at h
        · rename_i hv
          split at h
          · cases h
          · obtain ⟨ic, e2, h⟩ := Res.bind_eq_ok.1 h
            obtain ⟨tr, e3, h⟩ := Res.bind_eq_ok.1 h
            simp at h
            simp [hv, show m'.length < pos' + 5 by omega]
        · obtain ⟨tr, e3, h⟩ := Res.bind_eq_ok.1 h
          simp at h
          omega

/-! ### CYC -/

theorem readCycLoop_safe {m : List UInt8} : ∀ {fuel pos shl value : Nat} {ext : Bool},
    64 < shl + 7 * fuel → (readCycLoop m fuel pos shl value ext).safe ∨ fuel = 0 := by
  intro fuel
  induction fuel with
  | zero => intros; right; rfl
  | succ fuel ih =>
    intro pos shl value ext h
    left
    simp only [readCycLoop]
    split
    · simp
    · split
      · simp
      · obtain ⟨v, _, e⟩ := rd_ex (m := m) (i := pos) (by omega)
        simp only [e, Res.bind_ok]
        split
        · simp
        · rcases ih (pos := pos + 1) (shl := shl + 7) (value := value + v / 2 * 2 ^ shl)
            (ext := v.testBit 0) (by omega) with h' | h'
          · exact h'
          · omega

theorem readCycLoop_pos {m : List UInt8} : ∀ {fuel pos shl value v pos' : Nat} {ext : Bool},
    readCycLoop m fuel pos shl value ext = .ok (v, pos') →
      pos ≤ pos' ∧ pos' ≤ pos + fuel ∧ (pos < pos' → pos' ≤ m.length) := by
  intro fuel
  induction fuel with
  | zero => intro pos shl value v pos' ext h; simp [readCycLoop] at h
  | succ fuel ih =>
    intro pos shl value v pos' ext h
    simp only [readCycLoop] at h
    split at h
    · simp at h; omega
    · split at h
      · cases h
      · obtain ⟨b, eb, h⟩ := Res.bind_eq_ok.1 h
        split at h
        · cases h
        · have := ih h
          omega

theorem readCycLoop_congr {m m' : List UInt8} : ∀ {fuel pos q shl value v pos' : Nat} {ext : Bool},
    readCycLoop m fuel pos shl value ext = .ok (v, pos') →
      (∀ i, pos + i < pos' → m[pos + i]? = m'[q + i]?) →
      readCycLoop m' fuel q shl value ext = .ok (v, q + (pos' - pos)) := by
  intro fuel
  induction fuel with
  | zero => intro pos q shl value v pos' ext h; simp [readCycLoop] at h
  | succ fuel ih =>
    intro pos q shl value v pos' ext h heq
    simp only [readCycLoop] at h ⊢
    split at h
    · rename_i hx
      simp at h
      simp [hx]; omega
    · rename_i hx
      split at h
      · cases h
      · rename_i hle
        obtain ⟨b, eb, h⟩ := Res.bind_eq_ok.1 h
        split at h
        · cases h
        · rename_i hsh
          have hp := readCycLoop_pos h
          have h0 := heq 0 (by omega)
          simp only [Nat.add_zero] at h0
          have hq : q < m'.length := by
            rw [List.getElem?_eq_getElem (by omega)] at h0
            exact (List.getElem?_eq_some_iff.1 h0.symm).1
          have hrd : rd m' q = .ok b := by rw [← eb]; exact rd_congr h0.symm
          have := ih (q := q + 1) h (by
            intro i hi
            have := heq (i + 1) (by omega)
            rw [show pos + 1 + i = pos + (i + 1) by omega, show q + 1 + i = q + (i + 1) by omega, this])
          simp only [hx, if_false, show ¬ m'.length ≤ q by omega, hrd, Res.bind_ok, hsh, this]
          simp; omega

theorem readCycLoop_cut {m m' : List UInt8} : ∀ {fuel pos q shl value v pos' : Nat} {ext : Bool},
    readCycLoop m fuel pos shl value ext = .ok (v, pos') → q ≤ m'.length →
      m'.length < q + (pos' - pos) →
      (∀ i, q + i < m'.length → m[pos + i]? = m'[q + i]?) →
      readCycLoop m' fuel q shl value ext = .err .eos := by
  intro fuel
  induction fuel with
  | zero => intro pos q shl value v pos' ext h; simp [readCycLoop] at h
  | succ fuel ih =>
    intro pos q shl value v pos' ext h hq hlt heq
    simp only [readCycLoop] at h ⊢
    split at h
    · simp at h; omega
    · rename_i hx
      split at h
      · cases h
      · obtain ⟨b, eb, h⟩ := Res.bind_eq_ok.1 h
        split at h
        · cases h
        · rename_i hsh
          have hp := readCycLoop_pos h
          by_cases hl : m'.length ≤ q
          · simp [hx, hl]
          · have h0 := heq 0 (by omega)
            simp only [Nat.add_zero] at h0
            have hrd : rd m' q = .ok b := by rw [← eb]; exact rd_congr h0.symm
            rw [if_neg hx, if_neg hl, hrd, Res.bind_ok, if_neg hsh]
            apply ih h (by omega) (by omega)
            intro i hi
            have := heq (i + 1) (by omega)
            rw [show pos + 1 + i = pos + (i + 1) by omega, show q + 1 + i = q + (i + 1) by omega, this]

theorem readCyc_ok {m : List UInt8} {pos n : Nat} {p : Packet} (h : readCyc m pos = .ok (p, n)) :
    ∃ b v pos', rd m pos = .ok b ∧
      readCycLoop m 10 (pos + 1) 5 (b / 8) (b.testBit 2) = .ok (v, pos') ∧ p = .cyc v ∧
      n = pos' - pos ∧ pos + 1 ≤ pos' ∧ pos' ≤ m.length ∧ n ≤ 11 := by
  simp only [readCyc] at h
  obtain ⟨b, eb, h⟩ := Res.bind_eq_ok.1 h
  obtain ⟨⟨v, pos'⟩, ev, h⟩ := Res.bind_eq_ok.1 h
  simp at h
  have := readCycLoop_pos ev
  have := rd_ok_bound eb
  exact ⟨b, v, pos', eb, ev, h.1.symm, h.2.symm, by omega, by omega, by omega⟩

theorem readCyc_reader : Reader 1 readCyc where
  safe := by
    intro m pos h
    obtain ⟨b, _, e⟩ := rd_ex (m := m) (i := pos) (by omega)
    simp only [readCyc, e, Res.bind_ok]
    rcases readCycLoop_safe (m := m) (fuel := 10) (pos := pos + 1) (shl := 5) (value := b / 8)
      (ext := b.testBit 2) (by omega) with h | h
    · exact Res.bind_ne_ub h (by intro a _; simp)
    · omega
  size := by
    intro m pos p n hl h
    obtain ⟨b, v, pos', eb, ev, _, _, _, _, _⟩ := readCyc_ok h
    omega
  congr := by
    intro m pos m' pos' p n h hl ha
    obtain ⟨b, v, e, eb, ev, rfl, rfl, _, _, _⟩ := readCyc_ok h
    have := readCycLoop_congr (m' := m') (q := pos' + 1) ev (by
      intro i hi
      have := ha.eq (i + 1) (by omega)
      rw [show pos + 1 + i = pos + (i + 1) by omega, show pos' + 1 + i = pos' + (i + 1) by omega, this])
    simp only [readCyc, ha.rd0 (by omega), eb, Res.bind_ok, this]
    simp; omega
  cut := by
    intro m pos m' pos' p n h hl hl' hl'' heq
    obtain ⟨b, v, e, eb, ev, rfl, rfl, _, _, _⟩ := readCyc_ok h
    have := readCycLoop_cut (m' := m') (q := pos' + 1) ev (by omega) (by omega) (by
      intro i hi
      have := heq (i + 1) (by omega)
      rw [show pos + 1 + i = pos + (i + 1) by omega, show pos' + 1 + i = pos' + (i + 1) by omega, this])
    have hrd : rd m' pos' = rd m pos := rd_congr (by simpa using (heq 0 (by omega)).symm)
    simp only [readCyc, hrd, eb, Res.bind_ok, this, Res.bind_err]

end Ipt
