import Verif.Encoder
import Verif.PacketDispatch

/-! Helper lemmas about the packet encoder. -/

set_option linter.unusedSimpArgs false

namespace Ipt

/-- The bytes as stored. -/
def toBytes (bs : List Nat) : List UInt8 := bs.map UInt8.ofNat

@[simp] theorem toBytes_length (bs : List Nat) : (toBytes bs).length = bs.length := by
  simp [toBytes]

@[simp] theorem toBytes_nil : toBytes [] = [] := rfl
@[simp] theorem toBytes_cons (b : Nat) (bs : List Nat) :
    toBytes (b :: bs) = UInt8.ofNat b :: toBytes bs := rfl
@[simp] theorem toBytes_append (a b : List Nat) : toBytes (a ++ b) = toBytes a ++ toBytes b := by
  simp [toBytes]

/-- Overwrite `bs.length` bytes at `pos`. -/
def splice (buf : List UInt8) (pos : Nat) (bs : List UInt8) : List UInt8 :=
  buf.take pos ++ bs ++ buf.drop (pos + bs.length)

theorem splice_length {buf : List UInt8} {pos : Nat} {bs : List UInt8}
    (h : pos + bs.length ≤ buf.length) : (splice buf pos bs).length = buf.length := by
  simp [splice]; omega

theorem splice_get_in {buf : List UInt8} {pos i : Nat} {bs : List UInt8}
    (h : pos + bs.length ≤ buf.length) (hi : i < bs.length) :
    (splice buf pos bs)[pos + i]? = bs[i]? := by
  have h1 : (buf.take pos).length = pos := by simp; omega
  unfold splice
  rw [List.append_assoc, List.getElem?_append_right (by omega), h1,
    show pos + i - pos = i by omega, List.getElem?_append_left hi]

theorem splice_get_out {buf : List UInt8} {pos i : Nat} {bs : List UInt8}
    (h : pos + bs.length ≤ buf.length) (hi : i < pos ∨ pos + bs.length ≤ i) :
    (splice buf pos bs)[i]? = buf[i]? := by
  have h1 : (buf.take pos).length = pos := by simp; omega
  unfold splice
  rcases hi with hi | hi
  · rw [List.append_assoc, List.getElem?_append_left (by omega), List.getElem?_take_of_lt hi]
  · rw [List.getElem?_append_right (by simp; omega), List.getElem?_drop]
    congr 1
    simp; omega

theorem encStore_eq {n : Nat} : ∀ {bs : List Nat} {e : Enc} {pos : Nat},
    pos + bs.length ≤ e.buf.length →
    encStore e n pos bs = ({ buf := splice e.buf pos (toBytes bs), pos := pos + bs.length }, .ok n) := by
  intro bs
  induction bs with
  | nil =>
    intro e pos h
    simp at h
    simp [encStore, splice, toBytes]
  | cons b bs ih =>
    intro e pos h
    simp at h
    simp only [encStore, encPut, show pos < e.buf.length by omega, if_true]
    rw [ih (by simp; omega)]
    simp only [Prod.mk.injEq, and_true, Enc.mk.injEq, List.length_cons]
    refine ⟨?_, by omega⟩
    apply List.ext_getElem?
    intro i
    by_cases hi : i < pos
    · rw [splice_get_out (by simp; omega) (by omega), splice_get_out (by simp; omega) (by omega),
        List.getElem?_set_ne (by omega)]
    · by_cases hi2 : i < pos + (bs.length + 1)
      · by_cases hi3 : i = pos
        · subst hi3
          rw [splice_get_out (by simp; omega) (by omega)]
          have := splice_get_in (buf := e.buf) (pos := i) (i := 0) (bs := toBytes (b :: bs))
            (by simp; omega) (by simp)
          simp only [Nat.add_zero] at this
          rw [this, List.getElem?_set_self (by omega)]
          simp
        · obtain ⟨j, rfl⟩ : ∃ j, i = pos + (j + 1) := ⟨i - pos - 1, by omega⟩
          rw [splice_get_in (bs := toBytes (b :: bs)) (by simp; omega) (by simp; omega)]
          have := splice_get_in (buf := e.buf.set pos (UInt8.ofNat b)) (pos := pos + 1) (i := j)
            (bs := toBytes bs) (by simp; omega) (by simp; omega)
          rw [show pos + 1 + j = pos + (j + 1) by omega] at this
          rw [this]
          simp
      · rw [splice_get_out (by simp; omega) (by simp; omega),
          splice_get_out (by simp; omega) (by simp; omega), List.getElem?_set_ne (by omega)]

theorem encWrite_eq {e : Enc} {bs : List Nat} {n : Nat} (hn : bs.length = n)
    (h : e.pos + n ≤ e.buf.length) :
    encWrite e n bs = ({ buf := splice e.buf e.pos (toBytes bs), pos := e.pos + n }, .ok n) := by
  subst hn
  simp only [encWrite, encReserve, show ¬ e.buf.length < e.pos + bs.length by omega, if_false]
  exact encStore_eq h

theorem encWrite_eos {e : Enc} {bs : List Nat} {n : Nat} (h : e.buf.length < e.pos + n) :
    encWrite e n bs = (e, .err .eos) := by
  simp [encWrite, encReserve, h]

@[simp] theorem leBytes_length (v n : Nat) : (leBytes v n).length = n := by
  induction n generalizing v with
  | zero => rfl
  | succ n ih => simp [leBytes, ih]

theorem rd_cons_zero (x : UInt8) (m : List UInt8) : rd (x :: m) 0 = .ok x.toNat := by simp [rd]

theorem rd_cons_succ (x : UInt8) (m : List UInt8) (i : Nat) : rd (x :: m) (i + 1) = rd m i := by
  simp [rd]

theorem rdLE_cons_succ (x : UInt8) (m : List UInt8) (i n : Nat) :
    rdLE (x :: m) (i + 1) n = rdLE m i n := by
  apply rdLE_congr
  intro k _
  rw [show i + 1 + k = (i + k) + 1 by omega, List.getElem?_cons_succ]

theorem rdLE_leBytes (v n : Nat) (t : List UInt8) :
    rdLE (toBytes (leBytes v n) ++ t) 0 n = .ok (v % 256 ^ n) := by
  induction n generalizing v t with
  | zero => simp [rdLE, Nat.mod_one]
  | succ n ih =>
    simp only [leBytes, toBytes_cons, List.cons_append, rdLE]
    have h1 : rdLE (UInt8.ofNat (v % 256) :: (toBytes (leBytes (v / 256) n) ++ t)) (0 + 1) n
        = .ok (v / 256 % 256 ^ n) := by
      rw [rdLE_cons_succ]; exact ih _ _
    rw [h1, rd_cons_zero]
    have h2 : (UInt8.ofNat (v % 256)).toNat = v % 256 := by
      simp [UInt8.toNat_ofNat]
    rw [h2]
    simp only [Res.bind_ok, Res.pure_eq, Res.ok.injEq]
    rw [Nat.pow_succ, Nat.mul_comm (256 ^ n) 256, Nat.mod_mul]

theorem rdLE_leBytes' (v n : Nat) :
    rdLE (toBytes (leBytes v n)) 0 n = .ok (v % 256 ^ n) := by
  simpa using rdLE_leBytes v n []

theorem rdLE_append_left {a b : List UInt8} {i n : Nat} (h : i + n ≤ a.length) :
    rdLE (a ++ b) i n = rdLE a i n := by
  apply rdLE_congr
  intro k hk
  rw [List.getElem?_append_left (by omega)]

theorem rdLE_append_right {a b : List UInt8} {i n k : Nat} (h : i = a.length + k) :
    rdLE (a ++ b) i n = rdLE b k n := by
  apply rdLE_congr
  intro j hj
  rw [List.getElem?_append_right (by omega)]
  congr 1
  omega

theorem rd_append_right {a b : List UInt8} {i k : Nat} (h : i = a.length + k) :
    rd (a ++ b) i = rd b k := by
  apply rd_congr
  rw [List.getElem?_append_right (by omega)]
  congr 1
  omega

theorem toNat_ofNat_lt {b : Nat} (h : b < 256) : (UInt8.ofNat b).toNat = b := by
  simp [UInt8.toNat_ofNat]; omega

/-! ### CYC -/

theorem cycExt_length : ∀ {room ctc : Nat} {bs : List Nat}, cycExt room ctc = .ok bs →
    bs.length ≤ room := by
  intro room
  induction room with
  | zero => intro ctc bs h; simp only [cycExt] at h; split at h <;> simp at h; subst h; simp
  | succ room ih =>
    intro ctc bs h
    simp only [cycExt] at h
    split at h
    · simp at h; subst h; simp
    · obtain ⟨t, ht, h⟩ := Res.bind_eq_ok.1 h
      simp at h
      subst h
      have := ih ht
      simp; omega

theorem cycExt_ok : ∀ {room ctc : Nat}, ctc < 128 ^ room → ctc < 2 ^ 63 →
    ∃ bs, cycExt room ctc = .ok bs := by
  intro room
  induction room with
  | zero => intro ctc h _; simp at h; exact ⟨[], by simp [cycExt, h]⟩
  | succ room ih =>
    intro ctc h h2
    simp only [cycExt]
    split
    · exact ⟨[], rfl⟩
    · have e1 : ctc * 2 % 2 ^ 64 = ctc * 2 := Nat.mod_eq_of_lt (by omega)
      rw [Nat.pow_succ] at h
      obtain ⟨bs, hbs⟩ := ih (ctc := ctc * 2 / 256) (by omega) (by omega)
      rw [e1, hbs]
      exact ⟨_, rfl⟩

theorem testBit_zero_mod (n : Nat) : n.testBit 0 = decide (n % 2 = 1) := by
  simp [Nat.testBit_zero]

/-- Reading back the extension bytes. -/
theorem cycLoop_roundtrip {m : List UInt8} : ∀ {k room fuel ctc pos value : Nat} {bs : List Nat},
    k ≤ 8 → ctc < 128 ^ k → k < fuel → cycExt room ctc = .ok bs →
    (∀ i, i < bs.length → m[pos + i]? = (toBytes bs)[i]?) →
    readCycLoop m fuel pos (61 - 7 * k) value (decide (ctc ≠ 0)) =
      .ok (value + ctc * 2 ^ (61 - 7 * k), pos + bs.length) := by
  intro k
  induction k with
  | zero =>
    intro room fuel ctc pos value bs _ hc hf he _
    simp at hc
    subst hc
    obtain ⟨f, rfl⟩ : ∃ f, fuel = f + 1 := ⟨fuel - 1, by omega⟩
    have : bs = [] := by
      cases room <;> simp [cycExt] at he <;> exact he
    subst this
    simp [readCycLoop]
  | succ k ih =>
    intro room fuel ctc pos value bs hk hc hf he hm
    obtain ⟨f, rfl⟩ : ∃ f, fuel = f + 1 := ⟨fuel - 1, by omega⟩
    by_cases h0 : ctc = 0
    · subst h0
      have : bs = [] := by
        cases room <;> simp [cycExt] at he <;> exact he
      subst this
      simp [readCycLoop]
    · cases room with
      | zero => simp [cycExt, h0] at he
      | succ room =>
        simp only [cycExt, h0, if_false] at he
        obtain ⟨t, ht, he⟩ := Res.bind_eq_ok.1 he
        simp only [Res.ok.injEq] at he
        subst he
        have hc63 : ctc < 2 ^ 56 := by
          have h8 : (128 : Nat) ^ (k + 1) ≤ 128 ^ 8 := Nat.pow_le_pow_right (by omega) hk
          have : (128 : Nat) ^ 8 = 2 ^ 56 := by decide
          omega
        have e1 : ctc * 2 % 2 ^ 64 = ctc * 2 := Nat.mod_eq_of_lt (by omega)
        rw [e1] at ht hm
        have hc' : ctc * 2 / 256 < 128 ^ k := by rw [Nat.pow_succ] at hc; omega
        have hb := hm 0 (by simp)
        simp only [Nat.add_zero, toBytes_cons, List.getElem?_cons_zero] at hb
        have hlt : ctc * 2 % 256 + (if ctc * 2 / 256 ≠ 0 then 1 else 0) < 256 := by
          split <;> omega
        have hrd : rd m pos = .ok (ctc * 2 % 256 + (if ctc * 2 / 256 ≠ 0 then 1 else 0)) := by
          simp only [rd, hb]
          rw [toNat_ofNat_lt hlt]
        have hpos : pos < m.length := (rd_ok_bound hrd).1
        simp only [readCycLoop, h0, ne_eq, not_false_eq_true, decide_true, Bool.true_eq_false,
          if_false, show ¬ m.length ≤ pos by omega, hrd, Res.bind_ok,
          show ¬ 64 < 61 - 7 * (k + 1) + 7 by omega]
        have hbit : (ctc * 2 % 256 + (if ¬ ctc * 2 / 256 = 0 then 1 else 0)).testBit 0
            = decide (ctc * 2 / 256 ≠ 0) := by
          rw [testBit_zero_mod]
          by_cases hz : ctc * 2 / 256 = 0
          · rw [if_neg (by simpa using hz), decide_eq_decide]; omega
          · rw [if_pos hz, decide_eq_decide]; omega
        have hhalf : (ctc * 2 % 256 + (if ¬ ctc * 2 / 256 = 0 then 1 else 0)) / 2 = ctc % 128 := by
          split <;> omega
        rw [hbit, hhalf, show 61 - 7 * (k + 1) + 7 = 61 - 7 * k by omega]
        rw [ih (by omega) hc' (by omega) ht (by
          intro i hi
          have := hm (i + 1) (by simp; omega)
          rw [show pos + 1 + i = pos + (i + 1) by omega, this]
          simp)]
        simp only [Res.ok.injEq, Prod.mk.injEq, List.length_cons]
        constructor
        · have e2 : 61 - 7 * k = (61 - 7 * (k + 1)) + 7 := by omega
          rw [e2, Nat.pow_add]
          have e3 : ctc = ctc % 128 + 128 * (ctc * 2 / 256) := by omega
          have e4 : ctc * 2 / 256 * (2 ^ (61 - 7 * (k + 1)) * 2 ^ 7)
            = 128 * (ctc * 2 / 256) * 2 ^ (61 - 7 * (k + 1)) := by
            rw [show (2 : Nat) ^ 7 = 128 by decide]
            ac_rfl
          rw [e4, Nat.add_assoc, ← Nat.add_mul, ← e3]
        · omega

end Ipt
