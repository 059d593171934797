import Verif.Config

/-!
# Address-space identifiers and configuration import (C16, C17, C18)
-/

namespace Ipt.Spec

/-- The two values are compatible: equal, or one of them is unset (all ones). -/
def Compatible (a b : Nat) : Prop := a = b ∨ a = 2 ^ 64 - 1 ∨ b = 2 ^ 64 - 1

/-- Range number `n` of an address filter with configuration word `cfg` and address words `w`
has type `ty` and contains `ip`, both ends included. -/
def InRange (cfg : Nat) (w : List Nat) (ty ip n : Nat) : Prop :=
  cfg / 16 ^ n % 16 = ty ∧ ∃ a b, w[2 * n]? = some a ∧ w[2 * n + 1]? = some b ∧ a ≤ ip ∧ ip ≤ b

end Ipt.Spec

namespace Ipt
open Spec

@[simp] theorem toLE_length (n v : Nat) : (toLE n v).length = n := by
  induction n generalizing v with
  | zero => rfl
  | succ n ih => simp [toLE, ih]

theorem rd_append_left {a b : List UInt8} {i : Nat} (h : i < a.length) : rd (a ++ b) i = rd a i := by
  apply rd_congr; rw [List.getElem?_append_left h]

theorem rdLE_toLE (n : Nat) : ∀ (v : Nat) (pre post : List UInt8), v < 256 ^ n →
    rdLE (pre ++ toLE n v ++ post) pre.length n = .ok v := by
  induction n with
  | zero => intro v _ _ h; simp at h; simp [rdLE, h]
  | succ n ih =>
    intro v pre post h
    have e1 : rd (pre ++ toLE (n + 1) v ++ post) pre.length = .ok (v % 256) := by
      rw [rd, toLE, List.append_assoc, List.getElem?_append_right (by omega)]
      simp
    have e2 := ih (v / 256) (pre ++ [UInt8.ofNat (v % 256)]) post (by
      rw [Nat.pow_succ] at h; omega)
    simp only [List.length_append, List.length_cons, List.length_nil] at e2
    have e3 : pre ++ [UInt8.ofNat (v % 256)] ++ toLE n (v / 256) ++ post =
        pre ++ toLE (n + 1) v ++ post := by simp [toLE]
    rw [e3] at e2
    simp only [rdLE, e1, e2, Res.bind_ok, Res.pure_eq]
    congr 1
    omega

theorem rdLE_toLE_zero {n v : Nat} {post : List UInt8} (h : v < 256 ^ n) :
    rdLE (toLE n v ++ post) 0 n = .ok v := by
  simpa using rdLE_toLE n v [] post h

end Ipt

namespace Ipt.Props
open Ipt Spec

/-- C16: two identifiers match exactly if both their cr3 values and their vmcs values are
compatible, unset values being wildcards. -/
theorem C16_asid_match (l r : Asid) :
    asidMatch l r = true ↔ Compatible l.cr3 r.cr3 ∧ Compatible l.vmcs r.vmcs := by
  simp only [asidMatch, asidNone, Compatible]
  by_cases h1 : l.cr3 = r.cr3 <;> by_cases h2 : l.cr3 = 2 ^ 64 - 1 <;>
    by_cases h3 : r.cr3 = 2 ^ 64 - 1 <;> by_cases h4 : l.vmcs = r.vmcs <;>
    by_cases h5 : l.vmcs = 2 ^ 64 - 1 <;> by_cases h6 : r.vmcs = 2 ^ 64 - 1 <;>
    simp_all

example : asidMatch ⟨0x1000, 2 ^ 64 - 1⟩ ⟨0x1000, 7⟩ = true ∧
    asidMatch ⟨0x1000, 8⟩ ⟨0x1000, 7⟩ = false := by decide +kernel

/-- C16: matching is reflexive and symmetric. -/
theorem C16_asid_match_refl_symm (l r : Asid) :
    asidMatch l l = true ∧ asidMatch l r = asidMatch r l := by
  constructor
  · rw [C16_asid_match]; exact ⟨.inl rfl, .inl rfl⟩
  · rw [Bool.eq_iff_iff, C16_asid_match, C16_asid_match]
    simp only [Compatible]
    constructor <;> rintro ⟨h1, h2⟩ <;> exact ⟨by omega, by omega⟩

/-- C16: importing an identifier reads no byte beyond the size the user declared (and the size
field itself), takes the bytes the user provided and leaves the others unset (0xff). -/
theorem C16_asid_import (u : List UInt8) (size : Nat)
    (hsize : rdLE u 0 8 = .ok size) (hu : min size 24 ≤ u.length) :
    ∃ a, asidFromUser (some u) = .ok a ∧ a.length = 24 ∧ rdLE a 0 8 = .ok 24 ∧
      ∀ i, 8 ≤ i → i < 24 → a[i]? = if i < size then u[i]? else some 0xff := by
  have hlen : asidInit.length = 24 := by simp [asidInit]
  have hff : ∀ i, 8 ≤ i → i < 24 → asidInit[i]? = some 0xff := by
    have : ∀ i, i < 24 → 8 ≤ i → asidInit[i]? = some 0xff := by decide +kernel
    exact fun i h1 h2 => this i h2 h1
  simp only [asidFromUser, hsize, Res.bind_ok]
  have hs : (if sizeofAsid < size then sizeofAsid else size) = min size 24 := by
    by_cases hh : 24 < size <;> simp [sizeofAsid, hh] <;> omega
  simp only [hs]
  generalize hn : min size 24 = n at *
  have hl : ((asidInit.take 0 ++ u.take n ++ asidInit.drop (0 + n))).length = 24 := by
    simp [hlen]; omega
  rw [memcpy, if_pos (by omega), Res.bind_ok, memcpy, if_pos ⟨by simp, by rw [hl]; omega⟩]
  refine ⟨_, rfl, ?_, ?_, ?_⟩
  · rw [List.length_append, List.length_append, List.length_drop, hl]; simp
  · simp only [sizeofAsid, List.take_zero, List.nil_append, List.take_of_length_le (show (toLE 8 24).length ≤ 8 by simp)]
    exact rdLE_toLE_zero (by decide)
  · intro i h1 h2
    simp only [List.take_zero, List.nil_append, sizeofAsid, Nat.zero_add]
    rw [List.getElem?_append_right (by simp; omega), List.getElem?_drop]
    simp only [List.length_take, toLE_length, Nat.min_self]
    rw [show 8 + (i - 8) = i by omega]
    by_cases hi : i < size
    · rw [if_pos hi, List.getElem?_append_left (by simp; omega), List.getElem?_take, if_pos (by omega)]
    · rw [if_neg hi, List.getElem?_append_right (by simp; omega), List.getElem?_drop]
      rw [show n + (i - (u.take n).length) = i by simp; omega]
      exact hff i h1 h2

/-- C16: exporting an identifier writes no byte beyond the size the user passed nor beyond the
structure, reports the number of bytes provided, and otherwise copies the identifier. -/
theorem C16_asid_export (user asid : List UInt8) (size : Nat) (ha : asid.length = 24)
    (hu : min size 24 ≤ user.length) (hbig : size < 2 ^ 64) :
    if size < 8 then asidToUser user asid size = .err .invalid
    else ∃ u, asidToUser user asid size = .ok u ∧ u.length = user.length ∧
      rdLE u 0 8 = .ok (min size 24) ∧
      ∀ i, 8 ≤ i → u[i]? = if i < min size 24 then asid[i]? else user[i]? := by
  by_cases h8 : size < 8
  · simp [h8, asidToUser]
  rw [if_neg h8]
  simp only [asidToUser, if_neg h8]
  have hs : (if sizeofAsid < size then sizeofAsid else size) = min size 24 := by
    by_cases hh : 24 < size <;> simp [sizeofAsid, hh] <;> omega
  simp only [hs]
  generalize hn : min size 24 = n at *
  have hl : ((user.take 0 ++ asid.take n ++ user.drop (0 + n))).length = user.length := by
    simp; omega
  rw [memcpy, if_pos (by omega), Res.bind_ok, memcpy, if_pos ⟨by simp, by rw [hl]; omega⟩]
  refine ⟨_, rfl, ?_, ?_, ?_⟩
  · rw [List.length_append, List.length_append, List.length_drop, hl]; simp; omega
  · simp only [List.take_zero, List.nil_append, List.take_of_length_le (show (toLE 8 n).length ≤ 8 by simp)]
    exact rdLE_toLE_zero (by omega)
  · intro i h1
    simp only [List.take_zero, List.nil_append, Nat.zero_add]
    rw [List.getElem?_append_right (by simp; omega), List.getElem?_drop]
    simp only [List.length_take, toLE_length, Nat.min_self]
    rw [show 8 + (i - 8) = i by omega]
    by_cases hi : i < n
    · rw [if_pos hi, List.getElem?_append_left (by simp; omega), List.getElem?_take, if_pos (by omega)]
    · rw [if_neg hi, List.getElem?_append_right (by simp; omega), List.getElem?_drop]
      rw [show n + (i - (asid.take n).length) = i by simp; omega]

example : asidFromUser (some (toLE 8 12 ++ [1, 2, 3, 4])) =
      .ok (toLE 8 24 ++ [1, 2, 3, 4, 0xff, 0xff, 0xff, 0xff] ++ List.replicate 8 0xff) ∧
    asidToUser (List.replicate 16 0) (toLE 8 24 ++ toLE 8 0x1234 ++ toLE 8 7) 16 =
      .ok (toLE 8 16 ++ toLE 8 0x1234) := by decide +kernel

/-- C17: importing a configuration reads only bytes within the size the user declared (once that
covers the size field), and succeeds exactly if the declared size covers the mandatory fields
and the buffer pointers are non-null and ordered.  `S` is the library's structure size, for any
library version. -/
theorem C17_config_import (S : Nat) (old u : List UInt8) (size b e : Nat)
    (hS : 24 ≤ S) (hold : old.length = S) (hS64 : S < 2 ^ 64)
    (hsize : rdLE u 0 8 = .ok size) (hu : size ≤ u.length)
    (hb : 24 ≤ size → rdLE u 8 8 = .ok b ∧ rdLE u 16 8 = .ok e) :
    if 24 ≤ size ∧ b ≠ 0 ∧ e ≠ 0 ∧ b ≤ e then
      ∃ c, configFromUser S old (some u) = .ok c ∧ c.length = S ∧ rdLE c 0 8 = .ok (min size S) ∧
        ∀ i, 8 ≤ i → i < S → c[i]? = if i < size then u[i]? else some 0
    else configFromUser S old (some u) = .err .badConfig := by
  simp only [configFromUser, hsize, Res.bind_ok]
  by_cases h24 : size < 24
  · rw [if_neg (by omega), if_pos h24]
  obtain ⟨hb1, hb2⟩ := hb (by omega)
  rw [if_neg h24, hb1, hb2]
  simp only [Res.bind_ok]
  by_cases hp : b = 0 ∨ e = 0 ∨ e < b
  · rw [if_neg (by omega), if_pos hp]
  rw [if_neg hp, if_pos (by omega)]
  -- the zero-filled destination
  have hz : ∃ c0 : List UInt8, (if S ≤ size then .ok (old, S)
         else memcpy old size (List.replicate (S - size) 0) (S - size) >>= fun c => .ok (c, size))
        = .ok (c0, min size S) ∧ c0.length = S ∧ ∀ i, size ≤ i → i < S → c0[i]? = some 0 := by
    by_cases hs : S ≤ size
    · exact ⟨old, by rw [if_pos hs]; congr 2; omega, hold, by intros; omega⟩
    · rw [if_neg hs, memcpy, if_pos ⟨by simp, by omega⟩]
      refine ⟨_, by rw [Res.bind_ok]; congr 2; omega, by simp; omega, ?_⟩
      intro i h1 h2
      rw [List.getElem?_append_left (by simp; omega), List.getElem?_append_right (by simp; omega)]
      rw [List.getElem?_take, if_pos (by simp; omega), List.getElem?_replicate, if_pos (by simp; omega)]
  obtain ⟨c0, e0, l0, z0⟩ := hz
  rw [e0]
  simp only [Res.bind_ok]
  generalize hn : min size S = n at *
  have hl : ((c0.take 0 ++ u.take n ++ c0.drop (0 + n))).length = S := by
    simp [l0]; omega
  rw [memcpy, if_pos (by omega), Res.bind_ok, memcpy, if_pos ⟨by simp, by rw [hl]; omega⟩]
  refine ⟨_, rfl, ?_, ?_, ?_⟩
  · rw [List.length_append, List.length_append, List.length_drop, hl]; simp; omega
  · simp only [List.take_zero, List.nil_append, List.take_of_length_le (show (toLE 8 n).length ≤ 8 by simp)]
    exact rdLE_toLE_zero (by omega)
  · intro i h1 h2
    simp only [List.take_zero, List.nil_append, Nat.zero_add]
    rw [List.getElem?_append_right (by simp; omega), List.getElem?_drop]
    simp only [List.length_take, toLE_length, Nat.min_self]
    rw [show 8 + (i - 8) = i by omega]
    by_cases hi : i < size
    · rw [if_pos hi, List.getElem?_append_left (by simp; omega), List.getElem?_take, if_pos (by omega)]
    · rw [if_neg hi, List.getElem?_append_right (by simp; omega), List.getElem?_drop]
      rw [show n + (i - (u.take n).length) = i by simp; omega]
      exact z0 i (by omega) h2

example : configFromUser 40 (List.replicate 40 0xee)
      (some (toLE 8 28 ++ toLE 8 0x1000 ++ toLE 8 0x2000 ++ [1, 2, 3, 4])) =
    .ok (toLE 8 28 ++ toLE 8 0x1000 ++ toLE 8 0x2000 ++ [1, 2, 3, 4] ++ List.replicate 12 0) := by
  decide +kernel

end Ipt.Props

namespace Ipt
open Spec

theorem hit_spec (f : AddrFilter) (ty ip : Nat) (hl : f.addr.length = 16) : ∀ fuel n, n + fuel = 8 →
    ∃ h, f.hit ty ip fuel n = .ok h ∧
      (h = true ↔ ∃ k, n ≤ k ∧ k < 8 ∧ InRange f.cfg f.addr ty ip k) := by
  intro fuel
  induction fuel with
  | zero =>
    intro n h
    refine ⟨false, rfl, ?_⟩
    constructor
    · intro h'; cases h'
    · rintro ⟨k, h1, h2, _⟩; omega
  | succ fuel ih =>
    intro n h
    obtain ⟨r, e, hr⟩ := ih (n + 1) (by omega)
    have step : ∀ Q : Prop, ¬ InRange f.cfg f.addr ty ip n →
        ((∃ k, n + 1 ≤ k ∧ k < 8 ∧ InRange f.cfg f.addr ty ip k) ↔
         ∃ k, n ≤ k ∧ k < 8 ∧ InRange f.cfg f.addr ty ip k) := by
      intro _ hn
      constructor
      · rintro ⟨k, h1, h2, h3⟩; exact ⟨k, by omega, h2, h3⟩
      · rintro ⟨k, h1, h2, h3⟩
        have : k ≠ n := by rintro rfl; exact hn h3
        exact ⟨k, by omega, h2, h3⟩
    have ecfg : f.cfgOf n = f.cfg / 16 ^ n % 16 := by
      rw [AddrFilter.cfgOf, if_neg (by simp [filterNcfg]; omega), Nat.pow_mul]
    rw [AddrFilter.hit]
    by_cases hty : f.cfgOf n ≠ ty
    · rw [if_pos hty]
      exact ⟨r, e, hr.trans (step True (fun h => hty (ecfg.trans h.1)))⟩
    · rw [if_neg hty]
      rw [AddrFilter.addrA, AddrFilter.addrB, if_neg (by simp [filterNcfg]; omega),
        if_neg (by simp [filterNcfg]; omega)]
      obtain ⟨a, ha⟩ : ∃ a, f.addr[2 * n]? = some a := ⟨_, List.getElem?_eq_getElem (by omega)⟩
      obtain ⟨b, hb⟩ : ∃ b, f.addr[2 * n + 1]? = some b := ⟨_, List.getElem?_eq_getElem (by omega)⟩
      rw [ha, hb]
      simp only [Res.bind_ok]
      by_cases hin : a ≤ ip ∧ ip ≤ b
      · rw [if_pos hin]
        refine ⟨true, rfl, ?_⟩
        simp only [true_iff]
        exact ⟨n, by omega, by omega, by rw [← ecfg]; omega, a, b, ha, hb, hin.1, hin.2⟩
      · rw [if_neg hin]
        refine ⟨r, e, hr.trans (step True ?_)⟩
        rintro ⟨_, a', b', ha', hb', h1, h2⟩
        rw [ha] at ha'; rw [hb] at hb'
        injection ha' with ha'; injection hb' with hb'
        exact hin ⟨by omega, by omega⟩

theorem anyFilter_spec (f : AddrFilter) : ∀ fuel n, n + fuel = 8 →
    (f.anyFilter fuel n = true ↔ ∃ k, n ≤ k ∧ k < 8 ∧ f.cfg / 16 ^ k % 16 = 1) := by
  intro fuel
  induction fuel with
  | zero =>
    intro n h
    simp only [AddrFilter.anyFilter, Bool.false_eq_true, false_iff]
    rintro ⟨k, h1, h2, _⟩; omega
  | succ fuel ih =>
    intro n h
    have ecfg : f.cfgOf n = f.cfg / 16 ^ n % 16 := by
      rw [AddrFilter.cfgOf, if_neg (by simp [filterNcfg]; omega), Nat.pow_mul]
    rw [AddrFilter.anyFilter]
    by_cases hc : f.cfgOf n = 1
    · rw [if_pos hc]
      simp only [true_iff]
      exact ⟨n, by omega, by omega, ecfg ▸ hc⟩
    · rw [if_neg hc, ih (n + 1) (by omega)]
      constructor
      · rintro ⟨k, h1, h2, h3⟩; exact ⟨k, by omega, h2, h3⟩
      · rintro ⟨k, h1, h2, h3⟩
        have : k ≠ n := by rintro rfl; exact hc (ecfg.trans h3)
        exact ⟨k, by omega, h2, h3⟩

end Ipt

namespace Ipt.Props
open Ipt Spec

/-- C18: the address filter check.  The configuration has room for eight ranges (the four
documented ones and the reserved words).  Tracing is off at `ip` if some stop range contains
`ip`, or if there is a filter range but none contains `ip`; it is on otherwise.  Ranges of other
types play no role. -/
theorem C18_addr_filter (f : AddrFilter) (ip : Nat) (hl : f.addr.length = 16) :
    ∃ on, f.check ip = .ok on ∧
      (on = true ↔
        (¬ ∃ n, n < 8 ∧ InRange f.cfg f.addr 2 ip n) ∧
        ((∃ n, n < 8 ∧ InRange f.cfg f.addr 1 ip n) ∨ ¬ ∃ n, n < 8 ∧ f.cfg / 16 ^ n % 16 = 1)) := by
  obtain ⟨s, es, hs⟩ := hit_spec f 2 ip hl 8 0 (by omega)
  obtain ⟨h, eh, hh⟩ := hit_spec f 1 ip hl 8 0 (by omega)
  have ha := anyFilter_spec f 8 0 (by omega)
  simp only [Nat.zero_le, true_and] at hs hh ha
  rw [AddrFilter.check, AddrFilter.checkStop, AddrFilter.checkFilter, show filterNcfg = 8 from rfl, es, eh]
  rw [← hs, ← hh, ← ha]
  cases s <;> cases h <;> cases f.anyFilter 8 0 <;> simp

/-- C18, the usual case: with only the four documented ranges configured, the reserved words of
the configuration do not influence the decision. -/
theorem C18_addr_filter_documented_ranges (f : AddrFilter) (ip : Nat) (hl : f.addr.length = 16)
    (hcfg : f.cfg < 2 ^ 16) :
    ∃ on, f.check ip = .ok on ∧
      (on = true ↔
        (¬ ∃ n, n < 4 ∧ InRange f.cfg f.addr 2 ip n) ∧
        ((∃ n, n < 4 ∧ InRange f.cfg f.addr 1 ip n) ∨ ¬ ∃ n, n < 4 ∧ f.cfg / 16 ^ n % 16 = 1)) := by
  obtain ⟨on, e, h⟩ := C18_addr_filter f ip hl
  have hz : ∀ n, 4 ≤ n → f.cfg / 16 ^ n = 0 := by
    intro n hn
    apply Nat.div_eq_of_lt
    have : 16 ^ 4 ≤ 16 ^ n := Nat.pow_le_pow_right (by omega) hn
    omega
  have red : ∀ P : Nat → Prop, (∀ n, 4 ≤ n → ¬ P n) → ((∃ n, n < 8 ∧ P n) ↔ ∃ n, n < 4 ∧ P n) := by
    intro P hP
    constructor
    · rintro ⟨n, h1, h2⟩
      refine ⟨n, ?_, h2⟩
      by_cases hn : n < 4
      · exact hn
      · exact absurd h2 (hP n (by omega))
    · rintro ⟨n, h1, h2⟩; exact ⟨n, by omega, h2⟩
  refine ⟨on, e, h.trans ?_⟩
  rw [red (InRange f.cfg f.addr 2 ip), red (InRange f.cfg f.addr 1 ip), red (fun n => f.cfg / 16 ^ n % 16 = 1)]
  · intro n hn h; rw [hz n hn] at h; omega
  · intro n hn h; have := h.1; rw [hz n hn] at this; omega
  · intro n hn h; have := h.1; rw [hz n hn] at this; omega

example : (⟨0x21, [0x10, 0x1f, 0x18, 0x18] ++ List.replicate 12 0⟩ : AddrFilter).check 0x17 = .ok true ∧
    (⟨0x21, [0x10, 0x1f, 0x18, 0x18] ++ List.replicate 12 0⟩ : AddrFilter).check 0x18 = .ok false ∧
    (⟨0x21, [0x10, 0x1f, 0x18, 0x18] ++ List.replicate 12 0⟩ : AddrFilter).check 0x20 = .ok false ∧
    (⟨0x30, [0x10, 0x1f, 0x18, 0x18] ++ List.replicate 12 0⟩ : AddrFilter).check 0x20 = .ok true := by
  decide +kernel

end Ipt.Props
