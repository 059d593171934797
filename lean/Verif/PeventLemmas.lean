import Verif.Spec.Pevent

/-!
# Helper lemmas: perf event records
-/

set_option linter.unusedSimpArgs false
set_option linter.unusedVariables false

namespace Ipt

open Spec

theorem toLE_length : ∀ n v, (toLE n v).length = n
  | 0, _ => rfl
  | n + 1, v => by simp [toLE, toLE_length n]

theorem toLE_leValue : ∀ l : List UInt8, toLE l.length (leValue l) = l
  | [] => rfl
  | b :: l => by
    have h := b.toNat_lt
    show UInt8.ofNat ((b.toNat + 256 * leValue l) % 256) :: toLE l.length ((b.toNat + 256 * leValue l) / 256) = b :: l
    rw [show (b.toNat + 256 * leValue l) % 256 = b.toNat by omega, show (b.toNat + 256 * leValue l) / 256 = leValue l by omega,
      toLE_leValue l]
    simp

theorem leValue_lt : ∀ l : List UInt8, leValue l < 256 ^ l.length
  | [] => by show 0 < 1; decide
  | b :: l => by
    have h := b.toNat_lt
    have := leValue_lt l
    show b.toNat + 256 * leValue l < 256 ^ (l.length + 1)
    rw [Nat.pow_succ]
    omega

theorem leValue_toLE : ∀ n v, v < 256 ^ n → leValue (toLE n v) = v
  | 0, v, h => by simp at h; subst h; rfl
  | n + 1, v, h => by
    show (UInt8.ofNat (v % 256)).toNat + 256 * leValue (toLE n (v / 256)) = v
    rw [leValue_toLE n (v / 256) (by rw [Nat.pow_succ] at h; omega)]
    have : (UInt8.ofNat (v % 256)).toNat = v % 256 := by simp
    omega

theorem sliceAt_length {mem : List UInt8} {p n : Nat} (h : p + n ≤ mem.length) : (sliceAt mem p n).length = n := by
  simp [sliceAt]; omega

theorem rdLE_value {mem : List UInt8} : ∀ {n p : Nat}, p + n ≤ mem.length → rdLE mem p n = .ok (leValue (sliceAt mem p n))
  | 0, p, h => by simp [rdLE, sliceAt, leValue]
  | n + 1, p, h => by
    have h1 := rdLE_value (mem := mem) (n := n) (p := p + 1) (by omega)
    have h2 : sliceAt mem p (n + 1) = mem[p]'(by omega) :: sliceAt mem (p + 1) n := by
      unfold sliceAt
      rw [List.drop_eq_getElem_cons (by omega), List.take_succ_cons]
    rw [rdLE, rd_lt (by omega), h1, h2]
    rfl

theorem value_lt {mem : List UInt8} {p n : Nat} (h : p + n ≤ mem.length) : leValue (sliceAt mem p n) < 256 ^ n := by
  have := leValue_lt (sliceAt mem p n)
  rwa [sliceAt_length h] at this

theorem toLE_value {mem : List UInt8} {p n : Nat} (h : p + n ≤ mem.length) :
    toLE n (leValue (sliceAt mem p n)) = sliceAt mem p n := by
  have := toLE_leValue (sliceAt mem p n)
  rwa [sliceAt_length h] at this

/-- The bytes from `p` to `q`. -/
structure Part (mem : List UInt8) (p : Nat) (l : List UInt8) (q : Nat) : Prop where
  eq : sliceAt mem p l.length = l
  next : q = p + l.length
  le : q ≤ mem.length

variable {mem l l' : List UInt8} {p q r n : Nat}

theorem part_self (h : p + n ≤ mem.length) : Part mem p (sliceAt mem p n) (p + n) :=
  ⟨by rw [sliceAt_length h], by rw [sliceAt_length h], h⟩

theorem part_nil (h : p ≤ mem.length) : Part mem p [] p := ⟨by simp [sliceAt], by simp, h⟩

theorem Part.append (h1 : Part mem p l q) (h2 : Part mem q l' r) : Part mem p (l ++ l') r := by
  have a1 := h1.next
  have a2 := h2.next
  refine ⟨?_, by simp; omega, h2.le⟩
  have e1 := h1.eq
  have e2 := h2.eq
  unfold sliceAt at *
  rw [List.length_append, List.take_add, e1, List.drop_drop, show p + l.length = q by omega, e2]

theorem Part.split (h : Part mem p (l ++ l') r) : Part mem p l (p + l.length) ∧ Part mem (p + l.length) l' r := by
  have a1 := h.next
  have a2 := h.le
  have e1 := h.eq
  rw [List.length_append] at a1
  unfold sliceAt at e1
  rw [List.length_append, List.take_add, List.drop_drop] at e1
  have e2 := List.append_inj e1 (by simp; omega)
  exact ⟨⟨e2.1, rfl, by omega⟩, ⟨e2.2, by omega, a2⟩⟩

theorem Part.value {v : Nat} (h : Part mem p (toLE n v) q) (hv : v < 256 ^ n) : rdLE mem p n = .ok v := by
  have a1 := h.next
  have a2 := h.le
  have e1 := h.eq
  rw [toLE_length] at a1 e1
  rw [rdLE_value (by omega), e1, leValue_toLE n v hv]

theorem Part.leValue {v : Nat} (h : Part mem p (toLE n v) q) (hv : v < 256 ^ n) : leValue (sliceAt mem p n) = v := by
  have e1 := h.eq
  rw [toLE_length] at e1
  rw [e1, leValue_toLE n v hv]

theorem part_value (h : p + n ≤ mem.length) : Part mem p (toLE n (Spec.leValue (sliceAt mem p n))) (p + n) := by
  rw [toLE_value h]; exact part_self h

theorem record_fields (t : Nat) : pevRecord t = (recordFields t).map fun x => (x.1.sum, x.2) := by
  unfold pevRecord recordFields
  split <;> first | rfl | (split <;> simp_all)

theorem strlen_ok : ∀ (n p k : Nat), p + n ≤ mem.length → pevStrlenLoop mem p n = .ok k →
    ∃ s, 0 ∉ s ∧ s.length + 1 = k ∧ k ≤ n ∧ Part mem p (s ++ [0]) (p + k) ∧ (mem.drop p).takeWhile (· ≠ 0) = s
  | 0, p, k, _, h => by cases h
  | n + 1, p, k, hp, h => by
    unfold pevStrlenLoop at h
    rw [rd_lt (by omega)] at h
    have hd : mem.drop p = mem[p]'(by omega) :: mem.drop (p + 1) := List.drop_eq_getElem_cons (by omega)
    simp only [Res.bind_ok] at h
    split at h
    · rename_i h0
      cases h
      have h1 : mem[p]'(by omega) = 0 := by
        apply UInt8.toNat_inj.1; simpa using h0
      refine ⟨[], by simp, rfl, by omega, ⟨?_, by simp, by omega⟩, ?_⟩
      · show (mem.drop p).take 1 = [0]
        rw [hd, h1]; rfl
      · rw [hd, h1]; simp
    · rename_i h0
      rcases h1 : pevStrlenLoop mem (p + 1) n with k' | _ | _ <;> rw [h1] at h <;> cases h
      obtain ⟨s, a1, a2, a3, a4, a5⟩ := strlen_ok n (p + 1) k' (by omega) h1
      have h1 : mem[p]'(by omega) ≠ 0 := by
        intro hh; apply h0; rw [hh]; rfl
      refine ⟨mem[p]'(by omega) :: s, by simpa using ⟨fun h => h1 h.symm, a1⟩, by simp; omega, by omega, ?_, ?_⟩
      · have := Part.append (mem := mem) (p := p) (l := [mem[p]'(by omega)]) (q := p + 1) ⟨(by show (mem.drop p).take 1 = _; rw [hd]; rfl), by simp, by omega⟩ a4
        rwa [show p + 1 + k' = p + (k' + 1) by omega] at this
      · rw [hd, List.takeWhile_cons_of_pos (by simpa using h1), a5]

theorem strlen_complete : ∀ (s : List UInt8) (n p : Nat), 0 ∉ s → s.length < n → Part mem p (s ++ [0]) (p + s.length + 1) →
    pevStrlenLoop mem p n = .ok (s.length + 1)
  | [], n, p, _, hn, h => by
    obtain ⟨n, rfl⟩ : ∃ m, n = m + 1 := ⟨n - 1, by simp at hn; omega⟩
    have hl := h.le
    have h1 := h.eq
    unfold pevStrlenLoop
    rw [rd_lt (by simp at hl; omega)]
    have hd : mem.drop p = mem[p]'(by simp at hl; omega) :: mem.drop (p + 1) := List.drop_eq_getElem_cons (by simp at hl; omega)
    have h1 : (mem.drop p).take 1 = [0] := h1
    rw [hd] at h1
    injection h1 with h1
    simp [h1]
  | b :: s, n, p, hs, hn, h => by
    obtain ⟨n, rfl⟩ : ∃ m, n = m + 1 := ⟨n - 1, by simp at hn; omega⟩
    have hl := h.le
    have h1 := Part.split (l := [b]) (l' := s ++ [0]) h
    simp at hs hn hl
    unfold pevStrlenLoop
    rw [rd_lt (by omega)]
    have hd : mem.drop p = mem[p]'(by omega) :: mem.drop (p + 1) := List.drop_eq_getElem_cons (by omega)
    have h2 := h1.1.eq
    have h2 : (mem.drop p).take 1 = [b] := h2
    rw [hd] at h2
    injection h2 with h2
    have h3 : (mem[p]'(by omega)).toNat ≠ 0 := by
      rw [h2]; intro hh; apply hs.1; apply UInt8.toNat_inj.1; simpa using hh.symm
    have h4 := strlen_complete s n (p + 1) hs.2 (by omega) (by
      have := h1.2
      simp only [List.length_cons, List.length_nil] at this
      rwa [show p + (s.length + 1) + 1 = p + 1 + s.length + 1 by omega] at this)
    simp only [Res.bind_ok, if_neg h3, h4]
    simp

/-- A sample, if there is one. -/
theorem take_eq (t bit p : Nat) : ∃ o q, pevTake t bit p = (o, q) ∧ o.isSome = t.testBit bit ∧
    (o = if t.testBit bit = true then some p else none) ∧ q = if t.testBit bit = true then p + 8 else p := by
  unfold pevTake
  split <;> rename_i h
  · exact ⟨_, _, rfl, by simp [h], rfl, rfl⟩
  · exact ⟨_, _, rfl, by simp [h], rfl, rfl⟩

theorem strlen_safe : ∀ (n p : Nat), p + n ≤ mem.length → pevStrlenLoop mem p n ≠ .ub
  | 0, _, _ => by simp [pevStrlenLoop]
  | n + 1, p, h => by
    unfold pevStrlenLoop
    rw [rd_lt (by omega)]
    simp only [Res.bind_ok]
    split
    · simp
    · have := strlen_safe n (p + 1) (by omega)
      rcases h1 : pevStrlenLoop mem (p + 1) n with _ | _ | _ <;> simp_all

theorem sampleType_ok {c : PevConfig} {o : Option Nat} {t : Nat} : pevSampleType c (o.map .ok) = .ok t ↔ TypeFor c o t := by
  unfold pevSampleType TypeFor
  by_cases h1 : c.size < 16
  · simp [h1]; omega
  · rw [if_neg h1]
    have hs : 16 ≤ c.size := by omega
    have key : (Res.ok c.sampleType = .ok t) ↔ t = c.sampleType :=
      ⟨fun h => by injection h with h; exact h.symm, fun h => by rw [h]⟩
    by_cases h2 : c.size < 40
    · rw [if_pos h2, if_neg (by omega : ¬ 40 ≤ c.size), key]
      rcases o with _ | i <;> simp [hs]
    · rw [if_neg h2, if_pos (by omega : 40 ≤ c.size)]
      rcases o with _ | i
      · rcases c.sampleConfig with _ | l <;> simp [hs, key]
      · rcases c.sampleConfig with _ | l
        · simp [hs, key]
        · simp only [Option.map_some, Option.getD_some, Res.bind_ok]
          rcases hf : l.find? (fun x => decide (x.1 = i)) with _ | ⟨a, b⟩
          · simp only [hf, hs, key, true_and]
          · simp only [hf, hs, true_and]
            by_cases hb : b.testBit 16 = false
            · rw [if_pos hb]
              constructor
              · intro h; cases h
              · rintro ⟨rfl, h⟩; rw [hb] at h; cases h
            · rw [if_neg hb]
              constructor
              · intro h; injection h with h; subst h; exact ⟨rfl, by simpa using hb⟩
              · rintro ⟨rfl, h⟩; rfl

end Ipt
