import Verif.Cpu
import Verif.Config

/-!
# CPU identification and errata (C45)
-/

namespace Ipt.Spec

/-- The digits of C integer constants and their values. -/
def digitTable : List (Char × Nat) :=
  [('0', 0), ('1', 1), ('2', 2), ('3', 3), ('4', 4), ('5', 5), ('6', 6), ('7', 7), ('8', 8), ('9', 9),
   ('a', 10), ('b', 11), ('c', 12), ('d', 13), ('e', 14), ('f', 15),
   ('A', 10), ('B', 11), ('C', 12), ('D', 13), ('E', 14), ('F', 15)]

/-- `Digits b s v`: `s` is a sequence of base-`b` digits with value `v`. -/
inductive Digits (b : Nat) : List Char → Nat → Prop
  | nil : Digits b [] 0
  | snoc {s v c d} : Digits b s v → (c, d) ∈ digitTable → d < b → Digits b (s ++ [c]) (v * b + d)

/-- `Numeral s v`: `s` is a decimal, octal or hexadecimal C integer constant with value `v`. -/
inductive Numeral : List Char → Nat → Prop
  | dec {s v} : Digits 10 s v → s ≠ [] → s.head? ≠ some '0' → Numeral s v
  | oct {s v} : Digits 8 s v → s.head? = some '0' → Numeral s v
  | hex {x s v} : x = 'x' ∨ x = 'X' → Digits 16 s v → s ≠ [] → Numeral ('0' :: x :: s) v

/-- White space in the "C" locale. -/
def whiteSpace : List Char := [' ', '\t', '\n', '\x0b', '\x0c', '\r']

/-- `Component s v`: what the C library's string-to-integer conversion accepts for the value `v`:
white space, a sign and a constant. -/
def Component (s : List Char) (v : Nat) : Prop :=
  ∃ ws sign num, s = ws ++ sign ++ num ∧ (∀ c ∈ ws, c ∈ whiteSpace) ∧
    (sign = [] ∨ sign = ['+'] ∨ (sign = ['-'] ∧ v = 0)) ∧ Numeral num v

end Ipt.Spec

namespace Ipt
open Spec

theorem digit_table_of_val (c : Char) (h : digitVal c < 16) : (c, digitVal c) ∈ digitTable := by
  have key : ∀ n : Nat, n < 128 → digitVal (Char.ofNat n) < 16 →
      (Char.ofNat n, digitVal (Char.ofNat n)) ∈ digitTable := by decide +kernel
  have hn : c.toNat < 128 := by
    unfold digitVal at h
    simp only [Char.le_def, UInt32.le_iff_toNat_le] at h
    have e : ∀ d : Char, d.val.toNat = d.toNat := fun _ => rfl
    have e9 : '9'.toNat = 57 := rfl
    have ef : 'f'.toNat = 102 := rfl
    have eF : 'F'.toNat = 70 := rfl
    simp only [e] at h
    split at h
    · omega
    split at h
    · omega
    split at h
    · omega
    · omega
  have := key c.toNat hn
  rw [Char.ofNat_toNat] at this
  exact this h

theorem digit_val_of_table {c : Char} {d : Nat} (h : (c, d) ∈ digitTable) : digitVal c = d := by
  have key : ∀ p ∈ digitTable, digitVal p.1 = p.2 := by decide +kernel
  exact key _ h

theorem digits_spec {b : Nat} (hb : b ≤ 16) {s : List Char} {v : Nat} :
    Digits b s v ↔ (∀ c ∈ s, isDigitOf b c = true) ∧ digitsVal b s = v := by
  constructor
  · intro h
    induction h with
    | nil => simp [digitsVal]
    | snoc h1 h2 h3 ih =>
      obtain ⟨i1, i2⟩ := ih
      refine ⟨?_, ?_⟩
      · intro c hc
        rcases List.mem_append.1 hc with hc | hc
        · exact i1 c hc
        · simp at hc; subst hc; simp [isDigitOf, digit_val_of_table h2, h3]
      · simp only [digitsVal, List.foldl_append, List.foldl_cons, List.foldl_nil] at i2 ⊢
        rw [i2, digit_val_of_table h2]
  · rintro ⟨h1, rfl⟩
    -- reverse induction
    have : ∀ n (s : List Char), s.length = n → (∀ c ∈ s, isDigitOf b c = true) → Digits b s (digitsVal b s) := by
      intro n
      induction n with
      | zero => intro s hs _; rw [List.length_eq_zero_iff.1 hs]; exact .nil
      | succ n ih =>
        intro s hs hd
        have hne : s ≠ [] := by rintro rfl; simp at hs
        have e := (List.dropLast_concat_getLast hne).symm
        have hi := ih s.dropLast (by simp [hs]) (fun c hc => hd c (List.dropLast_subset _ hc))
        have hl := hd (s.getLast hne) (List.getLast_mem hne)
        simp only [isDigitOf, decide_eq_true_eq] at hl
        have := Digits.snoc hi (digit_table_of_val (s.getLast hne) (by omega)) hl
        rw [← e] at this
        have ev : digitsVal b s = digitsVal b s.dropLast * b + digitVal (s.getLast hne) := by
          conv => lhs; rw [e]
          simp [digitsVal]
        rw [ev]
        exact this
    exact this _ s rfl h1

theorem takeWhile_append {p : Char → Bool} {l r : List Char} (hl : ∀ c ∈ l, p c = true)
    (hr : ∀ c, r.head? = some c → p c = false) :
    (l ++ r).takeWhile p = l ∧ (l ++ r).dropWhile p = r := by
  induction l with
  | nil =>
    cases r with
    | nil => simp
    | cons c r => have := hr c rfl; simp [this]
  | cons a l ih =>
    have ha := hl a (by simp)
    obtain ⟨i1, i2⟩ := ih (fun c hc => hl c (by simp [hc]))
    simp [ha, i1, i2]

theorem takeWhile_all {p : Char → Bool} (l : List Char) : ∀ c ∈ l.takeWhile p, p c = true := by
  induction l with
  | nil => simp
  | cons a l ih =>
    intro c hc
    by_cases ha : p a = true
    · simp only [List.takeWhile_cons, ha, if_true, List.mem_cons] at hc
      rcases hc with rfl | hc
      · exact ha
      · exact ih c hc
    · simp [ha] at hc

theorem body_complete {num rest : List Char} {v : Nat} (h : Numeral num v)
    (hr : ∀ c, rest.head? = some c → c = '/') :
    ∃ b ds, strtolBody (num ++ rest) = (b, ds, rest) ∧ ds ≠ [] ∧ digitsVal b ds = v := by
  have hsep : ∀ b, b ≤ 16 → ∀ c, rest.head? = some c → isDigitOf b c = false := by
    intro b hb c hc
    rw [hr c hc]
    have : digitVal '/' = 16 := by decide +kernel
    simp [isDigitOf, this, hb]
  cases h with
  | dec hd hne h0 =>
    obtain ⟨h1, h2⟩ := (digits_spec (by omega)).1 hd
    obtain ⟨t1, t2⟩ := takeWhile_append h1 (hsep 10 (by omega))
    refine ⟨10, num, ?_, hne, h2⟩
    cases num with
    | nil => exact absurd rfl hne
    | cons a num =>
      have : a ≠ '0' := by simpa using h0
      rw [strtolBody]
      · rw [t1, t2]
      · rintro _ _ _ h; simp at h; exact this h.1
      · rintro _ h; simp at h; exact this h.1
  | oct hd h0 =>
    obtain ⟨h1, h2⟩ := (digits_spec (by omega)).1 hd
    obtain ⟨t1, t2⟩ := takeWhile_append h1 (hsep 8 (by omega))
    cases num with
    | nil => simp at h0
    | cons a num =>
      have : a = '0' := by simpa using h0
      subst this
      refine ⟨8, _, ?_, by simp, h2⟩
      have nox : ∀ x y, num ++ rest = x :: y → ¬ (x = 'x' ∨ x = 'X') := by
        intro x y hxy hx
        cases num with
        | nil =>
          have := hr x (by simp at hxy; simp [hxy])
          rcases hx with rfl | rfl <;> revert this <;> decide
        | cons c num =>
          simp at hxy
          have := h1 c (by simp)
          rw [hxy.1] at this
          rcases hx with rfl | rfl <;> revert this <;> decide +kernel
      rw [List.cons_append] at t1 t2 ⊢
      cases hnr : num ++ rest with
      | nil => rw [hnr] at t1 t2; simp only [strtolBody]; rw [t1, t2]
      | cons x y =>
        have hx := nox x y hnr
        rw [hnr] at t1 t2
        cases y with
        | nil => simp only [strtolBody]; rw [t1, t2]
        | cons d t =>
          simp only [strtolBody]
          rw [if_neg (fun h => hx h.1), t1, t2]
  | @hex x s _ hx hd hne =>
    obtain ⟨h1, h2⟩ := (digits_spec (by omega)).1 hd
    obtain ⟨t1, t2⟩ := takeWhile_append h1 (hsep 16 (by omega))
    refine ⟨16, s, ?_, hne, h2⟩
    cases s with
    | nil => exact absurd rfl hne
    | cons d s =>
      simp only [List.cons_append] at t1 t2 ⊢
      simp only [strtolBody]
      rw [if_pos ⟨hx, h1 d (by simp)⟩, t1, t2]

theorem body_sound {t ds rest : List Char} {b : Nat} (h : strtolBody t = (b, ds, rest)) (hne : ds ≠ []) :
    ∃ num, t = num ++ rest ∧ Numeral num (digitsVal b ds) := by
  have octc : ∀ t : List Char, t.head? = some '0' →
      (8, t.takeWhile (isDigitOf 8), t.dropWhile (isDigitOf 8)) = (b, ds, rest) →
      ∃ num, t = num ++ rest ∧ Numeral num (digitsVal b ds) := by
    intro t h0 h
    simp only [Prod.mk.injEq] at h
    obtain ⟨rfl, rfl, rfl⟩ := h
    refine ⟨_, (List.takeWhile_append_dropWhile).symm, .oct ((digits_spec (by omega)).2 ⟨takeWhile_all t, rfl⟩) ?_⟩
    cases t with
    | nil => simp at h0
    | cons a t =>
      by_cases ha : isDigitOf 8 a = true
      · simp only [List.takeWhile_cons, ha, if_true]; simpa using h0
      · simp [ha] at hne
  unfold strtolBody at h
  split at h
  · rename_i x d t
    by_cases hc : (x = 'x' ∨ x = 'X') ∧ isDigitOf 16 d = true
    · rw [if_pos hc] at h
      simp only [Prod.mk.injEq] at h
      obtain ⟨rfl, rfl, rfl⟩ := h
      refine ⟨'0' :: x :: (d :: t).takeWhile (isDigitOf 16), ?_, ?_⟩
      · rw [List.cons_append, List.cons_append, List.takeWhile_append_dropWhile]
      · exact .hex hc.1 ((digits_spec (by omega)).2 ⟨takeWhile_all _, rfl⟩) hne
    · rw [if_neg hc] at h
      exact octc _ rfl h
  · exact octc _ rfl h
  · rename_i _ h2
    simp only [Prod.mk.injEq] at h
    obtain ⟨rfl, rfl, rfl⟩ := h
    refine ⟨_, (List.takeWhile_append_dropWhile).symm, .dec ((digits_spec (by omega)).2 ⟨takeWhile_all t, rfl⟩) hne ?_⟩
    cases t with
    | nil => simp
    | cons a t =>
      by_cases ha : isDigitOf 10 a = true
      · simp only [List.takeWhile_cons, ha, if_true, List.head?_cons]
        intro h0
        injection h0 with h0
        exact h2 t (by rw [h0])
      · simp [ha] at hne

theorem isCSpace_iff (c : Char) : isCSpace c = true ↔ c ∈ whiteSpace := by
  simp [isCSpace, whiteSpace, or_assoc]

/-- The first character of a numeral is a decimal digit. -/
theorem numeral_head {num : List Char} {v : Nat} (h : Numeral num v) :
    ∃ a t, num = a :: t ∧ digitVal a < 10 := by
  cases h with
  | dec hd hne _ =>
    obtain ⟨h1, _⟩ := (digits_spec (by omega)).1 hd
    cases num with
    | nil => exact absurd rfl hne
    | cons a t => exact ⟨a, t, rfl, by simpa [isDigitOf] using h1 a (by simp)⟩
  | oct hd h0 =>
    obtain ⟨h1, _⟩ := (digits_spec (by omega)).1 hd
    cases num with
    | nil => simp at h0
    | cons a t =>
      have := h1 a (by simp)
      simp only [isDigitOf, decide_eq_true_eq] at this
      exact ⟨a, t, rfl, by omega⟩
  | hex => exact ⟨_, _, rfl, by decide +kernel⟩

theorem digit_not {a : Char} (h : digitVal a < 10) : isCSpace a = false ∧ a ≠ '+' ∧ a ≠ '-' := by
  have key : ∀ p ∈ digitTable, isCSpace p.1 = false ∧ p.1 ≠ '+' ∧ p.1 ≠ '-' := by decide +kernel
  exact key _ (digit_table_of_val a (by omega))

/-- The value a string-to-integer conversion of a component gives, as a signed number. -/
def Sat (v : Int) : Int := if v > 2 ^ 63 - 1 then 2 ^ 63 - 1 else if v < -2 ^ 63 then -2 ^ 63 else v

theorem strtol_complete {comp rest : List Char} {v : Nat} (h : Component comp v) (hv : v < 2 ^ 63)
    (hr : ∀ c, rest.head? = some c → c = '/') : strtol (comp ++ rest) = ((v : Int), rest) := by
  obtain ⟨ws, sign, num, rfl, hws, hsign, hnum⟩ := h
  obtain ⟨b, ds, eb, hne, ev⟩ := body_complete hnum hr
  obtain ⟨a, t, ea, hdig⟩ := numeral_head hnum
  obtain ⟨d1, d2, d3⟩ := digit_not hdig
  have hdrop : (ws ++ sign ++ num ++ rest).dropWhile isCSpace = sign ++ num ++ rest := by
    rw [List.append_assoc, List.append_assoc]
    rw [(takeWhile_append (p := isCSpace) (l := ws) (r := sign ++ (num ++ rest)) ?_ ?_).2, List.append_assoc]
    · intro c hc; rw [isCSpace_iff]; exact hws c hc
    · intro c hc
      rcases hsign with rfl | rfl | ⟨rfl, _⟩
      · rw [ea] at hc; simp at hc; rw [← hc]; exact d1
      · simp at hc; rw [← hc]; decide
      · simp at hc; rw [← hc]; decide
  simp only [strtol, hdrop]
  rcases hsign with rfl | rfl | ⟨rfl, h0⟩
  · have : strtolSign ([] ++ num ++ rest) = (false, num ++ rest) := by
      rw [ea]
      simp only [List.nil_append, List.cons_append, strtolSign]
      split
      · rename_i h; simp at h; exact absurd h.1 d2
      · rename_i h; simp at h; exact absurd h.1 d3
      · rfl
    rw [this]
    simp only [eb, if_neg hne, ev]
    congr 1
    simp
    omega
  · simp only [List.cons_append, List.nil_append, strtolSign, eb, if_neg hne, ev]
    congr 1
    simp
    omega
  · simp only [List.cons_append, List.nil_append, strtolSign, eb, if_neg hne, ev, h0]
    congr 1

theorem strtol_sound {s rest : List Char} {v : Int} (h : strtol s = (v, rest)) :
    rest = s ∧ v = 0 ∨ (rest.length < s.length ∧ ∃ comp, s = comp ++ rest ∧
      ∀ n : Nat, v = n → n < 2 ^ 63 - 1 → Component comp n) := by
  simp only [strtol] at h
  have hws := (List.takeWhile_append_dropWhile (p := isCSpace) (l := s)).symm
  have hall : ∀ c ∈ s.takeWhile isCSpace, c ∈ whiteSpace := by
    intro c hc; rw [← isCSpace_iff]; exact takeWhile_all s c hc
  generalize s.takeWhile isCSpace = ws at *
  generalize s.dropWhile isCSpace = t at *
  obtain ⟨neg, t', sign, hm, hts, hsg⟩ : ∃ neg t' sign, strtolSign t = (neg, t') ∧ t = sign ++ t' ∧
      (neg = false ∧ (sign = [] ∨ sign = ['+']) ∨ neg = true ∧ sign = ['-']) := by
    unfold strtolSign
    split
    · exact ⟨_, _, ['+'], rfl, rfl, .inl ⟨rfl, .inr rfl⟩⟩
    · exact ⟨_, _, ['-'], rfl, rfl, .inr ⟨rfl, rfl⟩⟩
    · exact ⟨_, _, [], rfl, rfl, .inl ⟨rfl, .inl rfl⟩⟩
  rw [hm] at h
  simp only at h
  obtain ⟨b, ds, r, eb⟩ : ∃ b ds r, strtolBody t' = (b, ds, r) := ⟨_, _, _, rfl⟩
  rw [eb] at h
  simp only at h
  by_cases hne : ds = []
  · rw [if_pos hne] at h
    simp only [Prod.mk.injEq] at h
    exact .inl ⟨h.2.symm, h.1.symm⟩
  rw [if_neg hne] at h
  simp only [Prod.mk.injEq] at h
  obtain ⟨hv, rfl⟩ := h
  obtain ⟨num, en, hnum⟩ := body_sound eb hne
  have hlen : num ≠ [] := by
    obtain ⟨a, t, ea, _⟩ := numeral_head hnum; rw [ea]; simp
  refine .inr ⟨?_, ws ++ sign ++ num, ?_, ?_⟩
  · have := List.length_pos_iff.2 hlen
    rw [hws, hts, en]; simp; omega
  · rw [hws, hts, en]; simp
  · intro n hn hlt
    generalize hd : digitsVal b ds = w at *
    have hw : w = n ∧ (neg = true → n = 0) := by
      cases neg with
      | false =>
        simp only [Bool.false_eq_true, if_false] at hv
        refine ⟨?_, by simp⟩
        split at hv <;> (try split at hv) <;> omega
      | true =>
        simp only [if_true] at hv
        split at hv <;> (try split at hv) <;> omega
    refine ⟨ws, sign, num, rfl, hall, ?_, hw.1 ▸ hnum⟩
    rcases hsg with ⟨_, h | h⟩ | ⟨h1, h2⟩
    · exact .inl h
    · exact .inr (.inl h)
    · exact .inr (.inr ⟨h2, hw.2 h1⟩)

end Ipt

namespace Ipt.Props
open Ipt Spec

private theorem ite_err_ok {α : Type} {c : Prop} [Decidable c] {e : Err} {b : Res α} {x : α}
    (h : (if c then .err e else b) = .ok x) : ¬ c ∧ b = .ok x := by
  by_cases hc : c
  · rw [if_pos hc] at h; cases h
  · rw [if_neg hc] at h; exact ⟨hc, h⟩

/-- C45: exactly which strings `pt_cpu_parse` accepts and with which result: a family and a model
in range, separated by a slash, optionally followed by a slash and a stepping in range.  The
last alternative is a slash that is followed by nothing. -/
theorem C45_cpu_parse (s : List Char) (c : Cpu) :
    cpuParse s = .ok c ↔
      ∃ f m, Component f c.family ∧ Component m c.model ∧ c.family ≤ 65535 ∧ c.model ≤ 255 ∧
        ((s = f ++ '/' :: m ∧ c.stepping = 0) ∨
         (∃ st, Component st c.stepping ∧ c.stepping ≤ 255 ∧ s = f ++ '/' :: m ++ '/' :: st) ∨
         (s = f ++ '/' :: m ++ ['/'] ∧ c.stepping = 0)) := by
  constructor
  · intro h
    simp only [cpuParse] at h
    obtain ⟨v1, e1, h1⟩ : ∃ v e, strtol s = (v, e) := ⟨_, _, rfl⟩
    rw [h1] at h
    simp only at h
    cases e1 with
    | nil => simp at h
    | cons a s2 =>
      simp only at h
      obtain ⟨hc, h'⟩ := ite_err_ok h
      clear h; have h := h'; clear h'
      obtain ⟨hf, h'⟩ := ite_err_ok h
      clear h; have h := h'; clear h'
      simp only [not_or, Decidable.not_not] at hc hf
      obtain ⟨hc1, rfl⟩ := hc
      rcases strtol_sound h1 with ⟨he, _⟩ | ⟨_, f, ef, hf'⟩
      · rw [he] at hc1; exact absurd rfl hc1
      have hff := hf' v1.toNat (by omega) (by omega)
      obtain ⟨v2, e2, h2⟩ : ∃ v e, strtol s2 = (v, e) := ⟨_, _, rfl⟩
      rw [h2] at h
      simp only at h
      cases e2 with
      | nil =>
        simp only at h
        obtain ⟨hc, h'⟩ := ite_err_ok h
        clear h; have h := h'; clear h'
        obtain ⟨hm, h'⟩ := ite_err_ok h
        clear h; have h := h'; clear h'
        rcases strtol_sound h2 with ⟨he, _⟩ | ⟨_, m, em, hm'⟩
        · rw [he] at hc; exact absurd rfl hc
        have hmm := hm' v2.toNat (by omega) (by omega)
        injection h with h
        subst h
        refine ⟨f, m, hff, hmm, by simp; omega, by simp; omega, .inl ⟨?_, rfl⟩⟩
        rw [ef, em]; simp
      | cons a s3 =>
        simp only at h
        obtain ⟨hc, h'⟩ := ite_err_ok h
        clear h; have h := h'; clear h'
        obtain ⟨hm, h'⟩ := ite_err_ok h
        clear h; have h := h'; clear h'
        simp only [not_or, Decidable.not_not] at hc
        obtain ⟨hc1', rfl⟩ := hc
        rcases strtol_sound h2 with ⟨he, _⟩ | ⟨_, m, em, hm'⟩
        · rw [he] at hc1'; exact absurd rfl hc1'
        have hmm := hm' v2.toNat (by omega) (by omega)
        obtain ⟨v3, e3, h3⟩ : ∃ v e, strtol s3 = (v, e) := ⟨_, _, rfl⟩
        rw [h3] at h
        simp only at h
        obtain ⟨he3, h'⟩ := ite_err_ok h
        clear h; have h := h'; clear h'
        obtain ⟨hst, h'⟩ := ite_err_ok h
        clear h; have h := h'; clear h'
        injection h with h
        subst h
        simp only [Decidable.not_not] at he3
        subst he3
        refine ⟨f, m, hff, hmm, by simp; omega, by simp; omega, .inr ?_⟩
        rcases strtol_sound h3 with ⟨he, h0⟩ | ⟨_, st, est, hs'⟩
        · refine .inr ⟨?_, by simp [h0]⟩
          rw [ef, em, ← he]; simp
        · refine .inl ⟨st, hs' v3.toNat (by omega) (by omega), by simp; omega, ?_⟩
          rw [ef, em, est]; simp
  · rintro ⟨f, m, hf, hm, hfr, hmr, h⟩
    have nz : ∀ {s : List Char} {v}, Component s v → s ≠ [] := by
      rintro s v ⟨ws, sign, num, rfl, _, _, hn⟩
      obtain ⟨a, t, ea, _⟩ := numeral_head hn; rw [ea]; simp
    have hfl := List.length_pos_iff.2 (nz hf)
    have hml := List.length_pos_iff.2 (nz hm)
    have one : ∀ rest : List Char, strtol (f ++ '/' :: rest) = ((c.family : Int), '/' :: rest) :=
      fun rest => strtol_complete hf (by omega) (by simp)
    have two : ∀ rest : List Char, strtol (m ++ '/' :: rest) = ((c.model : Int), '/' :: rest) :=
      fun rest => strtol_complete hm (by omega) (by simp)
    have two' : strtol m = ((c.model : Int), []) := by
      simpa using strtol_complete (rest := []) hm (by omega) (by simp)
    have emp : strtol [] = (0, []) := by decide
    obtain ⟨cf, cm, cs⟩ := c
    simp only at *
    rcases h with ⟨rfl, rfl⟩ | ⟨st, hst, hsr, rfl⟩ | ⟨rfl, rfl⟩
    · simp only [cpuParse, one, two']
      rw [if_neg (by simp [nz hf]), if_neg (by omega), if_neg (by simp; omega), if_neg (by omega)]
      simp
    · have three : strtol st = ((cs : Int), []) := by
        simpa using strtol_complete (rest := []) hst (by omega) (by simp)
      rw [List.append_assoc, List.cons_append]
      simp only [cpuParse, one, two, three]
      rw [if_neg (by simp [nz hf]), if_neg (by omega), if_neg (by simp [nz hm]), if_neg (by omega),
        if_neg (by simp), if_neg (by omega)]
      simp
    · rw [List.append_assoc, List.cons_append]
      simp only [cpuParse, one, two, emp]
      rw [if_neg (by simp [nz hf]), if_neg (by omega), if_neg (by simp [nz hm]), if_neg (by omega),
        if_neg (by simp), if_neg (by omega)]
      simp

/-- The format family/model[/stepping] with C integer constants. -/
def WellFormedCpu (s : List Char) (c : Cpu) : Prop :=
  ∃ f m, Numeral f c.family ∧ Numeral m c.model ∧ c.family ≤ 65535 ∧ c.model ≤ 255 ∧
    ((s = f ++ '/' :: m ∧ c.stepping = 0) ∨
     ∃ st, Numeral st c.stepping ∧ c.stepping ≤ 255 ∧ s = f ++ '/' :: m ++ '/' :: st)

/-- C45: every well-formed identification with components in range is accepted with the
expected result. -/
theorem C45_cpu_parse_accepts (s : List Char) (c : Cpu) (h : WellFormedCpu s c) : cpuParse s = .ok c := by
  have comp : ∀ {s v}, Numeral s v → Component s v :=
    fun h => ⟨[], [], _, by simp, by simp, .inl rfl, h⟩
  obtain ⟨f, m, hf, hm, h1, h2, h3⟩ := h
  rw [C45_cpu_parse]
  refine ⟨f, m, comp hf, comp hm, h1, h2, ?_⟩
  rcases h3 with h3 | ⟨st, a, b, d⟩
  · exact .inl h3
  · exact .inr (.inl ⟨st, comp a, b, d⟩)

/-- C45 fails in the other direction: strings that are not of the form family/model[/stepping]
are accepted: one with a dangling separator, one with white space and a sign. -/
theorem C45_cpu_parse_too_lenient :
    (cpuParse "6/61/".toList = .ok ⟨6, 61, 0⟩ ∧ ∀ c, ¬ WellFormedCpu "6/61/".toList c) ∧
    (cpuParse " 6/-0".toList = .ok ⟨6, 0, 0⟩ ∧ ∀ c, ¬ WellFormedCpu " 6/-0".toList c) := by
  have slash : ∀ {n : List Char} {v : Nat}, Numeral n v → ∀ c ∈ n, c ∈ "0123456789abcdefABCDEFxX".toList := by
    intro n v h
    have dg : ∀ {b s v}, b ≤ 16 → Digits b s v → ∀ c ∈ s, c ∈ "0123456789abcdefABCDEFxX".toList := by
      intro b s v hb hd c hc
      have := ((digits_spec hb).1 hd).1 c hc
      simp only [isDigitOf, decide_eq_true_eq] at this
      have key : ∀ p ∈ digitTable, p.1 ∈ "0123456789abcdefABCDEFxX".toList := by decide +kernel
      exact key _ (digit_table_of_val c (by omega))
    cases h with
    | dec hd _ _ => exact dg (by omega) hd
    | oct hd _ => exact dg (by omega) hd
    | hex hx hd _ =>
      intro c hc
      simp only [List.mem_cons] at hc
      rcases hc with rfl | rfl | hc
      · decide
      · rcases hx with rfl | rfl <;> decide
      · exact dg (by omega) hd c hc
  have nz : ∀ {s : List Char} {v}, Numeral s v → s ≠ [] := by
    intro s v hn; obtain ⟨a, t, ea, _⟩ := numeral_head hn; rw [ea]; simp
  refine ⟨⟨by decide +kernel, ?_⟩, by decide +kernel, ?_⟩
  · rintro c ⟨f, m, hf, hm, _, _, h⟩
    have key : ∀ (x y : List Char), x ++ '/' :: y = "6/61/".toList → (∀ c ∈ x, c ≠ '/') → y = ['6', '1', '/'] := by
      intro x y h hx
      match x, h with
      | [], h => simp at h
      | [a], h => simp at h; exact h.2
      | [a, b], h => simp at h
      | [a, b, _], h => simp at h
      | a :: b :: _ :: _ :: _, h => simp at h; exact absurd h.2.1 (hx b (by simp))
    have ns : ∀ {n : List Char} {v : Nat}, Numeral n v → ∀ c ∈ n, c ≠ '/' := by
      intro n v hn c hc hcc; have := slash hn c hc; rw [hcc] at this; revert this; decide
    rcases h with ⟨h, _⟩ | ⟨st, hs, _, h⟩
    · have := key f m h.symm (ns hf)
      exact ns hm '/' (by rw [this]; simp) rfl
    · rw [List.append_assoc, List.cons_append] at h
      have := key f _ h.symm (ns hf)
      match m, this with
      | [], h => simp at h
      | [a], h => simp at h
      | [a, b], h => simp at h; exact nz hs h.2.2
      | [a, b, d], h => simp at h
      | a :: b :: d :: _ :: _, h => simp at h
  · rintro c ⟨f, m, hf, hm, _, _, h⟩
    obtain ⟨a, t, ea, hd⟩ := numeral_head hf
    have : a = ' ' := by
      rcases h with ⟨h, _⟩ | ⟨st, _, _, h⟩ <;> rw [ea] at h <;> simp at h <;> exact h.1.symm
    rw [this] at hd
    revert hd
    decide +kernel

example : WellFormedCpu "6/0x5e/012".toList ⟨6, 94, 10⟩ := by
  have d1 : Digits 10 ['6'] 6 := (digits_spec (by omega)).2 (by decide +kernel)
  have d2 : Digits 16 ['5', 'e'] 94 := (digits_spec (by omega)).2 (by decide +kernel)
  have d3 : Digits 8 ['0', '1', '2'] 10 := (digits_spec (by omega)).2 (by decide +kernel)
  exact ⟨['6'], ['0', 'x', '5', 'e'], .dec d1 (by decide) (by decide), .hex (.inl rfl) d2 (by decide),
    by decide, by decide, .inr ⟨['0', '1', '2'], .oct d3 rfl, by decide, rfl⟩⟩

/-- C45: unknown processors are refused and get no erratum; the result for a known one is a
function of vendor, family and model (it has no other argument), every known processor is an
Intel processor of family 6 or 19, and the two work-arounds that change the size of a packet are
never enabled together. -/
theorem C45_cpu_errata (intel : Bool) (family model : Nat) :
    (∀ e, (cpuErrata intel family model).2 = .err e →
      e = .badCpu ∧ (cpuErrata intel family model).1 = {}) ∧
    ((cpuErrata intel family model).2 = .ok () →
      intel = true ∧ (family = 6 ∨ family = 0x13) ∧
      ¬ ((cpuErrata intel family model).1.skd007 = true ∧ (cpuErrata intel family model).1.skz84 = true)) ∧
    (cpuErrata intel family model).2 ≠ .ub := by
  unfold cpuErrata
  by_cases hi : intel = false
  · simp [hi]
  simp only [if_neg hi]
  have hi' : intel = true := by simpa using hi
  by_cases h6 : family = 6
  · simp only [if_pos h6]
    refine ⟨?_, ?_, ?_⟩
    · intro e
      repeat' split
      all_goals simp
      all_goals rintro rfl; rfl
    · repeat' split
      all_goals simp [hi', h6]
    · repeat' split
      all_goals simp
  · simp only [if_neg h6]
    by_cases h13 : family = 0x13
    · simp only [if_pos h13]
      by_cases hm : model = 1
      · simp [hm, hi', h13]
      · simp only [if_neg hm]
        simp
    · simp only [if_neg h13]
      simp

/-- The processors (family, model) an erratum's work-around is documented for, per erratum, and the
processors known to the library. -/
def broadwell : List Nat := [0x3d, 0x47, 0x4f, 0x56]
/-- Skylake to Comet Lake clients. -/
def skylake : List Nat := [0x4e, 0x5e, 0x8e, 0x9e, 0xa5, 0xa6]
/-- Skylake and Ice Lake servers. -/
def skylakeServer : List Nat := [0x55, 0x6a, 0x6c]
/-- Sapphire Rapids and later servers. -/
def sapphire : List Nat := [0x8f, 0xcf, 0xad, 0xae]
/-- Cannon Lake, Ice Lake, Tiger Lake, Rocket Lake. -/
def icelake : List Nat := [0x66, 0x7d, 0x7e, 0x8c, 0x8d, 0xa7, 0xa8]
/-- Hybrid clients from Alder Lake on. -/
def alderlake : List Nat := [0x97, 0x9a, 0xba, 0xb7, 0xbf, 0xc5, 0xc6, 0xb5, 0xaa, 0xac, 0xbd, 0xcc]
/-- Goldmont. -/
def goldmont : List Nat := [0x5c, 0x5f]
/-- Later Atoms. -/
def atoms : List Nat := [0x7a, 0x86, 0x96, 0x9c, 0xb6, 0xaf, 0xdd]

/-- C45, the table by erratum: a processor is known exactly if it is in one of the families, and each
work-around is enabled exactly for the processors that have the erratum. -/
theorem C45_errata_by_processor (intel : Bool) (family model : Nat) (e : Errata) (r : Res Unit)
    (h : cpuErrata intel family model = (e, r)) :
    let p := fun l : List Nat => intel = true ∧ family = 6 ∧ model ∈ l
    let d := intel = true ∧ family = 0x13 ∧ model = 1
    (r = .ok () ↔ p (broadwell ++ skylake ++ skylakeServer ++ sapphire ++ icelake ++ alderlake ++ goldmont ++ atoms) ∨ d) ∧
    (e.bdm64 = true ↔ p broadwell) ∧
    (e.bdm70 = true ↔ p (broadwell ++ skylake ++ skylakeServer ++ sapphire ++ icelake ++ alderlake) ∨ d) ∧
    (e.skd007 = true ↔ p skylake) ∧ (e.skd010 = true ↔ p skylake) ∧ (e.skl168 = true ↔ p skylake) ∧
    (e.skl014 = true ↔ p (skylake ++ skylakeServer ++ icelake)) ∧
    (e.skd022 = true ↔ p (skylake ++ skylakeServer ++ sapphire ++ icelake ++ alderlake) ∨ d) ∧
    (e.skz84 = true ↔ p (skylakeServer ++ sapphire) ∨ d) ∧
    (e.apl12 = true ↔ p goldmont) ∧ (e.apl11 = true ↔ p (alderlake ++ goldmont ++ atoms)) := by
  unfold cpuErrata at h
  cases intel with
  | false =>
    simp only [if_true, Prod.mk.injEq] at h
    obtain ⟨rfl, rfl⟩ := h
    simp
  | true =>
    simp only [Bool.true_eq_false, if_false] at h
    by_cases h6 : family = 6
    · subst h6
      simp only [if_true] at h
      simp only [true_and, show ¬ (6 : Nat) = 0x13 by omega, false_and, or_false, List.mem_append]
      have mem : ∀ l : List Nat, model ∈ l → (model ∈ l) = True := fun l h => by simp [h]
      -- the lists are disjoint
      by_cases c1 : model ∈ [0x3d, 0x47, 0x4f, 0x56]
      · rw [if_pos c1] at h
        simp only [Prod.mk.injEq] at h
        obtain ⟨rfl, rfl⟩ := h
        simp only [List.mem_cons, List.not_mem_nil, or_false] at c1
        rcases c1 with rfl | rfl | rfl | rfl <;> simp [broadwell, skylake, skylakeServer, sapphire, icelake, alderlake, goldmont, atoms]
      rw [if_neg c1] at h
      by_cases c2 : model ∈ [0x4e, 0x5e, 0x8e, 0x9e, 0xa5, 0xa6]
      · rw [if_pos c2] at h
        simp only [Prod.mk.injEq] at h
        obtain ⟨rfl, rfl⟩ := h
        simp only [List.mem_cons, List.not_mem_nil, or_false] at c2
        rcases c2 with rfl | rfl | rfl | rfl | rfl | rfl <;> simp [broadwell, skylake, skylakeServer, sapphire, icelake, alderlake, goldmont, atoms]
      rw [if_neg c2] at h
      by_cases c3 : model ∈ [0x55, 0x6a, 0x6c]
      · rw [if_pos c3] at h
        simp only [Prod.mk.injEq] at h
        obtain ⟨rfl, rfl⟩ := h
        simp only [List.mem_cons, List.not_mem_nil, or_false] at c3
        rcases c3 with rfl | rfl | rfl <;> simp [broadwell, skylake, skylakeServer, sapphire, icelake, alderlake, goldmont, atoms]
      rw [if_neg c3] at h
      by_cases c4 : model ∈ [0x8f, 0xcf, 0xad, 0xae]
      · rw [if_pos c4] at h
        simp only [Prod.mk.injEq] at h
        obtain ⟨rfl, rfl⟩ := h
        simp only [List.mem_cons, List.not_mem_nil, or_false] at c4
        rcases c4 with rfl | rfl | rfl | rfl <;> simp [broadwell, skylake, skylakeServer, sapphire, icelake, alderlake, goldmont, atoms]
      rw [if_neg c4] at h
      by_cases c5 : model ∈ [0x66, 0x7d, 0x7e, 0x8c, 0x8d, 0xa7, 0xa8]
      · rw [if_pos c5] at h
        simp only [Prod.mk.injEq] at h
        obtain ⟨rfl, rfl⟩ := h
        simp only [List.mem_cons, List.not_mem_nil, or_false] at c5
        rcases c5 with rfl | rfl | rfl | rfl | rfl | rfl | rfl <;> simp [broadwell, skylake, skylakeServer, sapphire, icelake, alderlake, goldmont, atoms]
      rw [if_neg c5] at h
      by_cases c6 : model ∈ [0x97, 0x9a, 0xba, 0xb7, 0xbf, 0xc5, 0xc6, 0xb5, 0xaa, 0xac, 0xbd, 0xcc]
      · rw [if_pos c6] at h
        simp only [Prod.mk.injEq] at h
        obtain ⟨rfl, rfl⟩ := h
        simp only [List.mem_cons, List.not_mem_nil, or_false] at c6
        rcases c6 with rfl | rfl | rfl | rfl | rfl | rfl | rfl | rfl | rfl | rfl | rfl | rfl <;> simp [broadwell, skylake, skylakeServer, sapphire, icelake, alderlake, goldmont, atoms]
      rw [if_neg c6] at h
      by_cases c7 : model ∈ [0x5c, 0x5f]
      · rw [if_pos c7] at h
        simp only [Prod.mk.injEq] at h
        obtain ⟨rfl, rfl⟩ := h
        simp only [List.mem_cons, List.not_mem_nil, or_false] at c7
        rcases c7 with rfl | rfl <;> simp [broadwell, skylake, skylakeServer, sapphire, icelake, alderlake, goldmont, atoms]
      rw [if_neg c7] at h
      by_cases c8 : model ∈ [0x7a, 0x86, 0x96, 0x9c, 0xb6, 0xaf, 0xdd]
      · rw [if_pos c8] at h
        simp only [Prod.mk.injEq] at h
        obtain ⟨rfl, rfl⟩ := h
        simp only [List.mem_cons, List.not_mem_nil, or_false] at c8
        rcases c8 with rfl | rfl | rfl | rfl | rfl | rfl | rfl <;> simp [broadwell, skylake, skylakeServer, sapphire, icelake, alderlake, goldmont, atoms]
      rw [if_neg c8] at h
      simp only [Prod.mk.injEq] at h
      obtain ⟨rfl, rfl⟩ := h
      unfold broadwell skylake skylakeServer sapphire icelake alderlake goldmont atoms
      simp only [c1, c2, c3, c4, c5, c6, c7, c8, or_false, iff_false, Bool.false_eq_true]
      simp
    · rw [if_neg h6] at h
      simp only [h6, false_and, and_false, false_or, true_and, iff_false]
      by_cases h13 : family = 0x13
      · rw [if_pos h13] at h
        by_cases hm : model = 1
        · rw [if_pos hm] at h
          simp only [Prod.mk.injEq] at h
          obtain ⟨rfl, rfl⟩ := h
          simp [h13, hm]
        · rw [if_neg hm] at h
          simp only [Prod.mk.injEq] at h
          obtain ⟨rfl, rfl⟩ := h
          simp [h13, hm]
      · rw [if_neg h13] at h
        simp only [Prod.mk.injEq] at h
        obtain ⟨rfl, rfl⟩ := h
        simp [h13]

example :
    (cpuErrata true 6 0x5e).1 =
      { bdm70 := true, skd007 := true, skd022 := true, skd010 := true, skl014 := true, skl168 := true } ∧
    (cpuErrata true 6 0x5e).2 = .ok () ∧ (cpuErrata true 6 0x5d).2 = .err .badCpu := by
  decide +kernel

end Ipt.Props
