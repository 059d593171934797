/-!
# Basic vocabulary of the model

Error codes, C outcomes and byte access.
-/

namespace Ipt

/-- `enum pt_error_code`, libipt/include/intel-pt.h.in:119-204.  `user n` stands for a
negative value chosen by a user callback. -/
inductive Err
  | internal | invalid | nosync | badOpc | badPacket | badContext | eos | badQuery
  | nomem | badConfig | noip | ipSuppressed | nomap | badInsn | noTime | noCbr
  | badImage | badLock | notSupported | retstackEmpty | badRetcomp
  | badStatusUpdate | noEnable | eventIgnored | overflow | badFile | badCpu
  | user (n : Nat)
  deriving DecidableEq, Repr, Inhabited

/-- Outcome of a C function: success, a negative error code, or undefined behaviour
(out-of-bounds access, oversized shift, division by zero, ...). -/
inductive Res (α : Type) where
  | ok (a : α)
  | err (e : Err)
  | ub
  deriving DecidableEq, Repr

namespace Res

variable {α β : Type}

instance [Inhabited α] : Inhabited (Res α) := ⟨.ub⟩

/-- Sequencing: `errcode = f(); if (errcode < 0) return errcode; ...`. -/
@[inline] def bind (x : Res α) (f : α → Res β) : Res β :=
  match x with
  | .ok a => f a
  | .err e => .err e
  | .ub => .ub

instance : Monad Res where
  pure := .ok
  bind := bind

@[simp] theorem bind_ok (a : α) (f : α → Res β) : (Res.ok a >>= f) = f a := rfl
@[simp] theorem bind_err (e : Err) (f : α → Res β) : ((Res.err e : Res α) >>= f) = .err e := rfl
@[simp] theorem bind_ub (f : α → Res β) : ((Res.ub : Res α) >>= f) = .ub := rfl
@[simp] theorem pure_eq (a : α) : (pure a : Res α) = .ok a := rfl

theorem bind_eq_ok {x : Res α} {f : α → Res β} {b : β} :
    (x >>= f) = .ok b ↔ ∃ a, x = .ok a ∧ f a = .ok b := by
  cases x <;> simp

theorem bind_ne_ub {x : Res α} {f : α → Res β} (hx : x ≠ .ub)
    (hf : ∀ a, x = .ok a → f a ≠ .ub) : (x >>= f) ≠ .ub := by
  cases x with
  | ok a => simpa using hf a rfl
  | err e => simp
  | ub => exact absurd rfl hx

/-- The outcome is not undefined behaviour. -/
def safe (x : Res α) : Prop := x ≠ .ub

@[simp] theorem safe_ok (a : α) : (Res.ok a).safe := by simp [safe]
@[simp] theorem safe_err (e : Err) : (Res.err e : Res α).safe := by simp [safe]
@[simp] theorem not_safe_ub : ¬ (Res.ub : Res α).safe := by simp [safe]

theorem safe_ite {c : Prop} [Decidable c] {a b : Res α} (h1 : c → a.safe) (h2 : ¬ c → b.safe) :
    (if c then a else b).safe := by
  by_cases h : c
  · rw [if_pos h]; exact h1 h
  · rw [if_neg h]; exact h2 h

/-- Case split on the outermost `if` of a successful outcome. -/
theorem ok_ite {c Q : Prop} [Decidable c] {a b : Res α} {x : α}
    (h : (if c then a else b) = .ok x) (h1 : c → a = .ok x → Q) (h2 : ¬ c → b = .ok x → Q) : Q := by
  by_cases hc : c
  · rw [if_pos hc] at h; exact h1 hc h
  · rw [if_neg hc] at h; exact h2 hc h

instance (x : Res α) : Decidable x.safe := by
  cases x <;> simp [safe] <;> infer_instance

end Res

/-- Read the byte at offset `i` of an object.  Outside the object: undefined. -/
def rd (m : List UInt8) (i : Nat) : Res Nat :=
  match m[i]? with
  | some b => .ok b.toNat
  | none => .ub

theorem rd_lt {m : List UInt8} {i : Nat} (h : i < m.length) :
    rd m i = .ok (m[i]).toNat := by
  simp [rd, List.getElem?_eq_getElem h]

theorem rd_ex {m : List UInt8} {i : Nat} (h : i < m.length) :
    ∃ b, b < 256 ∧ rd m i = .ok b :=
  ⟨(m[i]).toNat, by have := (m[i]).toNat_lt; omega, rd_lt h⟩

theorem rd_ok_bound {m : List UInt8} {i b : Nat} (h : rd m i = .ok b) :
    i < m.length ∧ b < 256 := by
  unfold rd at h
  split at h
  · rename_i x hx
    obtain ⟨hi, _⟩ := List.getElem?_eq_some_iff.1 hx
    injection h with h
    have := x.toNat_lt
    omega
  · cases h

theorem rd_congr {m m' : List UInt8} {i j : Nat} (h : m[i]? = m'[j]?) : rd m i = rd m' j := by
  simp [rd, h]

/-- `pt_pkt_read_value`, libipt/src/pt_packet.c:38-51: the little-endian value of `n`
bytes.  The C code ORs disjoint shifted bytes; the model adds them (same value, n ≤ 8). -/
def rdLE (m : List UInt8) (pos : Nat) : Nat → Res Nat
  | 0 => .ok 0
  | n + 1 => do
    let lo ← rd m pos
    let hi ← rdLE m (pos + 1) n
    return lo + 256 * hi

theorem rdLE_ex {m : List UInt8} {n : Nat} : ∀ {pos : Nat}, pos + n ≤ m.length →
    ∃ v, v < 256 ^ n ∧ rdLE m pos n = .ok v := by
  induction n with
  | zero => intro pos _; exact ⟨0, by simp, rfl⟩
  | succ n ih =>
    intro pos h
    obtain ⟨b, hb, eb⟩ := rd_ex (m := m) (i := pos) (by omega)
    obtain ⟨v, hv, ev⟩ := ih (pos := pos + 1) (by omega)
    refine ⟨b + 256 * v, ?_, by simp [rdLE, eb, ev]⟩
    rw [Nat.pow_succ]
    omega

theorem rdLE_congr {m m' : List UInt8} {n : Nat} : ∀ {i j : Nat},
    (∀ k, k < n → m[i + k]? = m'[j + k]?) → rdLE m i n = rdLE m' j n := by
  induction n with
  | zero => intros; rfl
  | succ n ih =>
    intro i j h
    have h0 : rd m i = rd m' j := rd_congr (by simpa using h 0 (by omega))
    have h1 : rdLE m (i + 1) n = rdLE m' (j + 1) n := by
      apply ih
      intro k hk
      have := h (k + 1) (by omega)
      rwa [show i + 1 + k = i + (k + 1) by omega, show j + 1 + k = j + (k + 1) by omega]
    simp only [rdLE, h0, h1]

end Ipt
