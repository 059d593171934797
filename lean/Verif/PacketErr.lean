import Verif.Props.Wire
import Verif.EventDecoderBase

/-! Helper lemmas: the errors of the packet decoder and the packets it delivers with errata
work-arounds. -/

set_option linter.unusedSimpArgs false

namespace Ipt

/-- Not an internal error. -/
def NoInt {α : Type} (r : Res α) : Prop := r ≠ .err .internal

theorem NoInt.bind {α β : Type} {r : Res α} {f : α → Res β} (h1 : NoInt r) (h2 : ∀ a, NoInt (f a)) :
    NoInt (r >>= f) := by
  cases r with
  | ok a => rw [Res.bind_ok]; exact h2 a
  | err e => intro h; apply h1; simpa using h
  | ub => intro h; cases h

theorem NoInt.ok {α : Type} (a : α) : NoInt (.ok a : Res α) := by intro h; cases h
theorem NoInt.pure {α : Type} (a : α) : NoInt (Pure.pure a : Res α) := by intro h; cases h
theorem NoInt.ite {α : Type} {p : Prop} [Decidable p] {r r' : Res α} (h1 : NoInt r) (h2 : NoInt r') :
    NoInt (if p then r else r') := by split <;> assumption

theorem NoInt.rd (m : List UInt8) (i : Nat) : NoInt (rd m i) := by
  unfold Ipt.rd; split <;> (intro h; cases h)

theorem NoInt.rdLE (m : List UInt8) (n : Nat) : ∀ i, NoInt (rdLE m i n) := by
  induction n with
  | zero => intro i; exact NoInt.ok _
  | succ n ih => intro i; exact (NoInt.rd _ _).bind fun _ => (ih _).bind fun _ => NoInt.pure _

theorem NoInt.ipSize (i : Nat) : NoInt (ipSize i) := by
  unfold Ipt.ipSize
  repeat' split
  all_goals (intro h; cases h)

theorem NoInt.readTnt (i : Nat) : NoInt (readTnt i) := by
  unfold Ipt.readTnt
  dsimp only
  split <;> (intro h; cases h)

theorem NoInt.readIp (m : List UInt8) (i : Nat) : NoInt (readIp m i) :=
  (NoInt.rd _ _).bind fun _ => (NoInt.ipSize _).bind fun _ => NoInt.ite (by intro h; cases h)
    ((NoInt.rdLE _ _ _).bind fun _ => NoInt.pure _)

theorem NoInt.ptwSize (v : Nat) : NoInt (ptwSize (v / 32 % 4)) := by
  unfold Ipt.ptwSize
  repeat' split
  all_goals try (intro h; cases h)
  omega

theorem NoInt.pairs (m : List UInt8) (n : Nat) : ∀ i, NoInt (readPsbPairs m i n) := by
  induction n with
  | zero => intro i; exact NoInt.ok _
  | succ n ih =>
    intro i
    exact (NoInt.rd _ _).bind fun _ => NoInt.ite (by intro h; cases h)
      ((NoInt.rd _ _).bind fun _ => NoInt.ite (by intro h; cases h) (ih _))

theorem NoInt.unknown (c : PktCfg) (i : Nat) : NoInt (readUnknown c i) := by
  unfold readUnknown
  split
  · intro h; cases h
  · dsimp only
    repeat' split
    all_goals (intro h; cases h)

theorem NoInt.cycLoop (m : List UInt8) : ∀ n i s v e, NoInt (readCycLoop m n i s v e) := by
  intro n
  induction n with
  | zero => intro _ _ _ _ h; cases h
  | succ n ih =>
    intro i s v e
    unfold readCycLoop
    exact NoInt.ite (NoInt.ok _) (NoInt.ite (by intro h; cases h)
      ((NoInt.rd _ _).bind fun _ => NoInt.ite (by intro h; cases h) (ih _ _ _ _)))

theorem NoInt.tma (m : List UInt8) (i : Nat) : NoInt (readTma m i) := by
  unfold readTma
  refine NoInt.ite (by intro h; cases h) ?_
  refine (NoInt.rd _ _).bind fun _ => (NoInt.rd _ _).bind fun _ => (NoInt.rd _ _).bind fun _ =>
    (NoInt.rd _ _).bind fun _ => NoInt.ite (by intro h; cases h) ?_
  exact (NoInt.rd _ _).bind fun _ => NoInt.ite (by intro h; cases h) (NoInt.pure _)

theorem NoInt.plain {r : Res (Packet × Nat)} (h : NoInt r) : NoInt (plain r) :=
  h.bind fun _ => NoInt.pure _

/-- Prove `NoInt` for a reader. -/
macro "noint" : tactic => `(tactic| repeat' (first
  | with_reducible exact NoInt.ok _
  | with_reducible exact NoInt.pure _
  | with_reducible exact NoInt.rd _ _
  | with_reducible exact NoInt.rdLE _ _ _
  | with_reducible exact NoInt.readTnt _
  | with_reducible exact NoInt.readIp _ _
  | with_reducible exact NoInt.ptwSize _
  | with_reducible exact NoInt.pairs _ _ _
  | with_reducible exact NoInt.unknown _ _
  | with_reducible exact NoInt.tma _ _
  | with_reducible exact NoInt.cycLoop _ _ _ _ _ _
  | with_reducible apply NoInt.plain
  | with_reducible apply NoInt.ite
  | with_reducible refine NoInt.bind ?_ fun _ => ?_
  | (intro h; cases h; done)
  | dsimp only))

theorem NoInt.ext (c : PktCfg) (i : Nat) : NoInt (decodeExt c i) := by
  unfold decodeExt decodeExtSwitch
  refine NoInt.ite (by intro h; cases h) ((NoInt.rd _ _).bind fun _ => ?_)
  unfold decodeExt2 readPsb readCbr readPip readVmcs readExstop readMwait readPwre readPwrx readTnt64
    readCfe readEvd readMnt readPtw
  have : NoInt (decodeTma c i) := by
    unfold decodeTma
    split
    · split <;> (intro h; cases h)
    · exact NoInt.tma _ _
  noint
  all_goals first | assumption | skip

theorem NoInt.cyc (c : PktCfg) (i : Nat) : NoInt (decodeCyc c i) := by
  unfold decodeCyc readCyc
  intro h
  have h1 := NoInt.rd c.mem i
  revert h h1
  cases Ipt.rd c.mem i with
  | err e => intro h h1; simp at h; simp [NoInt, h] at h1
  | ub => simp
  | ok b =>
    intro h _
    have h1 := NoInt.cycLoop c.mem 10 (i + 1) 5 (b / 8) (b.testBit 2)
    simp only [Res.bind_ok] at h
    revert h h1
    cases readCycLoop c.mem 10 (i + 1) 5 (b / 8) (b.testBit 2) with
    | err e => intro h h1; simp at h; simp [NoInt, h] at h1
    | ub => simp
    | ok r =>
      obtain ⟨v, p⟩ := r
      intro h _
      simp only [Res.bind_ok, Res.pure_eq] at h
      revert h
      refine NoInt.ite ?_ (NoInt.ok _)
      noint

theorem NoInt.decode (c : PktCfg) (i : Nat) : NoInt (pktDecode c i) := by
  unfold pktDecode pktDecodeSwitch
  refine NoInt.ite (by intro h; cases h) ((NoInt.rd _ _).bind fun _ => ?_)
  have h1 := NoInt.cyc c i
  have h2 := NoInt.ext c i
  unfold readMode readMtc readTsc readTrig readTnt8 decodeIp
  noint
  all_goals first | assumption | skip

/-- The packet decoder has no internal errors of its own. -/
theorem next_no_internal {c : PktCfg} {d d' : PktDec} {e : Err} (h : pktDecNext c d = (d', .err e)) :
    e ≠ .internal := by
  unfold pktDecNext at h
  have : NoInt (pktNext c d.pos) := by
    unfold pktNext
    split
    · intro h; cases h
    · exact (NoInt.decode _ _).bind fun _ => NoInt.pure _
  revert h this
  cases pktNext c d.pos with
  | ok r => obtain ⟨a, b, d⟩ := r; intro h; simp at h
  | err e' =>
    intro h h1
    simp at h
    rintro rfl
    exact h1 (by rw [h.2])
  | ub => simp

open Spec in
/-- With errata work-arounds and a callback for unknown packets, too, packets are in range. -/
theorem next_range {c : PktCfg} {d d' : PktDec} {p : Packet} {n : Nat} (h : pktDecNext c d = (d', .ok (p, n))) :
    p = .unknown ∨ p = .invalid ∨ Representable p := by
  unfold pktDecNext at h
  cases hd : d.pos with
  | none => simp [hd, pktNext] at h
  | some pos =>
    rw [hd] at h
    cases hk : pktDecode c pos with
    | err e => simp [pktNext, hk] at h
    | ub => simp [pktNext, hk] at h
    | ok r =>
      obtain ⟨p1, n1, k1⟩ := r
      simp only [pktNext, hk, Res.bind_ok, Res.pure_eq] at h
      have e2 : p1 = p ∧ n1 = n := by
        injection h with a b; injection b with b; injection b with b1 b2; exact ⟨b1, b2⟩
      obtain ⟨rfl, rfl⟩ := e2
      have key : pktDecode { mem := c.mem } pos = .ok (p1, n1, 0) → Representable p1 := by
        intro hx
        refine Props.C47_delivered_in_range { mem := c.mem } rfl rfl rfl pos n1 (pos + n1) p1 ?_
        simp [pktNext, hx]
      obtain ⟨hp, hx | hx | hx | hx⟩ := pktDecode_cases hk
      · obtain ⟨R, rfl, hR, hok, hc⟩ := hx
        right; right
        apply key
        rw [hc { mem := c.mem } pos hp rfl rfl, hok]; rfl
      · obtain ⟨rfl, hok, hc⟩ := hx
        obtain ⟨R, h2, hx | hx | hx | hx⟩ := decodeExt_cases hok
        · right; right
          apply key
          rw [hc { mem := c.mem } pos hp rfl, hx.2.2 { mem := c.mem } pos h2 rfl rfl, hx.2.1]; rfl
        · right; right
          apply key
          rw [hc { mem := c.mem } pos hp rfl, hx.2.2.2.2 { mem := c.mem } pos hx.2.2.1 rfl rfl, hx.2.1]; rfl
        · exact .inr (.inl hx.2.1)
        · exact .inl (readUnknown_ok hx).1
      · exact .inl (readUnknown_ok hx.2).1
      · right; right; rw [hx.2.1]; trivial

end Ipt
