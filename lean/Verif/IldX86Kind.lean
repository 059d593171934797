import Verif.IldX86Open
import Verif.IldClassify

/-!
# Helper lemmas: classification of x86 instructions
-/

set_option linter.unusedSimpArgs false
set_option linter.unusedVariables false

namespace Ipt.Ild

open Spec Spec.X86

variable {raw : List UInt8} {max : Nat}

/-- The classification of one-byte opcodes, on what it depends on. -/
def core0 (op reg : Nat) (m64 r2 abs : Bool) : Iclass × Inst × Bool :=
  if op / 16 = 7 then if r2 = false then (.condJump, .jcc, true) else (.other, .invalid, false)
  else match op with
  | 0x9a => if m64 = false then (.farCall, .call9A, false) else (.other, .invalid, false)
  | 0xff =>
    match reg with
    | 2 => (.call, .callFFr2, false)
    | 3 => (.farCall, .callFFr3, false)
    | 4 => (.jump, .jmpFFr4, false)
    | 5 => (.farJump, .jmpFFr5, false)
    | _ => (.other, .invalid, false)
  | 0xe8 => if r2 = false then (.call, .callE8, true) else (.other, .invalid, false)
  | 0xcd => (.farCall, .int, false)
  | 0xcc => (.farCall, .int3, false)
  | 0xce => if m64 = false then (.farCall, .into, false) else (.other, .invalid, false)
  | 0xf1 => (.farCall, .int1, false)
  | 0xcf => (.farReturn, .iret, false)
  | 0xe9 => if r2 = false then (.jump, .jmpE9, true) else (.other, .invalid, false)
  | 0xea => if m64 = false ∧ r2 = false then (.farJump, .jmpEA, false) else (.other, .invalid, false)
  | 0xeb => if r2 = false then (.jump, .jmpEB, true) else (.other, .invalid, false)
  | 0xe3 => if r2 = false then (.condJump, .jrcxz, true) else (.other, .invalid, false)
  | 0xe0 => if r2 = false then (.condJump, .loopne, true) else (.other, .invalid, false)
  | 0xe1 => if r2 = false then (.condJump, .loope, true) else (.other, .invalid, false)
  | 0xe2 => if r2 = false then (.condJump, .loop, true) else (.other, .invalid, false)
  | 0xc3 => (.return, .retC3, false)
  | 0xc2 => (.return, .retC2, false)
  | 0xcb => (.farReturn, .retCB, false)
  | 0xca => (.farReturn, .retCA, false)
  | 0xa1 => if abs = true then (.jump, .jmpabs, true) else (.other, .invalid, false)
  | _ => (.other, .invalid, false)

/-- The result for a classification. -/
def outcome (raw : List UInt8) (s : Ild) (c : Iclass × Inst × Bool) : Res Iext :=
  match c with
  | (cls, inst, true) => branchTarget raw s cls inst
  | (cls, inst, false) => .ok { cls := cls, inst := inst }

theorem classify0 {s : Ild} (hv : s.vex = 0) (hm : s.map = 0) :
    classify raw s = outcome raw s (core0 s.opcode s.reg (decide (s.mode = .b64)) s.rex2
      (decide (s.mode = .b64) && s.rex2 && !s.rexW && !s.asz && !s.osz)) := by
  unfold classify core0
  rw [if_neg (by omega), if_neg (by omega)]
  by_cases h7 : s.opcode / 16 = 7
  · rw [if_pos h7, if_pos h7]
    cases h : s.rex2 <;> simp [hm, outcome]
  · rw [if_neg h7, if_neg h7]
    by_cases h8 : s.opcode / 16 = 8
    · rw [if_pos h8, if_neg (by omega)]
      split <;> first | omega | rfl
    · rw [if_neg h8]
      generalize s.opcode = op at *
      have hc (p : Prop) [Decidable p] (a b : Iclass × Inst × Bool) :
          outcome raw s (if p then a else b) = if p then outcome raw s a else outcome raw s b := by split <;> rfl
      split
      case h_29 =>
        split <;> first | rfl | (exfalso; simp_all; done)
      all_goals simp only [hm, hc, true_and, and_true, Nat.zero_ne_one, false_and, if_false, if_true]
      all_goals try rfl
      case h_2 =>
        generalize s.reg = r
        split <;> first | rfl | (split <;> first | rfl | (exfalso; simp_all; done))
      all_goals cases hr : s.rex2 <;> by_cases h64 : s.mode = .b64 <;> simp [h64, outcome]
      all_goals cases s.rexW <;> cases s.asz <;> cases s.osz <;> simp [outcome]

/-- The classification of two-byte opcodes, on what it depends on. -/
def core1 (op modrm last : Nat) (r0 f3 osz r2 : Bool) : Iclass × Inst × Bool :=
  if op / 16 = 8 then if r2 = false then (.condJump, .jcc, true) else (.other, .invalid, false)
  else match op with
  | 0x22 => if modrm / 8 % 8 = 3 ∧ r0 = true then (.other, .movCr3, false) else (.other, .invalid, false)
  | 0x05 => (.farCall, .syscall, false)
  | 0x34 => if r2 = false then (.farCall, .sysenter, false) else (.other, .invalid, false)
  | 0x35 => if r2 = false then (.farReturn, .sysexit, false) else (.other, .invalid, false)
  | 0x07 => (.farReturn, .sysret, false)
  | 0x01 =>
    match modrm with
    | 0xc1 => (.farCall, .vmcall, false)
    | 0xc2 => (.farReturn, .vmlaunch, false)
    | 0xc3 => (.farReturn, .vmresume, false)
    | 0xec => (.farReturn, .uiret, false)
    | 0xca =>
      if last = 2 then (.farReturn, .erets, false)
      else if last = 3 then (.farReturn, .eretu, false)
      else (.other, .invalid, false)
    | _ => (.other, .invalid, false)
  | 0xc7 => if modrm / 64 ≠ 3 ∧ modrm / 8 % 8 = 6 then (.other, .vmptrld, false) else (.other, .invalid, false)
  | 0xae => if f3 = true ∧ osz = false ∧ modrm / 8 % 8 = 4 then (.ptwrite, .ptwrite, false) else (.other, .invalid, false)
  | _ => (.other, .invalid, false)

theorem classify1 {s : Ild} (hv : s.vex = 0) (hm : s.map = 1) :
    classify raw s = outcome raw s (core1 s.opcode s.modrm s.lastF2f3 (decide (s.rexR = 0)) s.f3 s.osz s.rex2) := by
  unfold classify core1
  rw [if_neg (by omega), if_neg (by omega)]
  by_cases h7 : s.opcode / 16 = 7
  · rw [if_pos h7, if_neg (show ¬ (s.map = 0 ∧ _) by omega), if_neg (show ¬ s.opcode / 16 = 8 by omega)]
    split <;> first | omega | rfl
  · rw [if_neg h7]
    by_cases h8 : s.opcode / 16 = 8
    · rw [if_pos h8, if_pos h8]
      cases h : s.rex2 <;> simp [hm, outcome]
    · rw [if_neg h8, if_neg h8]
      generalize s.opcode = op at *
      have hc (p : Prop) [Decidable p] (a b : Iclass × Inst × Bool) :
          outcome raw s (if p then a else b) = if p then outcome raw s a else outcome raw s b := by split <;> rfl
      split
      case h_29 =>
        split <;> first | rfl | (exfalso; simp_all; done)
      all_goals simp only [hm, hc, true_and, and_true, Nat.one_ne_zero, false_and, if_false, if_true, Ild.reg, Ild.mod]
      all_goals try rfl
      case h_25 =>
        generalize s.modrm = r
        split <;> first | rfl | (split <;> first | rfl | (split <;> rfl)) | (split <;> first | rfl | (exfalso; simp_all; done))
      all_goals cases hr : s.rex2 <;> cases s.f3 <;> cases s.osz <;> simp [outcome]

end Ipt.Ild
