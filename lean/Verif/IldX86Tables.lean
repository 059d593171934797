import Verif.IldBranch
import Verif.Spec.X86

/-!
# Helper lemmas: the tables of the length decoder and the opcode maps
-/

set_option linter.unusedSimpArgs false
set_option linter.unusedVariables false

namespace Ipt.Ild

open Spec Spec.X86

/-- The operands that an entry in the displacement tables stands for. -/
def tabD (d : Disp) (reg : Nat) : List Opd :=
  match d with
  | .none => []
  | .preserve => []
  | .brdisp8 => [.jb]
  | .bucket0 => [.jz]
  | .memdispv => [.addr]
  | .brdispz => [.iz]
  | .opC7 => if reg = 7 then [.iz] else []

/-- The operands that an entry in the immediate tables stands for. -/
def tabI (i : Imm) (reg : Nat) : List Opd :=
  match i with
  | .zero => []
  | .uimm8 => [.ib]
  | .simm8 => [.ib]
  | .simmz => [.iz]
  | .uimmv => [.iv]
  | .uimm16 => [.iw]
  | .opF7 => if reg < 2 then [.iz] else []
  | .opC7 => if reg = 0 then [.iz] else []
  | .simmzDf64 => [.iz]
  | .opF6 => if reg < 2 then [.ib] else []
  | .opC8 => [.iw, .ib]
  | .op78 => []
  | .evexF6 => if reg < 2 then [.ib] else []
  | .evexF7 => if reg < 2 then [.iz] else []

def tabRm : Modrm → Rm
  | .no => .no
  | .yes => .yes
  | .ignoreMod => .regs
  | .undef => .no

/-- The tables say what the opcode maps say. -/
def Tab (f : Option (Rm × List Opd)) (rm : Modrm) (d : Disp) (i : Imm) (reg : Nat) (mod3 : Bool) : Bool :=
  match f with
  | none => true
  | some f => tabRm rm == f.1 && tabD d reg ++ tabI i reg == f.2 && (f.1 == .no || mod3 || tabD d reg == [])

theorem tab_one : ∀ m, m ≠ .unknown → ∀ op < 256, ∀ reg < 8, ∀ mod3 : Bool,
    Tab (oneByte m op reg mod3) (hasModrm 0 0 op) (dispMap0.getD op .none) (immLegacy0.getD op .zero) reg mod3 = true := by
  intro m hm
  have key : ∀ m ∈ [Mode.b16, .b32, .b64], ((List.range 256).all fun op => (List.range 8).all fun reg => [false, true].all fun mod3 =>
      Tab (oneByte m op reg mod3) (hasModrm 0 0 op) (dispMap0.getD op .none) (immLegacy0.getD op .zero) reg mod3) = true := by
    decide +kernel
  intro op ho reg hr mod3
  have := key m (by cases m <;> simp at hm ⊢)
  simp only [List.all_eq_true, List.mem_range] at this
  exact this op ho reg hr mod3 (by cases mod3 <;> simp)

theorem tab_two : ∀ op < 256, ∀ reg < 8, ∀ mod3 : Bool,
    Tab (twoByte op) (hasModrm 0 1 op) (dispMap0F.getD op .none) (immLegacy1.getD op .zero) reg mod3 = true := by
  have key : ((List.range 256).all fun op => (List.range 8).all fun reg => [false, true].all fun mod3 =>
      Tab (twoByte op) (hasModrm 0 1 op) (dispMap0F.getD op .none) (immLegacy1.getD op .zero) reg mod3) = true := by
    decide +kernel
  intro op ho reg hr mod3
  simp only [List.all_eq_true, List.mem_range] at key
  exact key op ho reg hr mod3 (by cases mod3 <;> simp)

theorem tab_vex1 : ∀ op < 256, ∀ reg, Tab (vexForm 1 op) (hasModrm 1 1 op) .none (immVex1.getD op .zero) reg true = true := by
  have key : ((List.range 256).all fun op => Tab (vexForm 1 op) (hasModrm 1 1 op) .none (immVex1.getD op .zero) 0 true &&
      (immVex1.getD op .zero == .zero || immVex1.getD op .zero == .uimm8)) = true := by
    decide +kernel
  intro op ho reg
  simp only [List.all_eq_true, List.mem_range, Bool.and_eq_true, Bool.or_eq_true, beq_iff_eq] at key
  obtain ⟨h1, h2 | h2⟩ := key op ho <;> rw [h2] at h1 ⊢ <;> exact h1

theorem tab_evex1 : ∀ op < 256, ∀ reg < 8, Tab (evexForm 1 op reg) (hasModrm 2 1 op) .none (immEvex1.getD op .zero) reg true = true := by
  have key : ((List.range 256).all fun op => (List.range 8).all fun reg =>
      Tab (evexForm 1 op reg) (hasModrm 2 1 op) .none (immEvex1.getD op .zero) reg true) = true := by
    decide +kernel
  intro op ho reg hr
  simp only [List.all_eq_true, List.mem_range] at key
  exact key op ho reg hr

theorem tab_evex4 : ∀ op < 256, ∀ reg < 8, Tab (evexForm 4 op reg) (hasModrm 2 4 op) .none (immEvex4.getD op .zero) reg true = true := by
  have key : ((List.range 256).all fun op => (List.range 8).all fun reg =>
      Tab (evexForm 4 op reg) (hasModrm 2 4 op) .none (immEvex4.getD op .zero) reg true) = true := by
    decide +kernel
  intro op ho reg hr
  simp only [List.all_eq_true, List.mem_range] at key
  exact key op ho reg hr

/-- The special entries are in the tables of their maps only. -/
def Home (vex map : Nat) (i : Imm) : Bool :=
  match i with
  | .opF7 | .opC7 | .opF6 | .opC8 => map == 0
  | .op78 => map == 1 && vex == 0
  | _ => true

theorem home : ∀ op < 256, Home 0 0 (immLegacy0.getD op .zero) = true ∧ Home 0 1 (immLegacy1.getD op .zero) = true ∧
    Home 1 1 (immVex1.getD op .zero) = true ∧ Home 2 1 (immEvex1.getD op .zero) = true ∧ Home 2 4 (immEvex4.getD op .zero) = true := by
  decide +kernel

theorem op78_only : ∀ op < 256, immLegacy0.getD op .zero ≠ .op78 ∧ (immLegacy1.getD op .zero = .op78 → op = 0x78) := by
  decide +kernel

end Ipt.Ild
