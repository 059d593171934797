import Verif.Spec.Flow

/-!
# Kinds of instructions (C82)

Which instructions can have which events: `Spec.Kind.fits` and `Spec.Disables`, which say where
the instruction flow decoder and the block decoder indicate events, in terms of x86 instructions.
-/

namespace Ipt.Spec
open Ild

/-- Far transfers: far calls, jumps and returns, interrupts, system calls, and transfers between the user and the kernel or
a virtual machine and its monitor. -/
def farTransfers : List Inst :=
  [.call9A, .callFFr3, .jmpEA, .jmpFFr5, .retCA, .retCB, .int, .int1, .int3, .into, .iret,
   .syscall, .sysret, .sysenter, .sysexit, .vmcall, .vmlaunch, .vmresume, .uiret, .erets, .eretu]

/-- Near branches: calls, jumps, returns, conditional jumps and loops. -/
def nearBranches : List Inst :=
  [.callE8, .callFFr2, .jmpE9, .jmpEB, .jmpFFr4, .jmpabs, .retC2, .retC3, .jcc, .jrcxz, .loop, .loope, .loopne]

/-- The instructions that can have an event of the given kind. -/
def Kind.instructions : Kind → List Inst
  | .paging => .movCr3 :: farTransfers
  | .vmcs => .vmptrld :: farTransfers
  | .ptwrite => [.ptwrite]
  | .iret => [.iret, .sysret, .sysexit, .erets, .eretu]
  | .vmentry => [.vmlaunch, .vmresume]
  | .uiret => [.uiret]

end Ipt.Spec

namespace Ipt
open Ild Spec

/-- The class of each instruction. -/
def clsOf : Inst → Iclass
  | .call9A | .callFFr3 | .int | .int3 | .int1 | .into | .syscall | .sysenter | .vmcall => .farCall
  | .callFFr2 | .callE8 => .call
  | .iret | .retCB | .retCA | .sysexit | .sysret | .vmlaunch | .vmresume | .uiret | .erets | .eretu => .farReturn
  | .jmpE9 | .jmpEB | .jmpFFr4 | .jmpabs => .jump
  | .jmpEA | .jmpFFr5 => .farJump
  | .jcc | .jrcxz | .loop | .loope | .loopne => .condJump
  | .retC3 | .retC2 => .return
  | .ptwrite => .ptwrite
  | .invalid | .movCr3 | .vmptrld => .other

theorem branchTarget_cls {raw : List UInt8} {s : Ild} {cls inst x} (h : branchTarget raw s cls inst = .ok x)
    (hc : cls = clsOf inst) : x.cls = clsOf x.inst := by
  unfold branchTarget at h
  split at h
  · cases hv : rdLE raw s.dispPos s.disp with
    | ok v => rw [hv] at h; cases h; exact hc
    | err e => rw [hv] at h; cases h
    | ub => rw [hv] at h; cases h
  · cases h

theorem classify_cls {raw : List UInt8} {s : Ild} {x : Iext} (h : classify raw s = .ok x) : x.cls = clsOf x.inst := by
  unfold classify at h
  repeat' first
    | (cases h; rfl; done)
    | exact branchTarget_cls h rfl
    | split at h

theorem decode_cls {raw : List UInt8} {max n : Nat} {m : Mode} {x : Iext} (h : ildDecode raw max m = (n, .ok x)) :
    x.cls = clsOf x.inst := by
  unfold ildDecode at h
  split at h
  · exact classify_cls (congrArg Prod.snd h)
  · cases (congrArg Prod.snd h)
  · cases (congrArg Prod.snd h)

end Ipt

namespace Ipt.Props
open Ipt Spec Ild

/-- C82: a paging event can be at MOV CR3 and all far transfers, a VMCS event at VMPTRLD and all far transfers, and the events
for PTWRITE, returns from interrupts and user interrupts, and VM entries at these instructions; for all instructions that
the instruction decoder knows. -/
theorem C82_event_instructions (raw : List UInt8) (max n : Nat) (m : Mode) (x : Iext)
    (h : ildDecode raw max m = (n, .ok x)) (k : Kind) : k.fits x = true ↔ x.inst ∈ k.instructions := by
  have hc := decode_cls h
  obtain ⟨cls, inst, d, b⟩ := x
  simp only at hc
  subst hc
  clear h
  cases k <;> cases inst <;> simp [Kind.fits, Kind.instructions, farTransfers, bindsToPip, bindsToVmcs, isPtwrite, isIret, isVmentry,
    isUiret, isFarBranch, clsOf]

/-- C82: tracing is disabled without an IP at far transfers and MOV CR3 only, unless the processor has erratum SKL014 (for
which see `Disables`). -/
theorem C82_disabled_without_ip (raw : List UInt8) (max n : Nat) (m : Mode) (c : InsnCfg) (e : Event) (ip : Nat) (i : Insn)
    (h : ildDecode raw max m = (n, .ok i.ext)) (hs : e.ipSuppressed = true) (he : c.evt.pkt.errata.skl014 = false) :
    Disables c e ip i ↔ i.ext.inst ∈ .movCr3 :: farTransfers := by
  have hc := decode_cls h
  unfold Disables
  rw [if_pos hs, he]
  revert hc
  generalize i.ext = x
  obtain ⟨cls, inst, d, b⟩ := x
  intro hc
  simp only at hc
  subst hc
  cases inst <;> simp [farTransfers, isFarBranch, changesCpl, changesCr3, clsOf]

/-- C82: tracing is disabled with an IP at branches only: far transfers, near indirect branches, conditional branches, and
direct calls and jumps that go there. -/
theorem C82_disabled_with_ip (raw : List UInt8) (max n : Nat) (m : Mode) (c : InsnCfg) (e : Event) (ip : Nat) (i : Insn)
    (h : ildDecode raw max m = (n, .ok i.ext)) (hs : e.ipSuppressed = false) :
    Disables c e ip i ↔ i.ext.inst ∈ nearBranches ++ farTransfers ∧
      (i.ext.inst ∈ [.callE8, .callFFr2, .jmpE9, .jmpEB, .jmpFFr4, .jmpabs] → Direct i →
        Addr ip (i.ip + i.size + i.ext.displacement)) := by
  have hc := decode_cls h
  unfold Disables
  rw [if_neg (by rw [hs]; decide)]
  revert hc
  generalize Addr ip (i.ip + i.size + i.ext.displacement) = A
  generalize Direct i = D
  generalize i.ext = x
  obtain ⟨cls, inst, d, b⟩ := x
  intro hc
  simp only at hc
  subst hc
  cases inst <;> simp [farTransfers, nearBranches, Ipt.isBranch, clsOf]

/-- IRET, VMRESUME, MOV CR3, and NOP. -/
example : ∃ a b c d, ildDecode [0xcf] 1 .b64 = (1, .ok a) ∧ ildDecode [0x0f, 0x01, 0xc3] 3 .b64 = (3, .ok b) ∧
    ildDecode [0x0f, 0x22, 0xd8] 3 .b64 = (3, .ok c) ∧ ildDecode [0x90] 1 .b64 = (1, .ok d) ∧
    Kind.fits .iret a = true ∧ Kind.fits .vmentry b = true ∧ Kind.fits .vmcs b = true ∧ Kind.fits .paging c = true ∧
    Kind.fits .vmcs c = false ∧ Ipt.isBranch d = false := by
  refine ⟨{ cls := .farReturn, inst := .iret }, { cls := .farReturn, inst := .vmresume }, { inst := .movCr3 }, {}, ?_⟩
  decide +kernel

end Ipt.Props
