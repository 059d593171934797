import Verif.IldSpec

/-!
# Specification: x86 instruction encoding

Written after the Intel Software Developer's Manual, volume 2: chapter 2 (instruction format), appendix A (opcode maps), and
the descriptions of the branch instructions, and after the Intel APX specification for REX2 and EVEX map 4.  Encodings that are
not documented are left out: nothing is said about them.
-/

namespace Ipt.Spec.X86

open Ild (Mode Iclass Inst Iext)

/-- How the opcode is introduced: one byte, `0f`, `0f 38`, `0f 3a`, REX2, VEX with two and with three bytes, EVEX. -/
inductive Intro
  | one | two | three38 | three3a | rex2 (p : UInt8) | vex2 (p : UInt8) | vex3 (p q : UInt8) | evex (p q r : UInt8)
deriving DecidableEq, Repr

def Intro.bytes : Intro → List UInt8
  | .one => []
  | .two => [0x0f]
  | .three38 => [0x0f, 0x38]
  | .three3a => [0x0f, 0x3a]
  | .rex2 p => [0xd5, p]
  | .vex2 p => [0xc5, p]
  | .vex3 p q => [0xc4, p, q]
  | .evex p q r => [0x62, p, q, r]

/-- An instruction: prefixes, the opcode, the ModR/M and SIB bytes, a displacement that goes with them, and other operands:
immediates, and relative and absolute addresses. -/
structure Insn where
  pre : List UInt8 := []
  intro : Intro := .one
  op : UInt8
  modrm : Option UInt8 := none
  sib : Option UInt8 := none
  disp : List UInt8 := []
  opds : List UInt8 := []
deriving DecidableEq, Repr

def Insn.bytes (i : Insn) : List UInt8 :=
  i.pre ++ i.intro.bytes ++ [i.op] ++ i.modrm.toList ++ i.sib.toList ++ i.disp ++ i.opds

/-- The REX prefix counts only directly in front of the opcode, and there are none outside of 64-bit mode. -/
def Insn.rex (m : Mode) (i : Insn) : Nat :=
  match i.pre.getLast? with
  | some b => if m = .b64 ∧ b.toNat / 16 = 4 then b.toNat else 0
  | none => 0

/-- The operand size override. -/
def Insn.osz (i : Insn) : Bool :=
  match i.intro with
  | .vex2 p => p.toNat % 4 == 1
  | .vex3 _ q => q.toNat % 4 == 1
  | .evex _ q _ => q.toNat % 4 == 1
  | _ => decide (0x66 ∈ i.pre)

/-- The address size override. -/
def Insn.asz (i : Insn) : Bool := decide (0x67 ∈ i.pre)

/-- The W bit. -/
def Insn.w (m : Mode) (i : Insn) : Bool :=
  match i.intro with
  | .rex2 p => p.toNat.testBit 3
  | .vex2 _ => false
  | .vex3 _ q => q.toNat.testBit 7
  | .evex _ q _ => q.toNat.testBit 7
  | _ => (i.rex m).testBit 3

/-- The R bits, which extend the register in the ModR/M byte, are zero.  This is used for REX and REX2 only. -/
def Insn.noR (m : Mode) (i : Insn) : Bool :=
  match i.intro with
  | .rex2 p => !p.toNat.testBit 2 && !p.toNat.testBit 6
  | _ => !(i.rex m).testBit 2

/-- The repeat prefix that counts is the last one. -/
def Insn.rep (i : Insn) : Option UInt8 := (i.pre.filter fun b => b = 0xf2 ∨ b = 0xf3).getLast?

/-- The operand size in bytes. -/
def opSize (m : Mode) (osz w : Bool) : Nat :=
  match m with
  | .b64 => if w = true then 8 else if osz = true then 2 else 4
  | .b32 => if osz = true then 2 else 4
  | _ => if osz = true then 4 else 2

/-- The address size in bytes. -/
def addrSize (m : Mode) (asz : Bool) : Nat :=
  match m with
  | .b64 => if asz = true then 4 else 8
  | .b32 => if asz = true then 2 else 4
  | _ => if asz = true then 4 else 2

/-- Operands that are not in the ModR/M byte: immediates of one, two and four bytes, of the operand size but at most four bytes,
and of the operand size; relative addresses of one byte, and of the operand size, which is four bytes in 64-bit mode; absolute
addresses. -/
inductive Opd
  | ib | iw | id | iz | iv | jb | jz | addr
deriving DecidableEq, Repr

def Opd.size (m : Mode) (osz asz w : Bool) : Opd → Nat
  | .ib => 1
  | .iw => 2
  | .id => 4
  | .iz => min 4 (opSize m osz w)
  | .iv => opSize m osz w
  | .jb => 1
  | .jz => if m = .b64 then 4 else opSize m osz w
  | .addr => addrSize m asz

/-- Whether there is a ModR/M byte: no, yes, or yes but it always denotes registers. -/
inductive Rm
  | no | yes | regs
deriving DecidableEq, Repr

/-- One-byte opcodes, table A-2.  `mod3`: the ModR/M byte denotes registers. -/
def oneByte (m : Mode) (op reg : Nat) (mod3 : Bool) : Option (Rm × List Opd) :=
  let not64 (x : Rm × List Opd) := if m = .b64 then none else some x
  if op < 0x40 then
    if op = 0x0f ∨ op = 0x26 ∨ op = 0x2e ∨ op = 0x36 ∨ op = 0x3e then none         -- escape, prefixes
    else if op % 8 < 4 then some (.yes, [])                                         -- ADD, OR, ADC, SBB, AND, SUB, XOR, CMP
    else if op % 8 = 4 then some (.no, [.ib])
    else if op % 8 = 5 then some (.no, [.iz])
    else not64 (.no, [])                                                            -- PUSH, POP, DAA, DAS, AAA, AAS
  else if op < 0x50 then not64 (.no, [])                                            -- INC, DEC
  else if op < 0x60 then some (.no, [])                                             -- PUSH, POP
  else if op < 0x62 then not64 (.no, [])                                            -- PUSHA, POPA
  else if op = 0x62 then if mod3 = true then none else not64 (.yes, [])             -- BOUND
  else if op = 0x63 then some (.yes, [])                                            -- ARPL, MOVSXD
  else if op < 0x68 then none                                                       -- prefixes
  else if op = 0x68 then some (.no, [.iz])                                          -- PUSH
  else if op = 0x69 then some (.yes, [.iz])                                         -- IMUL
  else if op = 0x6a then some (.no, [.ib])                                          -- PUSH
  else if op = 0x6b then some (.yes, [.ib])                                         -- IMUL
  else if op < 0x70 then some (.no, [])                                             -- INS, OUTS
  else if op < 0x80 then some (.no, [.jb])                                          -- Jcc
  else if op = 0x81 then some (.yes, [.iz])                                         -- group 1
  else if op = 0x82 then not64 (.yes, [.ib])
  else if op < 0x84 then some (.yes, [.ib])
  else if op < 0x90 then some (.yes, [])                                            -- TEST, XCHG, MOV, LEA, POP
  else if op = 0x9a then not64 (.no, [.iz, .iw])                                    -- CALL far: offset and selector
  else if op < 0xa0 then some (.no, [])                                             -- XCHG, CBW, CWD, WAIT, PUSHF, POPF, SAHF, LAHF
  else if op < 0xa4 then some (.no, [.addr])                                        -- MOV
  else if op = 0xa8 then some (.no, [.ib])                                          -- TEST
  else if op = 0xa9 then some (.no, [.iz])
  else if op < 0xb0 then some (.no, [])                                             -- string instructions
  else if op < 0xb8 then some (.no, [.ib])                                          -- MOV
  else if op < 0xc0 then some (.no, [.iv])
  else if op < 0xc2 then some (.yes, [.ib])                                         -- shifts
  else if op = 0xc2 then some (.no, [.iw])                                          -- RET
  else if op = 0xc3 then some (.no, [])
  else if op < 0xc6 then if mod3 = true then none else not64 (.yes, [])             -- LES, LDS
  else if op = 0xc6 then
    if reg = 0 ∨ (reg = 7 ∧ mod3 = true) then some (.yes, [.ib]) else none          -- MOV, XABORT
  else if op = 0xc7 then
    if reg = 0 ∨ (reg = 7 ∧ mod3 = true) then some (.yes, [.iz]) else none          -- MOV, XBEGIN
  else if op = 0xc8 then some (.no, [.iw, .ib])                                     -- ENTER
  else if op = 0xca then some (.no, [.iw])                                          -- RET far
  else if op = 0xcd then some (.no, [.ib])                                          -- INT
  else if op = 0xce then not64 (.no, [])                                            -- INTO
  else if op < 0xd0 then some (.no, [])                                             -- LEAVE, RET far, INT3, IRET
  else if op < 0xd4 then some (.yes, [])                                            -- shifts
  else if op < 0xd6 then not64 (.no, [.ib])                                         -- AAM, AAD
  else if op = 0xd6 then none
  else if op = 0xd7 then some (.no, [])                                             -- XLAT
  else if op < 0xe0 then some (.yes, [])                                            -- x87
  else if op < 0xe4 then some (.no, [.jb])                                          -- LOOP, JCXZ
  else if op < 0xe8 then some (.no, [.ib])                                          -- IN, OUT
  else if op < 0xea then some (.no, [.jz])                                          -- CALL, JMP
  else if op = 0xea then not64 (.no, [.iz, .iw])                                    -- JMP far
  else if op = 0xeb then some (.no, [.jb])                                          -- JMP
  else if op < 0xf0 then some (.no, [])                                             -- IN, OUT
  else if op = 0xf0 ∨ op = 0xf2 ∨ op = 0xf3 then none                               -- prefixes
  else if op = 0xf6 then some (.yes, if reg < 2 then [.ib] else [])                 -- group 3
  else if op = 0xf7 then some (.yes, if reg < 2 then [.iz] else [])
  else if op < 0xfe then some (.no, [])                                             -- INT1, HLT, CMC, CLC, STC, CLI, STI, CLD, STD
  else if op = 0xfe then if reg < 2 then some (.yes, []) else none                  -- INC, DEC
  else if reg < 7 then some (.yes, []) else none                                    -- INC, DEC, CALL, JMP, PUSH

/-- Two-byte opcodes, table A-3. -/
def twoByte (op : Nat) : Option (Rm × List Opd) :=
  if op < 0x04 then some (.yes, [])
  else if op ∈ [0x04, 0x0a, 0x0c, 0x0e, 0x0f, 0x36, 0x7a, 0x7b, 0xa6, 0xa7] then none
  else if op = 0x0d then some (.yes, [])                                            -- PREFETCHW
  else if op < 0x10 then some (.no, [])                                             -- SYSCALL, CLTS, SYSRET, INVD, WBINVD, UD2
  else if op < 0x20 then some (.yes, [])
  else if op < 0x24 then some (.regs, [])                                           -- MOV to and from control and debug registers
  else if op < 0x28 then none
  else if op < 0x30 then some (.yes, [])
  else if op < 0x38 then some (.no, [])                                             -- WRMSR, RDTSC, RDMSR, RDPMC, SYSENTER, SYSEXIT, GETSEC
  else if op < 0x40 then none                                                       -- escapes
  else if op < 0x70 then some (.yes, [])
  else if op < 0x74 then some (.yes, [.ib])                                         -- PSHUF, groups 12 to 14
  else if op = 0x77 then some (.no, [])                                             -- EMMS
  else if op < 0x80 then some (.yes, [])
  else if op < 0x90 then some (.no, [.jz])                                          -- Jcc
  else if op < 0xa0 then some (.yes, [])                                            -- SETcc
  else if op ∈ [0xa0, 0xa1, 0xa2, 0xa8, 0xa9, 0xaa] then some (.no, [])             -- PUSH, POP, CPUID, RSM
  else if op ∈ [0xa4, 0xac, 0xba, 0xc2, 0xc4, 0xc5, 0xc6] then some (.yes, [.ib])   -- SHLD, SHRD, group 8, CMPPS, PINSRW, PEXTRW, SHUFPS
  else if op < 0xc8 then some (.yes, [])
  else if op < 0xd0 then some (.no, [])                                             -- BSWAP
  else some (.yes, [])

/-- VEX, by opcode map. -/
def vexForm (map op : Nat) : Option (Rm × List Opd) :=
  if map = 1 then
    if op = 0x77 then some (.no, [])                                                -- VZEROUPPER, VZEROALL
    else if op ∈ [0x70, 0x71, 0x72, 0x73, 0xc2, 0xc4, 0xc5, 0xc6] then some (.yes, [.ib])
    else if (0x10 ≤ op ∧ op < 0x18) ∨ (0x28 ≤ op ∧ op < 0x30) ∨ (0x41 ≤ op ∧ op < 0x4c) ∨ (0x50 ≤ op ∧ op < 0x78) ∨
        (0x7c ≤ op ∧ op < 0x80) ∨ (0x90 ≤ op ∧ op < 0x94) ∨ op = 0x98 ∨ op = 0x99 ∨ op = 0xae ∨ (0xd0 ≤ op ∧ op < 0xff) then some (.yes, [])
    else none
  else if map = 2 then some (.yes, [])
  else if map = 3 then some (.yes, [.ib])
  else if map = 7 ∧ (op = 0xf6 ∨ op = 0xf8) then some (.yes, [.id])                 -- RDMSR, WRMSRNS, URDMSR, UWRMSR
  else none

/-- EVEX, by opcode map. -/
def evexForm (map op reg : Nat) : Option (Rm × List Opd) :=
  if map = 1 then
    if op ∈ [0x70, 0x71, 0x72, 0x73, 0xc2, 0xc4, 0xc5, 0xc6] then some (.yes, [.ib])
    else if (0x10 ≤ op ∧ op < 0x18) ∨ (0x28 ≤ op ∧ op < 0x30) ∨ (0x51 ≤ op ∧ op < 0x77) ∨ (0x78 ≤ op ∧ op < 0x80) ∨
        (0xd0 ≤ op ∧ op < 0xff) then some (.yes, [])
    else none
  else if map = 2 ∨ map = 5 ∨ map = 6 then some (.yes, [])
  else if map = 3 then some (.yes, [.ib])
  else if map = 4 then                                                              -- APX
    if op ∈ [0x24, 0x2c, 0x6b, 0x80, 0x83, 0xc0, 0xc1, 0xd4] then some (.yes, [.ib])
    else if op = 0x69 ∨ op = 0x81 then some (.yes, [.iz])
    else if op = 0xf6 then some (.yes, if reg < 2 then [.ib] else [])
    else if op = 0xf7 then some (.yes, if reg < 2 then [.iz] else [])
    else some (.yes, [])
  else if map = 7 ∧ (op = 0xf6 ∨ op = 0xf8) then some (.yes, [.id])
  else none

def Insn.mod (i : Insn) : Nat := (i.modrm.getD 0).toNat / 64
def Insn.reg (i : Insn) : Nat := (i.modrm.getD 0).toNat / 8 % 8
def Insn.rm (i : Insn) : Nat := (i.modrm.getD 0).toNat % 8

/-- What follows the opcode.  The rows of the opcode maps that are not available with REX2 are from the APX specification; the
only instruction in them is JMPABS. -/
def Insn.form (m : Mode) (i : Insn) : Option (Rm × List Opd) :=
  let op := i.op.toNat
  match i.intro with
  | .one => oneByte m op i.reg (i.mod = 3)
  | .two => twoByte op
  | .three38 => some (.yes, [])
  | .three3a => some (.yes, [.ib])
  | .rex2 p =>
    if p.toNat < 128 then
      if op = 0xa1 then some (.no, [.addr])                                         -- JMPABS
      else if op / 16 ∈ [4, 7, 10, 14] then none
      else oneByte m op i.reg (i.mod = 3)
    else if op / 16 ∈ [3, 8] then none
    else twoByte op
  | .vex2 _ => vexForm 1 op
  | .vex3 p _ => vexForm (p.toNat % 32) op
  | .evex p _ _ => evexForm (p.toNat % 8) op i.reg

/-- There is a SIB byte. -/
def Insn.hasSib (m : Mode) (i : Insn) : Prop := addrSize m i.asz ≠ 2 ∧ i.mod ≠ 3 ∧ i.rm = 4

/-- The size of the displacement that goes with the ModR/M byte, tables 2-1 and 2-2. -/
def Insn.dispSize (m : Mode) (i : Insn) : Nat :=
  if addrSize m i.asz = 2 then
    if i.mod = 1 then 1 else if i.mod = 2 ∨ (i.mod = 0 ∧ i.rm = 6) then 2 else 0
  else
    if i.mod = 1 then 1
    else if i.mod = 2 ∨ (i.mod = 0 ∧ (i.rm = 5 ∨ (i.rm = 4 ∧ (i.sib.getD 0).toNat % 8 = 5))) then 4 else 0

/-- The parts fit together. -/
structure Fits (m : Mode) (i : Insn) (rm : Rm) (opds : List Opd) : Prop where
  form : i.form m = some (rm, opds)
  modrm : i.modrm.isSome = true ↔ rm ≠ .no
  sib : i.sib.isSome = true ↔ rm = .yes ∧ i.hasSib m
  disp : i.disp.length = if rm = .yes then i.dispSize m else 0
  opds : i.opds.length = (opds.map (Opd.size m i.osz i.asz (i.w m))).sum

/-- Some two-byte opcodes depend on prefixes. -/
def Insn.twoPrefixes (i : Insn) : Prop :=
  (i.op = 0x78 → 0x66 ∉ i.pre ∧ i.rep ≠ some 0xf2) ∧
  (i.op = 0x01 → i.modrm ∈ [some 0xc1, some 0xc2, some 0xc3] → 0x66 ∉ i.pre ∧ i.rep = none) ∧
  (i.op = 0x01 → i.modrm = some 0xec → 0x66 ∉ i.pre ∧ i.rep = some 0xf3) ∧
  (i.op = 0xc7 → i.reg = 6 → i.rep ≠ some 0xf2)

/-- The prefixes can be used with the instruction. -/
def Insn.prefixes (m : Mode) (i : Insn) : Prop :=
  (∀ b ∈ i.pre, IsPrefix m b) ∧
  match i.intro with
  | .one => True
  | .two => i.twoPrefixes
  | .three38 => True
  | .three3a => True
  | .rex2 p => m = .b64 ∧ i.rex m = 0 ∧ (128 ≤ p.toNat → i.twoPrefixes) ∧
      (p.toNat < 128 → i.op = 0xa1 → p.toNat.testBit 3 = false ∧ 0x66 ∉ i.pre ∧ 0x67 ∉ i.pre)
  | .vex2 p => (m = .b64 ∨ p.toNat / 64 = 3) ∧ i.rex m = 0 ∧ ∀ b ∈ i.pre, b ∉ [0x66, 0xf0, 0xf2, 0xf3]
  | .vex3 p _ => (m = .b64 ∨ p.toNat / 64 = 3) ∧ i.rex m = 0 ∧ ∀ b ∈ i.pre, b ∉ [0x66, 0xf0, 0xf2, 0xf3]
  | .evex p _ _ => (m = .b64 ∨ p.toNat / 64 = 3) ∧ i.rex m = 0 ∧ ∀ b ∈ i.pre, b ∉ [0x66, 0xf0, 0xf2, 0xf3]

/-- `i` is an instruction in execution mode `m`. -/
def Insn.Valid (m : Mode) (i : Insn) : Prop := i.prefixes m ∧ ∃ rm opds, Fits m i rm opds

/-- What one-byte opcodes do. -/
def kindOne (op reg : Nat) : Iclass × Inst :=
  if op / 16 = 7 then (.condJump, .jcc)
  else match op with
  | 0x9a => (.farCall, .call9A)
  | 0xc2 => (.return, .retC2)
  | 0xc3 => (.return, .retC3)
  | 0xca => (.farReturn, .retCA)
  | 0xcb => (.farReturn, .retCB)
  | 0xcc => (.farCall, .int3)
  | 0xcd => (.farCall, .int)
  | 0xce => (.farCall, .into)
  | 0xcf => (.farReturn, .iret)
  | 0xe0 => (.condJump, .loopne)
  | 0xe1 => (.condJump, .loope)
  | 0xe2 => (.condJump, .loop)
  | 0xe3 => (.condJump, .jrcxz)
  | 0xe8 => (.call, .callE8)
  | 0xe9 => (.jump, .jmpE9)
  | 0xea => (.farJump, .jmpEA)
  | 0xeb => (.jump, .jmpEB)
  | 0xf1 => (.farCall, .int1)
  | 0xff =>
    match reg with
    | 2 => (.call, .callFFr2)
    | 3 => (.farCall, .callFFr3)
    | 4 => (.jump, .jmpFFr4)
    | 5 => (.farJump, .jmpFFr5)
    | _ => (.other, .invalid)
  | _ => (.other, .invalid)

/-- What two-byte opcodes do. -/
def Insn.kindTwo (m : Mode) (i : Insn) : Iclass × Inst :=
  if i.op.toNat / 16 = 8 then (.condJump, .jcc)
  else match i.op.toNat with
  | 0x01 =>
    match (i.modrm.getD 0).toNat with
    | 0xc1 => (.farCall, .vmcall)
    | 0xc2 => (.farReturn, .vmlaunch)
    | 0xc3 => (.farReturn, .vmresume)
    | 0xca =>
      if i.rep = some 0xf2 then (.farReturn, .erets)
      else if i.rep = some 0xf3 then (.farReturn, .eretu)
      else (.other, .invalid)                                                       -- CLAC
    | 0xec => (.farReturn, .uiret)
    | _ => (.other, .invalid)
  | 0x05 => (.farCall, .syscall)
  | 0x07 => (.farReturn, .sysret)
  | 0x22 => if i.reg = 3 ∧ i.noR m = true then (.other, .movCr3) else (.other, .invalid)
  | 0x34 => (.farCall, .sysenter)
  | 0x35 => (.farReturn, .sysexit)
  | 0xae => if i.reg = 4 ∧ 0xf3 ∈ i.pre ∧ 0x66 ∉ i.pre then (.ptwrite, .ptwrite) else (.other, .invalid)
  | 0xc7 => if i.reg = 6 ∧ i.mod ≠ 3 ∧ 0x66 ∉ i.pre ∧ i.rep = none then (.other, .vmptrld) else (.other, .invalid)
  | _ => (.other, .invalid)

/-- What the instruction does. -/
def Insn.kind (m : Mode) (i : Insn) : Iclass × Inst :=
  match i.intro with
  | .one => kindOne i.op.toNat i.reg
  | .two => i.kindTwo m
  | .rex2 p =>
    if p.toNat < 128 then
      if i.op = 0xa1 then (.jump, .jmpabs) else kindOne i.op.toNat i.reg
    else i.kindTwo m
  | _ => (.other, .invalid)

/-- The instructions whose target is in the instruction. -/
def direct : Inst → Bool
  | .jcc | .callE8 | .jmpE9 | .jmpEB | .jrcxz | .loop | .loope | .loopne | .jmpabs => true
  | _ => false

/-- What a user learns about the instruction: its class, and for direct branches the displacement or the target. -/
structure Describes (m : Mode) (i : Insn) (x : Iext) : Prop where
  cls : x.cls = (i.kind m).1
  direct : x.isDirect = direct (i.kind m).2
  target : if x.isDirect = true then IsSigned i.opds x.displacement else x.displacement = 0

/-- VMCLEAR and VMXON, which differ from VMPTRLD by a prefix. -/
def Insn.vmclear (i : Insn) : Prop :=
  (i.intro = .two ∨ ∃ p, i.intro = .rex2 p ∧ 128 ≤ p.toNat) ∧ i.op = 0xc7 ∧ i.reg = 6 ∧ i.mod ≠ 3 ∧ (0x66 ∈ i.pre ∨ i.rep = some 0xf3)

end Ipt.Spec.X86
