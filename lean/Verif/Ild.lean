import Verif.Basic
import Verif.IldTables

/-!
# Instruction length decoder

Models libipt/src/pt_ild.c.  The decoder works on `insn->raw`, an array of bytes, of which the
first `insn->size` bytes (`max` below) are the memory at the instruction's address.  A read
outside of the array is undefined behaviour (`rd`).

Simplifications: the checks for NULL arguments are left out; lengths are natural numbers instead
of `uint8_t` (they stay below 32 for the at most 15 bytes of `insn->raw`); one-bit fields are
booleans; bytes are natural numbers below 256.  The unaligned multi-byte loads in
`set_branch_target` are modelled as little-endian byte reads.
-/

namespace Ipt.Ild

/-- `enum pt_exec_mode`, libipt/include/intel-pt.h.in:451-458. -/
inductive Mode
  | unknown | b16 | b32 | b64
deriving DecidableEq, Repr

/-- The numeric value of a mode, used as an array index. -/
def Mode.idx : Mode → Nat
  | .unknown => 0
  | .b16 => 1
  | .b32 => 2
  | .b64 => 3

/-- `struct pt_ild`, libipt/internal/include/pt_ild.h:50-79, without the inputs `itext` and
`max_bytes`, which are passed as arguments `raw` and `max`. -/
structure Ild where
  mode : Mode
  osz : Bool := false
  asz : Bool := false
  lock : Bool := false
  f3 : Bool := false
  f2 : Bool := false
  lastF2f3 : Nat := 0
  rex2 : Bool := false
  rexR : Nat := 0
  rexW : Bool := false
  imm1 : Nat := 0
  imm2 : Nat := 0
  disp : Nat := 0
  modrm : Nat := 0
  vex : Nat := 0
  map : Nat := 8
  opcode : Nat := 0
  dispPos : Nat := 0
deriving DecidableEq, Repr

/-- `pti_get_modrm_mod`, pt_ild.h:86-89. -/
def Ild.mod (s : Ild) : Nat := s.modrm / 64
/-- `pti_get_modrm_reg`, pt_ild.h:91-94. -/
def Ild.reg (s : Ild) : Nat := s.modrm / 8 % 8
/-- `pti_get_modrm_rm`, pt_ild.h:96-99. -/
def Ild.rm (s : Ild) : Nat := s.modrm % 8

/-- `eamode_table`, pt_ild.c:40-54. -/
def eamode (asz : Bool) (m : Mode) : Mode :=
  if asz then
    match m with
    | .unknown => .unknown
    | .b16 => .b32
    | .b32 => .b16
    | .b64 => .b32
  else m

/-- `pti_get_nominal_eosz_non64`, pt_ild.c:83-94. -/
def eoszNon64 (s : Ild) : Mode :=
  if s.mode = .b32 then
    if s.osz then .b16 else .b32
  else
    if s.osz then .b32 else .b16

/-- `pti_get_nominal_eosz`, pt_ild.c:96-107. -/
def eosz (s : Ild) : Mode :=
  if s.mode = .b64 then
    if s.rexW then .b64
    else if s.osz then .b16
    else .b32
  else eoszNon64 s

/-- `pti_get_nominal_eosz_df64`, pt_ild.c:109-122. -/
def eoszDf64 (s : Ild) : Mode :=
  if s.mode = .b64 then
    if s.rexW then .b64
    else if s.osz then .b16
    else .b64
  else eoszNon64 s

/-- `pti_get_nominal_easz_non64`, pt_ild.c:124-135. -/
def easzNon64 (s : Ild) : Mode :=
  if s.mode = .b32 then
    if s.asz then .b16 else .b32
  else
    if s.asz then .b32 else .b16

/-- `pti_get_nominal_easz`, pt_ild.c:137-146. -/
def easz (s : Ild) : Mode :=
  if s.mode = .b64 then
    if s.asz then .b32 else .b64
  else easzNon64 s

/-- `resolve_z`, pt_ild.c:148-162: the number of bytes or an error. -/
def resolveZ : Mode → Res Nat
  | .unknown => .err .badInsn
  | .b16 => .ok 2
  | .b32 => .ok 4
  | .b64 => .ok 4

/-- `resolve_v`, pt_ild.c:164-178. -/
def resolveV : Mode → Res Nat
  | .unknown => .err .badInsn
  | .b16 => .ok 2
  | .b32 => .ok 4
  | .b64 => .ok 8

/-- `struct pti_imm_desc`, pti-imm.h:1345-1351: a table indexed by opcode or a fixed width. -/
inductive ImmDesc
  | table (t : List Imm)
  | width (n : Nat)

/-- `imm_bytes_desc`, pti-imm.h:1353-1385, indexed by vex status and map number. -/
def immDesc (vex map : Nat) : ImmDesc :=
  match vex, map with
  | 0, 0 => .table immLegacy0
  | 0, 1 => .table immLegacy1
  | 0, 3 => .width 1
  | 0, 4 => .width 1
  | 0, _ => .width 0
  | 1, 0 => .width 0xff
  | 1, 1 => .table immVex1
  | 1, 3 => .width 1
  | 1, 7 => .width 4
  | 1, _ => .width 0
  | _, 0 => .width 0xff
  | _, 1 => .table immEvex1
  | _, 3 => .width 1
  | _, 4 => .table immEvex4
  | _, 7 => .width 4
  | _, _ => .width 0

/-- `has_modrm_table`, pti-modrm.h:825-857, indexed by vex status, map number and opcode.
Opcodes are below 256, so the default of `getD` is never used. -/
def hasModrm (vex map op : Nat) : Modrm :=
  match vex, map with
  | 0, 0 => modrmLegacy0.getD op .undef
  | 0, 1 => modrmLegacy1.getD op .undef
  | 0, 2 => .yes
  | 0, 3 => .yes
  | 0, 4 => .yes
  | 0, _ => .undef
  | 1, 1 => modrmVex1.getD op .undef
  | 1, 2 => .yes
  | 1, 3 => .yes
  | 1, 7 => .yes
  | 1, _ => .undef
  | _, 0 => .undef
  | _, _ => .yes

/-- `set_imm_bytes`, pt_ild.c:182-291. -/
def setImm (s : Ild) : Res Ild :=
  if 8 ≤ s.map then .err .badInsn
  else
    match immDesc s.vex s.map with
    | .width w => if w = 0xff then .err .badInsn else .ok { s with imm1 := w }
    | .table t =>
      match t.getD s.opcode .zero with
      | .zero => .ok s
      | .uimm8 => .ok { s with imm1 := 1 }
      | .simm8 => .ok { s with imm1 := 1 }
      | .simmz => do let n ← resolveZ (eosz s); return { s with imm1 := n }
      | .uimmv => do let n ← resolveV (eosz s); return { s with imm1 := n }
      | .uimm16 => .ok { s with imm1 := 2 }
      | .simmzDf64 => do let n ← resolveZ (eoszDf64 s); return { s with imm1 := n }
      | .opF7 =>
        if s.map = 0 ∧ s.reg < 2 then do
          let n ← resolveZ (eosz s); return { s with imm1 := n }
        else .ok s
      | .opC7 =>
        if s.map = 0 ∧ s.reg = 0 then do
          let n ← resolveZ (eosz s); return { s with imm1 := n }
        else .ok s
      | .opF6 => if s.map = 0 ∧ s.reg < 2 then .ok { s with imm1 := 1 } else .ok s
      | .opC8 => if s.map = 0 then .ok { s with imm1 := 2, imm2 := 1 } else .ok s
      | .op78 =>
        if s.map = 1 then
          if s.osz ∨ s.lastF2f3 = 2 then .ok { s with imm1 := 1, imm2 := 1 } else .ok s
        else .ok s
      | .evexF6 => if s.reg < 2 then .ok { s with imm1 := 1 } else .ok s
      | .evexF7 =>
        if s.reg < 2 then do
          let n ← resolveZ (eosz s); return { s with imm1 := n }
        else .ok s

/-- `imm_dec`, pt_ild.c:293-310. -/
def immDec (max : Nat) (s : Ild) (len : Nat) : Res (Ild × Nat) := do
  let s ← setImm s
  let len := len + s.imm1 + s.imm2
  if max < len then .err .badInsn
  else .ok (s, len)

/-- `compute_legacy_disp`, pt_ild.c:312-376. -/
def legacyDisp (s : Ild) : Res Ild :=
  if 0 < s.disp then .ok s
  else if 2 ≤ s.map then .ok s
  else
    match (if s.map = 0 then dispMap0 else dispMap0F).getD s.opcode .none with
    | .none => .ok { s with disp := 0 }
    | .preserve => .ok s
    | .brdisp8 => .ok { s with disp := 1 }
    | .bucket0 =>
      if s.mode = .b64 then .ok { s with disp := 4 }
      else do let n ← resolveZ (eosz s); return { s with disp := n }
    | .memdispv => do let n ← resolveV (easz s); return { s with disp := n }
    | .brdispz => do let n ← resolveZ (eosz s); return { s with disp := n }
    | .opC7 =>
      if s.map = 0 ∧ s.reg = 7 then do
        let n ← resolveZ (eosz s); return { s with disp := n }
      else .ok s

/-- `disp_dec`, pt_ild.c:378-404. -/
def dispDec (max : Nat) (s : Ild) (len : Nat) : Res (Ild × Nat) := do
  let s ← if s.vex = 0 then legacyDisp s else .ok s
  if s.disp = 0 then immDec max s len
  else if max < len + s.disp then .err .badInsn
  else immDec max { s with dispPos := len } (len + s.disp)

/-- `sib_dec`, pt_ild.c:406-421. -/
def sibDec (raw : List UInt8) (max : Nat) (s : Ild) (len : Nat) : Res (Ild × Nat) :=
  if max ≤ len then .err .badInsn
  else do
    let sib ← rd raw len
    let s := if sib % 8 = 5 ∧ s.mod = 0 then { s with disp := 4 } else s
    dispDec max s (len + 1)

/-- An entry of one of the `[4][4][8]` tables; the indices are in range. -/
def tab3 (t : List (List (List Nat))) (m : Mode) (mod rm : Nat) : Nat :=
  ((t.getD m.idx []).getD mod []).getD rm 0

/-- `modrm_dec`, pt_ild.c:423-472. -/
def modrmDec (raw : List UInt8) (max : Nat) (s : Ild) (len : Nat) : Res (Ild × Nat) :=
  if 8 ≤ s.map then .err .badInsn
  else
    match hasModrm s.vex s.map s.opcode with
    | .no => dispDec max s len
    | .undef => dispDec max s len
    | .ignoreMod =>
      if max ≤ len then .err .badInsn
      else do
        let b ← rd raw len
        dispDec max { s with modrm := b } (len + 1)
    | .yes =>
      if max ≤ len then .err .badInsn
      else do
        let b ← rd raw len
        let s := { s with modrm := b }
        let ea := eamode s.asz s.mode
        let s := { s with disp := tab3 dispDefault ea s.mod s.rm }
        if tab3 hasSib ea s.mod s.rm ≠ 0 then sibDec raw max s (len + 1)
        else dispDec max s (len + 1)

/-- `get_next_as_opcode`, pt_ild.c:474-485. -/
def nextAsOpcode (raw : List UInt8) (max : Nat) (s : Ild) (len : Nat) : Res (Ild × Nat) :=
  if max ≤ len then .err .badInsn
  else do
    let b ← rd raw len
    modrmDec raw max { s with opcode := b } (len + 1)

/-- `opcode_dec`, pt_ild.c:487-529. -/
def opcodeDec (raw : List UInt8) (max : Nat) (s : Ild) (len : Nat) : Res (Ild × Nat) := do
  let b ← rd raw len
  if b ≠ 0x0f then modrmDec raw max { s with map := 0, opcode := b } (len + 1)
  else if max ≤ len + 1 then .err .badInsn
  else do
    let m ← rd raw (len + 1)
    if m = 0x38 then nextAsOpcode raw max { s with map := 2 } (len + 2)
    else if m = 0x3a then nextAsOpcode raw max { s with map := 3, imm1 := 1 } (len + 2)
    else if m / 8 = 7 then nextAsOpcode raw max { s with map := 8 } (len + 2)
    else modrmDec raw max { s with opcode := m, map := 1 } (len + 2)

/-- The prefix decoders, pt_ild.c:533-544. -/
inductive Pfx
  | osz | asz | lock | f2 | f3 | rex | c4 | c5 | evex | rex2 | ignore | done
deriving DecidableEq, Repr

/-- `prefix_table`, pt_ild.c:546-818. -/
def pfxOf (b : Nat) : Pfx :=
  if b = 0x26 ∨ b = 0x2e ∨ b = 0x36 ∨ b = 0x3e ∨ b = 0x64 ∨ b = 0x65 then .ignore
  else if 0x40 ≤ b ∧ b ≤ 0x4f then .rex
  else if b = 0x62 then .evex
  else if b = 0x66 then .osz
  else if b = 0x67 then .asz
  else if b = 0xc4 then .c4
  else if b = 0xc5 then .c5
  else if b = 0xd5 then .rex2
  else if b = 0xf0 then .lock
  else if b = 0xf2 then .f2
  else if b = 0xf3 then .f3
  else .done

/-- `prefix_vex_done`, pt_ild.c:933-941. -/
def vexDone (raw : List UInt8) (max : Nat) (s : Ild) (len : Nat) : Res (Ild × Nat) := do
  let b ← rd raw len
  modrmDec raw max { s with opcode := b } (len + 1)

/-- `resolve_vex_pp`, pt_ild.c:943-960. -/
def vexPp (s : Ild) (pp : Nat) : Ild :=
  match pp with
  | 1 => { s with osz := true }
  | 2 => { s with f3 := true, lastF2f3 := 3 }
  | 3 => { s with f2 := true, lastF2f3 := 2 }
  | _ => s

/-- The complement of bit `i` of a byte, `(~b >> i) & 1`. -/
def nbit (b i : Nat) : Nat := 1 - b / 2 ^ i % 2

/-- Bit `i` of a byte. -/
def bit (b i : Nat) : Nat := b / 2 ^ i % 2

/-- `prefix_vex_c5`, pt_ild.c:962-1001. -/
def vexC5 (raw : List UInt8) (max : Nat) (s : Ild) (len : Nat) : Res (Ild × Nat) :=
  if max ≤ len + 1 then .err .badInsn
  else do
    let p1 ← rd raw (len + 1)
    if s.mode ≠ .b64 ∧ p1 / 64 ≠ 3 then opcodeDec raw max s len
    else if max < len + 3 then .err .badInsn
    else
      let s := { s with vex := 1, rexR := nbit p1 7 }
      let s := vexPp s (p1 % 4)
      vexDone raw max { s with map := 1 } (len + 2)

/-- `prefix_vex_c4`, pt_ild.c:1003-1047. -/
def vexC4 (raw : List UInt8) (max : Nat) (s : Ild) (len : Nat) : Res (Ild × Nat) :=
  if max ≤ len + 1 then .err .badInsn
  else do
    let p1 ← rd raw (len + 1)
    if s.mode ≠ .b64 ∧ p1 / 64 ≠ 3 then opcodeDec raw max s len
    else if max < len + 4 then .err .badInsn
    else do
      let p2 ← rd raw (len + 2)
      let s := { s with vex := 1, rexR := nbit p1 7, rexW := decide (bit p2 7 = 1) }
      let s := vexPp s (p2 % 4)
      let s := { s with map := p1 % 32 }
      if 8 ≤ s.map then .err .badInsn
      else vexDone raw max s (len + 3)

/-- `prefix_evex`, pt_ild.c:1049-1091. -/
def evex (raw : List UInt8) (max : Nat) (s : Ild) (len : Nat) : Res (Ild × Nat) :=
  if max ≤ len + 1 then .err .badInsn
  else do
    let p1 ← rd raw (len + 1)
    if s.mode ≠ .b64 ∧ p1 / 64 ≠ 3 then opcodeDec raw max s len
    else if max < len + 5 then .err .badInsn
    else do
      let p2 ← rd raw (len + 2)
      let s := { s with vex := 2, rexR := nbit p1 7 + 2 * nbit p1 4,
                        rexW := decide (bit p2 7 = 1) }
      let s := vexPp s (p2 % 4)
      vexDone raw max { s with map := p1 % 8 } (len + 4)

/-- `prefix_rex2`, pt_ild.c:1093-1126.  Only `len + 2` bytes are asked for although the opcode
is the third byte. -/
def rex2 (raw : List UInt8) (max : Nat) (s : Ild) (len : Nat) : Res (Ild × Nat) :=
  if s.mode ≠ .b64 then opcodeDec raw max s len
  else if max < len + 2 then .err .badInsn
  else do
    let p ← rd raw (len + 1)
    vexDone raw max
      { s with rexR := 2 * bit p 6 + bit p 2, rexW := decide (bit p 3 = 1), rex2 := true,
               map := p / 128 } (len + 2)

/-- `prefix_decode`, pt_ild.c:820-833, with the prefix decoders it dispatches to:
`prefix_osz`, `prefix_asz`, `prefix_lock`, `prefix_f2`, `prefix_f3`, `prefix_ignore`,
`prefix_done`, `prefix_rex`, pt_ild.c:840-931.  The C functions call each other; the recursion is
bounded by `fuel`, and running out of fuel counts as undefined behaviour. -/
def prefixDecode (raw : List UInt8) (max : Nat) : Nat → Ild → Nat → Nat → Res (Ild × Nat)
  | 0, _, _, _ => .ub
  | fuel + 1, s, len, rex =>
    if max ≤ len then .err .badInsn
    else do
      let b ← rd raw len
      match pfxOf b with
      | .osz => prefixDecode raw max fuel { s with osz := true } (len + 1) 0
      | .asz => prefixDecode raw max fuel { s with asz := true } (len + 1) 0
      | .lock => prefixDecode raw max fuel { s with lock := true } (len + 1) 0
      | .f2 => prefixDecode raw max fuel { s with f2 := true, lastF2f3 := 2 } (len + 1) 0
      | .f3 => prefixDecode raw max fuel { s with f3 := true, lastF2f3 := 3 } (len + 1) 0
      | .ignore => prefixDecode raw max fuel s (len + 1) 0
      | .rex =>
        if s.mode = .b64 then prefixDecode raw max fuel s (len + 1) b
        else opcodeDec raw max s len
      | .c4 => vexC4 raw max s len
      | .c5 => vexC5 raw max s len
      | .evex => evex raw max s len
      | .rex2 => rex2 raw max s len
      | .done =>
        opcodeDec raw max { s with rexR := bit rex 2, rexW := decide (bit rex 3 = 1) } len

/-- `decode`, pt_ild.c:1128-1131, on the zeroed decoder of `pt_ild_decode`,
pt_ild.c:1488-1492. -/
def decode (raw : List UInt8) (max : Nat) (mode : Mode) : Res (Ild × Nat) :=
  prefixDecode raw max (max + 1) { mode := mode } 0 0

/-- `enum pt_insn_class`, libipt/include/intel-pt.h.in:2505-2557. -/
inductive Iclass
  | unknown | other | call | return | jump | condJump | farCall | farReturn | farJump | ptwrite
  | indirect
deriving DecidableEq, Repr

/-- `pti_inst_enum_t`, libipt/internal/include/pt_insn.h:40-91. -/
inductive Inst
  | invalid
  | call9A | callFFr3 | callFFr2 | callE8 | int
  | int3 | int1 | into | iret
  | jmpE9 | jmpEB | jmpEA | jmpFFr5 | jmpFFr4 | jcc | jrcxz | loop | loope | loopne
  | movCr3
  | retC3 | retC2 | retCB | retCA
  | syscall | sysenter | sysexit | sysret
  | vmlaunch | vmresume | vmcall | vmptrld
  | ptwrite
  | uiret
  | erets | eretu
  | jmpabs
deriving DecidableEq, Repr

/-- The classification of an instruction: `insn->iclass` together with `struct pt_insn_ext`,
libipt/internal/include/pt_insn.h:93-122. -/
structure Iext where
  cls : Iclass := .other
  inst : Inst := .invalid
  displacement : Int := 0
  isDirect : Bool := false
deriving DecidableEq, Repr

/-- Interpret the low `n` bytes `v` as a two's complement number. -/
def sext (n v : Nat) : Int :=
  if 2 * v < 256 ^ n then (v : Int) else (v : Int) - (256 ^ n : Nat)

/-- `set_branch_target`, pt_ild.c:1133-1164. -/
def branchTarget (raw : List UInt8) (s : Ild) (cls : Iclass) (inst : Inst) : Res Iext :=
  if s.disp = 1 ∨ s.disp = 2 ∨ s.disp = 4 ∨ s.disp = 8 then do
    let v ← rdLE raw s.dispPos s.disp
    return { cls, inst, displacement := sext s.disp v, isDirect := true }
  else .err .badInsn

/-- `pt_instruction_decode`, pt_ild.c:1166-1478. -/
def classify (raw : List UInt8) (s : Ild) : Res Iext :=
  if 1 < s.map then .ok {}
  else if s.vex ≠ 0 then .ok {}
  else if s.opcode / 16 = 7 then
    if s.map = 0 ∧ ¬ s.rex2 then branchTarget raw s .condJump .jcc else .ok {}
  else if s.opcode / 16 = 8 then
    if s.map = 1 ∧ ¬ s.rex2 then branchTarget raw s .condJump .jcc else .ok {}
  else
    match s.opcode with
    | 0x9a => if s.map = 0 ∧ s.mode ≠ .b64 then .ok { cls := .farCall, inst := .call9A } else .ok {}
    | 0xff =>
      if s.map = 0 then
        match s.reg with
        | 2 => .ok { cls := .call, inst := .callFFr2 }
        | 3 => .ok { cls := .farCall, inst := .callFFr3 }
        | 4 => .ok { cls := .jump, inst := .jmpFFr4 }
        | 5 => .ok { cls := .farJump, inst := .jmpFFr5 }
        | _ => .ok {}
      else .ok {}
    | 0xe8 => if s.map = 0 ∧ ¬ s.rex2 then branchTarget raw s .call .callE8 else .ok {}
    | 0xcd => if s.map = 0 then .ok { cls := .farCall, inst := .int } else .ok {}
    | 0xcc => if s.map = 0 then .ok { cls := .farCall, inst := .int3 } else .ok {}
    | 0xce => if s.map = 0 ∧ s.mode ≠ .b64 then .ok { cls := .farCall, inst := .into } else .ok {}
    | 0xf1 => if s.map = 0 then .ok { cls := .farCall, inst := .int1 } else .ok {}
    | 0xcf => if s.map = 0 then .ok { cls := .farReturn, inst := .iret } else .ok {}
    | 0xe9 => if s.map = 0 ∧ ¬ s.rex2 then branchTarget raw s .jump .jmpE9 else .ok {}
    | 0xea =>
      if s.map = 0 ∧ s.mode ≠ .b64 ∧ ¬ s.rex2 then .ok { cls := .farJump, inst := .jmpEA }
      else .ok {}
    | 0xeb => if s.map = 0 ∧ ¬ s.rex2 then branchTarget raw s .jump .jmpEB else .ok {}
    | 0xe3 => if s.map = 0 ∧ ¬ s.rex2 then branchTarget raw s .condJump .jrcxz else .ok {}
    | 0xe0 => if s.map = 0 ∧ ¬ s.rex2 then branchTarget raw s .condJump .loopne else .ok {}
    | 0xe1 => if s.map = 0 ∧ ¬ s.rex2 then branchTarget raw s .condJump .loope else .ok {}
    | 0xe2 => if s.map = 0 ∧ ¬ s.rex2 then branchTarget raw s .condJump .loop else .ok {}
    | 0x22 => if s.map = 1 ∧ s.reg = 3 ∧ s.rexR = 0 then .ok { inst := .movCr3 } else .ok {}
    | 0xc3 => if s.map = 0 then .ok { cls := .return, inst := .retC3 } else .ok {}
    | 0xc2 => if s.map = 0 then .ok { cls := .return, inst := .retC2 } else .ok {}
    | 0xcb => if s.map = 0 then .ok { cls := .farReturn, inst := .retCB } else .ok {}
    | 0xca => if s.map = 0 then .ok { cls := .farReturn, inst := .retCA } else .ok {}
    | 0x05 => if s.map = 1 then .ok { cls := .farCall, inst := .syscall } else .ok {}
    | 0x34 => if s.map = 1 ∧ ¬ s.rex2 then .ok { cls := .farCall, inst := .sysenter } else .ok {}
    | 0x35 => if s.map = 1 ∧ ¬ s.rex2 then .ok { cls := .farReturn, inst := .sysexit } else .ok {}
    | 0x07 => if s.map = 1 then .ok { cls := .farReturn, inst := .sysret } else .ok {}
    | 0x01 =>
      if s.map = 1 then
        match s.modrm with
        | 0xc1 => .ok { cls := .farCall, inst := .vmcall }
        | 0xc2 => .ok { cls := .farReturn, inst := .vmlaunch }
        | 0xc3 => .ok { cls := .farReturn, inst := .vmresume }
        | 0xec => .ok { cls := .farReturn, inst := .uiret }
        | 0xca =>
          if s.lastF2f3 = 2 then .ok { cls := .farReturn, inst := .erets }
          else if s.lastF2f3 = 3 then .ok { cls := .farReturn, inst := .eretu }
          else .ok {}
        | _ => .ok {}
      else .ok {}
    | 0xc7 => if s.map = 1 ∧ s.mod ≠ 3 ∧ s.reg = 6 then .ok { inst := .vmptrld } else .ok {}
    | 0xae =>
      if s.map = 1 ∧ s.f3 ∧ ¬ s.osz ∧ s.reg = 4 then .ok { cls := .ptwrite, inst := .ptwrite }
      else .ok {}
    | 0xa1 =>
      if s.map = 0 ∧ s.mode = .b64 ∧ s.rex2 ∧ ¬ s.rexW ∧ ¬ s.asz ∧ ¬ s.osz then
        branchTarget raw s .jump .jmpabs
      else .ok {}
    | _ => .ok {}

/-- `pt_ild_decode`, pt_ild.c:1480-1502.  The first component is `insn->size` afterwards, which is
updated as soon as the length is known. -/
def ildDecode (raw : List UInt8) (max : Nat) (mode : Mode) : Nat × Res Iext :=
  match decode raw max mode with
  | .ok (s, size) => (size, classify raw s)
  | .err e => (max, .err e)
  | .ub => (max, .ub)

end Ipt.Ild
