/-!
# Tables of the instruction length decoder

Copied, entry by entry, from libipt/internal/include/pti-imm.h, pti-modrm.h, pti-disp.h,
pti-disp_default.h and pti-sib.h.
-/

namespace Ipt.Ild

/-- `enum pti_imm`, pti-imm.h:33-48, in the same order. -/
inductive Imm
  | zero | uimm8 | simm8 | simmz | uimmv | uimm16 | opF7 | opC7 | simmzDf64 | opF6 | opC8 | op78
  | evexF6 | evexF7
deriving DecidableEq, Repr

/-- `enum pti_modrm`, pti-modrm.h:33-38. -/
inductive Modrm
  | no | yes | ignoreMod | undef
deriving DecidableEq, Repr

/-- `enum pti_disp`, pti-disp.h:33-41. -/
inductive Disp
  | none | preserve | brdisp8 | bucket0 | memdispv | brdispz | opC7
deriving DecidableEq, Repr

/-- pti-imm.h:50-307 `imm_bytes_legacy_map_0`. -/
def immLegacy0 : List Imm := [
  .zero, .zero, .zero, .zero, .simm8, .simmz, .zero, .zero,
  .zero, .zero, .zero, .zero, .uimm8, .simmz, .zero, .zero,
  .zero, .zero, .zero, .zero, .simm8, .simmz, .zero, .zero,
  .zero, .zero, .zero, .zero, .simm8, .simmz, .zero, .zero,
  .zero, .zero, .zero, .zero, .simm8, .simmz, .zero, .zero,
  .zero, .zero, .zero, .zero, .simm8, .simmz, .zero, .zero,
  .zero, .zero, .zero, .zero, .uimm8, .simmz, .zero, .zero,
  .zero, .zero, .zero, .zero, .simm8, .simmz, .zero, .zero,
  .zero, .zero, .zero, .zero, .zero, .zero, .zero, .zero,
  .zero, .zero, .zero, .zero, .zero, .zero, .zero, .zero,
  .zero, .zero, .zero, .zero, .zero, .zero, .zero, .zero,
  .zero, .zero, .zero, .zero, .zero, .zero, .zero, .zero,
  .zero, .zero, .zero, .zero, .zero, .zero, .zero, .zero,
  .simmzDf64, .simmz, .simm8, .simm8, .zero, .zero, .zero, .zero,
  .zero, .zero, .zero, .zero, .zero, .zero, .zero, .zero,
  .zero, .zero, .zero, .zero, .zero, .zero, .zero, .zero,
  .simm8, .simmz, .simm8, .simm8, .zero, .zero, .zero, .zero,
  .zero, .zero, .zero, .zero, .zero, .zero, .zero, .zero,
  .zero, .zero, .zero, .zero, .zero, .zero, .zero, .zero,
  .zero, .zero, .uimm16, .zero, .zero, .zero, .zero, .zero,
  .zero, .zero, .zero, .zero, .zero, .zero, .zero, .zero,
  .simm8, .simmz, .zero, .zero, .zero, .zero, .zero, .zero,
  .uimm8, .uimm8, .uimm8, .uimm8, .uimm8, .uimm8, .uimm8, .uimm8,
  .uimmv, .uimmv, .uimmv, .uimmv, .uimmv, .uimmv, .uimmv, .uimmv,
  .uimm8, .uimm8, .uimm16, .zero, .zero, .zero, .uimm8, .opC7,
  .opC8, .zero, .uimm16, .zero, .zero, .uimm8, .zero, .zero,
  .zero, .zero, .zero, .zero, .uimm8, .uimm8, .zero, .zero,
  .zero, .zero, .zero, .zero, .zero, .zero, .zero, .zero,
  .zero, .zero, .zero, .zero, .uimm8, .uimm8, .uimm8, .uimm8,
  .zero, .zero, .uimm16, .zero, .zero, .zero, .zero, .zero,
  .zero, .zero, .zero, .zero, .zero, .zero, .opF6, .opF7,
  .zero, .zero, .zero, .zero, .zero, .zero, .zero, .zero
]

/-- pti-imm.h:309-566 `imm_bytes_legacy_map_1`. -/
def immLegacy1 : List Imm := [
  .zero, .zero, .zero, .zero, .zero, .zero, .zero, .zero,
  .zero, .zero, .zero, .zero, .zero, .zero, .zero, .zero,
  .zero, .zero, .zero, .zero, .zero, .zero, .zero, .zero,
  .zero, .zero, .zero, .zero, .zero, .zero, .zero, .zero,
  .zero, .zero, .zero, .zero, .zero, .zero, .zero, .zero,
  .zero, .zero, .zero, .zero, .zero, .zero, .zero, .zero,
  .zero, .zero, .zero, .zero, .zero, .zero, .zero, .zero,
  .zero, .zero, .zero, .zero, .zero, .zero, .zero, .zero,
  .zero, .zero, .zero, .zero, .zero, .zero, .zero, .zero,
  .zero, .zero, .zero, .zero, .zero, .zero, .zero, .zero,
  .zero, .zero, .zero, .zero, .zero, .zero, .zero, .zero,
  .zero, .zero, .zero, .zero, .zero, .zero, .zero, .zero,
  .zero, .zero, .zero, .zero, .zero, .zero, .zero, .zero,
  .zero, .zero, .zero, .zero, .zero, .zero, .zero, .zero,
  .uimm8, .uimm8, .uimm8, .uimm8, .zero, .zero, .zero, .zero,
  .op78, .zero, .zero, .zero, .zero, .zero, .zero, .zero,
  .zero, .zero, .zero, .zero, .zero, .zero, .zero, .zero,
  .zero, .zero, .zero, .zero, .zero, .zero, .zero, .zero,
  .zero, .zero, .zero, .zero, .zero, .zero, .zero, .zero,
  .zero, .zero, .zero, .zero, .zero, .zero, .zero, .zero,
  .zero, .zero, .zero, .zero, .uimm8, .zero, .zero, .zero,
  .zero, .zero, .zero, .zero, .uimm8, .zero, .zero, .zero,
  .zero, .zero, .zero, .zero, .zero, .zero, .zero, .zero,
  .zero, .zero, .uimm8, .zero, .zero, .zero, .zero, .zero,
  .zero, .zero, .uimm8, .zero, .uimm8, .uimm8, .uimm8, .zero,
  .zero, .zero, .zero, .zero, .zero, .zero, .zero, .zero,
  .zero, .zero, .zero, .zero, .zero, .zero, .zero, .zero,
  .zero, .zero, .zero, .zero, .zero, .zero, .zero, .zero,
  .zero, .zero, .zero, .zero, .zero, .zero, .zero, .zero,
  .zero, .zero, .zero, .zero, .zero, .zero, .zero, .zero,
  .zero, .zero, .zero, .zero, .zero, .zero, .zero, .zero,
  .zero, .zero, .zero, .zero, .zero, .zero, .zero, .zero
]

/-- pti-imm.h:568-825 `imm_bytes_vex_map_1`. -/
def immVex1 : List Imm := [
  .zero, .zero, .zero, .zero, .zero, .zero, .zero, .zero,
  .zero, .zero, .zero, .zero, .zero, .zero, .zero, .zero,
  .zero, .zero, .zero, .zero, .zero, .zero, .zero, .zero,
  .zero, .zero, .zero, .zero, .zero, .zero, .zero, .zero,
  .zero, .zero, .zero, .zero, .zero, .zero, .zero, .zero,
  .zero, .zero, .zero, .zero, .zero, .zero, .zero, .zero,
  .zero, .zero, .zero, .zero, .zero, .zero, .zero, .zero,
  .zero, .zero, .zero, .zero, .zero, .zero, .zero, .zero,
  .zero, .zero, .zero, .zero, .zero, .zero, .zero, .zero,
  .zero, .zero, .zero, .zero, .zero, .zero, .zero, .zero,
  .zero, .zero, .zero, .zero, .zero, .zero, .zero, .zero,
  .zero, .zero, .zero, .zero, .zero, .zero, .zero, .zero,
  .zero, .zero, .zero, .zero, .zero, .zero, .zero, .zero,
  .zero, .zero, .zero, .zero, .zero, .zero, .zero, .zero,
  .uimm8, .uimm8, .uimm8, .uimm8, .zero, .zero, .zero, .zero,
  .zero, .zero, .zero, .zero, .zero, .zero, .zero, .zero,
  .zero, .zero, .zero, .zero, .zero, .zero, .zero, .zero,
  .zero, .zero, .zero, .zero, .zero, .zero, .zero, .zero,
  .zero, .zero, .zero, .zero, .zero, .zero, .zero, .zero,
  .zero, .zero, .zero, .zero, .zero, .zero, .zero, .zero,
  .zero, .zero, .zero, .zero, .zero, .zero, .zero, .zero,
  .zero, .zero, .zero, .zero, .zero, .zero, .zero, .zero,
  .zero, .zero, .zero, .zero, .zero, .zero, .zero, .zero,
  .zero, .zero, .zero, .zero, .zero, .zero, .zero, .zero,
  .zero, .zero, .uimm8, .zero, .uimm8, .uimm8, .uimm8, .zero,
  .zero, .zero, .zero, .zero, .zero, .zero, .zero, .zero,
  .zero, .zero, .zero, .zero, .zero, .zero, .zero, .zero,
  .zero, .zero, .zero, .zero, .zero, .zero, .zero, .zero,
  .zero, .zero, .zero, .zero, .zero, .zero, .zero, .zero,
  .zero, .zero, .zero, .zero, .zero, .zero, .zero, .zero,
  .zero, .zero, .zero, .zero, .zero, .zero, .zero, .zero,
  .zero, .zero, .zero, .zero, .zero, .zero, .zero, .zero
]

/-- pti-imm.h:827-1084 `imm_bytes_evex_map_1`. -/
def immEvex1 : List Imm := [
  .zero, .zero, .zero, .zero, .zero, .zero, .zero, .zero,
  .zero, .zero, .zero, .zero, .zero, .zero, .zero, .zero,
  .zero, .zero, .zero, .zero, .zero, .zero, .zero, .zero,
  .zero, .zero, .zero, .zero, .zero, .zero, .zero, .zero,
  .zero, .zero, .zero, .zero, .zero, .zero, .zero, .zero,
  .zero, .zero, .zero, .zero, .zero, .zero, .zero, .zero,
  .zero, .zero, .zero, .zero, .zero, .zero, .zero, .zero,
  .zero, .zero, .zero, .zero, .zero, .zero, .zero, .zero,
  .zero, .zero, .zero, .zero, .zero, .zero, .zero, .zero,
  .zero, .zero, .zero, .zero, .zero, .zero, .zero, .zero,
  .zero, .zero, .zero, .zero, .zero, .zero, .zero, .zero,
  .zero, .zero, .zero, .zero, .zero, .zero, .zero, .zero,
  .zero, .zero, .zero, .zero, .zero, .zero, .zero, .zero,
  .zero, .zero, .zero, .zero, .zero, .zero, .zero, .zero,
  .uimm8, .uimm8, .uimm8, .uimm8, .zero, .zero, .zero, .zero,
  .zero, .zero, .zero, .zero, .zero, .zero, .zero, .zero,
  .zero, .zero, .zero, .zero, .zero, .zero, .zero, .zero,
  .zero, .zero, .zero, .zero, .zero, .zero, .zero, .zero,
  .zero, .zero, .zero, .zero, .zero, .zero, .zero, .zero,
  .zero, .zero, .zero, .zero, .zero, .zero, .zero, .zero,
  .zero, .zero, .zero, .zero, .zero, .zero, .zero, .zero,
  .zero, .zero, .zero, .zero, .zero, .zero, .zero, .zero,
  .zero, .zero, .zero, .zero, .zero, .zero, .zero, .zero,
  .zero, .zero, .zero, .zero, .zero, .zero, .zero, .zero,
  .zero, .zero, .uimm8, .zero, .uimm8, .uimm8, .uimm8, .zero,
  .zero, .zero, .zero, .zero, .zero, .zero, .zero, .zero,
  .zero, .zero, .zero, .zero, .zero, .zero, .zero, .zero,
  .zero, .zero, .zero, .zero, .zero, .zero, .zero, .zero,
  .zero, .zero, .zero, .zero, .zero, .zero, .zero, .zero,
  .zero, .zero, .zero, .zero, .zero, .zero, .zero, .zero,
  .zero, .zero, .zero, .zero, .zero, .zero, .zero, .zero,
  .zero, .zero, .zero, .zero, .zero, .zero, .zero, .zero
]

/-- pti-imm.h:1086-1343 `imm_bytes_evex_map_4`. -/
def immEvex4 : List Imm := [
  .zero, .zero, .zero, .zero, .zero, .zero, .zero, .zero,
  .zero, .zero, .zero, .zero, .zero, .zero, .zero, .zero,
  .zero, .zero, .zero, .zero, .zero, .zero, .zero, .zero,
  .zero, .zero, .zero, .zero, .zero, .zero, .zero, .zero,
  .zero, .zero, .zero, .zero, .uimm8, .zero, .zero, .zero,
  .zero, .zero, .zero, .zero, .uimm8, .zero, .zero, .zero,
  .zero, .zero, .zero, .zero, .zero, .zero, .zero, .zero,
  .zero, .zero, .zero, .zero, .zero, .zero, .zero, .zero,
  .zero, .zero, .zero, .zero, .zero, .zero, .zero, .zero,
  .zero, .zero, .zero, .zero, .zero, .zero, .zero, .zero,
  .zero, .zero, .zero, .zero, .zero, .zero, .zero, .zero,
  .zero, .zero, .zero, .zero, .zero, .zero, .zero, .zero,
  .zero, .zero, .zero, .zero, .zero, .zero, .zero, .zero,
  .zero, .simmz, .zero, .simm8, .zero, .zero, .zero, .zero,
  .zero, .zero, .zero, .zero, .zero, .zero, .zero, .zero,
  .zero, .zero, .zero, .zero, .zero, .zero, .zero, .zero,
  .simm8, .simmz, .zero, .simm8, .zero, .zero, .zero, .zero,
  .zero, .zero, .zero, .zero, .zero, .zero, .zero, .zero,
  .zero, .zero, .zero, .zero, .zero, .zero, .zero, .zero,
  .zero, .zero, .zero, .zero, .zero, .zero, .zero, .zero,
  .zero, .zero, .zero, .zero, .zero, .zero, .zero, .zero,
  .zero, .zero, .zero, .zero, .zero, .zero, .zero, .zero,
  .zero, .zero, .zero, .zero, .zero, .zero, .zero, .zero,
  .zero, .zero, .zero, .zero, .zero, .zero, .zero, .zero,
  .uimm8, .uimm8, .zero, .zero, .zero, .zero, .zero, .zero,
  .zero, .zero, .zero, .zero, .zero, .zero, .zero, .zero,
  .zero, .zero, .zero, .zero, .simm8, .zero, .zero, .zero,
  .zero, .zero, .zero, .zero, .zero, .zero, .zero, .zero,
  .zero, .zero, .zero, .zero, .zero, .zero, .zero, .zero,
  .zero, .zero, .zero, .zero, .zero, .zero, .zero, .zero,
  .zero, .zero, .zero, .zero, .zero, .zero, .evexF6, .evexF7,
  .zero, .zero, .zero, .zero, .zero, .zero, .zero, .zero
]

/-- pti-modrm.h:40-297 `has_modrm_legacy_map_0`. -/
def modrmLegacy0 : List Modrm := [
  .yes, .yes, .yes, .yes, .no, .no, .no, .no,
  .yes, .yes, .yes, .yes, .no, .no, .no, .undef,
  .yes, .yes, .yes, .yes, .no, .no, .no, .no,
  .yes, .yes, .yes, .yes, .no, .no, .no, .no,
  .yes, .yes, .yes, .yes, .no, .no, .undef, .no,
  .yes, .yes, .yes, .yes, .no, .no, .undef, .no,
  .yes, .yes, .yes, .yes, .no, .no, .undef, .no,
  .yes, .yes, .yes, .yes, .no, .no, .undef, .no,
  .no, .no, .no, .no, .no, .no, .no, .no,
  .no, .no, .no, .no, .no, .no, .no, .no,
  .no, .no, .no, .no, .no, .no, .no, .no,
  .no, .no, .no, .no, .no, .no, .no, .no,
  .no, .no, .yes, .yes, .undef, .undef, .undef, .undef,
  .no, .yes, .no, .yes, .no, .no, .no, .no,
  .no, .no, .no, .no, .no, .no, .no, .no,
  .no, .no, .no, .no, .no, .no, .no, .no,
  .yes, .yes, .yes, .yes, .yes, .yes, .yes, .yes,
  .yes, .yes, .yes, .yes, .yes, .yes, .yes, .yes,
  .no, .no, .no, .no, .no, .no, .no, .no,
  .no, .no, .no, .no, .no, .no, .no, .no,
  .no, .no, .no, .no, .no, .no, .no, .no,
  .no, .no, .no, .no, .no, .no, .no, .no,
  .no, .no, .no, .no, .no, .no, .no, .no,
  .no, .no, .no, .no, .no, .no, .no, .no,
  .yes, .yes, .no, .no, .yes, .yes, .yes, .yes,
  .no, .no, .no, .no, .no, .no, .no, .no,
  .yes, .yes, .yes, .yes, .no, .no, .no, .no,
  .yes, .yes, .yes, .yes, .yes, .yes, .yes, .yes,
  .no, .no, .no, .no, .no, .no, .no, .no,
  .no, .no, .no, .no, .no, .no, .no, .no,
  .undef, .no, .undef, .undef, .no, .no, .yes, .yes,
  .no, .no, .no, .no, .no, .no, .yes, .yes
]

/-- pti-modrm.h:299-556 `has_modrm_legacy_map_1`. -/
def modrmLegacy1 : List Modrm := [
  .yes, .yes, .yes, .yes, .undef, .no, .no, .no,
  .no, .no, .undef, .no, .undef, .yes, .no, .undef,
  .yes, .yes, .yes, .yes, .yes, .yes, .yes, .yes,
  .yes, .yes, .yes, .yes, .yes, .yes, .yes, .yes,
  .ignoreMod, .ignoreMod, .ignoreMod, .ignoreMod, .undef, .undef, .undef, .undef,
  .yes, .yes, .yes, .yes, .yes, .yes, .yes, .yes,
  .no, .no, .no, .no, .no, .no, .undef, .no,
  .undef, .undef, .undef, .undef, .undef, .undef, .undef, .undef,
  .yes, .yes, .yes, .yes, .yes, .yes, .yes, .yes,
  .yes, .yes, .yes, .yes, .yes, .yes, .yes, .yes,
  .yes, .yes, .yes, .yes, .yes, .yes, .yes, .yes,
  .yes, .yes, .yes, .yes, .yes, .yes, .yes, .yes,
  .yes, .yes, .yes, .yes, .yes, .yes, .yes, .yes,
  .yes, .yes, .yes, .yes, .yes, .yes, .yes, .yes,
  .yes, .yes, .yes, .yes, .yes, .yes, .yes, .no,
  .yes, .yes, .undef, .undef, .yes, .yes, .yes, .yes,
  .no, .no, .no, .no, .no, .no, .no, .no,
  .no, .no, .no, .no, .no, .no, .no, .no,
  .yes, .yes, .yes, .yes, .yes, .yes, .yes, .yes,
  .yes, .yes, .yes, .yes, .yes, .yes, .yes, .yes,
  .no, .no, .no, .yes, .yes, .yes, .ignoreMod, .ignoreMod,
  .no, .no, .no, .yes, .yes, .yes, .yes, .yes,
  .yes, .yes, .yes, .yes, .yes, .yes, .yes, .yes,
  .yes, .yes, .yes, .yes, .yes, .yes, .yes, .yes,
  .yes, .yes, .yes, .yes, .yes, .yes, .yes, .yes,
  .no, .no, .no, .no, .no, .no, .no, .no,
  .yes, .yes, .yes, .yes, .yes, .yes, .yes, .yes,
  .yes, .yes, .yes, .yes, .yes, .yes, .yes, .yes,
  .yes, .yes, .yes, .yes, .yes, .yes, .yes, .yes,
  .yes, .yes, .yes, .yes, .yes, .yes, .yes, .yes,
  .yes, .yes, .yes, .yes, .yes, .yes, .yes, .yes,
  .yes, .yes, .yes, .yes, .yes, .yes, .yes, .yes
]

/-- pti-modrm.h:558-815 `has_modrm_vex_map_1`. -/
def modrmVex1 : List Modrm := [
  .yes, .yes, .yes, .yes, .no, .no, .no, .no,
  .no, .no, .no, .no, .no, .yes, .no, .no,
  .yes, .yes, .yes, .yes, .yes, .yes, .yes, .yes,
  .yes, .yes, .yes, .yes, .yes, .yes, .yes, .yes,
  .ignoreMod, .ignoreMod, .ignoreMod, .ignoreMod, .no, .no, .no, .no,
  .yes, .yes, .yes, .yes, .yes, .yes, .yes, .yes,
  .no, .no, .no, .no, .no, .no, .no, .no,
  .no, .no, .no, .no, .no, .no, .no, .no,
  .yes, .yes, .yes, .yes, .yes, .yes, .yes, .yes,
  .yes, .yes, .yes, .yes, .yes, .yes, .yes, .yes,
  .yes, .yes, .yes, .yes, .yes, .yes, .yes, .yes,
  .yes, .yes, .yes, .yes, .yes, .yes, .yes, .yes,
  .yes, .yes, .yes, .yes, .yes, .yes, .yes, .yes,
  .yes, .yes, .yes, .yes, .yes, .yes, .yes, .yes,
  .yes, .yes, .yes, .yes, .yes, .yes, .yes, .no,
  .yes, .yes, .no, .no, .yes, .yes, .yes, .yes,
  .no, .no, .no, .no, .no, .no, .no, .no,
  .no, .no, .no, .no, .no, .no, .no, .no,
  .yes, .yes, .yes, .yes, .yes, .yes, .yes, .yes,
  .yes, .yes, .yes, .yes, .yes, .yes, .yes, .yes,
  .no, .no, .no, .yes, .yes, .yes, .ignoreMod, .ignoreMod,
  .no, .no, .no, .yes, .yes, .yes, .yes, .yes,
  .yes, .yes, .yes, .yes, .yes, .yes, .yes, .yes,
  .yes, .yes, .yes, .yes, .yes, .yes, .yes, .yes,
  .yes, .yes, .yes, .yes, .yes, .yes, .yes, .yes,
  .no, .no, .no, .no, .no, .no, .no, .no,
  .yes, .yes, .yes, .yes, .yes, .yes, .yes, .yes,
  .yes, .yes, .yes, .yes, .yes, .yes, .yes, .yes,
  .yes, .yes, .yes, .yes, .yes, .yes, .yes, .yes,
  .yes, .yes, .yes, .yes, .yes, .yes, .yes, .yes,
  .yes, .yes, .yes, .yes, .yes, .yes, .yes, .yes,
  .yes, .yes, .yes, .yes, .yes, .yes, .yes, .yes
]

/-- pti-disp.h:43-300 `disp_bytes_map_0x0`. -/
def dispMap0 : List Disp := [
  .preserve, .preserve, .preserve, .preserve, .preserve, .preserve, .preserve, .preserve,
  .preserve, .preserve, .preserve, .preserve, .preserve, .preserve, .preserve, .none,
  .preserve, .preserve, .preserve, .preserve, .preserve, .preserve, .preserve, .preserve,
  .preserve, .preserve, .preserve, .preserve, .preserve, .preserve, .preserve, .preserve,
  .preserve, .preserve, .preserve, .preserve, .preserve, .preserve, .none, .preserve,
  .preserve, .preserve, .preserve, .preserve, .preserve, .preserve, .none, .preserve,
  .preserve, .preserve, .preserve, .preserve, .preserve, .preserve, .none, .preserve,
  .preserve, .preserve, .preserve, .preserve, .preserve, .preserve, .none, .preserve,
  .preserve, .preserve, .preserve, .preserve, .preserve, .preserve, .preserve, .preserve,
  .preserve, .preserve, .preserve, .preserve, .preserve, .preserve, .preserve, .preserve,
  .preserve, .preserve, .preserve, .preserve, .preserve, .preserve, .preserve, .preserve,
  .preserve, .preserve, .preserve, .preserve, .preserve, .preserve, .preserve, .preserve,
  .preserve, .preserve, .preserve, .preserve, .none, .none, .none, .none,
  .preserve, .preserve, .preserve, .preserve, .preserve, .preserve, .preserve, .preserve,
  .brdisp8, .brdisp8, .brdisp8, .brdisp8, .brdisp8, .brdisp8, .brdisp8, .brdisp8,
  .brdisp8, .brdisp8, .brdisp8, .brdisp8, .brdisp8, .brdisp8, .brdisp8, .brdisp8,
  .preserve, .preserve, .preserve, .preserve, .preserve, .preserve, .preserve, .preserve,
  .preserve, .preserve, .preserve, .preserve, .preserve, .preserve, .preserve, .preserve,
  .preserve, .preserve, .preserve, .preserve, .preserve, .preserve, .preserve, .preserve,
  .preserve, .preserve, .brdispz, .preserve, .preserve, .preserve, .preserve, .preserve,
  .memdispv, .memdispv, .memdispv, .memdispv, .preserve, .preserve, .preserve, .preserve,
  .preserve, .preserve, .preserve, .preserve, .preserve, .preserve, .preserve, .preserve,
  .preserve, .preserve, .preserve, .preserve, .preserve, .preserve, .preserve, .preserve,
  .preserve, .preserve, .preserve, .preserve, .preserve, .preserve, .preserve, .preserve,
  .preserve, .preserve, .preserve, .preserve, .preserve, .preserve, .preserve, .opC7,
  .preserve, .preserve, .preserve, .preserve, .preserve, .preserve, .preserve, .preserve,
  .preserve, .preserve, .preserve, .preserve, .preserve, .preserve, .preserve, .preserve,
  .preserve, .preserve, .preserve, .preserve, .preserve, .preserve, .preserve, .preserve,
  .brdisp8, .brdisp8, .brdisp8, .brdisp8, .preserve, .preserve, .preserve, .preserve,
  .bucket0, .bucket0, .brdispz, .brdisp8, .preserve, .preserve, .preserve, .preserve,
  .none, .preserve, .none, .none, .preserve, .preserve, .preserve, .preserve,
  .preserve, .preserve, .preserve, .preserve, .preserve, .preserve, .preserve, .preserve
]

/-- pti-disp.h:301-558 `disp_bytes_map_0x0F`. -/
def dispMap0F : List Disp := [
  .preserve, .preserve, .preserve, .preserve, .none, .preserve, .preserve, .preserve,
  .preserve, .preserve, .none, .preserve, .none, .preserve, .preserve, .none,
  .preserve, .preserve, .preserve, .preserve, .preserve, .preserve, .preserve, .preserve,
  .preserve, .preserve, .preserve, .preserve, .preserve, .preserve, .preserve, .preserve,
  .preserve, .preserve, .preserve, .preserve, .none, .none, .none, .none,
  .preserve, .preserve, .preserve, .preserve, .preserve, .preserve, .preserve, .preserve,
  .preserve, .preserve, .preserve, .preserve, .preserve, .preserve, .none, .preserve,
  .none, .none, .none, .none, .none, .none, .none, .none,
  .preserve, .preserve, .preserve, .preserve, .preserve, .preserve, .preserve, .preserve,
  .preserve, .preserve, .preserve, .preserve, .preserve, .preserve, .preserve, .preserve,
  .preserve, .preserve, .preserve, .preserve, .preserve, .preserve, .preserve, .preserve,
  .preserve, .preserve, .preserve, .preserve, .preserve, .preserve, .preserve, .preserve,
  .preserve, .preserve, .preserve, .preserve, .preserve, .preserve, .preserve, .preserve,
  .preserve, .preserve, .preserve, .preserve, .preserve, .preserve, .preserve, .preserve,
  .preserve, .preserve, .preserve, .preserve, .preserve, .preserve, .preserve, .preserve,
  .preserve, .preserve, .preserve, .preserve, .preserve, .preserve, .preserve, .preserve,
  .bucket0, .bucket0, .bucket0, .bucket0, .bucket0, .bucket0, .bucket0, .bucket0,
  .bucket0, .bucket0, .bucket0, .bucket0, .bucket0, .bucket0, .bucket0, .bucket0,
  .preserve, .preserve, .preserve, .preserve, .preserve, .preserve, .preserve, .preserve,
  .preserve, .preserve, .preserve, .preserve, .preserve, .preserve, .preserve, .preserve,
  .preserve, .preserve, .preserve, .preserve, .preserve, .preserve, .none, .none,
  .preserve, .preserve, .preserve, .preserve, .preserve, .preserve, .preserve, .preserve,
  .preserve, .preserve, .preserve, .preserve, .preserve, .preserve, .preserve, .preserve,
  .preserve, .none, .preserve, .preserve, .preserve, .preserve, .preserve, .preserve,
  .preserve, .preserve, .preserve, .preserve, .preserve, .preserve, .preserve, .preserve,
  .preserve, .preserve, .preserve, .preserve, .preserve, .preserve, .preserve, .preserve,
  .preserve, .preserve, .preserve, .preserve, .preserve, .preserve, .preserve, .preserve,
  .preserve, .preserve, .preserve, .preserve, .preserve, .preserve, .preserve, .preserve,
  .preserve, .preserve, .preserve, .preserve, .preserve, .preserve, .preserve, .preserve,
  .preserve, .preserve, .preserve, .preserve, .preserve, .preserve, .preserve, .preserve,
  .preserve, .preserve, .preserve, .preserve, .preserve, .preserve, .preserve, .preserve,
  .preserve, .preserve, .preserve, .preserve, .preserve, .preserve, .preserve, .none
]

/-- pti-disp_default.h:36-208, indexed by effective addressing mode, mod and rm. -/
def dispDefault : List (List (List Nat)) := [
  [[0, 0, 0, 0, 0, 0, 0, 0],
   [0, 0, 0, 0, 0, 0, 0, 0],
   [0, 0, 0, 0, 0, 0, 0, 0],
   [0, 0, 0, 0, 0, 0, 0, 0]],
  [[0, 0, 0, 0, 0, 0, 2, 0],
   [1, 1, 1, 1, 1, 1, 1, 1],
   [2, 2, 2, 2, 2, 2, 2, 2],
   [0, 0, 0, 0, 0, 0, 0, 0]],
  [[0, 0, 0, 0, 0, 4, 0, 0],
   [1, 1, 1, 1, 1, 1, 1, 1],
   [4, 4, 4, 4, 4, 4, 4, 4],
   [0, 0, 0, 0, 0, 0, 0, 0]],
  [[0, 0, 0, 0, 0, 4, 0, 0],
   [1, 1, 1, 1, 1, 1, 1, 1],
   [4, 4, 4, 4, 4, 4, 4, 4],
   [0, 0, 0, 0, 0, 0, 0, 0]]
]

/-- pti-sib.h:36-208, indexed by effective addressing mode, mod and rm. -/
def hasSib : List (List (List Nat)) := [
  [[0, 0, 0, 0, 0, 0, 0, 0],
   [0, 0, 0, 0, 0, 0, 0, 0],
   [0, 0, 0, 0, 0, 0, 0, 0],
   [0, 0, 0, 0, 0, 0, 0, 0]],
  [[0, 0, 0, 0, 0, 0, 0, 0],
   [0, 0, 0, 0, 0, 0, 0, 0],
   [0, 0, 0, 0, 0, 0, 0, 0],
   [0, 0, 0, 0, 0, 0, 0, 0]],
  [[0, 0, 0, 0, 1, 0, 0, 0],
   [0, 0, 0, 0, 1, 0, 0, 0],
   [0, 0, 0, 0, 1, 0, 0, 0],
   [0, 0, 0, 0, 0, 0, 0, 0]],
  [[0, 0, 0, 0, 1, 0, 0, 0],
   [0, 0, 0, 0, 1, 0, 0, 0],
   [0, 0, 0, 0, 1, 0, 0, 0],
   [0, 0, 0, 0, 0, 0, 0, 0]]
]

end Ipt.Ild
