import Verif.Asid
import Verif.Packet

/-!
# Configuration import, address filter, errata table: libipt/src/pt_config.c
-/

namespace Ipt

/-- libipt/src/pt_config.c:154-191 `pt_config_from_user`.  `S` is `sizeof (struct pt_config)`
of the library; `user` is the memory at the user's pointer (`none`: null pointer); `old` is the
uninitialised memory of the result.  The offset of the first optional field (`decode`) is 24 on
a 64-bit target: size, begin and end precede it, libipt/include/intel-pt.h.in:484-500. -/
def configFromUser (S : Nat) (old : List UInt8) (user : Option (List UInt8)) : Res (List UInt8) :=
  match user with
  | none => .err .invalid
  | some u =>
    rdLE u 0 8 >>= fun size =>
    if size < 24 then .err .badConfig
    else
      rdLE u 8 8 >>= fun begin =>
      rdLE u 16 8 >>= fun «end» =>
      if begin = 0 ∨ «end» = 0 ∨ «end» < begin then .err .badConfig
      else
        (if S ≤ size then .ok (old, S)
         else memcpy old size (List.replicate (S - size) 0) (S - size) >>= fun c => .ok (c, size))
        >>= fun p =>
        memcpy p.1 0 u p.2 >>= fun c =>
        memcpy c 0 (toLE 8 p.2) 8

/-- `struct pt_conf_addr_filter`, libipt/include/intel-pt.h.in:446-479: the configuration word
and the sixteen 64-bit words that follow it (four address pairs and eight reserved words). -/
structure AddrFilter where
  cfg : Nat
  addr : List Nat

/-- libipt/src/pt_config.c:193-199 `pt_filter_addr_ncfg`: (136 - 8) / 16.  The reserved words
are counted as address pairs. -/
def filterNcfg : Nat := (136 - 8) / 16

/-- libipt/src/pt_config.c:201-210 `pt_filter_addr_cfg`. -/
def AddrFilter.cfgOf (f : AddrFilter) (n : Nat) : Nat :=
  if filterNcfg ≤ n then 0 else f.cfg / 2 ^ (4 * n) % 16

/-- libipt/src/pt_config.c:212-224 `pt_filter_addr_a`. -/
def AddrFilter.addrA (f : AddrFilter) (n : Nat) : Res Nat :=
  if filterNcfg ≤ n then .ok 0
  else match f.addr[2 * n]? with
    | some a => .ok a
    | none => .ub

/-- libipt/src/pt_config.c:226-238 `pt_filter_addr_b`. -/
def AddrFilter.addrB (f : AddrFilter) (n : Nat) : Res Nat :=
  if filterNcfg ≤ n then .ok 0
  else match f.addr[2 * n + 1]? with
    | some a => .ok a
    | none => .ub

/-- The loop body shared by libipt/src/pt_config.c:248-262 and 286-300: is there a range of
type `ty` that contains `ip`?  `fuel` counts the remaining ranges. -/
def AddrFilter.hit (f : AddrFilter) (ty ip : Nat) : Nat → Nat → Res Bool
  | 0, _ => .ok false
  | fuel + 1, n =>
    if f.cfgOf n ≠ ty then f.hit ty ip fuel (n + 1)
    else
      f.addrA n >>= fun a =>
      f.addrB n >>= fun b =>
      if a ≤ ip ∧ ip ≤ b then .ok true else f.hit ty ip fuel (n + 1)

/-- The second loop of `pt_filter_check_cfg_filter`, libipt/src/pt_config.c:267-273. -/
def AddrFilter.anyFilter (f : AddrFilter) : Nat → Nat → Bool
  | 0, _ => false
  | fuel + 1, n => if f.cfgOf n = 1 then true else f.anyFilter fuel (n + 1)

/-- libipt/src/pt_config.c:240-276 `pt_filter_check_cfg_filter`; `pt_addr_cfg_filter` is 1,
libipt/internal/include/pt_opcodes.h:436-438. -/
def AddrFilter.checkFilter (f : AddrFilter) (ip : Nat) : Res Bool :=
  f.hit 1 ip filterNcfg 0 >>= fun h =>
  if h then .ok true else .ok (!f.anyFilter filterNcfg 0)

/-- libipt/src/pt_config.c:278-303 `pt_filter_check_cfg_stop`; `pt_addr_cfg_stop` is 2. -/
def AddrFilter.checkStop (f : AddrFilter) (ip : Nat) : Res Bool :=
  f.hit 2 ip filterNcfg 0 >>= fun h => .ok (!h)

/-- libipt/src/pt_config.c:305-315 `pt_filter_addr_check`. -/
def AddrFilter.check (f : AddrFilter) (ip : Nat) : Res Bool :=
  f.checkStop ip >>= fun s => if s = false then .ok false else f.checkFilter ip

/-- libipt/src/pt_config.c:39-152 `pt_cpu_errata`: the value left in the user's structure and
the result. -/
def cpuErrata (intel : Bool) (family model : Nat) : Errata × Res Unit :=
  if intel = false then ({}, .err .badCpu)
  else if family = 0x6 then
    if model ∈ [0x3d, 0x47, 0x4f, 0x56] then
      ({ bdm70 := true, bdm64 := true }, .ok ())
    else if model ∈ [0x4e, 0x5e, 0x8e, 0x9e, 0xa5, 0xa6] then
      ({ bdm70 := true, skd007 := true, skd022 := true, skd010 := true, skl014 := true,
         skl168 := true }, .ok ())
    else if model ∈ [0x55, 0x6a, 0x6c] then
      ({ bdm70 := true, skl014 := true, skd022 := true, skz84 := true }, .ok ())
    else if model ∈ [0x8f, 0xcf, 0xad, 0xae] then
      ({ bdm70 := true, skd022 := true, skz84 := true }, .ok ())
    else if model ∈ [0x66, 0x7d, 0x7e, 0x8c, 0x8d, 0xa7, 0xa8] then
      ({ bdm70 := true, skl014 := true, skd022 := true }, .ok ())
    else if model ∈ [0x97, 0x9a, 0xba, 0xb7, 0xbf, 0xc5, 0xc6, 0xb5, 0xaa, 0xac, 0xbd, 0xcc] then
      ({ bdm70 := true, skd022 := true, apl11 := true }, .ok ())
    else if model ∈ [0x5c, 0x5f] then
      ({ apl12 := true, apl11 := true }, .ok ())
    else if model ∈ [0x7a, 0x86, 0x96, 0x9c, 0xb6, 0xaf, 0xdd] then
      ({ apl11 := true }, .ok ())
    else ({}, .err .badCpu)
  else if family = 0x13 then
    if model = 0x01 then ({ bdm70 := true, skd022 := true, skz84 := true }, .ok ())
    else ({}, .err .badCpu)
  else ({}, .err .badCpu)

end Ipt
