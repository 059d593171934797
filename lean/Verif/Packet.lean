import Verif.Basic

/-!
# Packets and the packet reader

Model of libipt/src/pt_packet.c and of the opcode dispatch in
libipt/src/pt_packet_decoder.c.
-/

namespace Ipt

/-- Packet values: `enum pt_packet_type` and the payload union of `struct pt_packet`,
libipt/include/intel-pt.h.in:572-1093.  Numbers stand for the unsigned C fields; one-bit
fields are Booleans.  IP compression is kept as the raw enum value (a user may pass an
invalid one to the encoder).  `modeOther` is a MODE packet with a leaf other than exec and
tsx.  A TRIG packet's `icnt` is `some` exactly if the `icntv` flag is set (the C field is
indeterminate otherwise).  The size field is returned separately. -/
inductive Packet
  | unknown | invalid
  | pad | psb | psbend | ovf | stop
  | fup (ipc ip : Nat) | tip (ipc ip : Nat) | tipPge (ipc ip : Nat) | tipPgd (ipc ip : Nat)
  | tnt8 (bitSize payload : Nat) | tnt64 (bitSize payload : Nat)
  | modeExec (csl csd iflag : Bool) | modeTsx (intx abrt : Bool) | modeOther (leaf : Nat)
  | pip (cr3 : Nat) (nr : Bool)
  | vmcs (base : Nat)
  | cbr (ratio : Nat)
  | tsc (tsc : Nat)
  | tma (ctc fc : Nat)
  | mtc (ctc : Nat)
  | cyc (value : Nat)
  | mnt (payload : Nat)
  | exstop (ip : Bool)
  | mwait (hints ext : Nat)
  | pwre (state subState : Nat) (hw : Bool)
  | pwrx (last deepest : Nat) (interrupt store autonomous : Bool)
  | ptw (payload plc : Nat) (ip : Bool)
  | cfe (type vector : Nat) (ip : Bool)
  | evd (type payload : Nat)
  | trig (trbv : Nat) (icnt : Option Nat) (ip mult : Bool)
  deriving DecidableEq, Repr, Inhabited

/-- `struct pt_errata`, libipt/include/intel-pt.h.in:276-400. -/
structure Errata where
  bdm70 : Bool := false
  bdm64 : Bool := false
  skd007 : Bool := false
  skd022 : Bool := false
  skd010 : Bool := false
  skl014 : Bool := false
  apl12 : Bool := false
  apl11 : Bool := false
  skl168 : Bool := false
  skz84 : Bool := false
  deriving DecidableEq, Repr, Inhabited

/-- The parts of `struct pt_config` the packet layer uses
(libipt/include/intel-pt.h.in:440-520): the trace buffer `[begin, end)` as the list of its
bytes, errata flags, and the unknown-packet callback.  The callback is a function from the
position to its C return value; that it may rewrite the trace buffer or its `priv` pointer
is not modelled. -/
structure PktCfg where
  mem : List UInt8
  errata : Errata := {}
  cb : Option (Nat → Int) := none

/-- libipt/src/pt_packet.c:53-89 `pt_pkt_read_unknown`.  The packet type is set to
`ppt_unknown`. -/
def readUnknown (c : PktCfg) (pos : Nat) : Res (Packet × Nat) :=
  match c.cb with
  | none => .err .badOpc
  | some f =>
    let size := f pos
    if size < 0 then .err (.user size.natAbs)
    else if 255 < size then .err .invalid
    else if c.mem.length < pos + size.toNat then .err .eos
    else .ok (.unknown, size.toNat)

/-- The loop of `pt_pkt_read_psb`, libipt/src/pt_packet.c:103-108: `n` repetitions of the
bytes 0x02 0x82. -/
def readPsbPairs (m : List UInt8) (pos : Nat) : Nat → Res Unit
  | 0 => .ok ()
  | n + 1 => do
    let hi ← rd m pos
    if hi ≠ 0x02 then .err .badPacket
    else
      let lo ← rd m (pos + 1)
      if lo ≠ 0x82 then .err .badPacket
      else readPsbPairs m (pos + 2) n

/-- libipt/src/pt_packet.c:91-111 `pt_pkt_read_psb`. -/
def readPsb (m : List UInt8) (pos : Nat) : Res Nat := do
  if m.length < pos + 16 then .err .eos
  else
    readPsbPairs m (pos + 2) 7
    return 16

/-- libipt/src/pt_packet.c:113-134 `pt_pkt_ip_size`. -/
def ipSize (ipc : Nat) : Res Nat :=
  if ipc = 0 then .ok 0
  else if ipc = 1 then .ok 2
  else if ipc = 2 then .ok 4
  else if ipc = 3 then .ok 6
  else if ipc = 4 then .ok 6
  else if ipc = 6 then .ok 8
  else .err .badPacket

/-- libipt/src/pt_packet.c:136-163 `pt_pkt_read_ip`: compression, IP payload, size. -/
def readIp (m : List UInt8) (pos : Nat) : Res (Nat × Nat × Nat) := do
  let opc ← rd m pos
  let ipc := opc / 32 % 8
  let ipsize ← ipSize ipc
  if m.length < pos + 1 + ipsize then .err .eos
  else
    let ip ← rdLE m (pos + 1) ipsize
    return (ipc, ip, ipsize + 1)

/-- libipt/src/pt_packet.c:165-199 `pt_pkt_tnt_bit_size` and `pt_pkt_read_tnt`.  The bit
size is the index of the topmost set bit (0 for a zero payload); the payload loses that
bit. -/
def readTnt (payload : Nat) : Res (Nat × Nat) :=
  let bitSize := Nat.log2 payload
  if bitSize = 0 then .err .badPacket
  else .ok (bitSize, payload - 2 ^ bitSize)

/-- libipt/src/pt_packet.c:201-216 `pt_pkt_read_tnt_8`. -/
def readTnt8 (m : List UInt8) (pos : Nat) : Res (Packet × Nat) := do
  let opc ← rd m pos
  let (bs, pl) ← readTnt (opc / 2)
  return (.tnt8 bs pl, 1)

/-- libipt/src/pt_packet.c:218-237 `pt_pkt_read_tnt_64`. -/
def readTnt64 (m : List UInt8) (pos : Nat) : Res (Packet × Nat) := do
  if m.length < pos + 8 then .err .eos
  else
    let v ← rdLE m (pos + 2) 6
    let (bs, pl) ← readTnt v
    return (.tnt64 bs pl, 8)

/-- libipt/src/pt_packet.c:239-262 `pt_pkt_read_pip`. -/
def readPip (m : List UInt8) (pos : Nat) : Res (Packet × Nat) := do
  if m.length < pos + 8 then .err .eos
  else
    let v ← rdLE m (pos + 2) 6
    return (.pip (v / 2 * 32) (v.testBit 0), 8)

/-- libipt/src/pt_packet.c:264-315 `pt_pkt_read_mode_exec`, `pt_pkt_read_mode_tsx`,
`pt_pkt_read_mode`. -/
def readMode (m : List UInt8) (pos : Nat) : Res (Packet × Nat) := do
  if m.length < pos + 2 then .err .eos
  else
    let v ← rd m (pos + 1)
    let leaf := v / 32 * 32
    if leaf = 0x00 then
      return (.modeExec (v.testBit 0) (v.testBit 1) (v.testBit 2), 2)
    else if leaf = 0x20 then
      return (.modeTsx (v.testBit 0) (v.testBit 1), 2)
    else .err .badPacket

/-- libipt/src/pt_packet.c:317-329 `pt_pkt_read_tsc`. -/
def readTsc (m : List UInt8) (pos : Nat) : Res (Packet × Nat) := do
  if m.length < pos + 8 then .err .eos
  else
    let v ← rdLE m (pos + 1) 7
    return (.tsc v, 8)

/-- libipt/src/pt_packet.c:331-343 `pt_pkt_read_cbr`. -/
def readCbr (m : List UInt8) (pos : Nat) : Res (Packet × Nat) := do
  if m.length < pos + 4 then .err .eos
  else
    let v ← rd m (pos + 2)
    return (.cbr v, 4)

/-- libipt/src/pt_packet.c:345-372 `pt_pkt_read_tma`. -/
def readTma (m : List UInt8) (pos : Nat) : Res (Packet × Nat) := do
  if m.length < pos + 7 then .err .eos
  else
    let c0 ← rd m (pos + 2)
    let c1 ← rd m (pos + 3)
    let f0 ← rd m (pos + 5)
    let f1 ← rd m (pos + 6)
    let fc := f0 + 256 * f1
    if fc / 512 ≠ 0 then .err .badPacket
    else
      let rsv ← rd m (pos + 4)
      if rsv ≠ 0 then .err .badPacket
      else return (.tma (c0 + 256 * c1) fc, 7)

/-- libipt/src/pt_packet.c:374-386 `pt_pkt_read_mtc`. -/
def readMtc (m : List UInt8) (pos : Nat) : Res (Packet × Nat) := do
  if m.length < pos + 2 then .err .eos
  else
    let v ← rd m (pos + 1)
    return (.mtc v, 2)

/-- The `while (ext)` loop of `pt_pkt_read_cyc`, libipt/src/pt_packet.c:413-430.  `pos` is
the next byte to read, `fuel` bounds the number of iterations; running out of it is `ub`
and is shown not to happen.  Returns the value and the position after the packet. -/
def readCycLoop (m : List UInt8) : (fuel pos shl value : Nat) → (ext : Bool) → Res (Nat × Nat)
  | 0, _, _, _, _ => .ub
  | fuel + 1, pos, shl, value, ext =>
    if ext = false then .ok (value, pos)
    else if m.length ≤ pos then .err .eos
    else do
      let bits ← rd m pos
      if 64 < shl + 7 then .err .badPacket
      else readCycLoop m fuel (pos + 1) (shl + 7) (value + bits / 2 * 2 ^ shl) (bits.testBit 0)

/-- libipt/src/pt_packet.c:388-434 `pt_pkt_read_cyc`.  The C code ORs the shifted bits into
`value`; the shifted ranges are disjoint so the model adds them. -/
def readCyc (m : List UInt8) (pos : Nat) : Res (Packet × Nat) := do
  let cyc ← rd m pos
  let (v, pos') ← readCycLoop m 10 (pos + 1) 5 (cyc / 8) (cyc.testBit 2)
  return (.cyc v, pos' - pos)

/-- libipt/src/pt_packet.c:436-452 `pt_pkt_read_vmcs`. -/
def readVmcs (m : List UInt8) (pos : Nat) : Res (Packet × Nat) := do
  if m.length < pos + 7 then .err .eos
  else
    let v ← rdLE m (pos + 2) 5
    return (.vmcs (v * 4096), 7)

/-- libipt/src/pt_packet.c:454-466 `pt_pkt_read_mnt`. -/
def readMnt (m : List UInt8) (pos : Nat) : Res (Packet × Nat) := do
  if m.length < pos + 11 then .err .eos
  else
    let v ← rdLE m (pos + 3) 8
    return (.mnt v, 11)

/-- libipt/src/pt_packet.c:468-480 `pt_pkt_read_exstop`. -/
def readExstop (m : List UInt8) (pos : Nat) : Res (Packet × Nat) := do
  if m.length < pos + 2 then .err .eos
  else
    let v ← rd m (pos + 1)
    return (.exstop (v.testBit 7), 2)

/-- libipt/src/pt_packet.c:482-497 `pt_pkt_read_mwait`. -/
def readMwait (m : List UInt8) (pos : Nat) : Res (Packet × Nat) := do
  if m.length < pos + 10 then .err .eos
  else
    let hints ← rdLE m (pos + 2) 4
    let ext ← rdLE m (pos + 6) 4
    return (.mwait hints ext, 10)

/-- libipt/src/pt_packet.c:499-521 `pt_pkt_read_pwre`. -/
def readPwre (m : List UInt8) (pos : Nat) : Res (Packet × Nat) := do
  if m.length < pos + 4 then .err .eos
  else
    let v ← rdLE m (pos + 2) 2
    return (.pwre (v / 4096 % 16) (v / 256 % 16) (v.testBit 3), 4)

/-- libipt/src/pt_packet.c:523-549 `pt_pkt_read_pwrx`. -/
def readPwrx (m : List UInt8) (pos : Nat) : Res (Packet × Nat) := do
  if m.length < pos + 7 then .err .eos
  else
    let v ← rdLE m (pos + 2) 5
    return (.pwrx (v / 16 % 16) (v % 16) (v.testBit 8) (v.testBit 10) (v.testBit 11), 7)

/-- libipt/include/intel-pt.h.in:876-891 `pt_ptw_size`. -/
def ptwSize (plc : Nat) : Res Nat :=
  if plc = 0 then .ok 4
  else if plc = 1 then .ok 8
  else if plc = 2 ∨ plc = 3 then .err .badPacket
  else .err .internal

/-- libipt/src/pt_packet.c:551-578 `pt_pkt_read_ptw`. -/
def readPtw (m : List UInt8) (pos : Nat) : Res (Packet × Nat) := do
  let opc ← rd m (pos + 1)
  let plc := opc / 32 % 4
  let size ← ptwSize plc
  if m.length < pos + 2 + size then .err .eos
  else
    let v ← rdLE m (pos + 2) size
    return (.ptw v plc (opc.testBit 7), 2 + size)

/-- libipt/src/pt_packet.c:580-596 `pt_pkt_read_cfe`. -/
def readCfe (m : List UInt8) (pos : Nat) : Res (Packet × Nat) := do
  if m.length < pos + 4 then .err .eos
  else
    let p0 ← rd m (pos + 2)
    let p1 ← rd m (pos + 3)
    return (.cfe (p0 % 32) p1 (p0.testBit 7), 4)

/-- libipt/src/pt_packet.c:598-613 `pt_pkt_read_evd`. -/
def readEvd (m : List UInt8) (pos : Nat) : Res (Packet × Nat) := do
  if m.length < pos + 11 then .err .eos
  else
    let p0 ← rd m (pos + 2)
    let v ← rdLE m (pos + 3) 8
    return (.evd (p0 % 32) v, 11)

/-- libipt/src/pt_packet.c:615-645 `pt_pkt_read_trig`. -/
def readTrig (m : List UInt8) (pos : Nat) : Res (Packet × Nat) := do
  if m.length < pos + 3 then .err .eos
  else
    let p0 ← rd m (pos + 1)
    if p0.testBit 6 then
      if m.length < pos + 5 then .err .eos
      else
        let icnt ← rdLE m (pos + 3) 2
        let trbv ← rd m (pos + 2)
        return (.trig trbv (some icnt) (p0.testBit 7) (p0.testBit 5), 5)
    else
      let trbv ← rd m (pos + 2)
      return (.trig trbv none (p0.testBit 7) (p0.testBit 5), 3)

/-- libipt/src/pt_packet_decoder.c:502-534 `pt_pkt_decode_tma`, including the SKZ84
work-around, which reports an invalid packet one byte longer than TMA. -/
def decodeTma (c : PktCfg) (pos : Nat) : Res (Packet × Nat) :=
  match readTma c.mem pos with
  | .err .badPacket => if c.errata.skz84 then .ok (.invalid, 8) else .err .badPacket
  | r => r

/-- libipt/src/pt_packet_decoder.c:555-623 `pt_pkt_handle_skd007` and `pt_pkt_decode_cyc`.
The third component is the amount by which the decoder position is moved before the packet
size is added (SKD007 skips one byte). -/
def decodeCyc (c : PktCfg) (pos : Nat) : Res (Packet × Nat × Nat) := do
  let (pkt, size) ← readCyc c.mem pos
  match pkt with
  | .cyc v =>
    if c.errata.skd007 = true ∧ size = 2 ∧ v % 65536 / 32 = 1 ∧ ¬ c.mem.length ≤ pos + size then
      let b ← rd c.mem (pos + size)
      if b = 0xf3 then return (.ovf, 2, 1) else return (pkt, size, 0)
    else return (pkt, size, 0)
  | _ => .err .internal

/-- libipt/src/pt_packet_decoder.c:284-301, 341-396: the four IP packet decoders. -/
def decodeIp (c : PktCfg) (pos : Nat) (mk : Nat → Nat → Packet) : Res (Packet × Nat) := do
  let (ipc, ip, size) ← readIp c.mem pos
  return (mk ipc ip, size)

/-- No position adjustment. -/
def plain (r : Res (Packet × Nat)) : Res (Packet × Nat × Nat) := do
  let (p, n) ← r
  return (p, n, 0)

/-- The `pt_ext_ext2` part of `pt_pkt_decode`, libipt/src/pt_packet_decoder.c:944-957. -/
def decodeExt2 (c : PktCfg) (pos : Nat) : Res (Packet × Nat) :=
  if c.mem.length ≤ pos + 2 then .err .eos
  else
    rd c.mem (pos + 2) >>= fun ext2 =>
      if ext2 = 0x88 then readMnt c.mem pos
      else readUnknown c pos

/-- The `switch (ext)` of `pt_pkt_decode`, libipt/src/pt_packet_decoder.c:893-958. -/
def decodeExtSwitch (c : PktCfg) (pos ext : Nat) : Res (Packet × Nat) :=
  if ext = 0x82 then readPsb c.mem pos >>= fun n => .ok (.psb, n)
  else if ext = 0xf3 then .ok (.ovf, 2)
  else if ext = 0x23 then .ok (.psbend, 2)
  else if ext = 0x03 then readCbr c.mem pos
  else if ext = 0x73 then decodeTma c pos
  else if ext = 0x43 then readPip c.mem pos
  else if ext = 0xc8 then readVmcs c.mem pos
  else if ext = 0x62 ∨ ext = 0xe2 then readExstop c.mem pos
  else if ext = 0xc2 then readMwait c.mem pos
  else if ext = 0x22 then readPwre c.mem pos
  else if ext = 0xa2 then readPwrx c.mem pos
  else if ext = 0x83 then .ok (.stop, 2)
  else if ext = 0xa3 then readTnt64 c.mem pos
  else if ext = 0x13 then readCfe c.mem pos
  else if ext = 0x53 then readEvd c.mem pos
  else if ext = 0xc3 then decodeExt2 c pos
  else if ext % 32 = 0x12 then readPtw c.mem pos
  else readUnknown c pos

/-- The `pt_opc_ext` part of `pt_pkt_decode`, libipt/src/pt_packet_decoder.c:888-893. -/
def decodeExt (c : PktCfg) (pos : Nat) : Res (Packet × Nat) :=
  if c.mem.length ≤ pos + 1 then .err .eos
  else rd c.mem (pos + 1) >>= fun ext => decodeExtSwitch c pos ext

/-- The `switch (opc)` of `pt_pkt_decode`, libipt/src/pt_packet_decoder.c:850-961. -/
def pktDecodeSwitch (c : PktCfg) (pos opc : Nat) : Res (Packet × Nat × Nat) :=
  if opc = 0x99 then plain (readMode c.mem pos)
  else if opc = 0x59 then plain (readMtc c.mem pos)
  else if opc = 0x19 then plain (readTsc c.mem pos)
  else if opc = 0x00 then .ok (.pad, 1, 0)
  else if opc = 0xd9 then plain (readTrig c.mem pos)
  else if opc = 0x02 then plain (decodeExt c pos)
  else if opc % 4 = 3 then decodeCyc c pos
  else if opc % 2 = 0 then plain (readTnt8 c.mem pos)
  else if opc % 32 = 0x1d then plain (decodeIp c pos .fup)
  else if opc % 32 = 0x0d then plain (decodeIp c pos .tip)
  else if opc % 32 = 0x11 then plain (decodeIp c pos .tipPge)
  else if opc % 32 = 0x01 then plain (decodeIp c pos .tipPgd)
  else plain (readUnknown c pos)

/-- libipt/src/pt_packet_decoder.c:829-849 `pt_pkt_decode`.  `pos` is an offset, so the
check `pos < begin` (not synchronized) is the `none` case of `pktNext`. -/
def pktDecode (c : PktCfg) (pos : Nat) : Res (Packet × Nat × Nat) :=
  if c.mem.length ≤ pos then .err .eos
  else rd c.mem pos >>= fun opc => pktDecodeSwitch c pos opc

/-- libipt/src/pt_packet_decoder.c:963-990 `pt_pkt_next` on a decoder whose position is
`pos` (`none`: not synchronized, a NULL position, which compares below `config.begin`).
Returns the packet, the returned size and the new position.  On an error the C code leaves
the position unchanged. -/
def pktNext (c : PktCfg) (pos : Option Nat) : Res (Packet × Nat × Nat) :=
  match pos with
  | none => .err .nosync
  | some pos => do
    let (p, size, skip) ← pktDecode c pos
    return (p, size, pos + skip + size)

end Ipt
