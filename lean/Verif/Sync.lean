import Verif.Packet

/-!
# Synchronization onto PSB packets: libipt/src/pt_sync.c and the packet decoder's
synchronization functions

The trace buffer is a list of bytes placed at an arbitrary address `base` (the search works on
aligned 64-bit words, so the address matters).  Positions are offsets from the start of the
buffer; the two search loops work on addresses.  The loops are given fuel; running out of
fuel is the outcome `ub`, which the theorems show never to happen.
-/

namespace Ipt

/-- libipt/src/pt_sync.c:48-56 `truncate` with alignment 8. -/
def truncate8 (a : Nat) : Nat := a / 8 * 8

/-- libipt/src/pt_sync.c:58-61 `align` with alignment 8. -/
def align8 (a : Nat) : Nat := truncate8 (a + 8 - 1)

/-- libipt/src/pt_sync.c:41-46 `psb_pattern[0]`: `pt_psb_lohi` (0x0282) four times. -/
def psbPattern0 : Nat := 0x0282028202820282

/-- libipt/src/pt_sync.c:41-46 `psb_pattern[1]`: `pt_psb_hilo` (0x8202) four times. -/
def psbPattern1 : Nat := 0x8202820282028202

/-- libipt/src/pt_sync.c:88-99: the loop of `pt_find_psb` that runs to the end of the payload
pattern. -/
def psbRunEnd (m : List UInt8) : Nat → Nat → Res Nat
  | 0, _ => .ub
  | fuel + 1, pos =>
    if pos + 1 < m.length then do
      let hi ← rd m pos
      let lo ← rd m (pos + 1)
      if hi ≠ 0x02 then .ok pos
      else if lo ≠ 0x82 then .ok pos
      else psbRunEnd m fuel (pos + 2)
    else .ok pos

/-- libipt/src/pt_sync.c:63-119 `pt_find_psb`.  The C code forms the pointer `pos - 16`
before it compares it with `begin`; the model compares offsets. -/
def findPsb (m : List UInt8) (pos : Nat) : Res (Option Nat) := do
  let b ← rd m pos
  let e ← psbRunEnd m (m.length + 1) (if b ≠ 0x02 then pos + 1 else pos)
  if e < 16 then .ok none
  else
    let b0 ← rd m (e - 16)
    let b1 ← rd m (e - 16 + 1)
    if b0 ≠ 0x02 ∨ b1 ≠ 0x82 then .ok none
    else
      match readPsb m (e - 16) with
      | .ok _ => .ok (some (e - 16))
      | .err _ => .ok none
      | .ub => .ub

/-- libipt/src/pt_sync.c:181-208: the search loop of `pt_sync_forward`; `a` is an address. -/
def syncForwardLoop (m : List UInt8) (base start : Nat) : Nat → Nat → Res Nat
  | 0, _ => .ub
  | fuel + 1, a =>
    if base + m.length < a + 8 then .err .eos
    else do
      let val ← rdLE m (a - base) 8
      if val ≠ psbPattern0 ∧ val ≠ psbPattern1 then syncForwardLoop m base start fuel (a + 8)
      else
        match ← findPsb m (a - base) with
        | none => syncForwardLoop m base start fuel (a + 8)
        | some q =>
          if q < start then syncForwardLoop m base start fuel (a + 8)
          else .ok q

/-- libipt/src/pt_sync.c:161-209 `pt_sync_forward`, searching from offset `start`. -/
def syncForward (m : List UInt8) (base start : Nat) : Res Nat :=
  if m.length < start then .err .internal
  else syncForwardLoop m base start (m.length + 1) (align8 (base + start))

/-- libipt/src/pt_sync.c:229-252: the search loop of `pt_sync_backward`; `a` is an address. -/
def syncBackwardLoop (m : List UInt8) (base : Nat) : Nat → Nat → Res Nat
  | 0, _ => .ub
  | fuel + 1, a =>
    if a < base + 8 then .err .eos
    else do
      let val ← rdLE m (a - 8 - base) 8
      if val ≠ psbPattern0 ∧ val ≠ psbPattern1 then syncBackwardLoop m base fuel (a - 8)
      else
        match ← findPsb m (a - 8 - base) with
        | none => syncBackwardLoop m base fuel (a - 8)
        | some q => .ok q

/-- libipt/src/pt_sync.c:211-253 `pt_sync_backward`, searching from offset `pos`. -/
def syncBackward (m : List UInt8) (base pos : Nat) : Res Nat :=
  if m.length < pos then .err .internal
  else syncBackwardLoop m base (m.length + 1) (truncate8 (base + pos))

/-- libipt/src/pt_sync.c:132-159 `pt_sync_set` at offset `pos`. -/
def syncSet (m : List UInt8) (pos : Nat) : Res Nat :=
  if m.length < pos then .err .eos
  else if m.length < pos + 2 then .err .eos
  else do
    let b0 ← rd m pos
    let b1 ← rd m (pos + 1)
    if b0 ≠ 0x02 ∨ b1 ≠ 0x82 then .err .nosync
    else
      let _ ← readPsb m pos
      return pos

/-- The mutable part of `struct pt_packet_decoder`, libipt/internal/include/
pt_packet_decoder.h: the current position and the last synchronization point.  `none` is
NULL. -/
structure PktDec where
  pos : Option Nat := none
  sync : Option Nat := none
deriving DecidableEq, Repr

/-- libipt/src/pt_packet_decoder.c:89-127 `pt_pkt_sync_forward`. -/
def pktSyncForward (c : PktCfg) (base : Nat) (d : PktDec) : PktDec × Res Unit :=
  let pos := d.pos.getD 0
  let pos := if d.sync = some pos then pos + 16 else pos
  let space := if 16 ≤ pos then 16 - 1 else pos
  match syncForward c.mem base (pos - space) with
  | .ok q => ({ pos := some q, sync := some q }, .ok ())
  | .err e => (d, .err e)
  | .ub => (d, .ub)

/-- libipt/src/pt_packet_decoder.c:129-149 `pt_pkt_sync_backward`. -/
def pktSyncBackward (c : PktCfg) (base : Nat) (d : PktDec) : PktDec × Res Unit :=
  match syncBackward c.mem base (d.pos.getD c.mem.length) with
  | .ok q => ({ pos := some q, sync := some q }, .ok ())
  | .err e => (d, .err e)
  | .ub => (d, .ub)

/-- libipt/src/pt_packet_decoder.c:151-169 `pt_pkt_sync_set`; `begin + offset` is assumed not
to wrap around the address space. -/
def pktSyncSet (c : PktCfg) (d : PktDec) (offset : Nat) : PktDec × Res Unit :=
  if c.mem.length < offset then (d, .err .eos)
  else ({ pos := some offset, sync := some offset }, .ok ())

/-- libipt/src/pt_packet_decoder.c:963-985 `pt_pkt_next` as a state transformer. -/
def pktDecNext (c : PktCfg) (d : PktDec) : PktDec × Res (Packet × Nat) :=
  match pktNext c d.pos with
  | .ok (p, n, pos') => ({ d with pos := some pos' }, .ok (p, n))
  | .err e => (d, .err e)
  | .ub => (d, .ub)

/-- libipt/src/pt_packet_decoder.c:171-187 `pt_pkt_get_offset`. -/
def pktGetOffset (d : PktDec) : Res Nat :=
  match d.pos with
  | none => .err .nosync
  | some p => .ok p

/-- libipt/src/pt_packet_decoder.c:189-206 `pt_pkt_get_sync_offset`. -/
def pktGetSyncOffset (d : PktDec) : Res Nat :=
  match d.sync with
  | none => .err .nosync
  | some p => .ok p

end Ipt
