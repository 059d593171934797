import Verif.Sync
import Verif.LastIp
import Verif.Timing

/-!
# The packet dumper: ptdump/src/ptdump.c

Printing is modelled by the list of lines; the text of a payload is modelled for TNT packets and raw bytes only, where
ptdump writes to its buffers itself.  Not modelled: the command line, the sideband session, options that only select or format
columns (`--no-pad`, `--no-timing`, `--quiet`, `--no-offset`, `--tcal`, `--time-delta`, `--no-wall-clock`), and diagnostics.
-/

namespace Ipt

/-- `struct ptdump_options`, ptdump/src/ptdump.c:55-114. -/
structure DumpOpts where
  showRaw : Bool := false
  noSync : Bool := false
  showLastIp : Bool := false
  trackTime : Bool := false
  showTime : Bool := false
  noTcal : Bool := false
  noCyc : Bool := false
  keepTcalOnOvf : Bool := false

/-- `struct ptdump_tracking`, ptdump/src/ptdump.c:156-178. -/
structure Track where
  ip : LastIp := {}
  tm : Timing := {}
  inHeader : Bool := false
deriving DecidableEq, Repr

/-- A line of output: `struct ptdump_buffer`, ptdump/src/ptdump.c:116-154.  `ip` and `time` are the tracking information. -/
structure DumpLine where
  offset : Nat
  packet : Packet
  raw : List Char := []
  tnt : List Char := []
  ip : Option (Res Nat) := none
  time : Option (Res Nat) := none
deriving DecidableEq, Repr

/-- `"%02x"`. -/
def hexByte (b : UInt8) : List Char := [(b.toNat / 16).digitChar, (b.toNat % 16).digitChar]

/-- The loop of `print_raw`, ptdump/src/ptdump.c:606-613.  `i` is `bbegin - buffer->raw`.  `snprintf` returns 2 also when it
does not have space for two characters and a terminating zero, so the loop goes on; when `bbegin` is behind `bend`, the size
wraps around. -/
def rawLoop : Nat → List UInt8 → Res (List Char)
  | _, [] => .ok []
  | i, b :: bs =>
    if 33 < i then .ub
    else rawLoop (i + 2) bs >>= fun cs => .ok ((hexByte b).take (33 - i - 1) ++ cs)

/-- ptdump/src/ptdump.c:588-616 `print_raw`. -/
def printRaw (c : PktCfg) (offset size : Nat) : Res (List Char) :=
  if c.mem.length < offset + size then .err .badPacket
  else rawLoop 0 ((c.mem.drop offset).take size)

/-- The loop of `print_tnt_payload`, ptdump/src/ptdump.c:1000-1001.  `i` is `begin - buffer->payload.extended`, `n` the
number of bytes left, `bits` the number of TNT bits left.  (`1ull << (bits - 1)` with `bits = 0` or above 64 is undefined.) -/
def tntLoop : Nat → Nat → Nat → Nat → Res (List Char)
  | 0, _, _, _ => .ok []
  | n + 1, i, bits, tnt =>
    if 48 ≤ i ∨ bits = 0 ∨ 64 < bits then .ub
    else tntLoop n (i + 1) (bits - 1) tnt >>= fun cs => .ok ((if tnt / 2 ^ (bits - 1) % 2 = 1 then '!' else '.') :: cs)

/-- ptdump/src/ptdump.c:978-1004 `print_tnt_payload`. -/
def printTnt (bits tnt : Nat) : Res (List Char) := tntLoop (if 48 < bits then 48 else bits) 0 bits tnt

/-- ptdump/src/ptdump.c:619-653 `track_last_ip`. -/
def trackLastIp (t : Track) (ipc ip : Nat) : Track × Res Nat :=
  match t.ip.update ipc ip with
  | (l, .ok ()) => ({ t with ip := l }, l.query)
  | (l, .err e) => ({ t with ip := l }, .err e)
  | (l, .ub) => ({ t with ip := l }, .ub)

/-- ptdump/src/ptdump.c:782-923: `track_tsc`, `track_cbr`, `track_tma`, `track_mtc`, `track_cyc`, the updates.  Errors are printed and
otherwise ignored. -/
def trackTm (o : DumpOpts) (c : TimeCfg) (t : Track) : Packet → Timing
  | .tsc v =>
    ⟨t.tm.time.updateTsc v, if o.noTcal = true then t.tm.tcal else if t.inHeader = true then (t.tm.tcal.headerTsc v).1
      else t.tm.tcal.updateTsc v⟩
  | .cbr r =>
    ⟨(t.tm.time.updateCbr r).1, if o.noTcal = true then t.tm.tcal else if t.inHeader = true then (t.tm.tcal.headerCbr r c).1
      else (t.tm.tcal.updateCbr r c).1⟩
  | .tma ctc fc => ⟨(t.tm.time.updateTma ctc fc c).1, t.tm.tcal⟩
  | .mtc p => ⟨(t.tm.time.updateMtc p c).1, if o.noTcal = true then t.tm.tcal else (t.tm.tcal.updateMtc p c).1⟩
  | .cyc v =>
    let fcr := if o.noTcal = true then 0 else match t.tm.tcal.getFcr with
      | .ok fcr => fcr
      | _ => 0
    ⟨(t.tm.time.updateCyc v c fcr).1, if o.noTcal = true then t.tm.tcal else t.tm.tcal.updateCyc v⟩
  | _ => t.tm

/-- ptdump/src/ptdump.c:656-700 and 766-780: `print_time` in `track_time`; the time is printed as number, not as difference. -/
def shownTime (o : DumpOpts) (tm : Timing) : Option (Res Nat) :=
  if o.showTime = true then
    some (match tm.time.queryTsc with
      | .ok (tsc, _, _) => .ok tsc
      | .err e => .err e
      | .ub => .ub)
  else none

/-- ptdump/src/ptdump.c:1059-1443 `print_packet`. -/
def printPacket (o : DumpOpts) (c : TimeCfg) (t : Track) (l : DumpLine) : Track × Res DumpLine :=
  match l.packet with
  | .psb =>
    ({ t with tm := if o.trackTime = true then ⟨t.tm.time, t.tm.tcal.updatePsb c⟩ else t.tm, inHeader := true }, .ok l)
  | .psbend => ({ t with inHeader := false }, .ok l)
  | .ovf =>
    ({ t with tm := if o.trackTime = true then ⟨t.tm.time, if o.keepTcalOnOvf = true then t.tm.tcal.updateOvf else {}⟩ else t.tm },
      .ok l)
  | .fup ipc ip | .tip ipc ip | .tipPge ipc ip | .tipPgd ipc ip =>
    if o.showLastIp = true then ((trackLastIp t ipc ip).1, .ok { l with ip := some (trackLastIp t ipc ip).2 })
    else (t, .ok l)
  | .tnt8 bits tnt | .tnt64 bits tnt => (t, printTnt bits tnt >>= fun cs => .ok { l with tnt := cs })
  | .tsc _ | .tma _ _ | .mtc _ =>
    if o.trackTime = true then
      ({ t with tm := trackTm o c t l.packet }, .ok { l with time := shownTime o (trackTm o c t l.packet) })
    else (t, .ok l)
  | .cbr _ => if o.trackTime = true then ({ t with tm := trackTm o c t l.packet }, .ok l) else (t, .ok l)
  | .cyc _ =>
    if o.trackTime = true ∧ o.noCyc = false then
      ({ t with tm := trackTm o c t l.packet }, .ok { l with time := shownTime o (trackTm o c t l.packet) })
    else (t, .ok l)
  | _ => (t, .ok l)

/-- ptdump/src/ptdump.c:1445-1469 `dump_one_packet`. -/
def dumpOne (o : DumpOpts) (c : PktCfg) (tc : TimeCfg) (t : Track) (offset : Nat) (p : Packet) (size : Nat) : Track × Res DumpLine :=
  match (if o.showRaw = true then printRaw c offset size else .ok []) with
  | .ok raw => printPacket o tc t { offset := offset, packet := p, raw := raw }
  | .err e => (t, .err e)
  | .ub => (t, .ub)

/-- ptdump/src/ptdump.c:1471-1500 `dump_packets`. -/
def dumpPackets (o : DumpOpts) (c : PktCfg) (tc : TimeCfg) : Nat → PktDec → Track → PktDec × Track × List DumpLine × Res Unit
  | 0, d, t => (d, t, [], .ub)
  | n + 1, d, t =>
    match pktGetOffset d with
    | .err e => (d, t, [], .err e)
    | .ub => (d, t, [], .ub)
    | .ok offset =>
      match pktDecNext c d with
      | (d, .err .eos) => (d, t, [], .ok ())
      | (d, .err e) => (d, t, [], .err e)
      | (d, .ub) => (d, t, [], .ub)
      | (d, .ok (p, size)) =>
        match dumpOne o c tc t offset p size with
        | (t, .err e) => (d, t, [], .err e)
        | (t, .ub) => (d, t, [], .ub)
        | (t, .ok l) =>
          let r := dumpPackets o c tc n d t
          (r.1, r.2.1, l :: r.2.2.1, r.2.2.2)

/-- The loop of `dump_sync`, ptdump/src/ptdump.c:1524-1540, with `ptdump_tracking_reset` (504-516). -/
def dumpLoop (o : DumpOpts) (c : PktCfg) (tc : TimeCfg) (base : Nat) : Nat → PktDec → Track → List DumpLine × Res Unit
  | 0, _, _ => ([], .ub)
  | n + 1, d, t =>
    match dumpPackets o c tc (c.mem.length + 2) d t with
    | (_, _, ls, .ok ()) => (ls, .ok ())
    | (_, _, ls, .ub) => (ls, .ub)
    | (d, _, ls, .err _) =>
      match pktSyncForward c base d with
      | (_, .err .eos) => (ls, .ok ())
      | (_, .err e) => (ls, .err e)
      | (_, .ub) => (ls, .ub)
      | (d, .ok ()) => (ls ++ (dumpLoop o c tc base n d {}).1, (dumpLoop o c tc base n d {}).2)

/-- ptdump/src/ptdump.c:1502-1543 `dump_sync` for a new decoder. -/
def dumpSync (o : DumpOpts) (c : PktCfg) (tc : TimeCfg) (base : Nat) : List DumpLine × Res Unit :=
  if o.noSync = true then
    match pktSyncSet c {} 0 with
    | (d, .ok ()) => dumpLoop o c tc base (c.mem.length + 2) d {}
    | (_, .err e) => ([], .err e)
    | (_, .ub) => ([], .ub)
  else
    match pktSyncForward c base {} with
    | (_, .err .eos) => ([], .ok ())
    | (_, .err e) => ([], .err e)
    | (_, .ub) => ([], .ub)
    | (d, .ok ()) => dumpLoop o c tc base (c.mem.length + 2) d {}

end Ipt
