import Verif.LastIp
import Verif.Timing
import Verif.Packet
import Verif.Spec.Sync

/-!
# What decoders know after a sequence of packets

The last IP and the time as the trace decoders compute them, cf. `Spec/Events.lean`.
-/

namespace Ipt.Spec

/-- The payload of packets with an IP. -/
def ipPayload : Packet → Option (Nat × Nat)
  | .fup ipc ip | .tip ipc ip | .tipPge ipc ip | .tipPgd ipc ip => some (ipc, ip)
  | _ => none

/-- The last IP after some packets: FUP and TIP packets update it, PSB and OVF reset it. -/
def lastIp (l : LastIp) : List Packet → LastIp
  | [] => l
  | .psb :: ps | .ovf :: ps => lastIp {} ps
  | p :: ps =>
    match ipPayload p with
    | some (ipc, ip) => lastIp (l.update ipc ip).1 ps
    | none => lastIp l ps

/-- The timing packets, between PSB and PSBEND (`hd = true`) or elsewhere. -/
def timePkt (hd : Bool) : Packet → Option TimePkt
  | .tsc v => some (if hd = true then .hTsc v else .tsc v)
  | .cbr r => some (if hd = true then .hCbr r else .cbr r)
  | .tma a b => some (.tma a b)
  | .mtc a => some (.mtc a)
  | .cyc v => some (.cyc v)
  | _ => none

/-- Time and calibration after some packets; `hd`: we are between PSB and PSBEND or an overflow there; `keep`: an overflow does
not reset the calibration.  An error when a timing packet is rejected. -/
def timing (c : TimeCfg) (keep : Bool) (hd : Bool) (s : Timing) : List Packet → Timing × Res Unit
  | [] => (s, .ok ())
  | .psb :: ps => timing c keep true s ps
  | .psbend :: ps => timing c keep false s ps
  | .ovf :: ps => timing c keep false ⟨s.time, if keep = true then s.tcal.updateOvf else {}⟩ ps
  | p :: ps =>
    match timePkt hd p with
    | none => timing c keep hd s ps
    | some q =>
      match s.apply c q with
      | (s, .ok ()) => timing c keep hd s ps
      | (s, r) => (s, r)

/-- No overflow between PSB and PSBEND. -/
def OvfOutside (hd : Bool) : List Packet → Prop
  | [] => True
  | .psb :: ps => OvfOutside true ps
  | .psbend :: ps => OvfOutside false ps
  | .ovf :: ps => hd = false ∧ OvfOutside false ps
  | _ :: ps => OvfOutside hd ps

/-! ## Listing the packets of a trace -/

/-- The packet at `pos` cannot be shown: it cannot be decoded, or, when its bytes are to be shown (`raw`), it ends behind the
trace.  `pos'` is where the decoder is then. -/
def Unreadable (c : PktCfg) (raw : Bool) (pos pos' : Nat) : Prop :=
  (∃ e, e ≠ .eos ∧ pktNext c (some pos) = .err e ∧ pos' = pos) ∨
  (raw = true ∧ ∃ p n, pktNext c (some pos) = .ok (p, n, pos') ∧ c.mem.length < pos + n)

/-- Where to search for the next PSB when the last one was at `y` and the decoder is at `pos`. -/
def searchFrom (y pos : Nat) : Nat := if pos = y then pos + 1 else pos - 15

/-- The first PSB from `s` on, or the last one of those that directly follow it. -/
def NextPsb (m : List UInt8) (s q : Nat) : Prop :=
  s ≤ q ∧ IsPsb m q ∧ ∀ q0, s ≤ q0 → q0 < q → IsPsb m q0 → PsbRun m q0 (q + 16)

/-- The packets of a trace from `pos` on, where `y` is the offset of the last synchronization: one after another without
gaps to the end of the trace, except that after a packet that is not readable, it continues at the next PSB. -/
inductive Listing (c : PktCfg) (raw : Bool) : Nat → Nat → List (Nat × Packet) → Prop
  | eos {y pos} : pktNext c (some pos) = .err .eos → Listing c raw y pos []
  | packet {y pos p n pos' ls} : pktNext c (some pos) = .ok (p, n, pos') → (raw = true → pos + n ≤ c.mem.length) →
      Listing c raw y pos' ls → Listing c raw y pos ((pos, p) :: ls)
  | resync {y pos pos' q ls} : Unreadable c raw pos pos' → NextPsb c.mem (searchFrom y pos') q → Listing c raw q q ls →
      Listing c raw y pos ls
  | lost {y pos pos'} : Unreadable c raw pos pos' → (∀ q, searchFrom y pos' ≤ q → ¬ IsPsb c.mem q) → Listing c raw y pos []

/-- Two hexadecimal digits for every byte. -/
def hexText (bs : List UInt8) : List Char := bs.flatMap fun b => [(b.toNat / 16).digitChar, (b.toNat % 16).digitChar]

/-- The outcomes of conditional branches, oldest first: `!` for taken. -/
def tntText (bits tnt : Nat) : List Char := (List.range bits).map fun i => if tnt / 2 ^ (bits - 1 - i) % 2 = 1 then '!' else '.'

end Ipt.Spec
