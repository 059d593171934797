import Verif.Packet

/-!
# The wire format of Intel PT packets

Independent of encoder and decoder: the byte patterns of the packets as given in the Intel SDM
Vol. 3, chapter Intel Processor Trace, packet definitions.  A packet occupies `n` bytes `b 0`, ...,
`b (n - 1)`; bits the definitions call reserved and the library documents as ignored are not constrained.
-/

namespace Ipt.Spec

/-- The little-endian number in bytes `i` to `i + k - 1`. -/
def le (b : Nat → Nat) (i : Nat) : Nat → Nat
  | 0 => 0
  | k + 1 => b i + 256 * le b (i + 1) k

/-- Number of payload bytes for an IP compression, for those that exist. -/
def ipBytes : Nat → Option Nat
  | 0 => some 0 | 1 => some 2 | 2 => some 4 | 3 => some 6 | 4 => some 6 | 6 => some 8 | _ => none

/-- Number of payload bytes of a PTWRITE packet, for those that exist. -/
def ptwBytes : Nat → Option Nat
  | 0 => some 4 | 1 => some 8 | _ => none

/-- Bit `i` of `v`. -/
def isBit (v i : Nat) (x : Bool) : Prop := x = decide (v / 2 ^ i % 2 = 1)

/-- The extension bytes of a CYC packet: bit 0 says whether another byte follows, the other seven bits
are the next value bits.  `CycTail b i k v`: the bytes `i` to `i + k - 1` complete the packet and carry
the value `v`. -/
def CycTail (b : Nat → Nat) (i : Nat) : Nat → Nat → Prop
  | 0, _ => False
  | 1, v => b i % 2 = 0 ∧ v = b i / 2
  | k + 2, v => b i % 2 = 1 ∧ ∃ w, CycTail b (i + 1) (k + 1) w ∧ v = b i / 2 + 128 * w

/-- Byte patterns. -/
def Wire : Packet → (Nat → Nat) → Nat → Prop
  | .unknown, _, _ => False
  | .invalid, _, _ => False
  | .modeOther _, _, _ => False
  | .pad, b, n => n = 1 ∧ b 0 = 0x00
  | .psb, b, n => n = 16 ∧ ∀ j, j < 8 → b (2 * j) = 0x02 ∧ b (2 * j + 1) = 0x82
  | .psbend, b, n => n = 2 ∧ b 0 = 0x02 ∧ b 1 = 0x23
  | .ovf, b, n => n = 2 ∧ b 0 = 0x02 ∧ b 1 = 0xf3
  | .stop, b, n => n = 2 ∧ b 0 = 0x02 ∧ b 1 = 0x83
  | .fup ipc ip, b, n => ∃ k, ipBytes ipc = some k ∧ n = 1 + k ∧ b 0 = 0x1d + 32 * ipc ∧ ip = le b 1 k
  | .tip ipc ip, b, n => ∃ k, ipBytes ipc = some k ∧ n = 1 + k ∧ b 0 = 0x0d + 32 * ipc ∧ ip = le b 1 k
  | .tipPge ipc ip, b, n => ∃ k, ipBytes ipc = some k ∧ n = 1 + k ∧ b 0 = 0x11 + 32 * ipc ∧ ip = le b 1 k
  | .tipPgd ipc ip, b, n => ∃ k, ipBytes ipc = some k ∧ n = 1 + k ∧ b 0 = 0x01 + 32 * ipc ∧ ip = le b 1 k
  | .tnt8 s v, b, n => n = 1 ∧ 1 ≤ s ∧ v < 2 ^ s ∧ b 0 = 2 * (2 ^ s + v)
  | .tnt64 s v, b, n => n = 8 ∧ b 0 = 0x02 ∧ b 1 = 0xa3 ∧ 1 ≤ s ∧ v < 2 ^ s ∧ le b 2 6 = 2 ^ s + v
  | .modeExec csl csd iflag, b, n => n = 2 ∧ b 0 = 0x99 ∧ b 1 / 32 = 0 ∧
      isBit (b 1) 0 csl ∧ isBit (b 1) 1 csd ∧ isBit (b 1) 2 iflag
  | .modeTsx intx abrt, b, n => n = 2 ∧ b 0 = 0x99 ∧ b 1 / 32 = 1 ∧ isBit (b 1) 0 intx ∧ isBit (b 1) 1 abrt
  | .pip cr3 nr, b, n => n = 8 ∧ b 0 = 0x02 ∧ b 1 = 0x43 ∧ isBit (b 2) 0 nr ∧ cr3 = le b 2 6 / 2 * 32
  | .vmcs base, b, n => n = 7 ∧ b 0 = 0x02 ∧ b 1 = 0xc8 ∧ base = le b 2 5 * 4096
  | .cbr r, b, n => n = 4 ∧ b 0 = 0x02 ∧ b 1 = 0x03 ∧ r = b 2
  | .tsc v, b, n => n = 8 ∧ b 0 = 0x19 ∧ v = le b 1 7
  | .tma ctc fc, b, n => n = 7 ∧ b 0 = 0x02 ∧ b 1 = 0x73 ∧ ctc = le b 2 2 ∧ b 4 = 0 ∧ fc = le b 5 2 ∧ fc < 512
  | .mtc ctc, b, n => n = 2 ∧ b 0 = 0x59 ∧ ctc = b 1
  | .cyc v, b, n =>
      b 0 % 4 = 3 ∧ n ≤ 9 ∧
      ((b 0 / 4 % 2 = 0 ∧ n = 1 ∧ v = b 0 / 8) ∨
       (b 0 / 4 % 2 = 1 ∧ 1 ≤ n ∧ ∃ w, CycTail b 1 (n - 1) w ∧ v = b 0 / 8 + 32 * w))
  | .mnt v, b, n => n = 11 ∧ b 0 = 0x02 ∧ b 1 = 0xc3 ∧ b 2 = 0x88 ∧ v = le b 3 8
  | .exstop ip, b, n => n = 2 ∧ b 0 = 0x02 ∧ b 1 % 128 = 0x62 ∧ isBit (b 1) 7 ip
  | .mwait hints ext, b, n => n = 10 ∧ b 0 = 0x02 ∧ b 1 = 0xc2 ∧ hints = le b 2 4 ∧ ext = le b 6 4
  | .pwre st sub hw, b, n => n = 4 ∧ b 0 = 0x02 ∧ b 1 = 0x22 ∧ isBit (b 2) 3 hw ∧
      st = b 3 / 16 ∧ sub = b 3 % 16
  | .pwrx last deepest int st aut, b, n => n = 7 ∧ b 0 = 0x02 ∧ b 1 = 0xa2 ∧ last = b 2 / 16 ∧
      deepest = b 2 % 16 ∧ isBit (b 3) 0 int ∧ isBit (b 3) 2 st ∧ isBit (b 3) 3 aut
  | .ptw v plc ip, b, n => ∃ k, ptwBytes plc = some k ∧ n = 2 + k ∧ b 0 = 0x02 ∧ b 1 % 32 = 0x12 ∧
      b 1 / 32 % 4 = plc ∧ isBit (b 1) 7 ip ∧ v = le b 2 k
  | .cfe type vec ip, b, n => n = 4 ∧ b 0 = 0x02 ∧ b 1 = 0x13 ∧ type = b 2 % 32 ∧ isBit (b 2) 7 ip ∧ vec = b 3
  | .evd type v, b, n => n = 11 ∧ b 0 = 0x02 ∧ b 1 = 0x53 ∧ type = b 2 % 32 ∧ v = le b 3 8
  | .trig trbv icnt ip mult, b, n => b 0 = 0xd9 ∧ trbv = b 2 ∧ isBit (b 1) 7 ip ∧ isBit (b 1) 5 mult ∧
      ((b 1 / 64 % 2 = 1 ∧ n = 5 ∧ icnt = some (le b 3 2)) ∨ (b 1 / 64 % 2 = 0 ∧ n = 3 ∧ icnt = none))

/-- The bytes of a buffer, from `pos` on. -/
def bytesAt (m : List UInt8) (pos : Nat) : Nat → Nat := fun i => (m.getD (pos + i) 0).toNat

end Ipt.Spec
