import Verif.Packet

/-!
# Specification vocabulary for the packet properties

Independent of the encoder and the decoder: which packet values a packet format can carry
(Intel SDM Vol. 3, Intel PT packet definitions).
-/

namespace Ipt.Spec

/-- An IP payload that fits its compression. -/
def IpFits (ipc ip : Nat) : Prop :=
  (ipc = 0 ∧ ip = 0) ∨ (ipc = 1 ∧ ip < 2 ^ 16) ∨ (ipc = 2 ∧ ip < 2 ^ 32) ∨
  (ipc = 3 ∧ ip < 2 ^ 48) ∨ (ipc = 4 ∧ ip < 2 ^ 48) ∨ (ipc = 6 ∧ ip < 2 ^ 64)

/-- The packet values the wire format can carry. -/
def Representable : Packet → Prop
  | .unknown | .invalid | .modeOther _ => False
  | .pad | .psb | .psbend | .ovf | .stop => True
  | .fup ipc ip | .tip ipc ip | .tipPge ipc ip | .tipPgd ipc ip => IpFits ipc ip
  | .tnt8 bs pl => 1 ≤ bs ∧ bs ≤ 6 ∧ pl < 2 ^ bs
  | .tnt64 bs pl => 1 ≤ bs ∧ bs ≤ 47 ∧ pl < 2 ^ bs
  | .modeExec _ _ _ | .modeTsx _ _ => True
  | .pip cr3 _ => cr3 % 32 = 0 ∧ cr3 < 2 ^ 52
  | .vmcs base => base % 4096 = 0 ∧ base < 2 ^ 52
  | .cbr r => r < 256
  | .tsc v => v < 2 ^ 56
  | .tma ctc fc => ctc < 2 ^ 16 ∧ fc < 512
  | .mtc ctc => ctc < 256
  | .cyc v => v < 2 ^ 61
  | .mnt v => v < 2 ^ 64
  | .exstop _ => True
  | .mwait hints ext => hints < 2 ^ 32 ∧ ext < 2 ^ 32
  | .pwre st sub _ => st < 16 ∧ sub < 16
  | .pwrx last deepest _ _ _ => last < 16 ∧ deepest < 16
  | .ptw pl plc _ => (plc = 0 ∧ pl < 2 ^ 32) ∨ (plc = 1 ∧ pl < 2 ^ 64)
  | .cfe type vector _ => type < 32 ∧ vector < 256
  | .evd type pl => type < 32 ∧ pl < 2 ^ 64
  | .trig trbv icnt _ _ => trbv < 256 ∧ ∀ n, icnt = some n → n < 2 ^ 16

instance (p : Packet) : Decidable (Representable p) := by
  cases p <;> simp only [Representable, IpFits] <;> infer_instance

end Ipt.Spec
