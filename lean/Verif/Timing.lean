import Verif.Time

/-!
# How the event decoder applies timing packets: libipt/src/pt_event_decoder.c:274-600
-/

namespace Ipt

/-- The timing state of the event decoder: `time` and `tcal` in `struct pt_event_decoder`,
libipt/internal/include/pt_event_decoder.h. -/
structure Timing where
  time : Time := {}
  tcal : Tcal := {}
deriving DecidableEq, Repr

/-- `if ((errcode < 0) && (errcode != -pte_bad_config)) return errcode;` -/
def okBadConfig (r : Res Unit) : Res Unit :=
  match r with
  | .err .badConfig => .ok ()
  | r => r

/-- The timing packets with their payload.  `hTsc` and `hCbr` are TSC and CBR inside PSB+. -/
inductive TimePkt
  | tsc (v : Nat) | hTsc (v : Nat) | cbr (r : Nat) | hCbr (r : Nat)
  | tma (ctc fc : Nat) | mtc (ctc : Nat) | cyc (v : Nat)
deriving DecidableEq, Repr

/-- The payload ranges the packet decoder produces, libipt/internal/include/pt_opcodes.h: 56-bit
TSC, 8-bit CBR ratio, 16-bit TMA CTC and 9-bit TMA fast counter, 8-bit MTC, 64-bit CYC. -/
def TimePkt.InRange : TimePkt → Prop
  | .tsc v | .hTsc v => v < 2 ^ 56
  | .cbr r | .hCbr r => r < 2 ^ 8
  | .tma ctc fc => ctc < 2 ^ 16 ∧ fc < 2 ^ 9
  | .mtc ctc => ctc < 2 ^ 8
  | .cyc v => v < 2 ^ 64

/-- First the calibration, then the time; each may fail, -pte_bad_config being ignored. -/
def Timing.both (x : Tcal × Res Unit) (t : Time) (f : Time × Res Unit) : Timing × Res Unit :=
  match okBadConfig x.2 with
  | .ok () => (⟨f.1, x.1⟩, okBadConfig f.2)
  | r => (⟨t, x.1⟩, r)

/-- libipt/src/pt_event_decoder.c:274-568: `pt_evt_apply_header_tsc`, `pt_evt_apply_tsc`,
`pt_evt_apply_header_cbr`, `pt_evt_apply_cbr`, `pt_evt_apply_tma`, `pt_evt_apply_mtc`,
`pt_evt_apply_cyc`. -/
def Timing.apply (c : TimeCfg) (s : Timing) : TimePkt → Timing × Res Unit
  | .hTsc v => Timing.both (s.tcal.headerTsc v) s.time (s.time.updateTsc v, .ok ())
  | .tsc v => Timing.both (s.tcal.updateTsc v, .ok ()) s.time (s.time.updateTsc v, .ok ())
  | .hCbr r => Timing.both (s.tcal.headerCbr r c) s.time (s.time.updateCbr r)
  | .cbr r => Timing.both (s.tcal.updateCbr r c) s.time (s.time.updateCbr r)
  | .tma ctc fc => Timing.both (s.tcal, .ok ()) s.time (s.time.updateTma ctc fc c)
  | .mtc p => Timing.both (s.tcal.updateMtc p c) s.time (s.time.updateMtc p c)
  | .cyc v =>
    let k := s.tcal.updateCyc v
    let fcr := match k.getFcr with
      | .ok fcr => fcr
      | _ => 0
    Timing.both (k, .ok ()) s.time (s.time.updateCyc v c fcr)

/-- Apply a sequence of timing packets until one fails. -/
def Timing.applyAll (c : TimeCfg) (s : Timing) : List TimePkt → Timing × Res Unit
  | [] => (s, .ok ())
  | p :: ps =>
    match s.apply c p with
    | (s', .ok ()) => s'.applyAll c ps
    | (s', r) => (s', r)

end Ipt
