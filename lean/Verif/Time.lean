import Verif.Basic

/-!
# Timing and timing calibration: libipt/src/pt_time.c

`uint64_t` and `uint32_t` arithmetic is written with explicit `% 2 ^ 64` and `% 2 ^ 32`.
Shifting a 32-bit value by 32 or more, and dividing by zero, is `ub`.
-/

namespace Ipt

/-- The configuration fields that timing depends on, libipt/include/intel-pt.h.in:525-545. -/
structure TimeCfg where
  eax : Nat := 0
  ebx : Nat := 0
  mtcFreq : Nat := 0
  nomFreq : Nat := 0
  skl168 : Bool := false
deriving DecidableEq, Repr

/-- `struct pt_time`, libipt/internal/include/pt_time.h:44-80. -/
structure Time where
  tsc : Nat := 0
  base : Nat := 0
  fc : Nat := 0
  ctc : Nat := 0
  ctcCyc : Nat := 0
  lostMtc : Nat := 0
  lostCyc : Nat := 0
  cbr : Nat := 0
  haveTsc : Bool := false
  haveCbr : Bool := false
  haveTma : Bool := false
  haveMtc : Bool := false
deriving DecidableEq, Repr

/-- `1u << n` on `uint32_t`. -/
def shl1 (n : Nat) : Res Nat := if n < 32 then .ok (2 ^ n) else .ub

/-- `v << n` on `uint32_t`. -/
def shl32 (v n : Nat) : Res Nat := if n < 32 then .ok (v * 2 ^ n % 2 ^ 32) else .ub

/-! Divisions: the C code divides by `eax`, `fcr`, the cycle counts and the ratio; a zero divisor is
undefined behaviour and an explicit `ub` branch in the model. -/

/-- `a - b` on unsigned integers of `n` bits. -/
def subMod (n a b : Nat) : Nat := (a + (2 ^ n - b)) % 2 ^ n

/-- libipt/src/pt_time.c:47-64 `pt_time_query_tsc`: time, lost MTC, lost CYC.  The C code
provides the values also when it returns -pte_no_time. -/
def Time.queryTsc (t : Time) : Res (Nat × Nat × Nat) :=
  if t.haveTsc = false then .err .noTime else .ok (t.tsc, t.lostMtc, t.lostCyc)

/-- libipt/src/pt_time.c:66-77 `pt_time_query_cbr`. -/
def Time.queryCbr (t : Time) : Res Nat :=
  if t.haveCbr = false then .err .noCbr else .ok t.cbr

/-- libipt/src/pt_time.c:85-106 `pt_time_ctc_delta`. -/
def ctcDelta (ctc last : Nat) (c : TimeCfg) : Res Nat :=
  if ctc < last then
    shl1 (c.mtcFreq + 8) >>= fun w =>
    let ctc := (ctc + w) % 2 ^ 32
    if ctc < last then .err .badPacket else .ok (ctc - last)
  else .ok (ctc - last)

/-- libipt/src/pt_time.c:112-129 `pt_time_ctc_fc`. -/
def ctcFc (ctc : Nat) (c : TimeCfg) : Res Nat :=
  if c.eax = 0 ∨ c.ebx = 0 then .err .badConfig
  else if c.eax = 0 then .ub
  else .ok (ctc * c.ebx % 2 ^ 64 / c.eax)

/-- libipt/src/pt_time.c:131-152 `pt_time_update_tsc`. -/
def Time.updateTsc (t : Time) (tsc : Nat) : Time :=
  { t with haveTsc := true, haveTma := false, haveMtc := false, tsc := tsc, base := tsc,
           ctc := 0, fc := 0, lostMtc := 0, lostCyc := 0 }

/-- libipt/src/pt_time.c:154-173 `pt_time_update_cbr`. -/
def Time.updateCbr (t : Time) (ratio : Nat) : Time × Res Unit :=
  if ratio = 0 then (t, .err .badPacket)
  else ({ t with haveCbr := true, cbr := ratio }, .ok ())

/-- libipt/src/pt_time.c:175-233 `pt_time_update_tma`. -/
def Time.updateTma (t : Time) (ctc fc : Nat) (c : TimeCfg) : Time × Res Unit :=
  if t.haveTsc = false then (t, .err .badContext)
  else if t.haveTma = true then (t, .err .badContext)
  else if t.haveMtc = true then (t, .err .internal)
  else
    match shl1 (c.mtcFreq + 8) with
    | .ok w =>
      ({ t with haveTma := true, base := subMod 64 t.base fc, fc := (t.fc + fc) % 2 ^ 64,
                haveMtc := if c.mtcFreq + 8 ≤ 16 then true else t.haveMtc,
                ctc := ctc % w, ctcCyc := ctc % w }, .ok ())
    | _ => (t, .ub)

/-- libipt/src/pt_time.c:281-324, inside `pt_time_update_mtc`: the estimated CTC value at the
TMA, from this MTC's CTC value and the bits provided by the TMA. -/
def tmaCtc (ctc last mtcFreq : Nat) : Res Nat :=
  if last / 2 ^ 16 ≠ 0 then .err .internal
  else
    let lo := ctc % 2 ^ 16
    let hi := ctc / 2 ^ 16 * 2 ^ 16
    if lo < last then
      shl32 0xff mtcFreq >>= fun mask =>
      .ok (last ||| (subMod 32 hi (2 ^ 16) &&& mask))
    else .ok (last ||| hi)

/-- libipt/src/pt_time.c:235-340 `pt_time_update_mtc`. -/
def Time.updateMtc (t : Time) (payload : Nat) (c : TimeCfg) : Time × Res Unit :=
  if t.haveTsc = true ∧ t.haveTma = false then (t, .ok ())
  else
    match shl32 payload c.mtcFreq with
    | .ok ctc =>
      let t' := { t with
        ctcCyc := if t.fc ≠ 0 ∨ t.lostCyc ≠ 0 ∨ t.haveMtc = false then ctc else t.ctcCyc
        haveMtc := true, fc := 0, ctc := ctc, lostCyc := 0 }
      if t.haveMtc = false ∧ t.haveTma = false then (t', .ok ())
      else
        match (if t.haveMtc = false then tmaCtc ctc t.ctc c.mtcFreq else .ok t.ctc) with
        | .err e => (t', .err e)
        | .ub => (t', .ub)
        | .ok last =>
          match ctcDelta ctc last c with
          | .err e => ({ t' with lostMtc := (t'.lostMtc + 1) % 2 ^ 32 }, .err e)
          | .ub => (t', .ub)
          | .ok delta =>
            match ctcFc delta c with
            | .err e => (t', .err e)
            | .ub => (t', .ub)
            | .ok fc =>
              ({ t' with tsc := (t.base + fc) % 2 ^ 64, base := (t.base + fc) % 2 ^ 64 }, .ok ())
    | _ => (t, .ub)

/-- libipt/src/pt_time.c:360-407 `pt_time_adjust_cyc`. -/
def adjustCyc (cyc : Nat) (t : Time) (c : TimeCfg) (fcr : Nat) : Res Nat :=
  if fcr = 0 then .err .internal
  else if t.ctc = t.ctcCyc then .ok cyc
  else
    ctcDelta t.ctc t.ctcCyc c >>= fun delta =>
    ctcFc delta c >>= fun fc =>
    if fcr = 0 then .ub else
    let old := fc * 2 ^ 8 % 2 ^ 64 / fcr
    let total := if cyc < old then old else cyc
    .ok (total - old)

/-- libipt/src/pt_time.c:409-439 `pt_time_update_cyc`. -/
def Time.updateCyc (t : Time) (value : Nat) (c : TimeCfg) (fcr : Nat) : Time × Res Unit :=
  if fcr = 0 then ({ t with lostCyc := (t.lostCyc + 1) % 2 ^ 32 }, .ok ())
  else
    match (if t.fc = 0 then adjustCyc value t c fcr else .ok value) with
    | .ok cyc =>
      let fc := (t.fc + cyc * fcr % 2 ^ 64 / 2 ^ 8) % 2 ^ 64
      ({ t with fc := fc, tsc := (t.base + fc) % 2 ^ 64 }, .ok ())
    | .err e => (t, .err e)
    | .ub => (t, .ub)

/-- `struct pt_time_cal`, libipt/internal/include/pt_time.h:134-173. -/
structure Tcal where
  fcr : Nat := 0
  minFcr : Nat := 2 ^ 64 - 1
  maxFcr : Nat := 0
  tsc : Nat := 0
  cycTsc : Nat := 0
  cycMtc : Nat := 0
  ctc : Nat := 0
  lostMtc : Nat := 0
  haveMtc : Bool := false
  checkSkl168 : Bool := false
deriving DecidableEq, Repr

/-- libipt/src/pt_time.c:451-457 `pt_tcal_have_fcr`. -/
def Tcal.haveFcr (t : Tcal) : Bool := decide (t.minFcr ≤ t.maxFcr)

/-- libipt/src/pt_time.c:459-470 `pt_tcal_fcr`. -/
def Tcal.getFcr (t : Tcal) : Res Nat := if t.haveFcr = false then .err .noTime else .ok t.fcr

/-- libipt/src/pt_time.c:472-486 `pt_tcal_set_fcr`. -/
def Tcal.setFcr (t : Tcal) (fcr : Nat) : Tcal :=
  { t with fcr := fcr, minFcr := if fcr < t.minFcr then fcr else t.minFcr,
           maxFcr := if t.maxFcr < fcr then fcr else t.maxFcr }

/-- libipt/src/pt_time.c:488-498 `pt_tcal_update_psb`. -/
def Tcal.updatePsb (t : Tcal) (c : TimeCfg) : Tcal :=
  if c.skl168 = true then { t with checkSkl168 := true } else t

/-- libipt/src/pt_time.c:500-517 `pt_tcal_update_tsc`. -/
def Tcal.updateTsc (t : Tcal) (tsc : Nat) : Tcal := { t with tsc := tsc, cycTsc := 0 }

/-- libipt/src/pt_time.c:519-566 `pt_tcal_header_tsc`. -/
def Tcal.headerTsc (t : Tcal) (tsc : Nat) : Tcal × Res Unit :=
  let t' := { t with tsc := tsc, cycTsc := 0 }
  if t.tsc = 0 ∨ t.cycTsc = 0 then (t', .ok ())
  else if t.haveMtc = true then (t', .ok ())
  else
    let tsc' := if tsc < t.tsc then (tsc + 2 ^ 56) % 2 ^ 64 else tsc
    if tsc' < t.tsc then (t', .err .badPacket)
    else
      let delta := tsc' - t.tsc
      if delta / 2 ^ 56 ≠ 0 then (t', .err .internal)
      else if t.cycTsc = 0 then (t', .ub)
      else (t'.setFcr (delta * 2 ^ 8 % 2 ^ 64 / t.cycTsc), .ok ())

/-- libipt/src/pt_time.c:580-601 `pt_tcal_header_cbr`. -/
def Tcal.headerCbr (t : Tcal) (ratio : Nat) (c : TimeCfg) : Tcal × Res Unit :=
  if c.nomFreq = 0 then (t, .ok ())
  else if ratio = 0 then (t, .err .badPacket)
  else if ratio = 0 then (t, .ub)
  else (t.setFcr (c.nomFreq * 2 ^ 8 / ratio), .ok ())

/-- libipt/src/pt_time.c:568-578 `pt_tcal_update_cbr`. -/
def Tcal.updateCbr (_t : Tcal) (ratio : Nat) (c : TimeCfg) : Tcal × Res Unit :=
  Tcal.headerCbr {} ratio c

/-- libipt/src/pt_time.c:685-718, inside `pt_tcal_update_mtc`: does the SKL168 work-around skip
this MTC? -/
def Tcal.skl168Skips (t : Tcal) (delta fc cyc : Nat) (c : TimeCfg) : Res Bool :=
  shl1 c.mtcFreq >>= fun one =>
  if one < delta then .ok true
  else if c.mtcFreq < 10 ∧ t.haveFcr = true then
    .ok (decide (t.fcr * ((cyc + 0xf00) % 2 ^ 64) % 2 ^ 64 / 2 ^ 8 < fc))
  else .ok false

/-- libipt/src/pt_time.c:615-728 `pt_tcal_update_mtc`. -/
def Tcal.updateMtc (t : Tcal) (payload : Nat) (c : TimeCfg) : Tcal × Res Unit :=
  let t0 := { t with checkSkl168 := false }
  match shl32 payload c.mtcFreq with
  | .ok ctc =>
    if t.haveMtc = false then ({ t0 with cycMtc := 0, ctc := ctc, haveMtc := true }, .ok ())
    else if t.cycMtc = 0 then (t0, .ok ())
    else
      let t1 := { t0 with haveMtc := true, cycMtc := 0, ctc := ctc, lostMtc := (t.lostMtc + 1) % 2 ^ 32 }
      match ctcDelta ctc t.ctc c with
      | .err e => (t1, .err e)
      | .ub => (t1, .ub)
      | .ok delta =>
        match ctcFc delta c with
        | .err e => (t1, .err e)
        | .ub => (t1, .ub)
        | .ok fc =>
          if fc / 2 ^ 56 ≠ 0 then (t1, .err .internal)
          else if t.cycMtc = 0 then (t1, .ub)
          else
            let fcr := fc * 2 ^ 8 % 2 ^ 64 / t.cycMtc
            match (if t.checkSkl168 = true then t1.skl168Skips delta fc t.cycMtc c else .ok false) with
            | .ok true => (t1, .ok ())
            | .ok false => ({ t1.setFcr fcr with lostMtc := 0 }, .ok ())
            | .err e => (t1, .err e)
            | .ub => (t1, .ub)
  | _ => (t, .ub)

/-- libipt/src/pt_time.c:730-746 `pt_tcal_update_cyc`. -/
def Tcal.updateCyc (t : Tcal) (value : Nat) : Tcal :=
  { t with cycMtc := (t.cycMtc + value) % 2 ^ 64, cycTsc := (t.cycTsc + value) % 2 ^ 64 }

/-- libipt/src/pt_time.c:748-761 `pt_tcal_update_ovf`. -/
def Tcal.updateOvf (t : Tcal) : Tcal :=
  { t with tsc := 0, cycTsc := 0, cycMtc := 0, ctc := 0, haveMtc := false }

end Ipt
