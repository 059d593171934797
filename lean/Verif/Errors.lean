import Verif.Basic

/-!
# Error codes and their descriptions: libipt/src/pt_error.c
-/

namespace Ipt

/-- `enum pt_error_code`, libipt/include/intel-pt.h.in:120-204.  The error of a user's callback can be any number. -/
def Err.code : Err → Nat
  | .internal => 1
  | .invalid => 2
  | .nosync => 3
  | .badOpc => 4
  | .badPacket => 5
  | .badContext => 6
  | .eos => 7
  | .badQuery => 8
  | .nomem => 9
  | .badConfig => 10
  | .noip => 11
  | .ipSuppressed => 12
  | .nomap => 13
  | .badInsn => 14
  | .noTime => 15
  | .noCbr => 16
  | .badImage => 17
  | .badLock => 18
  | .notSupported => 19
  | .retstackEmpty => 20
  | .badRetcomp => 21
  | .badStatusUpdate => 22
  | .noEnable => 23
  | .eventIgnored => 24
  | .overflow => 25
  | .badFile => 26
  | .badCpu => 27
  | .user n => n

/-- The value that a function with this outcome returns; `f` gives the non-negative values. -/
def Res.status {α : Type} (f : α → Nat) : Res α → Option Int
  | .ok a => some (f a)
  | .err e => some (-(e.code : Int))
  | .ub => none

/-- libipt/include/intel-pt.h.in:206-211 `pt_errcode`.  `-status` is undefined for the smallest `int`. -/
def errcode (status : Int) : Res Nat :=
  if 0 ≤ status then .ok 0
  else if status = -2 ^ 31 then .ub
  else .ok (-status).toNat

/-- libipt/src/pt_error.c:33-123 `pt_errstr`. -/
def errstr : Nat → String
  | 0 => "OK"
  | 1 => "internal error"
  | 2 => "invalid argument"
  | 3 => "decoder out of sync"
  | 4 => "unknown opcode"
  | 5 => "unknown packet"
  | 6 => "unexpected packet context"
  | 7 => "reached end of trace stream"
  | 8 => "trace stream does not match query"
  | 9 => "out of memory"
  | 10 => "bad configuration"
  | 11 => "no ip"
  | 12 => "ip has been suppressed"
  | 13 => "no memory mapped at this address"
  | 14 => "unknown instruction"
  | 15 => "no timing information"
  | 16 => "no core:bus ratio"
  | 17 => "bad image"
  | 18 => "locking error"
  | 19 => "not supported"
  | 20 => "compressed return without call"
  | 21 => "bad compressed return"
  | 22 => "bad status update"
  | 23 => "expected tracing enabled event"
  | 24 => "event ignored"
  | 25 => "overflow"
  | 26 => "bad file"
  | 27 => "unknown cpu"
  | _ => "internal error."

end Ipt
