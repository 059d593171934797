import Verif.Basic

/-!
# Last-IP reconstruction: libipt/src/pt_last_ip.c
-/

namespace Ipt

/-- `struct pt_last_ip`, libipt/internal/include/pt_last_ip.h:38-47. -/
structure LastIp where
  ip : Nat := 0
  haveIp : Bool := false
  suppressed : Bool := false
deriving DecidableEq, Repr

/-- libipt/src/pt_last_ip.c:45-65 `pt_last_ip_query` (the IP is only provided on success; the C
code additionally stores zero on the two failures). -/
def LastIp.query (l : LastIp) : Res Nat :=
  if l.haveIp = false then .err .noip
  else if l.suppressed = true then .err .ipSuppressed
  else .ok l.ip

/-- libipt/src/pt_last_ip.c:67-76 `sext`: sign-extend from bit `sign - 1` to 64 bits. -/
def sext (val sign : Nat) : Nat :=
  if val / 2 ^ (sign - 1) % 2 = 1 then val % 2 ^ sign + (2 ^ 64 - 2 ^ sign) else val % 2 ^ sign

/-- libipt/src/pt_last_ip.c:78-129 `pt_last_ip_update_ip`.  The masks `& ~0xffff` and
`| (ip & 0xffff)` are written with division and remainder.  In `sext` the C code keeps the
bits above the sign bit of a negative value and ORs the mask over them, which gives the same
value. -/
def LastIp.update (l : LastIp) (ipc ip : Nat) : LastIp × Res Unit :=
  if ipc = 0 then ({ l with suppressed := true }, .ok ())
  else if ipc = 3 then ({ ip := sext ip 48, haveIp := true, suppressed := false }, .ok ())
  else if ipc = 1 then
    ({ ip := l.ip / 2 ^ 16 * 2 ^ 16 + ip % 2 ^ 16, haveIp := true, suppressed := false }, .ok ())
  else if ipc = 2 then
    ({ ip := l.ip / 2 ^ 32 * 2 ^ 32 + ip % 2 ^ 32, haveIp := true, suppressed := false }, .ok ())
  else if ipc = 4 then
    ({ ip := l.ip / 2 ^ 48 * 2 ^ 48 + ip % 2 ^ 48, haveIp := true, suppressed := false }, .ok ())
  else if ipc = 6 then ({ ip := ip, haveIp := true, suppressed := false }, .ok ())
  else (l, .err .badPacket)

end Ipt
