import Verif.Basic

/-!
# CPU identification strings: libipt/src/pt_cpu.c

`strtol (s, &endptr, 0)` is modelled after ISO C11 7.22.1.4 in the "C" locale, for a 64-bit
`long`.  A C string is the list of its characters without the terminating NUL; reading `*p` at
the end of the list is reading the NUL.
-/

namespace Ipt

/-- `isspace` in the "C" locale. -/
def isCSpace (c : Char) : Bool :=
  c = ' ' || c = '\t' || c = '\n' || c = '\x0b' || c = '\x0c' || c = '\r'

/-- The value of a digit, at most hexadecimal. -/
def digitVal (c : Char) : Nat :=
  if '0' ≤ c ∧ c ≤ '9' then c.toNat - '0'.toNat
  else if 'a' ≤ c ∧ c ≤ 'f' then c.toNat - 'a'.toNat + 10
  else if 'A' ≤ c ∧ c ≤ 'F' then c.toNat - 'A'.toNat + 10
  else 16

/-- Is `c` a digit in base `b`? -/
def isDigitOf (b : Nat) (c : Char) : Bool := decide (digitVal c < b)

/-- The value of a digit sequence. -/
def digitsVal (b : Nat) (l : List Char) : Nat := l.foldl (fun v c => v * b + digitVal c) 0

/-- The subject sequence after white space and sign: base, digits, rest.  A `0x` prefix only
counts if a hexadecimal digit follows. -/
def strtolBody (s : List Char) : Nat × List Char × List Char :=
  match s with
  | '0' :: x :: d :: t =>
    if (x = 'x' ∨ x = 'X') ∧ isDigitOf 16 d = true then
      (16, (d :: t).takeWhile (isDigitOf 16), (d :: t).dropWhile (isDigitOf 16))
    else (8, s.takeWhile (isDigitOf 8), s.dropWhile (isDigitOf 8))
  | '0' :: _ => (8, s.takeWhile (isDigitOf 8), s.dropWhile (isDigitOf 8))
  | _ => (10, s.takeWhile (isDigitOf 10), s.dropWhile (isDigitOf 10))

/-- The optional sign: is it negative, and the rest. -/
def strtolSign (t : List Char) : Bool × List Char :=
  match t with
  | '+' :: t => (false, t)
  | '-' :: t => (true, t)
  | t => (false, t)

/-- ISO C11 7.22.1.4 `strtol (s, &endptr, 0)`: the value, saturated to the range of `long`, and
the string at `endptr` (the unchanged string if there is no conversion). -/
def strtol (s : List Char) : Int × List Char :=
  let (neg, t) := strtolSign (s.dropWhile isCSpace)
  let (b, ds, rest) := strtolBody t
  if ds = [] then (0, s)
  else
    let v : Int := digitsVal b ds
    let v := if neg then -v else v
    (if v > 2 ^ 63 - 1 then 2 ^ 63 - 1 else if v < -2 ^ 63 then -2 ^ 63 else v, rest)

/-- `struct pt_cpu`, libipt/include/intel-pt.h.in:229-241, without the vendor, which
`pt_cpu_parse` sets to `pcv_intel`. -/
structure Cpu where
  family : Nat
  model : Nat
  stepping : Nat
deriving DecidableEq, Repr

/-- libipt/src/pt_cpu.c:38-85 `pt_cpu_parse`.  `s == endptr` compares lengths: `endptr` always
points into the string. -/
def cpuParse (s : List Char) : Res Cpu :=
  let (family, e1) := strtol s
  match e1 with
  | [] => .err .invalid
  | c :: s2 =>
    if e1.length = s.length ∨ c ≠ '/' then .err .invalid
    else if family < 0 ∨ family > 65535 then .err .invalid
    else
      let (model, e2) := strtol s2
      match e2 with
      | [] =>
        if e2.length = s2.length then .err .invalid
        else if model < 0 ∨ model > 255 then .err .invalid
        else .ok ⟨family.toNat, model.toNat, 0⟩
      | c :: s3 =>
        if e2.length = s2.length ∨ c ≠ '/' then .err .invalid
        else if model < 0 ∨ model > 255 then .err .invalid
        else
          let (stepping, e3) := strtol s3
          if e3 ≠ [] then .err .invalid
          else if stepping < 0 ∨ stepping > 255 then .err .invalid
          else .ok ⟨family.toNat, model.toNat, stepping.toNat⟩

end Ipt
