import Verif.Ild
import Verif.Image

/-!
# Instruction decode and flow helpers

Models libipt/src/pt_insn.c.  Reading memory (`pt_image_read` or anything that takes its place) is
a parameter, a `MemReader` with a state: `Verif.Image` models the one the library uses.

Simplifications: the checks for NULL arguments are left out.
-/

namespace Ipt

open Ild

/-- Reading up to `size` bytes at an address: the section identifier and the bytes
(libipt/internal/include/pt_image.h:133-147 `pt_image_read`, for a fixed address space).  The
returned number of bytes is the length of the list. -/
abbrev MemReader (σ : Type) := σ → (size addr : Nat) → σ × Res (Nat × List UInt8)

/-- libipt/src/pt_image.c:555-603 `pt_image_read` as a reader.  The state is the image and the
results of mapping sections in the reads to come; when there are no more, mapping succeeds. -/
def imgReader (env : SecEnv) (cb : ReadCb) (asid : Asid) : MemReader (Img × List (Res Unit)) :=
  fun s size addr =>
    let r := imageRead env cb (s.2.headD (.ok ())) s.1 size asid addr
    ((r.1, s.2.tail), r.2)

/-- `struct pt_insn`, libipt/include/intel-pt.h.in:2564-2599, with the `struct pt_insn_ext` that
is filled in together with it; only the fields pt_insn.c works on. -/
structure Insn where
  ip : Nat
  mode : Mode
  isid : Nat := 0
  raw : List UInt8 := List.replicate 15 0
  size : Nat := 0
  truncated : Bool := false
  ext : Iext := {}
deriving DecidableEq, Repr

/-- libipt/src/pt_insn.c:80-102 `pt_insn_is_branch`. -/
def isBranch (x : Iext) : Bool :=
  match x.cls with
  | .call | .return | .jump | .condJump | .farCall | .farReturn | .farJump | .indirect => true
  | _ => false

/-- libipt/src/pt_insn.c:104-121 `pt_insn_is_far_branch`. -/
def isFarBranch (x : Iext) : Bool :=
  match x.cls with
  | .farCall | .farReturn | .farJump => true
  | _ => false

/-- libipt/src/pt_insn.c:38-61 `pt_insn_changes_cpl`. -/
def changesCpl (x : Iext) : Bool :=
  match x.inst with
  | .int | .int3 | .int1 | .into | .iret | .syscall | .sysenter | .sysexit | .sysret => true
  | _ => false

/-- libipt/src/pt_insn.c:63-78 `pt_insn_changes_cr3`. -/
def changesCr3 (x : Iext) : Bool := x.inst == .movCr3

/-- libipt/src/pt_insn.c:123-138 `pt_insn_binds_to_pip`. -/
def bindsToPip (x : Iext) : Bool :=
  match x.inst with
  | .movCr3 | .vmlaunch | .vmresume => true
  | _ => isFarBranch x

/-- libipt/src/pt_insn.c:140-155 `pt_insn_binds_to_vmcs`. -/
def bindsToVmcs (x : Iext) : Bool :=
  match x.inst with
  | .vmptrld | .vmlaunch | .vmresume => true
  | _ => isFarBranch x

/-- libipt/src/pt_insn.c:157-172 `pt_insn_is_ptwrite`. -/
def isPtwrite (x : Iext) : Bool := x.cls == .ptwrite

/-- libipt/src/pt_insn.c:174-193 `pt_insn_is_iret`. -/
def isIret (x : Iext) : Bool :=
  match x.inst with
  | .iret | .sysret | .sysexit | .erets | .eretu => true
  | _ => false

/-- libipt/src/pt_insn.c:195-211 `pt_insn_is_vmentry`. -/
def isVmentry (x : Iext) : Bool :=
  match x.inst with
  | .vmlaunch | .vmresume => true
  | _ => false

/-- libipt/src/pt_insn.c:213-228 `pt_insn_is_uiret`. -/
def isUiret (x : Iext) : Bool := x.inst == .uiret

/-- `ip + (uint64_t) displacement` on `uint64_t`. -/
def addDisp (ip : Nat) (d : Int) : Nat := (((ip : Int) + d) % 2 ^ 64).toNat

/-- libipt/src/pt_insn.c:230-269 `pt_insn_next_ip`. -/
def nextIp (i : Insn) : Res Nat :=
  let ip := (i.ip + i.size) % 2 ^ 64
  match i.ext.cls with
  | .ptwrite | .other => .ok ip
  | .jump =>
    if i.ext.inst = .jmpabs then .err .badQuery
    else if i.ext.isDirect then .ok (addDisp ip i.ext.displacement)
    else .err .badQuery
  | .call => if i.ext.isDirect then .ok (addDisp ip i.ext.displacement) else .err .badQuery
  | .unknown => .err .badInsn
  | _ => .err .badQuery

/-- Storing the bytes `bs` at `pos` into the array `raw`.  A store behind the end of the array is
undefined behaviour. -/
def store (raw : List UInt8) (pos : Nat) (bs : List UInt8) : Res (List UInt8) :=
  if raw.length < pos + bs.length then .ub
  else .ok (raw.take pos ++ bs ++ raw.drop (pos + bs.length))

/-- libipt/src/pt_insn.c:289-369 `pt_insn_decode_retry`.  The recursion is bounded by `fuel`;
running out of fuel counts as undefined behaviour.  `truncated` is set on the way back, which is
the same as setting it on success. -/
def insnRetry {σ} (rdr : MemReader σ) : Nat → σ → Insn → σ × Res Insn
  | 0, s, _ => (s, .ub)
  | fuel + 1, s, i =>
    let remaining := 15 - i.size
    if remaining = 0 then (s, .err .badInsn)
    else
      match rdr s remaining ((i.ip + i.size) % 2 ^ 64) with
      | (s, .err .nomap) => (s, .err .badInsn)
      | (s, .err e) => (s, .err e)
      | (s, .ub) => (s, .ub)
      | (s, .ok (_, bs)) =>
        if bs.length = 0 then (s, .err .internal)
        else
          match store i.raw i.size bs with
          | .ok raw =>
            let size := i.size + bs.length
            match ildDecode raw size i.mode with
            | (n, .ok x) => (s, .ok { i with raw, size := n, truncated := true, ext := x })
            | (n, .err .badInsn) =>
              if n ≠ size then (s, .err .badInsn)
              else insnRetry rdr fuel s { i with raw, size := n }
            | (_, .err e) => (s, .err e)
            | (_, .ub) => (s, .ub)
          | _ => (s, .ub)

/-- libipt/src/pt_insn.c:371-405 `pt_insn_decode`. -/
def insnDecode {σ} (rdr : MemReader σ) (s : σ) (i : Insn) : σ × Res Insn :=
  match rdr s 15 i.ip with
  | (s, .err e) => (s, .err e)
  | (s, .ub) => (s, .ub)
  | (s, .ok (isid, bs)) =>
    match store i.raw 0 bs with
    | .ok raw =>
      let size := bs.length
      match ildDecode raw size i.mode with
      | (n, .ok x) => (s, .ok { i with isid, raw, size := n, ext := x })
      | (n, .err .badInsn) =>
        if n ≠ size then (s, .err .badInsn)
        else insnRetry rdr 16 s { i with isid, raw, size := n }
      | (_, .err e) => (s, .err e)
      | (_, .ub) => (s, .ub)
    | _ => (s, .ub)

/-- libipt/src/pt_insn.c:407-435 `pt_insn_range_is_contiguous`: `some true`/`some false` for the
results 1 and 0. -/
def rangeContiguous {σ} (rdr : MemReader σ) (end_ : Nat) : Nat → σ → Insn → σ × Res Bool
  | steps, s, i =>
    if i.ip = end_ then (s, .ok true)
    else
      match steps with
      | 0 => (s, .ok false)
      | steps + 1 =>
        match insnDecode rdr s i with
        | (s, .ok i) =>
          match nextIp i with
          | .ok ip => rangeContiguous rdr end_ steps s { i with ip }
          | .err e => (s, .err e)
          | .ub => (s, .ub)
        | (s, .err e) => (s, .err e)
        | (s, .ub) => (s, .ub)

/-- libipt/src/pt_insn_decoder.c:1563-1608 `pt_insn_decode_cached`. -/
def insnDecodeCached {σ} (env : SecEnv) (rdr : MemReader σ) (msec : Option Msec) (s : σ) (i : Insn) :
    σ × Res Insn :=
  match msec with
  | none => insnDecode rdr s i
  | some m =>
    match m.read env 15 i.ip with
    | .err .nomap => insnDecode rdr s i
    | .err e => (s, .err e)
    | .ub => (s, .ub)
    | .ok bs =>
      match store i.raw 0 bs with
      | .ok raw =>
        match ildDecode raw bs.length i.mode with
        | (n, .ok x) => (s, .ok { i with raw, size := n, ext := x })
        | (n, .err .badInsn) => insnDecode rdr s { i with raw, size := n }
        | (_, .err e) => (s, .err e)
        | (_, .ub) => (s, .ub)
      | _ => (s, .ub)

end Ipt
