import Verif.Packet

/-!
# Packet encoder

Model of libipt/src/pt_encoder.c.
-/

namespace Ipt

/-- `struct pt_encoder`, libipt/internal/include/pt_encoder.h: the trace buffer and the
current position as an offset into it. -/
structure Enc where
  buf : List UInt8
  pos : Nat
  deriving DecidableEq, Repr

/-- libipt/src/pt_encoder.c:140-160 `pt_reserve`. -/
def encReserve (e : Enc) (size : Nat) : Res Unit :=
  if e.buf.length < e.pos + size then .err .eos else .ok ()

/-- One `*pos++ = byte`: a store outside the buffer is undefined. -/
def encPut (buf : List UInt8) (pos : Nat) (b : Nat) : Res (List UInt8) :=
  if pos < buf.length then .ok (buf.set pos (UInt8.ofNat b)) else .ub

/-- A sequence of `*pos++ = byte` stores followed by `encoder->pos = pos; return pos - begin`
(e.g. libipt/src/pt_encoder.c:265-268).  Stores already made stay in the buffer. -/
def encStore (e : Enc) (n : Nat) : (pos : Nat) → List Nat → Enc × Res Nat
  | pos, [] => ({ e with pos := pos }, .ok n)
  | pos, b :: bs =>
    match encPut e.buf pos b with
    | .ok buf => encStore { e with buf := buf } n (pos + 1) bs
    | .err x => (e, .err x)
    | .ub => (e, .ub)

/-- Reserve `size` bytes, then store `bytes`. -/
def encWrite (e : Enc) (size : Nat) (bytes : List Nat) : Enc × Res Nat :=
  match encReserve e size with
  | .ok () => encStore e bytes.length e.pos bytes
  | .err x => (e, .err x)
  | .ub => (e, .ub)

/-- libipt/src/pt_encoder.c:198-204 `pt_encode_int`: the `n` least significant bytes. -/
def leBytes (v : Nat) : Nat → List Nat
  | 0 => []
  | n + 1 => v % 256 :: leBytes (v / 256) n

/-- libipt/src/pt_encoder.c:166-188 `pt_ipc_size`. -/
def encIpcSize (ipc : Nat) : Res Nat :=
  if ipc = 0 then .ok 0
  else if ipc = 1 then .ok 2
  else if ipc = 2 then .ok 4
  else if ipc = 4 then .ok 6
  else if ipc = 3 then .ok 6
  else if ipc = 6 then .ok 8
  else .err .invalid

/-- libipt/src/pt_encoder.c:217-246 `pt_encode_ip`.  `opc | (ipc << 5)`: the opcodes only use
the low five bits, so the model adds. -/
def encIp (e : Enc) (opc ipc ip : Nat) : Enc × Res Nat :=
  match encIpcSize ipc with
  | .ok size => encWrite e (1 + size) ((opc + ipc * 32) % 256 :: leBytes ip size)
  | .err x => (e, .err x)
  | .ub => (e, .ub)

/-- A Boolean as a bit. -/
def bit (b : Bool) : Nat := if b then 1 else 0

/-- The loop over the extension bytes of a CYC packet, libipt/src/pt_encoder.c:507-521.
`room` is the number of bytes left in the local array.  `byte |= 1` is modelled by adding
one: the byte is even. -/
def cycExt : (room ctc : Nat) → Res (List Nat)
  | 0, ctc => if ctc = 0 then .ok [] else .err .badPacket
  | room + 1, ctc =>
    if ctc = 0 then .ok []
    else
      let shl := ctc * 2 % 2 ^ 64
      let rest := shl / 256
      let byte := shl % 256 + (if rest ≠ 0 then 1 else 0)
      cycExt room rest >>= fun bs => .ok (byte :: bs)

/-- libipt/src/pt_encoder.c:492-506: the first CYC byte: opcode, five value bits, extension
flag. -/
def cycFirst (v : Nat) : Nat :=
  3 + v % 256 * 8 % 256 + (if v / 32 ≠ 0 then 4 else 0)

/-- libipt/src/pt_encoder.c:250-750 `pt_enc_next`.  Field values are the C unsigned values.
Byte-wise ORs of disjoint bits are modelled by additions. -/
def encNext (e : Enc) (p : Packet) : Enc × Res Nat :=
  match p with
  | .pad => encWrite e 1 [0x00]
  | .psb =>
    -- pt_psb_hilo = 0x8202 four times, little endian, twice
    encWrite e 16 (leBytes 0x8202820282028202 8 ++ leBytes 0x8202820282028202 8)
  | .psbend => encWrite e 2 [0x02, 0x23]
  | .ovf => encWrite e 2 [0x02, 0xf3]
  | .fup ipc ip => encIp e 0x1d ipc ip
  | .tip ipc ip => encIp e 0x0d ipc ip
  | .tipPge ipc ip => encIp e 0x11 ipc ip
  | .tipPgd ipc ip => encIp e 0x01 ipc ip
  | .tnt8 bs pl =>
    if 7 ≤ bs then (e, .err .badPacket)
    else encWrite e 1 [(pl * 2 % 256 ||| 2 ^ (bs + 1)) % 256]
  | .tnt64 bs pl =>
    match encReserve e 8 with
    | .ok () =>
      if 48 ≤ bs then (e, .err .invalid)
      else if pl / 2 ^ bs ≠ 0 then (e, .err .invalid)
      else encWrite e 8 (0x02 :: 0xa3 :: leBytes (pl + 2 ^ bs) 6)
    | .err x => (e, .err x)
    | .ub => (e, .ub)
  | .modeExec csl csd iflag =>
    encWrite e 2 [0x99, bit csl + 2 * bit csd + 4 * bit iflag]
  | .modeTsx intx abrt => encWrite e 2 [0x99, 0x20 + bit intx + 2 * bit abrt]
  | .modeOther _ =>
    match encReserve e 2 with
    | .ok () => (e, .err .badPacket)
    | .err x => (e, .err x)
    | .ub => (e, .ub)
  | .pip cr3 nr =>
    encWrite e 8 (0x02 :: 0x43 :: leBytes (cr3 / 32 * 2 + bit nr) 6)
  | .tsc v => encWrite e 8 (0x19 :: leBytes v 7)
  | .cbr r => encWrite e 4 [0x02, 0x03, r, 0]
  | .tma ctc fc =>
    match encReserve e 7 with
    | .ok () =>
      if fc / 512 ≠ 0 then (e, .err .badPacket)
      else encWrite e 7 (0x02 :: 0x73 :: (leBytes ctc 2 ++ 0 :: leBytes fc 2))
    | .err x => (e, .err x)
    | .ub => (e, .ub)
  | .mtc ctc => encWrite e 2 [0x59, ctc]
  | .cyc v =>
    match cycExt 14 (v / 32) with
    | .ok bs => encWrite e (1 + bs.length) (cycFirst v :: bs)
    | .err x => (e, .err x)
    | .ub => (e, .ub)
  | .stop => encWrite e 2 [0x02, 0x83]
  | .vmcs base => encWrite e 7 (0x02 :: 0xc8 :: leBytes (base / 4096) 5)
  | .mnt v => encWrite e 11 (0x02 :: 0xc3 :: 0x88 :: leBytes v 8)
  | .exstop ip => encWrite e 2 [0x02, if ip then 0xe2 else 0x62]
  | .mwait hints ext => encWrite e 10 (0x02 :: 0xc2 :: (leBytes hints 4 ++ leBytes ext 4))
  | .pwre state sub hw =>
    encWrite e 4 (0x02 :: 0x22 :: leBytes (state % 16 * 4096 + sub % 16 * 256 + 8 * bit hw) 2)
  | .pwrx last deepest int store hw =>
    encWrite e 7 (0x02 :: 0xa2 :: leBytes (last % 16 * 16 + deepest % 16 + 256 * bit int
      + 1024 * bit store + 2048 * bit hw) 5)
  | .ptw pl plc ip =>
    match ptwSize plc with
    | .ok size =>
      encWrite e (2 + size) (0x02 :: (0x12 + plc * 32 + 128 * bit ip) :: leBytes pl size)
    | .err x => (e, .err x)
    | .ub => (e, .ub)
  | .cfe type vector ip => encWrite e 4 [0x02, 0x13, type % 32 + 128 * bit ip, vector]
  | .evd type pl => encWrite e 11 (0x02 :: 0x53 :: type % 32 :: leBytes pl 8)
  | .trig trbv icnt ip mult =>
    match icnt with
    | some n =>
      encWrite e 5 (0xd9 :: (128 * bit ip + 64 + 32 * bit mult) :: trbv :: leBytes n 2)
    | none => encWrite e 3 [0xd9, 128 * bit ip + 32 * bit mult, trbv]
  | .unknown => (e, .err .badOpc)
  | .invalid => (e, .err .badOpc)

/-- libipt/src/pt_encoder.c:86-103 `pt_enc_sync_set`. -/
def encSyncSet (e : Enc) (offset : Nat) : Enc × Res Unit :=
  if e.buf.length < offset then (e, .err .eos) else ({ e with pos := offset }, .ok ())

end Ipt
