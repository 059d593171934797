import Verif.Config
import Verif.BlockDecoder

/-!
# Creating decoders: the `*_decoder_init` functions and `*_get_config`

The configuration of the user is a sequence of bytes, as in `Verif/Config.lean`.  The offsets and sizes below are
those of a 64-bit target (LP64, bit-fields allocated from the lowest bit).
-/

namespace Ipt

/-- `sizeof (struct pt_config)`, libipt/include/intel-pt.h.in:484-553. -/
def confSize : Nat := 280

/-- `offsetof (struct pt_config, flags)`. -/
def flagsOff : Nat := 124

/-- `sizeof (struct pt_conf_flags)`, libipt/include/intel-pt.h.in:366-443. -/
def flagsSize : Nat := 16

/-- Byte `i` of an object; zero behind its end. -/
def byteAt (c : List UInt8) (i : Nat) : Nat := (c[i]?.getD 0).toNat

/-- Bit-field number `k` (of width one) in the group of bit-fields that begins at byte `i`. -/
def bitAt (g : Nat → Nat) (i k : Nat) : Bool := (g (i + k / 8)).testBit (k % 8)

/-- The number in the `n` bytes from byte `i`, the lowest first. -/
def numAt (g : Nat → Nat) (i : Nat) : Nat → Nat
  | 0 => 0
  | n + 1 => g i + 256 * numAt g (i + 1) n

/-- `config.errata`, libipt/include/intel-pt.h.in:244-364, at offset 48. -/
def errataAt (g : Nat → Nat) : Errata where
  bdm70 := bitAt g 48 0
  bdm64 := bitAt g 48 1
  skd007 := bitAt g 48 2
  skd022 := bitAt g 48 3
  skd010 := bitAt g 48 4
  skl014 := bitAt g 48 5
  apl12 := bitAt g 48 6
  apl11 := bitAt g 48 7
  skl168 := bitAt g 48 8
  skz84 := bitAt g 48 9

/-- The fields of the configuration that the time functions use, libipt/include/intel-pt.h.in:520-546. -/
def timeAt (g : Nat → Nat) : TimeCfg where
  eax := numAt g 112 4
  ebx := numAt g 116 4
  mtcFreq := g 120
  nomFreq := g 121
  skl168 := bitAt g 48 8

/-- `config.addr_filter`, libipt/include/intel-pt.h.in:446-479, at offset 144. -/
def filterAt (g : Nat → Nat) : AddrFilter := ⟨numAt g 144 8, (List.range 16).map fun n => numAt g (152 + 8 * n) 8⟩

/-- What the pointers in a configuration stand for: the contents of the trace buffer from `begin` to `end`, and the
callback for unknown packets with its context. -/
structure Pointers where
  trace : Nat → Nat → List UInt8
  callback : Nat → Nat → Option (Nat → Int)

/-- The configuration of an event decoder in a `struct pt_config`, with the flags. -/
def evtCfgAt (w : Pointers) (g : Nat → Nat) (keepTcal iflags : Bool) : EvtCfg where
  pkt := { mem := w.trace (numAt g 8 8) (numAt g 16 8), errata := errataAt g,
           cb := w.callback (numAt g 24 8) (numAt g 32 8) }
  base := numAt g 8 8
  time := timeAt g
  enableIflags := iflags
  keepTcalOnOvf := keepTcal

/-- The flags at the beginning of a `struct pt_conf_flags` that is otherwise zero. -/
def flagBytes (b0 b1 : Bool) : List UInt8 :=
  UInt8.ofNat (b0.toNat + 2 * b1.toNat) :: List.replicate (flagsSize - 1) 0

/-- libipt/src/pt_event_decoder.c:42-51 `pt_evt_init_pkt_flags`. -/
def evtInitPktFlags (_ : List UInt8) : List UInt8 := List.replicate flagsSize 0

/-- libipt/src/pt_query_decoder.c:45-58 `pt_qry_init_evt_flags`: from `variant.query`, where `keep_tcal_on_ovf` and
`enable_iflags_events` are bits 0 and 1, to `variant.event`, where they are bits 0 and 1. -/
def qryInitEvtFlags (f : List UInt8) : List UInt8 := flagBytes (bitAt (byteAt f) 0 0) (bitAt (byteAt f) 0 1)

/-- libipt/src/pt_insn_decoder.c:100-113 `pt_insn_init_qry_flags`: from `variant.insn`, where `enable_tick_events`,
`keep_tcal_on_ovf` and `enable_iflags_events` are bits 0, 1 and 2. -/
def insnInitQryFlags (f : List UInt8) : List UInt8 := flagBytes (bitAt (byteAt f) 0 1) (bitAt (byteAt f) 0 2)

/-- libipt/src/pt_block_decoder.c:216-229 `pt_blk_init_evt_flags`: from `variant.block`, where `end_on_call`,
`enable_tick_events`, `end_on_jump`, `keep_tcal_on_ovf` and `enable_iflags_events` are bits 0 to 4. -/
def blkInitEvtFlags (f : List UInt8) : List UInt8 := flagBytes (bitAt (byteAt f) 0 3) (bitAt (byteAt f) 0 4)

/-- The common begin of the functions below: `pt_config_from_user (&config, uconfig)`, `decoder->flags =
config.flags`, and replacing `config.flags`.  `frame` is the uninitialized variable `config`.  The result is
`decoder->flags` and `config`. -/
def importFlags (init : List UInt8 → List UInt8) (frame : List UInt8) (user : Option (List UInt8)) :
    Res (List UInt8 × List UInt8) :=
  configFromUser confSize frame user >>= fun config =>
  let flags := (config.drop flagsOff).take flagsSize
  memcpy config flagsOff (init flags) flagsSize >>= fun config =>
  .ok (flags, config)

/-- libipt/src/pt_packet_decoder.c:40-56 `pt_pkt_decoder_init`: the configuration of the packet decoder.  Its other
fields are zero: `PktDec`'s default. -/
def pktDecoderInit (user : Option (List UInt8)) : Res (List UInt8) :=
  configFromUser confSize (List.replicate confSize 0) user

/-- An event decoder: its flags, the configuration in its packet decoder, and its state. -/
structure EvtObj where
  flags : List UInt8
  config : List UInt8
  st : Evd

/-- The configuration that the model of the event decoder has as an argument: the code uses `decoder->flags` for
`enable_iflags_events` and `keep_tcal_on_ovf` (libipt/src/pt_event_decoder.c:692, 717, 782, 2781), and
`pt_evt_config`, that is, the configuration of the packet decoder, for everything else. -/
def EvtObj.cfg (w : Pointers) (d : EvtObj) : EvtCfg :=
  evtCfgAt w (byteAt d.config) (bitAt (byteAt d.flags) 0 0) (bitAt (byteAt d.flags) 0 1)

/-- libipt/src/pt_event_decoder.c:71-97 `pt_evt_decoder_init`.  `mem` is what the uninitialized memory of the decoder
looks like; `frames` are the uninitialized variables `config` in this function and its callers. -/
def evtDecoderInit (frames : Nat → List UInt8) (mem : Evd) (user : Option (List UInt8)) : Res EvtObj :=
  importFlags evtInitPktFlags (frames 0) user >>= fun p =>
  pktDecoderInit (some p.2) >>= fun config =>
  .ok ⟨p.1, config, evtReset { mem with pd := {} }⟩

/-- A query decoder: its flags, and its event decoder; `st` includes the state of the event decoder. -/
structure QryObj where
  flags : List UInt8
  evdec : EvtObj
  st : Qdec

/-- libipt/src/pt_query_decoder.c:72-98 `pt_qry_decoder_init`. -/
def qryDecoderInit (frames : Nat → List UInt8) (mem : Qdec) (user : Option (List UInt8)) : Res QryObj :=
  importFlags qryInitEvtFlags (frames 1) user >>= fun p =>
  evtDecoderInit frames mem.ev (some p.2) >>= fun evdec =>
  .ok ⟨p.1, evdec, qryReset { mem with ev := evdec.st }⟩

/-- An instruction flow decoder: its flags and its query decoder. -/
structure InsnObj where
  flags : List UInt8
  query : QryObj
  st : Idec

/-- The configuration that the model of the instruction flow decoder has as an argument: the code uses
`decoder->flags` for `enable_tick_events` (libipt/src/pt_insn_decoder.c:276, 300). -/
def InsnObj.cfg (w : Pointers) (env : SecEnv) (cb : ReadCb) (d : InsnObj) : InsnCfg where
  evt := d.query.evdec.cfg w
  filter := filterAt (byteAt d.query.evdec.config)
  tick := bitAt (byteAt d.flags) 0 0
  env := env
  cb := cb

/-- libipt/src/pt_insn_decoder.c:115-150 `pt_insn_decoder_init`.  The default image is empty, as is the section
cache. -/
def insnDecoderInit (frames : Nat → List UInt8) (mem : Idec) (user : Option (List UInt8)) : Res InsnObj :=
  importFlags insnInitQryFlags (frames 2) user >>= fun p =>
  qryDecoderInit frames mem.q (some p.2) >>= fun query =>
  .ok ⟨p.1, query, insnReset { mem with q := query.st, sc := { mem.sc with cache := none, img := ⟨[], fun _ => 0⟩ } }⟩

/-- A block decoder: its flags and its event decoder. -/
structure BlkObj where
  flags : List UInt8
  evdec : EvtObj
  st : Bdec

/-- The configuration that the model of the block decoder has as an argument: the code uses `decoder->flags` for
`end_on_call`, `enable_tick_events` and `end_on_jump` (libipt/src/pt_block_decoder.c:315, 1007, 1009). -/
def BlkObj.cfg (w : Pointers) (env : SecEnv) (cb : ReadCb) (d : BlkObj) : BlkCfg where
  evt := d.evdec.cfg w
  filter := filterAt (byteAt d.evdec.config)
  tick := bitAt (byteAt d.flags) 0 1
  env := env
  cb := cb
  endOnCall := bitAt (byteAt d.flags) 0 0
  endOnJump := bitAt (byteAt d.flags) 0 2

/-- libipt/src/pt_block_decoder.c:231-266 `pt_blk_decoder_init`. -/
def blkDecoderInit (frames : Nat → List UInt8) (mem : Bdec) (user : Option (List UInt8)) : Res BlkObj :=
  importFlags blkInitEvtFlags (frames 1) user >>= fun p =>
  evtDecoderInit frames mem.ev (some p.2) >>= fun evdec =>
  .ok ⟨p.1, evdec, blkReset { mem with ev := evdec.st, sc := { mem.sc with cache := none, img := ⟨[], fun _ => 0⟩ } }⟩

/-- `pt_evt_alloc_decoder`, libipt/src/pt_event_decoder.c:107-123, and `pt_pkt_alloc_decoder`,
`pt_qry_alloc_decoder`, `pt_insn_alloc_decoder`, `pt_blk_alloc_decoder`, which are the same: `none` is NULL.  `mem` is
the memory that `malloc` provides. -/
def allocDecoder {μ α : Type} (init : μ → Res α) (mem : Option μ) : Res (Option α) :=
  match mem with
  | none => .ok none
  | some m =>
    match init m with
    | .ok d => .ok (some d)
    | .err _ => .ok none
    | .ub => .ub

/-- libipt/src/pt_event_decoder.c:1568-1574 `pt_evt_get_config`: the configuration of the packet decoder. -/
def EvtObj.getConfig (d : EvtObj) : List UInt8 := d.config

/-- libipt/src/pt_query_decoder.c:392-399 `pt_qry_get_config`. -/
def QryObj.getConfig (d : QryObj) : List UInt8 := d.evdec.getConfig

/-- libipt/src/pt_insn_decoder.c:415-419 `pt_insn_get_config`. -/
def InsnObj.getConfig (d : InsnObj) : List UInt8 := d.query.getConfig

/-- libipt/src/pt_block_decoder.c:622-629 `pt_blk_get_config`. -/
def BlkObj.getConfig (d : BlkObj) : List UInt8 := d.evdec.getConfig

end Ipt
