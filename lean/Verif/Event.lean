import Verif.EventQueue
import Verif.LastIp
import Verif.Timing
import Verif.Sync

/-!
# Events and the state of the event decoder
-/

namespace Ipt

/-- The event type and its variant, `enum pt_event_type` and `struct pt_event`,
libipt/include/intel-pt.h.in:1283-1916.  Numbers stand for the unsigned C fields.  The flag
`enabled.resumed` is only set by the higher-level decoders and not modelled.  In the
event decoder, `tick` is the internal marker `ptev_ignore`,
libipt/internal/include/pt_event_decoder.h:118-131. -/
inductive EvData
  | enabled (ip : Nat)
  | disabled (ip : Nat)
  | asyncDisabled (at_ ip : Nat)
  | asyncBranch (from_ to : Nat)
  | paging (cr3 : Nat) (nonRoot : Bool)
  | asyncPaging (cr3 : Nat) (nonRoot : Bool) (ip : Nat)
  | overflow (ip : Nat)
  | execMode (mode : Nat) (ip : Nat)
  | tsx (speculative aborted : Bool) (ip : Nat)
  | stop
  | vmcs (base : Nat)
  | asyncVmcs (base ip : Nat)
  | exstop (ip : Nat)
  | mwait (hints ext ip : Nat)
  | pwre (state subState : Nat) (hw : Bool)
  | pwrx (last deepest : Nat) (interrupt store autonomous : Bool)
  | ptwrite (size payload ip : Nat)
  | tick (ip : Nat)
  | cbr (ratio : Nat)
  | mnt (payload : Nat)
  | tip (ip : Nat)
  | tnt (bits size : Nat)
  | iflags (iflag : Bool) (ip : Nat)
  | interrupt (vector : Nat) (cr2 : Option Nat) (ip : Nat)
  | iret (ip : Nat)
  | smi (ip : Nat)
  | rsm
  | sipi (vector : Nat)
  | init (ip : Nat)
  | vmentry (ip : Nat)
  | vmexit (vector vmxr vmxq : Option Nat) (ip : Nat)
  | shutdown (ip : Nat)
  | uintr (vector ip : Nat)
  | uiret (ip : Nat)
  | trig (trbv icnt : Nat) (mult : Bool) (ip : Nat)
deriving DecidableEq, Repr

/-- `struct pt_event`, libipt/include/intel-pt.h.in:1396-1916.  The default is the zeroed
structure (`ptev_enabled` is the first enumerator). -/
structure Event where
  data : EvData := .enabled 0
  ipSuppressed : Bool := false
  statusUpdate : Bool := false
  hasTsc : Bool := false
  tsc : Nat := 0
  lostMtc : Nat := 0
  lostCyc : Nat := 0
deriving DecidableEq, Repr

instance : Inhabited Event := ⟨{}⟩

/-- `enum pt_event_binding`, libipt/internal/include/pt_event_queue.h:38-46. -/
def evbPsbend : Nat := 1
@[inherit_doc evbPsbend] def evbTip : Nat := 2
@[inherit_doc evbPsbend] def evbFup : Nat := 4
@[inherit_doc evbPsbend] def evbFupBound : Nat := 8
@[inherit_doc evbPsbend] def evbExstop : Nat := 16
@[inherit_doc evbPsbend] def evbCfe : Nat := 32

/-- A `struct pt_event *` into the event queue: its standalone event or a slot. -/
inductive EvPtr
  | alone
  | slot (i : Nat)
deriving DecidableEq, Repr

/-- The configuration of an event decoder: packet layer, address of the trace buffer, timing, and the
two event-layer flags of `struct pt_conf_flags`, libipt/include/intel-pt.h.in:367-440. -/
structure EvtCfg where
  pkt : PktCfg
  base : Nat := 0
  time : TimeCfg := {}
  enableIflags : Bool := false
  keepTcalOnOvf : Bool := false

/-- `struct pt_event_decoder`, libipt/internal/include/pt_event_decoder.h:44-124, without its
configuration.  `status` is `none` for zero. -/
structure Evd where
  pd : PktDec := {}
  packet : Packet := .invalid
  size : Nat := 0
  ip : LastIp := {}
  tm : Timing := {}
  q : Evq Event := {}
  event : Option EvPtr := none
  status : Option Err := some .nosync
  modeValid : Bool := false
  iflag : Bool := false
  csd : Bool := false
  csl : Bool := false
  enabled : Bool := false
  bound : Bool := false

/-- `*ev` -/
def Evd.ev (s : Evd) : EvPtr → Event
  | .alone => s.q.standalone
  | .slot i => s.q.get i

/-- `*ev = ...` -/
def Evd.setEv (s : Evd) (p : EvPtr) (e : Event) : Evd :=
  match p with
  | .alone => { s with q := { s.q with standalone := e } }
  | .slot i => { s with q := s.q.put i e }

/-- Computations on the decoder state.  The state is kept when a function fails. -/
def EM (α : Type) := Evd → Evd × Res α

namespace EM

/-- Sequencing: `errcode = f(); if (errcode < 0) return errcode; ...`. -/
def bind {α β : Type} (m : EM α) (f : α → EM β) : EM β := fun s =>
  match m s with
  | (s', .ok a) => f a s'
  | (s', .err e) => (s', .err e)
  | (s', .ub) => (s', .ub)

instance : Monad EM where
  pure a := fun s => (s, .ok a)
  bind := EM.bind

/-- `return -pte_...;` -/
def fail {α : Type} (e : Err) : EM α := fun s => (s, .err e)

/-- Undefined behaviour, or a loop that does not terminate. -/
def undef {α : Type} : EM α := fun s => (s, .ub)

/-- The decoder state. -/
def get : EM Evd := fun s => (s, .ok s)

/-- Update the decoder state. -/
def modify (f : Evd → Evd) : EM Unit := fun s => (f s, .ok ())

/-- The result of a function that does not change the state. -/
def lift {α : Type} (r : Res α) : EM α := fun s => (s, r)

end EM

end Ipt
