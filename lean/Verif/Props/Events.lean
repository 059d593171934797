import Verif.EventsSync
import Verif.Props.Query

/-!
# C66: the events are what the packets stand for

`Verif/Spec/Events.lean` says which events a list of packets stands for.
-/

namespace Ipt.Props

open Ipt Spec

/-- C66: after every successful synchronization, whatever happened before, the event decoder delivers one after the other the
events that the packets stand for, starting with the PSB at the synchronization point: all of them, no others, in this order,
with address, time and all other fields.  It then reports an error; unless there was a packet that must not occur, this is
the one with which the packets end (`pte_eos` at the end of the trace buffer). -/
theorem C66_events_follow_packets (c : EvtCfg) (hu : Usable c)
    (o : EvtCall) (s d : Evd) (h : o.run c s = (d, .ok none)) :
    ∃ off k rest fin, (∀ x, o = .syncSet x → off = x) ∧
      PacketsFrom c.pkt off (List.replicate k .pad ++ .psb :: rest) fin ∧
      ∃ x, Fails c d (traceOf c fin (List.replicate k .pad ++ .psb :: rest)).1 x ∧
        ((traceOf c fin (List.replicate k .pad ++ .psb :: rest)).2 = true → x = fin) := by
  obtain ⟨off, k, rest, fin, k1, k2, k3, k4, k5⟩ := Events.run_sync_trace hu.cb h
  exact ⟨off, k, rest, fin, k1, k2, Events.run_todo hu _ d _ k3 k4 k5⟩

/-- The packets from an offset on, and the error after them, are unique. -/
theorem packetsFrom_unique {c : PktCfg} {off : Nat} {ps qs : List Packet} {e f : Err} (h : PacketsFrom c off ps e)
    (k : PacketsFrom c off qs f) : ps = qs ∧ e = f := by
  obtain ⟨d, d', h1, h2⟩ := h
  obtain ⟨b, b', k1, k2⟩ := k
  revert qs h2
  generalize (⟨some off, some off⟩ : PktDec) = z at h1
  induction h1 with
  | nil z =>
    intro qs h2 k1
    cases k1 with
    | nil => rw [h2] at k2; injection k2 with _ k2; injection k2 with k2; exact ⟨rfl, k2⟩
    | cons _ _ _ _ _ _ k3 _ => rw [h2] at k3; injection k3 with _ k3; cases k3
  | cons z z1 z' p n ps h3 _ ih =>
    intro qs h2 k1
    cases k1 with
    | nil => rw [k2] at h3; injection h3 with _ h3; cases h3
    | cons _ _ _ _ _ _ k3 k4 =>
      rw [h3] at k3
      injection k3 with k5 k6
      injection k6 with k6
      injection k6 with k6 _
      subst k5 k6
      obtain ⟨r1, r2⟩ := ih h2 k4
      exact ⟨by rw [r1], r2⟩

/-- C66 for `pt_evt_sync_set`: the packets are the ones at the given offset. -/
theorem C66_events_from_offset (c : EvtCfg) (hu : Usable c)
    (off : Nat) (s d : Evd) (h : EvtCall.run c (.syncSet off) s = (d, .ok none))
    (ps : List Packet) (fin : Err) (hp : PacketsFrom c.pkt off ps fin) :
    ∃ x, Fails c d (traceOf c fin ps).1 x ∧ ((traceOf c fin ps).2 = true → x = fin) := by
  obtain ⟨off', k, rest, fin', k1, k2, k3⟩ := C66_events_follow_packets c hu _ s d h
  rw [k1 off rfl] at k2
  obtain ⟨rfl, rfl⟩ := packetsFrom_unique hp k2
  exact k3

/-- C66 for the query decoder: users that do not ask for the target of an indirect branch when the next item is the outcome of
a conditional branch get the branches and events that the packets stand for, in this order. -/
theorem C66_queries_follow_packets (c : EvtCfg) (hu : Usable c)
    (d : Evd) (s : Qdec) (hs : Synchronized c d s) :
    ∃ off k rest fin, PacketsFrom c.pkt off (List.replicate k .pad ++ .psb :: rest) fin ∧
      ∀ qs, Orderly c d s qs →
        handed c qs s <+: (traceOf c fin (List.replicate k .pad ++ .psb :: rest)).1.flatMap items := by
  obtain ⟨_, o, _, _, _, ⟨d0, hd, _⟩, _⟩ := id hs
  obtain ⟨off, k, rest, fin, _, k2, x, k3, _⟩ := C66_events_follow_packets c hu _ d0 d hd
  refine ⟨off, k, rest, fin, k2, fun qs ho => ?_⟩
  obtain ⟨es, bits, h6, h7⟩ := C37_in_order_partial hu hs qs ho
  obtain ⟨l, hl⟩ := k3.longest h6
  rw [← hl, List.flatMap_append, ← h7, List.append_assoc]
  exact List.prefix_append _ _

/-- After PSB; FUP; PSBEND: TNT; MODE.EXEC; TIP; FUP; VMCS; PIP; TIP; MWAIT; EXSTOP with IP; FUP; MODE.TSX; FUP; OVF; FUP;
TIP.PGD. -/
def eventTrace : List UInt8 :=
  [6, 0x99, 2, 0x2d, 0x20, 0x80, 0x3d, 5, 0, 2, 0xc8, 7, 0, 0, 0, 0, 2, 0x43, 2, 0, 0, 0, 0, 0, 0x2d, 0x30, 0,
   2, 0xc2, 1, 0, 0, 0, 0, 0, 0, 0, 2, 0xe2, 0x3d, 0x34, 0, 0x99, 0x21, 0x3d, 0x38, 0, 2, 0xf3, 0x3d, 7, 7, 0x21, 9, 9]

/-- Its packets. -/
def eventPackets : List Packet :=
  [.psb, .fup 3 0x7001, .psbend, .tnt8 1 1, .modeExec false true false, .tip 1 0x8020, .fup 1 5, .vmcs 0x7000, .pip 0x20 false,
   .tip 1 0x30, .mwait 1 0, .exstop true, .fup 1 0x34, .modeTsx true false, .fup 1 0x38, .ovf, .fup 1 0x707, .tipPgd 1 0x909]

/-- The events that they stand for. -/
def eventsThere : List Event :=
  [{ data := .enabled 0x7001, statusUpdate := true }, { data := .tnt 1 1 }, { data := .tip 0x8020 },
   { data := .execMode 2 0x8020 }, { data := .asyncBranch 5 0x30 }, { data := .asyncVmcs 0x7000 0x30 },
   { data := .asyncPaging 0x20 false 0x30 }, { data := .mwait 1 0 0x34 }, { data := .exstop 0x34 }, { data := .tsx true false 0x38 },
   { data := .overflow 0x707 }, { data := .disabled 0x909 }]

/-- Read at most `n` packets. -/
def packetsAt (c : PktCfg) : Nat → PktDec → Option (List Packet × Err)
  | 0, _ => none
  | n + 1, d =>
    match pktDecNext c d with
    | (d', .ok (p, _)) => (packetsAt c n d').map fun x => (p :: x.1, x.2)
    | (_, .err e) => some ([], e)
    | _ => none

theorem packetsAt_reads {c : PktCfg} : ∀ (n : Nat) (d : PktDec) (ps : List Packet) (e : Err), packetsAt c n d = some (ps, e) →
    ∃ b b', Reads c d ps b ∧ pktDecNext c b = (b', .err e) := by
  intro n
  induction n with
  | zero => intro _ _ _ h; cases h
  | succ n ih =>
    intro d ps e h
    unfold packetsAt at h
    rcases hx : pktDecNext c d with ⟨d1, ⟨p, k⟩ | x | _⟩ <;> rw [hx] at h
    · dsimp only at h
      rcases hy : packetsAt c n d1 with _ | ⟨qs, f⟩ <;> rw [hy] at h
      · cases h
      · obtain ⟨b, b', h1, h2⟩ := ih _ _ _ hy
        cases h
        exact ⟨b, b', .cons _ _ _ _ _ _ hx h1, h2⟩
    · cases h
      exact ⟨d, d1, .nil _, hx⟩
    · cases h

-- A case that meets the hypotheses: these packets are in the buffer, synchronization succeeds, and the packets stand for
-- twelve events.
example : Usable (cfgOf eventTrace) ∧ (cfgOf eventTrace).pkt.errata = {} ∧
    (EvtCall.run (cfgOf eventTrace) (.syncSet 0) evtInit).2 = .ok none ∧
    traceOf (cfgOf eventTrace) .eos eventPackets = (eventsThere, true) :=
  ⟨cfgOf_usable (by decide), rfl, by decide +kernel, by decide +kernel⟩

example : PacketsFrom (cfgOf eventTrace).pkt 0 eventPackets .eos :=
  packetsAt_reads 19 _ _ _ (by decide +kernel)

-- A second PSB while an asynchronous branch is pending must not occur.
example : traceOf (cfgOf []) .eos [.psb, .fup 3 0x7001, .psbend, .fup 1 5, .psb, .psbend] =
    ([{ data := .enabled 0x7001, statusUpdate := true }], false) := by decide +kernel

-- The errata.  BDM70: tracing is enabled behind the header; the FUP in the header does not count.
example : traceOf (cfgOf [] { bdm70 := true }) .eos [.psb, .fup 3 0x7001, .psbend, .tipPge 1 0x707] =
    ([{ data := .disabled 0, ipSuppressed := true, statusUpdate := true }, { data := .enabled 0x707 }], true) ∧
    resultsOf (cfgOf [0x31, 7, 7] { bdm70 := true }) 3 =
      [.ok none, .ok (some (.disabled 0)), .ok (some (.enabled 0x707)), .err .eos] := by decide +kernel

-- SKD010: no FUP behind OVF; tracing resumes at the TIP.  The packet before the TIP is skipped.
example : traceOf (cfgOf [] { skd010 := true }) .eos [.psb, .fup 3 0x7001, .psbend, .ovf, .pad, .tip 1 0x707, .tnt8 1 1] =
    ([{ data := .enabled 0x7001, statusUpdate := true }, { data := .overflow 0x707 }, { data := .tnt 1 1 }], true) ∧
    resultsOf (cfgOf [2, 0xf3, 0, 0x2d, 7, 7, 6] { skd010 := true }) 4 =
      [.ok none, .ok (some (.enabled 0x7001)), .ok (some (.overflow 0x707)), .ok (some (.tnt 1 1)), .err .eos] := by
  decide +kernel

-- The same with a MODE.TSX before a FUP, a header, or TIP.PGD (also APL11).
example : traceOf (cfgOf [] { skd010 := true }) .eos [.psb, .psbend, .ovf, .trig 0 none false false, .modeTsx true false, .fup 1 0x707] =
    ([{ data := .disabled 0, ipSuppressed := true, statusUpdate := true }, { data := .overflow 0x707 },
      { data := .tsx true false 0x707 }], true) ∧
    traceOf (cfgOf [] { skd010 := true }) .eos [.psb, .psbend, .ovf, .psb, .fup 3 0x7001, .psbend] =
    ([{ data := .disabled 0, ipSuppressed := true, statusUpdate := true }, { data := .overflow 0x7001 },
      { data := .enabled 0x7001, statusUpdate := true }], true) ∧
    traceOf (cfgOf [] { apl11 := true }) .eos [.psb, .psbend, .ovf, .pad, .tipPgd 1 0x707, .stop] =
    ([{ data := .disabled 0, ipSuppressed := true, statusUpdate := true }, { data := .overflow 0, ipSuppressed := true },
      { data := .stop }], true) ∧
    traceOf (cfgOf []) .eos [.psb, .psbend, .ovf, .pad, .tipPgd 1 0x707, .stop] =
    ([{ data := .disabled 0, ipSuppressed := true, statusUpdate := true }], false) := by decide +kernel

-- APL12: the FUP behind OVF does not count since the trace stopped.
example : traceOf (cfgOf [] { apl12 := true }) .eos [.psb, .psbend, .ovf, .pad, .fup 1 0x707, .stop] =
    ([{ data := .disabled 0, ipSuppressed := true, statusUpdate := true }, { data := .overflow 0, ipSuppressed := true },
      { data := .stop }], true) ∧
    traceOf (cfgOf []) .eos [.psb, .psbend, .ovf, .pad, .fup 1 0x707, .stop] =
    ([{ data := .disabled 0, ipSuppressed := true, statusUpdate := true }, { data := .overflow 0x707 },
      { data := .stop }], true) := by decide +kernel

/-- SKZ84: an invalid TMA is ignored, but after an overflow it makes `pt_evt_next` fail with -pte_nosync.  TMA; TNT, and the
same after OVF; FUP. -/
theorem C66_invalid_after_overflow :
    resultsOf (cfgOf [2, 0x73, 1, 0, 0xff, 0, 0, 0, 6] { skz84 := true }) 3 =
      [.ok none, .ok (some (.enabled 0x7001)), .ok (some (.tnt 1 1)), .err .eos] ∧
    resultsOf (cfgOf [2, 0xf3, 0x3d, 7, 7, 2, 0x73, 1, 0, 0xff, 0, 0, 0, 6] { skz84 := true }) 3 =
      [.ok none, .ok (some (.enabled 0x7001)), .ok (some (.overflow 0x707)), .err .nosync] := by decide +kernel

end Ipt.Props
