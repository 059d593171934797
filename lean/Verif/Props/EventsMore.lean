import Verif.Props.Events
import Verif.Props.InsnDecoder
import Verif.Props.Packet

/-!
# C66: from the encoder to instructions

Corollaries of C66, with C05 (streams of packets) and C42 (instruction flow).
-/

namespace Ipt.Props

open Ipt Spec Ild

theorem reads_of_decodes {c : PktCfg} {a b : Nat} {ps : List Packet} (h : Decodes c a ps b) (s : Option Nat) :
    Reads c ⟨some a, s⟩ ps ⟨some b, s⟩ := by
  induction h with
  | nil => exact .nil _
  | cons h _ ih =>
    rename_i n p ps _
    refine .cons _ _ _ _ n _ ?_ ih
    unfold pktDecNext
    dsimp only
    rw [h]

/-- C66 with the encoder: encode any sequence of representable packets into a buffer and decode the buffer.  After
synchronization to the first packet, the event decoder delivers the events the packets stand for; if all packets may occur
where they are, it then reports the end of the trace. -/
theorem C66_encoded_packets (ps : List Packet) (hr : ∀ p ∈ ps, Representable p) (e e' : Enc) (he : encodeAll e ps = some e')
    (c : EvtCfg) (hu : Usable c) (hc : c.pkt.mem = e'.buf.take e'.pos) (h0 : c.pkt.errata.skd007 = false)
    (h5 : c.pkt.errata.skz84 = false) (s d : Evd)
    (h : EvtCall.run c (.syncSet e.pos) s = (d, .ok none)) :
    ∃ x, Fails c d (traceOf c .eos ps).1 x ∧ ((traceOf c .eos ps).2 = true → x = .eos) := by
  obtain ⟨k1, k2⟩ := C05_stream_roundtrip ps hr e e' he c.pkt hc h0 h5
  refine C66_events_from_offset c hu e.pos s d h ps .eos
    ⟨⟨some e'.pos, some e.pos⟩, ⟨some e'.pos, some e.pos⟩, reads_of_decodes k1 _, ?_⟩
  unfold pktDecNext
  dsimp only
  rw [k2]

/-- C66 with the instruction flow decoder: the instructions and events that a user sees are a run of the program in the image
(see C42).  The branch outcomes it takes are the first ones that the packets from the synchronization point on stand for, in
order, and so are the branch targets and events. -/
theorem C66_instructions_follow_packets (c : InsnCfg) (henv : c.env.Ok) (hu : Usable c.evt)
    (o : SyncCall) (s0 s1 s : Idec) (fl0 fl : Flags)
    (out : List Seen) (ht : Typed s0) (hw : ∀ m ∈ s0.sc.img.secs, m.WF c.env)
    (hs : o.insn c s0 = (s1, .ok fl0)) (hf : Follows c s1 fl0 out s fl) :
    ∃ off k rest fin q its fq ip f, (∀ x, o = .set x → off = x) ∧
      PacketsFrom c.evt.pkt off (List.replicate k .pad ++ .psb :: rest) fin ∧
      o.run c.evt s0.q = (q, .ok (fq, ip)) ∧
      Flow.Run c [] { Flow.start ip s0.sc.img.secs with enabled := !fq.ipSuppressed } its out f ∧
      its.filter Item.isBit <+:
        ((traceOf c.evt fin (List.replicate k .pad ++ .psb :: rest)).1.flatMap items).filter Item.isBit ∧
      its.filter (fun x => !x.isBit) <+:
        ((traceOf c.evt fin (List.replicate k .pad ++ .psb :: rest)).1.flatMap items).filter (fun x => !x.isBit) := by
  obtain ⟨q, fq, ip, qs, f, k1, -, -, hr, -⟩ := C42_follows_program c henv o s0 s1 s fl0 fl out ht hw hs hf
  have hd : ∃ d d0 o', Synchronized c.evt d q ∧ EvtCall.run c.evt o' d0 = (d, .ok none) ∧ ∀ x, o = .set x → o' = .syncSet x := by
    by_cases hb : o = .backward
    · obtain ⟨d, hd⟩ := C37_synchronized c.evt o s0.q q fq ip k1
      obtain ⟨_, o', _, _, _, ⟨d0, h6, _⟩, _⟩ := id hd
      exact ⟨d, d0, _, hd, h6, fun x hx => by rw [hb] at hx; cases hx⟩
    · obtain ⟨d, h6, hd⟩ := C37_synchronized_own c.evt o s0.q q fq ip k1 hb
      exact ⟨d, _, _, hd, h6, fun x hx => by rw [hx]; rfl⟩
  obtain ⟨d, d0, o', hd, h6, h7⟩ := hd
  obtain ⟨es, l, h8, h9, h10⟩ := C37_nothing_lost hu hd qs
  obtain ⟨off, k, rest, fin, m1, m2, x, m3, _⟩ := C66_events_follow_packets c.evt hu _ d0 d h6
  obtain ⟨l', hl⟩ := m3.longest h8
  refine ⟨off, k, rest, fin, q, _, fq, ip, f, fun x hx => m1 x (h7 x hx), m2, k1, hr, ?_, ?_⟩
  · rw [← hl, List.flatMap_append, List.filter_append, ← h9, List.append_assoc]
    exact List.prefix_append _ _
  · rw [← hl, List.flatMap_append, List.filter_append, ← h10]
    exact List.prefix_append _ _

-- The packets of `eventTrace` can be encoded, and the bytes are the trace.
example : (∀ p ∈ eventPackets, Representable p) ∧
    ∃ e', encodeAll { buf := List.replicate 90 0, pos := 0 } eventPackets = some e' ∧
      (cfgOf eventTrace).pkt.mem = e'.buf.take e'.pos :=
  ⟨by decide +kernel, (encodeAll { buf := List.replicate 90 0, pos := 0 } eventPackets).getD ⟨[], 0⟩,
    by decide +kernel, by decide +kernel⟩

-- Two branch outcomes, both taken by the program in the instruction flow decoder's image.
example : (flowCfg flowProgram [0x0e]).evt.pkt.errata = {} ∧
    (traceOf (flowCfg flowProgram [0x0e]).evt .eos [.psb, .fup 3 0x7001, .psbend, .tnt8 2 3]).1.flatMap items =
      [.event { data := .enabled 0x7001, statusUpdate := true }, .bit true, .bit true] ∧
    flowSeen flowProgram [0x0e] .forward 8 = some [0, 0, 0x7001, 0x7002, 0x7006, 0x700b, 0x7011, 0x7010] :=
  ⟨rfl, by decide +kernel, by decide +kernel⟩

end Ipt.Props
