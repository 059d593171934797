import Verif.Props.InsnComplete
import Verif.Props.EventsMore

/-!
# C75 from the packets on: encoded programs are reconstructed
-/

namespace Ipt

open Ild Spec

/-- Starting a query decoder does not fail if the events can be read. -/
theorem startLoop_ok {c : EvtCfg} {pos : Option Nat} {x : Err} : ∀ (n : Nat) (s : Evd) (es : List Event), Fails c s es .eos →
    startLoop c pos n s ≠ .err x := by
  intro n
  induction n with
  | zero => intro s es _ h; cases h
  | succ n ih =>
    intro s es hf h
    unfold startLoop at h
    split at h
    · cases h
    · unfold Fails at hf
      rcases hn : evtNext c s with ⟨s', e | y | _⟩ <;> rw [hn] at h
      · dsimp only at h
        cases es with
        | nil =>
          rw [show nexts (([] : List Event).length + 1) = [EvtCall.next] from rfl] at hf
          unfold evtResults at hf
          rw [next_run hn] at hf
          cases hf
        | cons e' es =>
          rw [show nexts ((e' :: es).length + 1) = .next :: nexts (es.length + 1) from rfl] at hf
          unfold evtResults at hf
          rw [next_run hn] at hf
          have hf' : Fails c s' es .eos := (List.cons.inj hf).2
          split at h
          · cases h
          · split at h
            · cases h
            · exact ih s' es hf' h
      · have : y = .eos := by
          cases es with
          | nil =>
            rw [show nexts (([] : List Event).length + 1) = [EvtCall.next] from rfl] at hf
            unfold evtResults at hf
            rw [next_run_err hn] at hf
            cases hf
            rfl
          | cons e' es =>
            rw [show nexts ((e' :: es).length + 1) = .next :: nexts (es.length + 1) from rfl] at hf
            unfold evtResults at hf
            rw [next_run_err hn] at hf
            cases hf
        subst this
        cases h
      · cases h

/-- Synchronizing an event decoder succeeds if there is an event. -/
theorem syncSet_ok {c : EvtCfg} (hu : Usable c) {off : Nat} {rest : List Packet} {fin : Err} (s : Evd)
    (hp : PacketsFrom c.pkt off (.psb :: rest) fin) (hne : (traceOf c fin (.psb :: rest)).1 ≠ []) (hoff : off ≤ c.pkt.mem.length) :
    ∃ d, evtSyncSet c off s = (d, .ok ()) := by
  have h1 : EM.wlp (evtSyncSet c off) (fun _ _ => True) (fun _ _ => False) s := by
    unfold evtSyncSet
    rw [EM.wlp_bind, EM.wlp_modify, EM.wlp_bind]
    unfold EM.wlp onPkt
    dsimp only
    have hx : pktSyncSet c.pkt (evtReset s).pd off = (⟨some off, some off⟩, .ok ()) := by
      unfold pktSyncSet
      rw [if_neg (by omega)]
    rw [hx]
    dsimp only
    show EM.wlp (evtStart c) _ _ _
    unfold evtStart
    rw [EM.wlp_bind, EM.wlp_modify, EM.wlp_bind]
    refine Events.wlp_fetch_left (fin := fin) hp ?_ ?_
    · intro pd p size k rest' hk hpad hl
      cases k with
      | succ k => cases hk
      | zero =>
        obtain ⟨rfl, rfl⟩ := List.cons.inj hk
        rw [EM.wlp_bind, EM.wlp_get]
        dsimp only
        refine EM.wlp_mono (Events.decodePsb_go (v := {}) (rest := rest) (fin := fin)
          (t := trace c fin {} (.psb :: rest)) ?_ ?_) (fun _ _ _ => trivial) (fun x s' h => hne h.1)
        · refine ⟨⟨⟨rfl, rfl, rfl, rfl, init_holds, by simp, rfl, rfl, rfl⟩, Events.ord_nil, hl, rfl⟩, rfl⟩
        · rw [Events.trace_cons rfl]
          rfl
    · intro pd k hk
      cases k <;> cases hk
  have h2 := evtSyncSet_total hu.sane off s
  unfold EM.wlp at h1
  revert h1 h2
  rcases evtSyncSet c off s with ⟨d, _ | e | _⟩
  · exact fun _ _ => ⟨d, rfl⟩
  · exact fun h _ => h.elim
  · exact fun _ h => absurd rfl h

namespace Props

/-- C75 from the packets on.  Take the packets of a trace, starting with PSB, that stand for at least one event and are all
in places where they may occur (C66), encode them into a buffer, and let an instruction flow decoder decode this buffer.  If
the packets are the trace of a program, which is in the image, starting at the address at which the query decoder is
synchronized, then the decoder reconstructs the program: synchronizing succeeds, and a user who follows the flags gets each
of the program's instructions and each event, in order, and nothing else but tick events, if these are enabled, and is told
about the end of the trace then.

Missing: see `C75_traced_program_is_shown_partial`. -/
theorem C75_encoded_program_is_shown_partial (c : InsnCfg) (henv : c.env.Ok) (hu : Usable c.evt)
    (hfilter : c.filter.addr.length = 16) (s0 : Idec) (ht : Typed s0) (hw : ∀ m ∈ s0.sc.img.secs, m.WF c.env)
    (hun : Unambiguous s0.sc.img.secs) (hpl : Placed s0.sc.img.secs)
    (hcb : Agrees c s0.sc.img.secs) (hroom : Room s0.sc) (hmaps : s0.maps = [])
    (ps : List Packet) (hr : ∀ p ∈ ps, Representable p) (hpsb : ps.head? = some .psb)
    (e e' : Enc) (he : encodeAll e ps = some e')
    (hc : c.evt.pkt.mem = e'.buf.take e'.pos) (h0 : c.evt.pkt.errata.skd007 = false) (h5 : c.evt.pkt.errata.skz84 = false)
    (es : List Event) (hes : traceOf c.evt .eos ps = (es, true)) (hne : es ≠ [])
    (habort : c.evt.pkt.errata.bdm64 = true → ∀ e ∈ es, ∀ sp x, e.data = .tsx sp true x → e.ipSuppressed = true)
    (out : List Seen)
    (htr : ∀ q fq ip, (SyncCall.set e.pos).run c.evt s0.q = (q, .ok (fq, ip)) →
      Traced c (Flow.start ip s0.sc.img.secs) out (es.flatMap items)) :
    ∃ s1 fl0 out' s fl, (SyncCall.set e.pos).insn c s0 = (s1, .ok fl0) ∧ Alike c.tick out out' ∧ Follows c s1 fl0 out' s fl ∧
      fl.eventPending = false ∧ fl.eos = true := by
  obtain ⟨rest, rfl⟩ : ∃ rest, ps = .psb :: rest := by
    cases ps with
    | nil => cases hpsb
    | cons p rest => cases hpsb; exact ⟨rest, rfl⟩
  obtain ⟨k1, k2⟩ := C05_stream_roundtrip _ hr e e' he c.evt.pkt hc h0 h5
  have hp : PacketsFrom c.evt.pkt e.pos (.psb :: rest) .eos := by
    refine ⟨⟨some e'.pos, some e.pos⟩, ⟨some e'.pos, some e.pos⟩, reads_of_decodes k1 _, ?_⟩
    unfold pktDecNext
    dsimp only
    rw [k2]
  have hoff : e.pos ≤ c.evt.pkt.mem.length := by
    cases k1 with
    | cons h _ =>
      by_contra hlt
      unfold pktNext pktDecode at h
      dsimp only at h
      rw [if_pos (by omega)] at h
      cases h
  have hq0 : ∀ s : Evd, ∃ d, evtSyncSet c.evt e.pos s = (d, .ok ()) := fun s => syncSet_ok hu s hp (by rw [hes]; exact hne) hoff
  obtain ⟨d, hd⟩ := hq0 (qryReset s0.q).ev
  have hd' : EvtCall.run c.evt (.syncSet e.pos) s0.q.ev = (d, .ok none) := by
    show (match evtSyncSet c.evt e.pos s0.q.ev with | (s', r) => (s', r.bind fun _ => .ok none)) = _
    rw [show evtSyncSet c.evt e.pos s0.q.ev = (d, .ok ()) from hd]
    rfl
  obtain ⟨x, hf, hx⟩ := C66_events_from_offset c.evt hu e.pos s0.q.ev d hd' _ .eos hp
  rw [hes] at hf hx
  rw [hx rfl] at hf
  have hsync : ∃ q fq ip, (SyncCall.set e.pos).run c.evt s0.q = (q, .ok (fq, ip)) := by
    have hs := sync_total hu (.set e.pos) (by simp) s0.q
    rcases hrun : (SyncCall.set e.pos).run c.evt s0.q with ⟨q, ⟨fq, ip⟩ | y | _⟩
    · exact ⟨q, fq, ip, rfl⟩
    · exfalso
      rw [hrun] at hs
      replace hrun : onEvt (evtSyncSet c.evt e.pos) (qryStart c.evt) (qryReset s0.q) = (q, .err y) := hrun
      unfold onEvt at hrun
      rw [hd] at hrun
      dsimp only at hrun
      have hsy := EM.wlp_ok (syncSet_inv (c := c.evt) hu.time) hd
      unfold qryStart at hrun
      rcases hl : startLoop c.evt d.pd.pos evqFuel d with ip | z | _ <;> simp only [hl] at hrun
      · have h9 := (evtNext_pres hu.sane d (inv_wf hsy.inv)).1
        have key : ∃ s', qryFetch c.evt { qryReset s0.q with ev := d, status := none } = (s', .ok ()) ∧ QInv c.evt d s' [] [] := by
          unfold qryFetch
          rcases hy : evtNext c.evt d with ⟨ev, e | x | _⟩
          · exact ⟨_, rfl, synced_inv hsy ⟨rfl, by rw [hy]; exact ⟨rfl, rfl, rfl⟩⟩⟩
          · exact ⟨_, rfl, synced_inv hsy ⟨rfl, by rw [hy]; exact ⟨rfl, rfl, rfl⟩⟩⟩
          · rw [hy] at h9; exact absurd rfl h9
        obtain ⟨s', k3, k4⟩ := key
        obtain ⟨f, hf'⟩ := k4.flags
        rw [k3] at hrun
        dsimp only at hrun
        rw [hf'] at hrun
        cases hrun
      · exact startLoop_ok _ _ _ hf hl
      · cases hrun
    · rw [hrun] at hs; exact hs.elim
  obtain ⟨q, fq, ip, hq⟩ := hsync
  exact C75_traced_program_is_shown_partial c henv hu hfilter (.set e.pos) (by simp) s0 ht hw hun hpl hcb hroom hmaps q fq ip hq d hd'
    es hf habort out (htr q fq ip hq)

/-- The packets of the trace `offCfg`. -/
def offPackets : List Packet :=
  [.psb, .modeExec true false false, .fup 3 0x7001, .psbend, .tnt8 2 3, .fup 1 0x7011, .tipPgd 0 0]

/-- Encoding them. -/
def offEncoded : Enc := (encodeAll { buf := List.replicate 40 0, pos := 0 } offPackets).getD ⟨[], 0⟩

/-- The hypotheses of C75 about the packets are met by the program of `offTraced`, the others are met as for
`C75_traced_program_is_shown_partial`. -/
example : (∀ p ∈ offPackets, Representable p) ∧ offPackets.head? = some .psb ∧
    encodeAll { buf := List.replicate 40 0, pos := 0 } offPackets = some offEncoded ∧
    offCfg.evt.pkt.mem = offEncoded.buf.take offEncoded.pos ∧ offCfg.evt.pkt.errata.skd007 = false ∧
    offCfg.evt.pkt.errata.skz84 = false ∧ traceOf offCfg.evt .eos offPackets = (offEvents, true) ∧ offEvents ≠ [] ∧
    ∃ out, ∀ q fq ip, (SyncCall.set 0).run offCfg.evt (flowDec flowProgram).q = (q, .ok (fq, ip)) →
      Traced offCfg (Flow.start ip (flowDec flowProgram).sc.img.secs) out (offEvents.flatMap items) := by
  refine ⟨by decide +kernel, rfl, by decide +kernel, by decide +kernel, rfl, rfl, by decide +kernel, by decide, ?_⟩
  refine ⟨?_, fun q fq ip h => ?_⟩
  rotate_left
  have h' : ((SyncCall.set 0).run offCfg.evt (flowDec flowProgram).q).2 = .ok ({ eventPending := true }, some 0x7001) := by
    decide +kernel
  rw [h] at h'
  obtain rfl : ip = some 0x7001 := by cases h'; rfl
  exact offTraced

end Props

end Ipt
