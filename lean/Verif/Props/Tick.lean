import Verif.InsnTick
import Verif.BlockTick
import Verif.Props.BlockSafe
import Verif.Props.InsnComplete

/-!
# C79: tick events tell the time
-/

namespace Ipt.Props

open Ild Spec

/-- C79: when `pt_insn_event` provides a tick event to a user who follows the flags, then tick events are enabled, the time of
the event is the time that `pt_insn_time` provides then, the event that was shown before it has another time, and the address
of the event is the one behind the instruction that was shown last, which is a branch about which the trace tells. -/
theorem C79_tick_events (c : InsnCfg) (henv : c.env.Ok) (o : SyncCall) (s0 s1 s s' : Idec) (fl0 fl : Flags)
    (out : List Seen) (ht : Typed s0) (hw : ∀ m ∈ s0.sc.img.secs, m.WF c.env)
    (hs : o.insn c s0 = (s1, .ok fl0)) (hf : Follows c s1 fl0 out s fl) (r : EventOut) (he : insnEvent c s = (s', .ok r))
    (x : Nat) (hx : r.event.data = .tick x) :
    c.tick = true ∧ fl.eventPending = true ∧ TimedBy r.event s.q.lastTime ∧
      (∀ e, lastEvent none out = some e → e.tsc ≠ r.event.tsc) ∧
      ∃ i, lastInsn none out = some i ∧ (ByTrace i ∨ i.ext.cls = .return) ∧ x = (i.ip + i.size) % 2 ^ 64 := by
  obtain ⟨sa, fq, ip, f1, h1, t1, o1⟩ := start_flow henv ht hw hs
  obtain ⟨f, o2, hi⟩ := follows_tick henv hf f1 none none o1 (start_tick hs)
  unfold insnEvent at he
  rw [IM.get_bind, IM.ite_ok, IM.fail_ok] at he
  rcases he with ⟨-, he⟩ | ⟨h0, he⟩
  · exact he.elim
  have h0 : s.processEvent = true := by simpa using h0
  have hev : s.event = some r.event := by
    rcases hev : s.event with _ | ev <;> simp only [hev] at he
    · rw [IM.undef_ok] at he; exact he.elim
    rw [IM.bind_ok] at he
    obtain ⟨s2, _, -, he⟩ := he
    rw [IM.modify_bind] at he
    rcases hin : s.insn with _ | i <;> simp only [hin, IM.bind_ok, IM.pure_ok] at he
    · obtain ⟨_, _, _, rfl, rfl⟩ := he
      rfl
    · obtain ⟨s3, o, -, he⟩ := he
      cases o with
      | none =>
        simp only [IM.bind_ok, IM.pure_ok] at he
        obtain ⟨_, _, _, _, _, _, rfl, rfl⟩ := he
        rfl
      | some fl2 =>
        dsimp only at he
        rw [IM.pure_ok] at he
        rw [he.2]
  rcases hi.tick with hg | ⟨hfl, a1, -, e, i, a3, a4, a5, a6, a7, a8⟩
  · exact absurd hx (hg.2 h0 _ hev x)
  · rw [hev] at a3
    cases a3
    refine ⟨a1, hfl, a7, a8, i, a4, a5, ?_⟩
    rw [hx] at a6
    cases a6
    rfl

/-- C79, no change of time is missed: if tick events are enabled and `pt_insn_next` provides a branch about which the trace
tells, then an event comes next, or an event is waiting for its location, or the time that `pt_insn_time` provides is the time of
the event that was shown last. -/
theorem C79_no_change_missed (c : InsnCfg) (henv : c.env.Ok) (htick : c.tick = true) (o : SyncCall) (s0 s1 s s' : Idec) (fl0 fl : Flags)
    (out : List Seen) (ht : Typed s0) (hw : ∀ m ∈ s0.sc.img.secs, m.WF c.env)
    (hs : o.insn c s0 = (s1, .ok fl0)) (hf : Follows c s1 fl0 out s fl) (hfl : fl.eventPending = false)
    (r : NextOut) (hn : insnNext c s = (s', .ok r)) (ha : ByTrace r.insn) :
    r.flags.eventPending = true ∨ s'.processEvent = true ∨
      ∀ e, lastEvent none out = some e → s'.q.lastTime.tsc = e.tsc := by
  obtain ⟨sa, fq, ip, f1, h1, t1, o1⟩ := start_flow henv ht hw hs
  obtain ⟨f, o2, hi⟩ := follows_tick henv hf f1 none none o1 (start_tick hs)
  obtain ⟨k1, k2⟩ := next_tick henv (o2.idle hfl) hi hfl hn
  rcases Bool.eq_false_or_eq_true r.flags.eventPending with hp | hp
  · exact .inl hp
  rcases Bool.eq_false_or_eq_true s'.processEvent with hp' | hp'
  · exact .inr (.inl hp')
  refine .inr (.inr fun e he => ?_)
  obtain ⟨e', h3, h4⟩ := k2 ha hp htick hp'
  have h5 := k1.last hp' e he
  rw [h3] at h5
  cases h5
  exact h4.symm

/-- C79 for block decoders: whatever calls were made before, when `pt_blk_event` provides a tick event, then tick events are
enabled and the time of the event is not the time that `pt_blk_time` provided before. -/
theorem C79_block_tick_events (c : BlkCfg) (s0 s s' : Bdec) (h0 : s0.event = none) (calls : List BlkCall)
    (hr : blkRun c s0 calls = some s) (r : EventOut) (he : blkEvent c s = (s', .ok r)) (x : Nat) (hx : r.event.data = .tick x) :
    c.tick = true ∧ ∀ t m n, blkTime s = .ok (t, m, n) → r.event.tsc ≠ t := by
  have hi : BTick c s := BTick.blkRun_tick calls s0 s (fun e x h => by rw [h0] at h; cases h) hr
  suffices h : c.tick = true ∧ r.event.tsc ≠ s.tsc by
    refine ⟨h.1, fun t m n ht => ?_⟩
    cases ht
    exact h.2
  unfold blkEvent at he
  rw [BTick.get_bind] at he
  rcases hs : s.status with _ | e <;> simp only [hs] at he
  rotate_left
  · cases he
  rcases hev : s.event with _ | ev <;> simp only [hev] at he
  · cases he
  have other : (do
        blkProcessEvent ev
        fetchEvent c
        let f ← trailingEvent c false c.evt.fuel
        pure (⟨ev, blkResumed s ev, f⟩ : EventOut) : BM EventOut) s = (s', .ok r) → c.tick = true ∧ r.event.tsc ≠ s.tsc := by
    intro he
    obtain ⟨_, _, _, he⟩ := BTick.bind_ok he
    obtain ⟨_, _, _, he⟩ := BTick.bind_ok he
    obtain ⟨_, _, _, he⟩ := BTick.bind_ok he
    cases he
    exact hi ev x hev hx
  rcases hd : ev.data <;> simp only [hd] at he
  case tnt bits size =>
    unfold blkTickEvent at he
    rw [BTick.get_bind] at he
    split at he
    · cases he
    rename_i h1
    split at he
    · cases he
    rename_i h2
    rw [BTick.modify_bind] at he
    obtain ⟨_, _, _, he⟩ := BTick.bind_ok he
    obtain ⟨_, _, _, he⟩ := BTick.bind_ok he
    cases he
    exact ⟨by simpa using h1, fun h => h2 (.inr h)⟩
  all_goals exact other he

/-- The configuration `tickCfg`, with a trace that ends before tracing is disabled. -/
def tickEos : InsnCfg :=
  { flowCfg flowProgram [0x19, 1, 0, 0, 0, 0, 0, 0, 0x0e] with tick := true }

/-- A decoder for the program, after `n` calls. -/
def driven (n : Nat) : List Seen × Idec × Flags :=
  drive tickEos n (SyncCall.forward.insn tickEos (flowDec flowProgram)).1
    (match (SyncCall.forward.insn tickEos (flowDec flowProgram)).2 with | .ok fl => fl | _ => {})

/-- The hypotheses of C79 are met by a decoder for this program. -/
theorem driven_follows (n : Nat) : tickEos.env.Ok ∧ Typed (flowDec flowProgram) ∧
    (∀ m ∈ (flowDec flowProgram).sc.img.secs, m.WF tickEos.env) ∧
    ∃ s1 fl0, SyncCall.forward.insn tickEos (flowDec flowProgram) = (s1, .ok fl0) ∧
      Follows tickEos s1 fl0 (driven n).1 (driven n).2.1 (driven n).2.2 := by
  refine ⟨fun _ => by show flowProgram.length < _; decide +kernel, ⟨by decide +kernel, by decide +kernel⟩, ?_, ?_⟩
  · rw [flowSecs]
    show ∀ m ∈ _, _ ∧ _
    decide +kernel
  · have h : (SyncCall.forward.insn tickEos (flowDec flowProgram)).2 = .ok { eventPending := true } := by decide +kernel
    unfold driven
    revert h
    rcases SyncCall.forward.insn tickEos (flowDec flowProgram) with ⟨s, r⟩
    rintro rfl
    exact ⟨s, _, rfl, drive_follows _ _ _ _⟩

/-- The instruction at 0x7002, a conditional jump, has been shown and a tick event at the address behind it comes next. The
event before has another time. -/
example : (match insnEvent tickEos (driven 4).2.1 with
      | (_, .ok r) => some (r.event.data, r.event.hasTsc, r.event.tsc)
      | _ => none) = some (.tick 0x7004, true, 1) ∧
    (lastEvent none (driven 4).1).map (·.tsc) = some 0 ∧ (lastInsn none (driven 4).1).map (·.ip) = some 0x7002 := by
  decide +kernel

/-- There is no event behind the return at 0x7011, and none is waiting; the time is that of the tick event. -/
example : (driven 7).2.2.eventPending = false ∧
    (match insnNext tickEos (driven 7).2.1 with
      | (s, .ok r) => some (r.insn.ip, r.flags.eventPending, s.processEvent, s.q.lastTime.tsc)
      | _ => none) = some (0x7011, false, false, 1) ∧
    (lastEvent none (driven 7).1).map (·.tsc) = some 1 := by
  decide +kernel

/-- The configuration of a block decoder with tick events. -/
def blkTickCfg : BlkCfg := { toInsnCfg := tickEos }

/-- A tick event of a block decoder, at the target of the conditional jump.  The time before was zero. -/
example : (match blkRun blkTickCfg { sc := { img := (flowDec flowProgram).sc.img } } [.sync .forward, .event, .event, .next] with
    | some s => (match blkEvent blkTickCfg s with
      | (_, .ok r) => some (blkTime s, r.event.data, r.event.tsc)
      | _ => none)
    | none => none) = some (.ok (0, 0, 0), .tick 0x7006, 1) := by decide +kernel

end Ipt.Props
