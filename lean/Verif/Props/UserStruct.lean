import Verif.UserStructLemmas
import Verif.Props.Query
import Verif.Props.BlockFollow

/-!
# C76: structures of the user
-/

namespace Ipt.Props

open Ipt Spec

/-- C76 for `pt_pkt_next`. -/
theorem C76_packet (l : Layout Packet) (c : PktCfg) (pos : Option Nat) (junk scrap : List UInt8) (size : Nat) (b : Buf)
    (hb : b.length = size) (hj : junk.length = l.size) (hs : scrap.length = l.size) :
    match pktNext c pos with
    | .ok (p, n, pos') => ∃ old, old.length = l.size ∧
        pktNextUser l c junk scrap size (pos, b) = ((some pos', fitted size (l.put p old)), .ok n)
    | .err e => ∃ b', b'.length = size ∧ (size ≠ l.size → b' = b) ∧
        pktNextUser l c junk scrap size (pos, b) = ((pos, b'), .err e)
    | .ub => True := by
  unfold pktNextUser
  rw [um_get]
  rcases pktNext c pos with ⟨p, n, pos'⟩ | e | _
  · dsimp only
    by_cases h : size = l.size
    · refine ⟨b.take l.size, by simp; omega, ?_⟩
      have h1 : (l.put p (b.take l.size)).length = l.size := l.len _ _ (by simp; omega)
      rw [if_pos h, um_bind, write_ok (f := fun b => b.store 0 (l.put p (List.take l.size b))) (store_all (by omega)), fitted_same (by omega)]
      rfl
    · refine ⟨junk, hj, ?_⟩
      rw [if_neg h, um_user hb, call_eq]
  · dsimp only
    by_cases h : size = l.size
    · refine ⟨scrap, by omega, fun k => absurd h k, ?_⟩
      rw [if_pos h, um_store (by omega)]
      rfl
    · exact ⟨b, hb, fun _ => rfl, by rw [if_neg h]; rfl⟩
  · trivial

/-- C76 for `pt_evt_next`. -/
theorem C76_event (l : Layout Event) (c : EvtCfg) (size : Nat) :
    Provides size (evtNextUser l c size) (evtNext c) (fun _ => ()) (fun _ _ e => fitted size (l.fresh e)) := by
  intro s b hb
  unfold evtNextUser
  rw [um_evt]
  rcases evtNext c s with ⟨s', e | x | _⟩
  · refine ⟨fitted size (l.fresh e), fitted_length _ _, ?_, ?_⟩
    · exact write_ok (f := fun b => toUser b size (l.fresh e)) (toUser_eq hb)
    · rintro _ ⟨⟩; rfl
  · exact ⟨b, hb, rfl, by rintro _ ⟨⟩⟩
  · exact ⟨b, hb, rfl, by rintro _ ⟨⟩⟩

/-- C76 for `pt_qry_event`.  Missing: unknown bytes are not zero. -/
theorem C76_query_event_partial (l : Layout Event) (var : Nat) (c : EvtCfg) (size : Nat) (h : var ≤ size) :
    Provides size (qryEventUser l var c size) (qryEvent c) Prod.snd (fun _ b r => overlaid b (l.fresh r.1)) := by
  intro s b hb
  unfold qryEventUser qryEvent
  rw [if_neg (by omega), um_get]
  by_cases ht : s.tnt.isEmpty = false
  · rw [if_pos ht, if_pos ht]
    exact ⟨b, hb, rfl, by rintro _ ⟨⟩⟩
  · rw [if_neg ht, if_neg ht]
    rcases hs : s.status with _ | x
    rotate_left
    · exact ⟨b, hb, rfl, by rintro _ ⟨⟩⟩
    · dsimp only
      rcases hp : s.event.pending with (_ | _) | x | _
      · exact ⟨b, hb, rfl, by rintro _ ⟨⟩⟩
      · dsimp only
        rcases he : s.event with _ | _ | e
        · exact ⟨b, hb, rfl, by rintro _ ⟨⟩⟩
        · exact ⟨b, hb, rfl, by rintro _ ⟨⟩⟩
        · dsimp only
          rw [um_cut hb, um_qry, hs, he]
          refine ⟨overlaid b (l.fresh e), by rw [overlaid_length, hb], ?_⟩
          rcases qryFetch c { s with lastTime := s.ev.tm.time, event := .ok e, status := none } with ⟨s', _ | x | _⟩
          · dsimp only
            rw [show ∀ s b, UM.qry (fun s : Qdec => (s, s.flags)) (s, b) = ((s, b), s.flags) from fun _ _ => rfl]
            unfold withFlags
            rcases s'.flags with f | x | _
            · refine ⟨rfl, ?_⟩
              rintro _ ⟨⟩
              rfl
            · exact ⟨rfl, by rintro _ ⟨⟩⟩
            · exact ⟨rfl, by rintro _ ⟨⟩⟩
          · exact ⟨rfl, by rintro _ ⟨⟩⟩
          · exact ⟨rfl, by rintro _ ⟨⟩⟩
      · exact ⟨b, hb, rfl, by rintro _ ⟨⟩⟩
      · exact ⟨b, hb, rfl, by rintro _ ⟨⟩⟩

/-- Memory that has no room for the common part of events is refused, without an effect. -/
theorem C76_query_event_small (l : Layout Event) (var : Nat) (c : EvtCfg) (size : Nat) (h : size < var) (s : Qdec) (b : Buf) :
    qryEventUser l var c size (s, b) = ((s, b), .err .invalid) := by
  unfold qryEventUser
  rw [if_pos h]
  rfl

/-- C76 for `pt_insn_next`. -/
theorem C76_instruction (l : Layout (Insn × Bool)) (part : Insn → List UInt8) (c : InsnCfg) (size : Nat)
    (hpart : ∀ i, (part i).length = l.size) :
    Provides size (insnNextUser l part c size) (insnNext c) NextOut.flags
      (fun _ _ o => fitted size (l.fresh (o.insn, o.speculative))) := by
  intro s b hb
  unfold insnNextUser insnNext
  rw [um_get, im_bind]
  dsimp only [IM.get]
  by_cases he : s.enabled = false
  · rw [if_pos he, if_pos he]
    by_cases hs : s.status.eos = true
    · rw [if_pos hs, if_pos hs]
      exact ⟨b, hb, rfl, by rintro _ ⟨⟩⟩
    · rw [if_neg hs, if_neg hs]
      exact ⟨b, hb, rfl, by rintro _ ⟨⟩⟩
  rw [if_neg he, if_neg he, im_bind]
  have h0 : ∃ b0 : Buf, b0.length = size ∧
      (if size = l.size then b.store 0 (l.fresh ({ ip := s.ip, mode := s.mode }, s.speculative)) else .ok b) = .ok b0 := by
    split
    · exact ⟨_, (fresh_length _ _).trans (Eq.symm ‹_›), store_all (by rw [fresh_length]; omega)⟩
    · exact ⟨b, hb, rfl⟩
  obtain ⟨b0, hb0, h0⟩ := h0
  rw [um_write (f := fun b => if size = l.size then b.store 0 (l.fresh ({ ip := s.ip, mode := s.mode }, s.speculative)) else .ok b) h0,
    um_bind]
  have hf := fetchUser_eq c s b0
  revert hf
  rcases fetchUser c s (s, b0) with ⟨⟨t, b1⟩, r⟩
  rcases fetchInsn c s with ⟨t', i | e | _⟩
  · rintro ⟨⟨⟩, h2⟩
    cases h2
    dsimp only
    rw [um_put hb0 (fresh_length _ _), um_insn, im_bind]
    refine ⟨fitted size (l.fresh (i, s.speculative)), fitted_length _ _, ?_⟩
    rcases checkInsnEvent c i t' with ⟨t', (_ | f) | x | _⟩
    · dsimp only
      rw [um_insn, im_bind]
      rcases proceed c i t' with ⟨t', _ | x | _⟩
      · dsimp only
        rw [insn_eq, im_bind]
        rcases checkIpEvent c (some i) t' with ⟨t', f | x | _⟩
        · exact ⟨rfl, by rintro _ ⟨⟩; rfl⟩
        · exact ⟨rfl, by rintro _ ⟨⟩⟩
        · exact ⟨rfl, by rintro _ ⟨⟩⟩
      · exact ⟨rfl, by rintro _ ⟨⟩⟩
      · exact ⟨rfl, by rintro _ ⟨⟩⟩
    · exact ⟨rfl, by rintro _ ⟨⟩; rfl⟩
    · exact ⟨rfl, by rintro _ ⟨⟩⟩
    · exact ⟨rfl, by rintro _ ⟨⟩⟩
  · rintro ⟨⟨⟩, h2 | h2⟩
    · cases h2
      dsimp only
      rw [um_put hb0 (hpart _)]
      exact ⟨fitted size (part { ip := s.ip, mode := s.mode }), fitted_length _ _, rfl, by rintro _ ⟨⟩⟩
    · cases h2
      exact ⟨b0, hb0, rfl, by rintro _ ⟨⟩⟩
  · rintro ⟨⟨⟩, h2⟩
    cases h2
    exact ⟨b0, hb0, rfl, by rintro _ ⟨⟩⟩

/-- C76 for `pt_insn_event`.  Missing: unknown bytes are not zero. -/
theorem C76_instruction_event_partial (l : Layout (Event × Bool)) (c : InsnCfg) (size : Nat) :
    Provides size (insnEventUser l c size) (insnEvent c) EventOut.flags
      (fun _ b o => overlaid b (l.fresh (o.event, o.resumed))) := by
  intro s b hb
  unfold insnEventUser insnEvent
  rw [um_get, im_bind]
  dsimp only [IM.get]
  by_cases hp : s.processEvent = false
  · rw [if_pos hp, if_pos hp]
    exact ⟨b, hb, rfl, by rintro _ ⟨⟩⟩
  rw [if_neg hp, if_neg hp]
  rcases he : s.event with _ | ev
  · exact ⟨b, hb, rfl, by rintro _ ⟨⟩⟩
  dsimp only
  rw [um_insn, im_bind]
  rcases hx : processEvent ev s with ⟨s', _ | x | _⟩
  · dsimp only
    rw [um_cut hb, um_insn, im_bind]
    refine ⟨overlaid b (l.fresh (ev, resumed s ev)), by rw [overlaid_length, hb], ?_⟩
    dsimp only [IM.modify]
    generalize { s' with processEvent := false } = t
    rcases s.insn with _ | i
    · dsimp only
      rw [insn_eq, im_bind]
      rcases checkIpEvent c none t with ⟨t', f | x | _⟩
      · exact ⟨rfl, by rintro _ ⟨⟩; rfl⟩
      · exact ⟨rfl, by rintro _ ⟨⟩⟩
      · exact ⟨rfl, by rintro _ ⟨⟩⟩
    · dsimp only
      rw [um_insn, im_bind]
      rcases checkInsnEvent c i t with ⟨t', (_ | f) | x | _⟩
      · dsimp only
        rw [um_insn, im_bind]
        rcases proceedPostponed c t' with ⟨t', _ | x | _⟩
        · dsimp only
          rw [insn_eq, im_bind]
          rcases checkIpEvent c none t' with ⟨t', f | x | _⟩
          · exact ⟨rfl, by rintro _ ⟨⟩; rfl⟩
          · exact ⟨rfl, by rintro _ ⟨⟩⟩
          · exact ⟨rfl, by rintro _ ⟨⟩⟩
        · exact ⟨rfl, by rintro _ ⟨⟩⟩
        · exact ⟨rfl, by rintro _ ⟨⟩⟩
      · exact ⟨rfl, by rintro _ ⟨⟩; rfl⟩
      · exact ⟨rfl, by rintro _ ⟨⟩⟩
      · exact ⟨rfl, by rintro _ ⟨⟩⟩
  · exact ⟨b, hb, rfl, by rintro _ ⟨⟩⟩
  · exact ⟨b, hb, rfl, by rintro _ ⟨⟩⟩

/-- C76 for `pt_blk_next`.  The block is provided also if there is an error. -/
theorem C76_block (l : Layout Block) (c : BlkCfg) (size : Nat) (s : Bdec) (b : Buf) (hb : b.length = size) :
    ∃ b', b'.length = size ∧ blkNextUser l c size (s, b) = (((blkNext c s).1, b'), (blkNext c s).2) ∧
      ((blkNext c s).2 ≠ .ub → b' = fitted size (l.fresh (blkNext c s).1.blk)) := by
  unfold blkNextUser blkNext
  rw [um_blk, bm_bind]
  dsimp only [BM.modify]
  rw [um_blk]
  unfold BM.try_
  rcases blkProceed c (newBlock s) with ⟨t, f | x | _⟩
  · dsimp only
    rw [um_get, um_put hb (fresh_length _ _)]
    exact ⟨_, fitted_length _ _, rfl, fun _ => rfl⟩
  · dsimp only
    rw [um_get, um_put hb (fresh_length _ _)]
    exact ⟨_, fitted_length _ _, rfl, fun _ => rfl⟩
  · exact ⟨b, hb, rfl, fun h => absurd rfl h⟩

/-- C76 for `pt_blk_event`.  Missing: unknown bytes are not zero. -/
theorem C76_block_event_partial (l : Layout (Event × Bool)) (c : BlkCfg) (size : Nat) :
    Provides size (blkEventUser l c size) (blkEvent c) EventOut.flags
      (fun _ b o => overlaid b (l.fresh (o.event, o.resumed))) := by
  intro s b hb
  unfold blkEventUser blkEvent
  rw [um_get, bm_bind]
  dsimp only [BM.get]
  rcases hst : s.status with _ | x
  rotate_left
  · exact ⟨b, hb, rfl, by rintro _ ⟨⟩⟩
  dsimp only
  rcases he : s.event with _ | ev
  · exact ⟨b, hb, rfl, by rintro _ ⟨⟩⟩
  dsimp only
  have main : ∃ b', b'.length = size ∧ (do
        UM.blk (blkProcessEvent ev)
        UM.write fun b => cutToUser b size (l.fresh (ev, blkResumed s ev))
        UM.blk (fetchEvent c)
        UM.blk (trailingEvent c false c.evt.fuel) : UM Bdec Flags) (s, b) = (((blkOther c ev s).1, b'),
          only EventOut.flags (blkOther c ev s).2) ∧
      ∀ a, (blkOther c ev s).2 = .ok a → b' = overlaid b (l.fresh (a.event, a.resumed)) := by
    rw [um_blk]
    unfold blkOther
    rw [bm_bind]
    rcases blkProcessEvent ev s with ⟨t, _ | x | _⟩
    · dsimp only
      rw [um_cut hb, um_blk, bm_bind]
      refine ⟨overlaid b (l.fresh (ev, blkResumed s ev)), by rw [overlaid_length, hb], ?_⟩
      rcases fetchEvent c t with ⟨t, _ | x | _⟩
      · dsimp only
        rw [blk_eq, bm_bind]
        rcases trailingEvent c false c.evt.fuel t with ⟨t, f | x | _⟩
        · exact ⟨rfl, by rintro _ ⟨⟩; rfl⟩
        · exact ⟨rfl, by rintro _ ⟨⟩⟩
        · exact ⟨rfl, by rintro _ ⟨⟩⟩
      · exact ⟨rfl, by rintro _ ⟨⟩⟩
      · exact ⟨rfl, by rintro _ ⟨⟩⟩
    · exact ⟨b, hb, rfl, by rintro _ ⟨⟩⟩
    · exact ⟨b, hb, rfl, by rintro _ ⟨⟩⟩
  rcases hd : ev.data
  case tnt p n => exact blkTick_eq l c hb ev n s
  all_goals exact main

/-! ## Examples and counterexample -/

/-- A structure of three bytes. -/
def tiny {α : Type} (f : α → List UInt8) : Layout α :=
  ⟨3, fun a _ => (f a ++ [0, 0, 0]).take 3, fun _ _ _ => by simp⟩

/-- An event in three bytes. -/
def tinyEvent : Layout (Event × Bool) :=
  tiny fun e => [7, if e.1.statusUpdate = true then 1 else 0, if e.2 = true then 1 else 0]

/-- A packet in three bytes. -/
def tinyPacket : Layout Packet := tiny fun p => match p with | .pad => [5, 6, 7] | _ => [1, 1, 1]

/-- A PAD packet in memory that is too small, in memory that is too large, and an error. -/
example :
    pktNextUser tinyPacket { mem := [0] } [8, 8, 8] [9, 9, 9] 2 (some 0, [1, 2]) = ((some 1, [5, 6]), .ok 1) ∧
    pktNextUser tinyPacket { mem := [0] } [8, 8, 8] [9, 9, 9] 3 (some 0, [1, 2, 3]) = ((some 1, [5, 6, 7]), .ok 1) ∧
    pktNextUser tinyPacket { mem := [0] } [8, 8, 8] [9, 9, 9] 5 (some 0, [1, 2, 3, 4, 5]) = ((some 1, [5, 6, 7, 0, 0]), .ok 1) ∧
    pktNextUser tinyPacket { mem := [0] } [8, 8, 8] [9, 9, 9] 2 (some 1, [1, 2]) = ((some 1, [1, 2]), .err .eos) := by
  decide +kernel

/-- The decoders after synchronization. -/
def insnStarted : Idec := (insnSyncForward (flowCfg flowProgram [0x0e]) (flowDec flowProgram)).1

@[inherit_doc insnStarted] def blkStarted : Bdec := (blkSyncForward (blkCfg flowProgram [0x0e]) (blkFresh flowProgram)).1

/-- The memory after the first event, and whether there was an error. -/
def tinyGot {σ α : Type} (r : (σ × Buf) × Res α) : Buf × Bool := (r.1.2, match r.2 with | .ok _ => true | _ => false)

/-- The first event in five bytes: one decoder sets the rest to zero, the other ones do not. -/
example :
    tinyGot (evtNextUser ⟨3, fun e => tinyEvent.put (e, false), fun e => tinyEvent.len (e, false)⟩ (cfgOf qryTrace) 5
      (startedEvt (cfgOf qryTrace), [1, 2, 3, 4, 5])) = ([7, 1, 0, 0, 0], true) ∧
    tinyGot (qryEventUser ⟨3, fun e => tinyEvent.put (e, false), fun e => tinyEvent.len (e, false)⟩ 1 (cfgOf qryTrace) 5
      (started (cfgOf qryTrace), [1, 2, 3, 4, 5])) = ([7, 1, 0, 4, 5], true) ∧
    tinyGot (insnEventUser tinyEvent (flowCfg flowProgram [0x0e]) 5 (insnStarted, [1, 2, 3, 4, 5])) = ([7, 1, 1, 4, 5], true) ∧
    tinyGot (blkEventUser tinyEvent (blkCfg flowProgram [0x0e]) 5 (blkStarted, [1, 2, 3, 4, 5])) = ([7, 1, 1, 4, 5], true) := by
  decide +kernel

/-- Instructions and blocks. -/
example :
    tinyGot (insnNextUser (tiny fun i => [UInt8.ofNat (i.1.ip % 256), UInt8.ofNat i.1.size, 3]) (fun _ => [9, 9, 9])
      (flowCfg flowProgram [0x0e]) 4 ((insnEvent (flowCfg flowProgram [0x0e]) (insnEvent (flowCfg flowProgram [0x0e]) insnStarted).1).1,
        [1, 2, 3, 4])) = ([1, 1, 3, 0], true) ∧
    tinyGot (blkNextUser (tiny fun b => [UInt8.ofNat (b.ip % 256), UInt8.ofNat b.ninsn, 3])
      (blkCfg flowProgram [0x0e]) 4 ((blkEvent (blkCfg flowProgram [0x0e]) (blkEvent (blkCfg flowProgram [0x0e]) blkStarted).1).1,
        [1, 2, 3, 4])) = ([1, 2, 3, 0], true) := by
  decide +kernel

/-- Users cannot rely on unknown bytes of an event to be zero: the query decoder, the instruction flow decoder and the block
decoder leave them as they are. -/
theorem C76_unknown_bytes_fail :
    ¬ (∀ (l : Layout (Event × Bool)) (c : InsnCfg) (size : Nat),
      Provides size (insnEventUser l c size) (insnEvent c) EventOut.flags
        (fun _ _ o => fitted size (l.fresh (o.event, o.resumed)))) := by
  intro h
  have hs : tinyGot (insnEventUser tinyEvent (flowCfg flowProgram [0x0e]) 5 (insnStarted, [1, 2, 3, 4, 5])) =
      ([7, 1, 1, 4, 5], true) := by decide +kernel
  obtain ⟨b', -, h2, h3⟩ := h tinyEvent (flowCfg flowProgram [0x0e]) 5 insnStarted [1, 2, 3, 4, 5] rfl
  rw [h2] at hs
  rcases hr : (insnEvent (flowCfg flowProgram [0x0e]) insnStarted).2 with o | e | _
  · have h4 : b' = fitted 5 (tinyEvent.fresh (o.event, o.resumed)) := h3 o hr
    have h5 : b' = [7, 1, 1, 4, 5] := congrArg Prod.fst hs
    have h6 : (fitted 5 (tinyEvent.fresh (o.event, o.resumed))).drop 3 = [0, 0] := by
      unfold fitted
      rw [fresh_length]
      rw [List.drop_append, List.length_take, fresh_length]
      have : (List.take 5 (tinyEvent.fresh (o.event, o.resumed))).drop 3 = [] := by
        simp [fresh_length, tinyEvent, tiny]
      rw [this]
      rfl
    rw [← h4, h5] at h6
    cases h6
  · rw [hr] at hs; cases hs
  · rw [hr] at hs; cases hs

end Ipt.Props
