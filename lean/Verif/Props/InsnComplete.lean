import Verif.CompleteStep
import Verif.InsnFlowRun
import Verif.InsnSafe
import Verif.Props.HistoryInsn

/-!
# C75: the instruction flow decoder reconstructs every traced program
-/

set_option linter.unusedSimpArgs false

namespace Ipt

open Ild Spec

/-- Synchronizing succeeds if it does for the query decoder, and looking for an event does. -/
theorem sync_insn_fwd {c : InsnCfg} {s s' : Idec} {o : SyncCall} {q : Qdec} {fq fl : Flags} {ip : Option Nat}
    (h : o.run c.evt s.q = (q, .ok (fq, ip)))
    (h' : checkIpEvent c none { insnReset s with q := q, ip := ip.getD 0, status := fq, enabled := !fq.ipSuppressed } = (s', .ok fl)) :
    o.insn c s = (s', .ok fl) := by
  have key : ∀ (m : QM (Flags × Option Nat)), m s.q = (q, .ok (fq, ip)) →
      (IM.modify insnReset >>= fun _ => IM.query m >>= fun r =>
      IM.modify (fun s => { s with ip := r.2.getD s.ip }) >>= fun _ => insnStart c r.1) s = (s', .ok fl) := by
    intro m h
    rw [IM.modify_bind, IM.bind_ok]
    refine ⟨{ insnReset s with q := q }, (fq, ip), ?_, ?_⟩
    · rw [IM.query_ok]; exact ⟨q, h, rfl⟩
    · rw [IM.modify_bind]
      unfold insnStart
      rw [IM.modify_bind]
      exact h'
  cases o with
  | forward => exact key _ h
  | backward => exact key _ h
  | set off => exact key _ h

theorem item_event {es : List Event} {e : Event} (h : Item.event e ∈ es.flatMap items) : e ∈ es := by
  obtain ⟨e', h1, h2⟩ := List.mem_flatMap.1 h
  unfold items at h2
  split at h2
  all_goals first
    | (simp at h2; subst h2; exact h1)
    | (simp at h2; done)
    | skip

/-- After synchronization, there is no branch before the first event. -/
theorem first_item {c : EvtCfg} {d : Evd} {q : Qdec} {es : List Event} (hu : Usable c) (h : QInv c d q [] []) (hs : Synced c d)
    (hes : Fails c d es .eos) : evNext (es.flatMap items) = true ∨ es.flatMap items = [] := by
  have hn := QInv.now (rest := es) hu h hes
  cases es with
  | nil => exact .inr rfl
  | cons e es =>
    left
    obtain ⟨d', es', h1, h2⟩ := synced_blocked hu h hs
    have hb := h2 e hn.1.2.1
    have : items e = [.event e] := by
      unfold items
      unfold Spec.isBranch at hb
      rcases hd : e.data <;> rw [hd] at hb <;> first | rfl | cases hb
    rw [List.flatMap_cons, this]
    rfl

/-- Without tick events, the user sees exactly the same. -/
theorem Alike.each {a b : List Seen} (h : Alike false a b) : Each Like a b := by
  induction h with
  | nil => exact .nil
  | cons h _ ih => exact .cons h ih
  | tick e ip h => cases h

namespace Props

/-- C75: a decoder is synchronized onto a trace, at address `ip` if tracing was enabled.  The events in the trace are `es`,
and then it ends.  If this is the trace of a program, which is in the image, starting at that address, then the decoder
succeeds in reconstructing it: synchronizing succeeds, a user who follows the flags gets each of the program's instructions
and each event, in the order in which they happened, and nothing else but tick events, if these are enabled, and is told
about the end of the trace then.

Missing: transaction aborts on processors with erratum BDM64, TRIG events at address zero (see
`Traced.locate`), 2^32 or more instructions without anything in the trace (false of the code, see below), and
`pt_insn_sync_backward` (false of the code: no flags are provided, see C65). -/
theorem C75_traced_program_is_shown_partial (c : InsnCfg) (henv : c.env.Ok) (hu : Usable c.evt)
    (hfilter : c.filter.addr.length = 16)
    (o : SyncCall) (ho : o ≠ .backward) (s0 : Idec) (ht : Typed s0) (hw : ∀ m ∈ s0.sc.img.secs, m.WF c.env)
    (hun : Unambiguous s0.sc.img.secs) (hpl : Placed s0.sc.img.secs)
    (hcb : Agrees c s0.sc.img.secs) (hroom : Room s0.sc) (hmaps : s0.maps = [])
    (q : Qdec) (fq : Flags) (ip : Option Nat) (hq : o.run c.evt s0.q = (q, .ok (fq, ip)))
    (d : Evd) (hd : o.evt.run c.evt s0.q.ev = (d, .ok none)) (es : List Event) (hes : Fails c.evt d es .eos)
    (habort : c.evt.pkt.errata.bdm64 = true → ∀ e ∈ es, ∀ sp x, e.data = .tsx sp true x → e.ipSuppressed = true)
    (out : List Seen) (htr : Traced c (Flow.start ip s0.sc.img.secs) out (es.flatMap items)) :
    ∃ s1 fl0 out' s fl, o.insn c s0 = (s1, .ok fl0) ∧ Alike c.tick out out' ∧ Follows c s1 fl0 out' s fl ∧
      fl.eventPending = false ∧ fl.eos = true := by
  obtain ⟨d', hd', hsy⟩ := C37_synchronized_own c.evt o s0.q q fq ip hq ho
  rw [hd] at hd'
  cases hd'
  have hqi := sync_inv hu hsy
  have hqh : QHas c.evt q (es.flatMap items) := ⟨d, [], [], es, hqi, hes, by simp⟩
  obtain ⟨hfl, hsup⟩ := run_ip ho hq
  rw [hqh.flags hu] at hfl
  have e1 : fq.eventPending = evNext (es.flatMap items) ∧ fq.eos = (es.flatMap items).isEmpty := by
    have := Res.ok.inj hfl
    unfold flagsFor at this
    exact ⟨(congrArg Flags.eventPending this).symm, (congrArg Flags.eos this).symm⟩
  have hrest : Rest c { insnReset s0 with q := q, ip := ip.getD 0, status := fq, enabled := !fq.ipSuppressed }
      (Flow.start ip s0.sc.img.secs) (es.flatMap items) := by
    refine ⟨⟨?_, rfl, rfl, rfl, fun _ => Iff.rfl, ?_, rfl, ht.1, ?_, hw, ⟨⟨rfl, fun _ => .rfl, hun, ?_, ?_, hroom, hroom⟩, hmaps, hpl, hcb⟩, ?_⟩,
      rfl, rfl, rfl, fun k => ?_⟩
    · rw [hsup]; cases ip <;> rfl
    · exact ⟨ht.2, by simp [insnReset, RetStack.init], by simp [insnReset, RetStack.init, Flow.start], by simp [Flow.start],
        by simp [Flow.start]⟩
    · intro m _
      exact sameSpace_unknown _
    · intro m _
      exact sameSpace_unknown _
    · intro m _
      exact sameSpace_unknown _
    · exact .idle _ rfl hqh e1.1 e1.2 fun _ => .inr (first_item hu hqi (run_sync hu.time hd) hes)
    · cases k <;> rfl
  obtain ⟨s1, fl0, h1, out', s, fl, h2, h3, h4⟩ := (shows ⟨henv, hu, fun x hx => (by
      obtain ⟨on, hon, -⟩ := C18_addr_filter c.filter x hfilter
      rw [hon] at hx; cases hx)⟩ htr
    (Ipt.Traced.tame htr fun hb e he => habort hb e (item_event he))).rest _ none hrest
  exact ⟨s1, fl0, out', s, fl, sync_insn_fwd hq h1, h2, h3, h4⟩

/-- C75 does not hold of the code without the limit in `Traced.exec`: after 2^32 - 1 instructions the trace told nothing
about, the next one that takes nothing from the trace leads to an error.  An endless loop may have more of them. -/
theorem C75_long_silence_fails (c : InsnCfg) (s : Idec) (i : Insn) (hen : s.enabled = true)
    (hn : s.count = some (2 ^ 32 - 1))
    (hi : i.ext.cls = .other ∨ (i.ext.cls = .jump ∧ i.ext.isDirect = true ∧ i.ext.inst ≠ .jmpabs)) :
    (proceed c i s).2 = .err .overflow := by
  unfold Idec.count at hn
  have h1 : s.hasIcnt = true ∧ s.icnt = 2 ^ 32 - 1 := by
    split at hn
    · exact ⟨by assumption, Option.some.inj hn⟩
    · cases hn
  have h2 : ∀ x y, (updateTrig x { s with ip := y }).2 = .err .overflow := by
    intro x y
    unfold updateTrig
    rw [IM.get_bind, if_neg (by simp [h1.1]), if_neg (by simp [hen])]
    dsimp only
    rw [if_pos (by rw [h1.2])]
    rfl
  unfold proceed
  rw [IM.modify_bind]
  rcases hi with hi | ⟨hi, hd, hj⟩
  · rw [hi]
    exact h2 _ _
  · rw [hi]
    dsimp only
    unfold proceedBranch
    rw [if_pos ⟨hd, hj⟩, IM.modify_bind]
    exact h2 _ _

/-! ## Examples -/

/-- An endless loop: `jmp` to itself. -/
example : (ildDecode [0xeb, 0xfe] 2 .b64).2.bind (fun x => .ok (x.cls, x.isDirect, x.inst != .jmpabs, x.displacement)) =
    .ok (.jump, true, true, -2) := by decide +kernel

/-- An instruction of the example program. -/
def flowInsn (ip size : Nat) : Insn :=
  { ip := ip, mode := .b64, size := size, raw := (flowProgram.drop (ip - 0x7001)).take size,
    ext := match (ildDecode ((flowProgram.drop (ip - 0x7001)).take size) size .b64).2 with
      | .ok x => x
      | _ => {} }

/-- PSB; MODE.EXEC 64-bit; FUP 0x7001; PSBEND; TNT taken, taken; FUP 0x7011; TIP.PGD -/
def offCfg : InsnCfg := flowCfg flowProgram [0x0e, 0x3d, 0x11, 0x70, 0x01]

/-- Its events. -/
def offEvents : List Event :=
  [{ data := .enabled 0x7001, statusUpdate := true }, { data := .execMode 3 0x7001, statusUpdate := true },
    { data := .tnt 3 2 }, { data := .asyncDisabled 0x7011 0, ipSuppressed := true }]

theorem flowSecs : (flowDec flowProgram).sc.img.secs = [⟨0, {}, 0x7001, 0, 17, 1⟩] := by decide +kernel

theorem flowAt {c : InsnCfg} (hc : c.env = offCfg.env) {f : Flow} {ip size : Nat} (h1 : f.ip = ip) (h2 : f.mode = .b64) (h3 : f.asid = {})
    (h4 : f.sections = fun m => m ∈ (flowDec flowProgram).sc.img.secs) (h5 : 0x7001 ≤ ip ∧ ip + size ≤ 0x7012)
    (h6 : 1 ≤ size ∧ size ≤ 15)
    (h7 : ildDecode (flowInsn ip size).raw size .b64 = (size, .ok (flowInsn ip size).ext)) : f.At c (flowInsn ip size) := by
  refine ⟨h1.symm, h2.symm, h6, fun k hk => ?_, h7⟩
  have hk : k < size := hk
  have hip : (flowInsn ip size).ip = ip := rfl
  refine ⟨flowProgram.getD (ip - 0x7001 + k) 0, ?_, .inl ⟨⟨0, {}, 0x7001, 0, 17, 1⟩, ?_, ?_, ?_, ?_, ?_⟩⟩
  · have hr : (flowInsn ip size).raw = (flowProgram.drop (ip - 0x7001)).take size := rfl
    rw [hr]
    rw [List.getElem?_take_of_lt hk, List.getElem?_drop, List.getD_eq_getElem?_getD]
    have hl : flowProgram.length = 17 := by decide
    have : ip - 0x7001 + k < flowProgram.length := by omega
    rw [List.getElem?_eq_getElem this, Option.getD_some]
  · rw [h4, flowSecs]; simp
  · simp only [hip]
    omega
  · simp only [hip]
    omega
  · rw [h3]; exact sameSpace_unknown _
  · have h8 : ip - 0x7001 + k = 0 + ((ip + k) % 2 ^ 64 - 0x7001) := by omega
    have h9 : ∀ n, c.env.byte 0 n = flowProgram.getD n 0 := fun _ => by rw [hc]; rfl
    simp only [h9, hip]
    rw [← h8]

theorem flowQuiet {f : Flow} {x : Item} {l : List Item} (h : ∀ e, x ≠ .event e) : f.Quiet offCfg (x :: l) := by
  intro e l' hl
  cases hl
  exact absurd rfl (h e)

theorem addr_of {t : Nat} {v : Int} (h : t < 2 ^ 64) (hv : (t : Int) = v) : Addr t v := ⟨h, 0, by omega⟩

/-- The program is executed up to `hlt` at 0x7010, and an interrupt before the instruction behind it disables tracing.
While `hlt` is executed, the decoder already knows about the event. -/
theorem offTraced : Traced offCfg (Flow.start (some 0x7001) (flowDec flowProgram).sc.img.secs)
    [.event { data := .enabled 0x7001, statusUpdate := true } true,
      .event { data := .execMode 3 0x7001, statusUpdate := true } false,
      .insn (flowInsn 0x7001 1) false, .insn (flowInsn 0x7002 2) false, .insn (flowInsn 0x7006 5) false,
      .insn (flowInsn 0x700b 5) false, .insn (flowInsn 0x7011 1) false, .insn (flowInsn 0x7010 1) false,
      .event { data := .asyncDisabled 0x7011 0, ipSuppressed := true } false]
    (offEvents.flatMap items) := by
  have hi : offEvents.flatMap items = [.event { data := .enabled 0x7001, statusUpdate := true },
      .event { data := .execMode 3 0x7001, statusUpdate := true }, .bit true, .bit true,
      .event { data := .asyncDisabled 0x7011 0, ipSuppressed := true }] := by decide +kernel
  rw [hi]
  refine .event _ _ _ _ rfl (.between rfl (by rfl) (by intro x hx; cases hx) rfl) (by rfl) (by rintro ⟨-, _, _, _, h⟩; cases h) (fun h => by cases h) ?_
  refine .event _ _ _ _ rfl (.between rfl (by rfl) (by intro x hx; exact .inl (Option.some.inj hx)) rfl) (fun _ _ => .inl rfl)
    (by rintro ⟨-, _, _, _, h⟩; cases h) (fun h => by cases h) ?_
  -- nop
  refine .insn _ (flowInsn 0x7001 1) _ _ rfl rfl (by decide) (flowAt rfl rfl rfl rfl rfl (by decide) (by decide) (by decide +kernel))
    (flowQuiet (by simp)) ?_
  refine .exec _ (flowInsn 0x7001 1) [] 0x7002 _ _ _ rfl rfl (.fall _ (.inl (by decide +kernel)) (addr_of (by decide) rfl))
    (flowQuiet (by simp)) (by intro n hn; cases hn; decide) (by intro e l' a n m h1 h2 h3; cases h1 <;> cases h3) ?_
  -- je
  refine .insn _ (flowInsn 0x7002 2) _ _ rfl rfl (by decide) (flowAt rfl rfl rfl rfl rfl (by decide) (by decide) (by decide +kernel))
    (flowQuiet (by simp)) ?_
  refine .exec _ (flowInsn 0x7002 2) [.bit true] 0x7006 _ _ _ rfl rfl
    (.cond true _ (by decide +kernel) (addr_of (by decide) (by decide +kernel)))
    (flowQuiet (by simp)) (by intro n hn; cases hn; decide) (by intro e l' a n m h1 h2 h3; cases h1 <;> cases h3) ?_
  -- call
  refine .insn _ (flowInsn 0x7006 5) _ _ rfl rfl (by decide) (flowAt rfl rfl rfl rfl rfl (by decide) (by decide) (by decide +kernel))
    (flowQuiet (by simp)) ?_
  refine .exec _ (flowInsn 0x7006 5) [] 0x700b _ _ _ rfl rfl
    (.direct _ 0x700b (by decide +kernel) (by unfold Direct; decide +kernel) (addr_of (by decide) (by decide +kernel))
      (addr_of (by decide) (by decide +kernel)))
    (flowQuiet (by simp)) (by intro n hn; cases hn; decide) (by intro e l' a n m h1 h2 h3; cases h1 <;> cases h3) ?_
  -- call
  refine .insn _ (flowInsn 0x700b 5) _ _ rfl rfl (by decide) (flowAt rfl rfl rfl rfl rfl (by decide) (by decide) (by decide +kernel))
    (flowQuiet (by simp)) ?_
  refine .exec _ (flowInsn 0x700b 5) [] 0x7011 _ _ _ rfl rfl
    (.direct _ 0x7010 (by decide +kernel) (by unfold Direct; decide +kernel) (addr_of (by decide) (by decide +kernel))
      (addr_of (by decide) (by decide +kernel)))
    (flowQuiet (by simp)) (by intro n hn; cases hn; decide) (by intro e l' a n m h1 h2 h3; cases h1 <;> cases h3) ?_
  -- ret
  refine .insn _ (flowInsn 0x7011 1) _ _ rfl rfl (by decide) (flowAt rfl rfl rfl rfl rfl (by decide) (by decide) (by decide +kernel))
    (flowQuiet (by simp)) ?_
  refine .exec _ (flowInsn 0x7011 1) [.bit true] 0x7010 [] _ _ rfl rfl (.ret _ _ (by decide +kernel) (by decide +kernel))
    (flowQuiet (by simp)) (by intro n hn; cases hn; decide) (by intro e l' a n m h1 h2 h3; cases h1 <;> cases h3) ?_
  -- hlt
  have off : ∀ {f : Flow} {l : List Item}, f.ip = 0x7010 →
      f.Quiet offCfg (.event { data := .asyncDisabled 0x7011 0, ipSuppressed := true } :: l) := by
    intro f l hf e l' hl
    cases hl
    refine ⟨fun hdue => ?_, by rintro - ⟨-, _, _, _, h⟩; cases h⟩
    rcases hdue with ⟨-, -, h, -⟩ | ⟨_, _, -, h, -⟩ | ⟨_, _, _, -, h, -⟩ | ⟨_, _, -, h, -⟩
    · rcases h 0x7011 rfl with h | ⟨-, h⟩
      · rw [hf] at h; cases h
      · exact h
    all_goals cases h
  refine .insn _ (flowInsn 0x7010 1) _ _ rfl rfl (by decide) (flowAt rfl rfl rfl rfl rfl (by decide) (by decide) (by decide +kernel))
    (off rfl) ?_
  refine .exec _ (flowInsn 0x7010 1) [] 0x7011 _ _ _ rfl rfl (.fall _ (.inl (by decide +kernel)) (addr_of (by decide) rfl))
    (off rfl) (by intro n hn; cases hn; decide) (by intro e l' a n m h1 h2 h3; cases h1 <;> cases h3) ?_
  refine .event _ _ _ _ rfl (.between rfl (by rfl) (by intro x hx; exact .inl (Option.some.inj hx)) rfl) (by rfl)
    (by rintro ⟨-, _, _, _, h⟩; cases h) (fun h => by cases h) ?_
  exact .done _ rfl

/-- PSB; MODE.EXEC 64-bit; FUP 0x7001; PSBEND; TRIG: trigger 5, one instruction behind the last address -/
def trigCfg : InsnCfg := flowCfg flowProgram [0xd9, 0x40, 5, 1, 0]

/-- Its events. -/
def trigEvents : List Event :=
  [{ data := .enabled 0x7001, statusUpdate := true }, { data := .execMode 3 0x7001, statusUpdate := true },
    { data := .trig 5 1 false 0 }]

/-- The program is executed up to `je` at 0x7002, in front of which there was the trigger. -/
theorem trigTraced : Traced trigCfg (Flow.start (some 0x7001) (flowDec flowProgram).sc.img.secs)
    [.event { data := .enabled 0x7001, statusUpdate := true } true,
      .event { data := .execMode 3 0x7001, statusUpdate := true } false,
      .insn (flowInsn 0x7001 1) false, .event { data := .trig 5 0 false 0x7002 } false]
    (trigEvents.flatMap items) := by
  have hi : trigEvents.flatMap items = [.event { data := .enabled 0x7001, statusUpdate := true },
      .event { data := .execMode 3 0x7001, statusUpdate := true }, .event { data := .trig 5 1 false 0 }] := by decide +kernel
  rw [hi]
  refine .event _ _ _ _ rfl (.between rfl (by rfl) (by intro x hx; cases hx) rfl) (by rfl)
    (by rintro ⟨-, _, _, _, h⟩; cases h) (fun h => by cases h) ?_
  refine .event _ _ _ _ rfl (.between rfl (by rfl) (by intro x hx; exact .inl (Option.some.inj hx)) rfl) (fun _ _ => .inl rfl)
    (by rintro ⟨-, _, _, _, h⟩; cases h) (fun h => by cases h) ?_
  refine .locate _ _ 5 1 false 0 _ _ rfl rfl rfl rfl (by decide) (by decide) ?_
  have off : ∀ {f : Flow} {l : List Item}, f.Quiet trigCfg (.event { data := .trig 5 1 false 0x7001 } :: l) := by
    intro f l e l' hl
    cases hl
    refine ⟨fun hdue => ?_, by rintro - ⟨-, _, _, _, h⟩; cases h⟩
    rcases hdue with ⟨-, -, -, h⟩ | ⟨_, _, -, h, -⟩ | ⟨_, _, _, -, h, -⟩ | ⟨_, _, -, h, -⟩
    all_goals cases h
  -- nop
  refine .insn _ (flowInsn 0x7001 1) _ _ rfl rfl (by decide) (flowAt (c := trigCfg) (by rfl) rfl rfl rfl rfl (by decide) (by decide) (by decide +kernel))
    off ?_
  refine .exec _ (flowInsn 0x7001 1) [] 0x7002 _ _ _ rfl rfl (.fall _ (.inl (by decide +kernel)) (addr_of (by decide) rfl))
    off (by intro n hn; cases hn; decide) (by intro e l' a n m h1 h2 h3; cases h1; cases h3; decide) ?_
  refine .event _ { data := .trig 5 0 false 0x7002 } _ _ rfl
    (.between rfl (by rfl) (by intro x hx; exact .inl (Option.some.inj hx)) rfl) trivial
    (by rintro ⟨-, _, _, _, h⟩; cases h) (fun h => by cases h) ?_
  exact .done _ rfl

/-- The hypotheses of C75 about the trace are met by a decoder for this program, the others are met as below. -/
example : Usable trigCfg.evt ∧ trigCfg.env = offCfg.env ∧
    (∃ q fq, SyncCall.forward.run trigCfg.evt (flowDec flowProgram).q = (q, .ok (fq, some 0x7001))) ∧
    (∃ d, SyncCall.forward.evt.run trigCfg.evt (flowDec flowProgram).q.ev = (d, .ok none) ∧ Fails trigCfg.evt d trigEvents .eos) := by
  refine ⟨⟨by decide +kernel, by decide +kernel, (by intro f h; cases h), by decide +kernel⟩, rfl, ?_, ?_⟩
  · have h : (SyncCall.forward.run trigCfg.evt (flowDec flowProgram).q).2 = .ok ({ eventPending := true }, some 0x7001) := by
      decide +kernel
    revert h
    rcases SyncCall.forward.run trigCfg.evt (flowDec flowProgram).q with ⟨q, r⟩
    rintro rfl
    exact ⟨q, _, rfl⟩
  · have h : (SyncCall.forward.evt.run trigCfg.evt (flowDec flowProgram).q.ev).2 = .ok none := by decide +kernel
    have h' : evtResults trigCfg.evt (nexts 4) (SyncCall.forward.evt.run trigCfg.evt (flowDec flowProgram).q.ev).1 =
      (trigEvents.map fun e => .ok (some e)) ++ [.err .eos] := by decide +kernel
    revert h h'
    rcases SyncCall.forward.evt.run trigCfg.evt (flowDec flowProgram).q.ev with ⟨d, r⟩
    rintro rfl h'
    exact ⟨d, rfl, h'⟩

/-- `nop; vmlaunch`, on a processor with errata SKD022 and SKL014.
PSB; MODE.EXEC 64-bit; FUP 0x7001; PSBEND; FUP 0x7002; TIP.PGD -/
def vmCfg : InsnCfg :=
  { flowCfg [0x90, 0x0f, 0x01, 0xc2] [0x3d, 0x02, 0x70, 0x01] with
    evt := { pkt := { mem := flowHeader ++ [0x3d, 0x02, 0x70, 0x01], errata := { skd022 := true, skl014 := true } } } }

/-- Its events: tracing was disabled before the VM entry. -/
def vmEvents : List Event :=
  [{ data := .enabled 0x7001, statusUpdate := true }, { data := .execMode 3 0x7001, statusUpdate := true },
    { data := .asyncDisabled 0x7002 0, ipSuppressed := true }]

def vmNop : Insn :=
  { ip := 0x7001, mode := .b64, size := 1, raw := [0x90]
    ext := match (ildDecode [0x90] 1 .b64).2 with | .ok x => x | _ => {} }

def vmLaunch : Insn :=
  { ip := 0x7002, mode := .b64, size := 3, raw := [0x0f, 0x01, 0xc2]
    ext := match (ildDecode [0x0f, 0x01, 0xc2] 3 .b64).2 with | .ok x => x | _ => {} }

theorem vmSecs : (flowDec [0x90, 0x0f, 0x01, 0xc2]).sc.img.secs = [⟨0, {}, 0x7001, 0, 4, 1⟩] := by decide +kernel

theorem vmAt {f : Flow} {i : Insn} (h1 : f.ip = i.ip) (h2 : f.mode = i.mode) (h3 : f.asid = {})
    (h4 : f.sections = fun m => m ∈ (flowDec [0x90, 0x0f, 0x01, 0xc2]).sc.img.secs) (hi : i = vmNop ∨ i = vmLaunch) :
    f.At vmCfg i := by
  refine ⟨h1.symm, h2.symm, by rcases hi with rfl | rfl <;> decide, fun k hk => ?_, by rcases hi with rfl | rfl <;> decide +kernel⟩
  have key : ∀ x o b, x = 0x7001 + o → o < 4 → b = [0x90, 0x0f, 0x01, 0xc2].getD o (0 : UInt8) → f.Byte vmCfg x b := by
    rintro x o b rfl ho rfl
    refine .inl ⟨⟨0, {}, 0x7001, 0, 4, 1⟩, by rw [h4, vmSecs]; simp, by simp, by simp; omega, by rw [h3]; exact sameSpace_unknown _, ?_⟩
    simp only [Nat.add_sub_cancel_left, Nat.zero_add]
    rfl
  rcases hi with rfl | rfl
  · have hk : k < 1 := hk
    obtain rfl : k = 0 := by omega
    exact ⟨0x90, rfl, key _ 0 _ (by decide) (by decide) rfl⟩
  · have hk : k < 3 := hk
    rcases k with _ | _ | _ | k
    · exact ⟨0x0f, rfl, key _ 1 _ (by decide) (by decide) rfl⟩
    · exact ⟨0x01, rfl, key _ 2 _ (by decide) (by decide) rfl⟩
    · exact ⟨0xc2, rfl, key _ 3 _ (by decide) (by decide) rfl⟩
    · omega

/-- The program that was traced: the VM entry is executed, and disables tracing. -/
theorem vmTraced : Traced vmCfg (Flow.start (some 0x7001) (flowDec [0x90, 0x0f, 0x01, 0xc2]).sc.img.secs)
    [.event { data := .enabled 0x7001, statusUpdate := true } true,
      .event { data := .execMode 3 0x7001, statusUpdate := true } false,
      .insn vmNop false, .insn vmLaunch false, .event { data := .disabled 0, ipSuppressed := true } false]
    (vmEvents.flatMap items) := by
  have hi : vmEvents.flatMap items = [.event { data := .enabled 0x7001, statusUpdate := true },
      .event { data := .execMode 3 0x7001, statusUpdate := true },
      .event { data := .asyncDisabled 0x7002 0, ipSuppressed := true }] := by decide +kernel
  rw [hi]
  refine .event _ _ _ _ rfl (.between rfl (by rfl) (by intro x hx; cases hx) rfl) (by rfl) (by rintro ⟨-, _, _, _, h⟩; cases h)
    (by intro _ _ _ h; cases h) ?_
  refine .event _ _ _ _ rfl (.between rfl (by rfl) (by intro x hx; exact .inl (Option.some.inj hx)) rfl) (fun _ _ => .inl rfl)
    (by rintro ⟨-, _, _, _, h⟩; cases h) (by intro _ _ _ h; cases h) ?_
  -- nop
  have off : ∀ {f : Flow} {l : List Item}, f.ip = 0x7001 →
      f.Quiet vmCfg (.event { data := .asyncDisabled 0x7002 0, ipSuppressed := true } :: l) := by
    intro f l hf e l' hl
    cases hl
    refine ⟨fun hdue => ?_, by rintro - ⟨-, _, _, _, h⟩; cases h⟩
    rcases hdue with ⟨-, -, h, -⟩ | ⟨_, _, -, h, -⟩ | ⟨_, _, _, -, h, -⟩ | ⟨_, _, -, h, -⟩
    · rcases h 0x7002 rfl with h | ⟨-, h⟩
      · rw [hf] at h; cases h
      · exact h
    all_goals cases h
  refine .insn _ vmNop _ _ rfl rfl (by decide) (vmAt rfl rfl rfl rfl (.inl rfl)) (off rfl) ?_
  refine .exec _ vmNop [] 0x7002 _ _ _ rfl rfl (.fall _ (.inl (by decide +kernel)) (addr_of (by decide) rfl))
    (off rfl) (by intro n hn; cases hn; decide) (by intro e l' a n m h1 h2 h3; cases h1 <;> cases h3) ?_
  -- vmlaunch
  refine .skd022 _ _ 0x7002 0 _ _ rfl rfl rfl rfl rfl
    ⟨by decide, vmLaunch, vmAt rfl rfl rfl rfl (.inr rfl), .inl (by decide +kernel)⟩ ?_
  refine .insn _ vmLaunch _ _ rfl rfl (by decide) (vmAt rfl rfl rfl rfl (.inr rfl)) ?_ ?_
  · intro e l' hl
    cases hl
    refine ⟨fun hdue => ?_, by rintro - ⟨-, _, _, _, h⟩; cases h⟩
    rcases hdue with ⟨-, h, -⟩ | ⟨_, _, -, h, -⟩ | ⟨_, _, _, -, h, -⟩ | ⟨_, _, h, -⟩
    all_goals cases h
  refine .disable _ vmLaunch _ 0 0 _ _ rfl rfl rfl
    (.disable 0 vmLaunch rfl rfl rfl (by unfold Disables; rw [if_pos rfl]; exact .inl (by decide +kernel)))
    (by
      have : vmLaunch.ext.cls = .farReturn := by decide +kernel
      unfold Resume; rw [this]) ?_
  exact .done _ rfl

/-- The hypotheses of C75 are met by a decoder for this program. -/
example : vmCfg.env.Ok ∧ Usable vmCfg.evt ∧ Agrees vmCfg (flowDec [0x90, 0x0f, 0x01, 0xc2]).sc.img.secs ∧
    vmCfg.filter.addr.length = 16 ∧ vmCfg.evt.pkt.errata.bdm64 = false ∧ vmCfg.evt.pkt.errata.skd022 = true ∧
    (∃ q fq, SyncCall.forward.run vmCfg.evt (flowDec [0x90, 0x0f, 0x01, 0xc2]).q = (q, .ok (fq, some 0x7001))) ∧
    (∃ d, SyncCall.forward.evt.run vmCfg.evt (flowDec [0x90, 0x0f, 0x01, 0xc2]).q.ev = (d, .ok none) ∧
      Fails vmCfg.evt d vmEvents .eos) := by
  refine ⟨fun _ => by show 4 < _; decide +kernel,
    ⟨by decide +kernel, by decide +kernel, (by intro f h; cases h), by decide +kernel⟩, ⟨fun _ _ => none, fun _ _ => rfl, fun _ _ _ _ _ _ _ _ h => by cases h⟩, by decide, rfl, rfl, ?_, ?_⟩
  · have h : (SyncCall.forward.run vmCfg.evt (flowDec [0x90, 0x0f, 0x01, 0xc2]).q).2 = .ok ({ eventPending := true }, some 0x7001) := by
      decide +kernel
    revert h
    rcases SyncCall.forward.run vmCfg.evt (flowDec [0x90, 0x0f, 0x01, 0xc2]).q with ⟨q, r⟩
    rintro rfl
    exact ⟨q, _, rfl⟩
  · have h : (SyncCall.forward.evt.run vmCfg.evt (flowDec [0x90, 0x0f, 0x01, 0xc2]).q.ev).2 = .ok none := by decide +kernel
    have h' : evtResults vmCfg.evt (nexts 4) (SyncCall.forward.evt.run vmCfg.evt (flowDec [0x90, 0x0f, 0x01, 0xc2]).q.ev).1 =
      (vmEvents.map fun e => .ok (some e)) ++ [.err .eos] := by decide +kernel
    revert h h'
    rcases SyncCall.forward.evt.run vmCfg.evt (flowDec [0x90, 0x0f, 0x01, 0xc2]).q.ev with ⟨d, r⟩
    rintro rfl h'
    exact ⟨d, rfl, h'⟩

/-- A callback that provides the program, one byte at a time. -/
def flowCb (n : Nat) (_ : Asid) (x : Nat) : Res (List UInt8) :=
  if 1 ≤ n ∧ 0x7001 ≤ x ∧ x < 0x7012 then .ok [flowProgram.getD (x - 0x7001) 0] else .err .nomap

/-- The memory it provides agrees with the section that contains the program. -/
example : Agrees { offCfg with cb := some flowCb } (flowDec flowProgram).sc.img.secs := by
  refine ⟨fun _ x => if 0x7001 ≤ x ∧ x < 0x7012 then some (flowProgram.getD (x - 0x7001) 0) else none, ⟨?_, ?_, ?_, ?_⟩, ?_⟩
  · intro n a x bs h
    unfold flowCb at h
    split at h
    · rename_i hx
      cases h
      refine ⟨hx.1, fun k b hk => ?_⟩
      have hk0 : k = 0 := by
        cases k with
        | zero => rfl
        | succ k => simp at hk
      subst hk0
      have hb : flowProgram.getD (x - 0x7001) 0 = b := by simpa using hk
      have h1 : (x + 0) % 2 ^ 64 = x := by omega
      rw [h1, if_pos hx.2, hb]
    · cases h
  · intro n a x b hn hx h
    split at h
    · rename_i h1
      exact ⟨[flowProgram.getD (x - 0x7001) 0], by unfold flowCb; rw [if_pos ⟨hn, h1⟩], Nat.le_refl 1⟩
    · cases h
  · intro n a x hx h
    split at h
    · cases h
    · rename_i h1
      unfold flowCb
      rw [if_neg (fun h => h1 h.2)]
  · intro n a x
    unfold flowCb
    split <;> intro h <;> cases h
  · rw [flowSecs]
    intro m hm a x b h1 h2 _ h
    simp only [List.mem_singleton] at hm
    subst hm
    dsimp only at h ⊢
    split at h
    · have e : ∀ n, offCfg.env.byte 0 n = flowProgram.getD n 0 := fun _ => rfl
      rw [e, Nat.zero_add]
      exact (Option.some.inj h).symm
    · cases h

/-- The same with a TSC packet before the TNT packet, and tick events. -/
def tickCfg : InsnCfg :=
  { flowCfg flowProgram [0x19, 1, 0, 0, 0, 0, 0, 0, 0x0e, 0x3d, 0x11, 0x70, 0x01] with tick := true }

/-- There is a tick event behind the conditional jump at 0x7002, with the address of the instruction behind the jump.
There is none behind the return at 0x7011, because time has not changed. -/
example : ((match SyncCall.forward.insn tickCfg (flowDec flowProgram) with
    | (s, .ok fl) => some ((drive tickCfg 10 s fl).1.map fun x =>
      match x with
      | .insn i _ => .inl i.ip
      | .event e _ => .inr e.data
      | .image _ => .inl 1)
    | _ => none) : Option (List (Nat ⊕ EvData))) =
    some [.inr (.enabled 0x7001), .inr (.execMode 3 0x7001), .inl 0x7001, .inl 0x7002, .inr (.tick 0x7004), .inl 0x7006,
      .inl 0x700b, .inl 0x7011, .inl 0x7010, .inr (.asyncDisabled 0x7011 0)] := by decide +kernel

/-- The hypotheses of C75 are met by a decoder for this program. -/
example : offCfg.env.Ok ∧ Usable offCfg.evt ∧ Agrees offCfg (flowDec flowProgram).sc.img.secs ∧
    offCfg.filter.addr.length = 16 ∧ offCfg.evt.pkt.errata.bdm64 = false ∧
    Typed (flowDec flowProgram) ∧ (∀ m ∈ (flowDec flowProgram).sc.img.secs, m.WF offCfg.env) ∧
    Unambiguous (flowDec flowProgram).sc.img.secs ∧ Placed (flowDec flowProgram).sc.img.secs ∧
    Room (flowDec flowProgram).sc ∧ (flowDec flowProgram).maps = [] ∧
    (∃ q fq, SyncCall.forward.run offCfg.evt (flowDec flowProgram).q = (q, .ok (fq, some 0x7001))) ∧
    (∃ d, SyncCall.forward.evt.run offCfg.evt (flowDec flowProgram).q.ev = (d, .ok none) ∧ Fails offCfg.evt d offEvents .eos) := by
  refine ⟨fun _ => by show flowProgram.length < _; decide +kernel,
    ⟨by decide +kernel, by decide +kernel, (by intro f h; cases h), by decide +kernel⟩, ⟨fun _ _ => none, fun _ _ => rfl, fun _ _ _ _ _ _ _ _ h => by cases h⟩, by decide, rfl,
    ⟨by decide +kernel, by decide +kernel⟩, ?_, flowUnambiguous, ?_, flowRoom, rfl, ?_, ?_⟩
  · rw [flowSecs]
    show ∀ m ∈ _, _ ∧ _
    decide +kernel
  · rw [flowSecs]
    intro m hm
    simp only [List.mem_singleton] at hm
    subst hm
    decide
  · have h : (SyncCall.forward.run offCfg.evt (flowDec flowProgram).q).2 = .ok ({ eventPending := true }, some 0x7001) := by
      decide +kernel
    revert h
    rcases SyncCall.forward.run offCfg.evt (flowDec flowProgram).q with ⟨q, r⟩
    rintro rfl
    exact ⟨q, _, rfl⟩
  · have h : (SyncCall.forward.evt.run offCfg.evt (flowDec flowProgram).q.ev).2 = .ok none := by decide +kernel
    have h' : evtResults offCfg.evt (nexts 5) (SyncCall.forward.evt.run offCfg.evt (flowDec flowProgram).q.ev).1 =
      (offEvents.map fun e => .ok (some e)) ++ [.err .eos] := by decide +kernel
    revert h h'
    rcases SyncCall.forward.evt.run offCfg.evt (flowDec flowProgram).q.ev with ⟨d, r⟩
    rintro rfl h'
    exact ⟨d, rfl, h'⟩

end Props

end Ipt
