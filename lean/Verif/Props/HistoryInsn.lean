import Verif.HistoryInsn
import Verif.Props.InsnSafe
import Verif.Props.History

/-!
# C68: synchronizing an instruction flow decoder starts afresh
-/

namespace Ipt

open Spec

theorem flowCall_sim {c : InsnCfg} (hu : Usable c.evt) (o : FlowCall) {s t : Idec} (h : IAlike c 2 s t) :
    (o.run c t).2 = (o.run c s).2 ∧ IAlike c 2 (o.run c s).1 (o.run c t).1 := by
  cases o with
  | next =>
    have := (insnNext_sim (b := 2) hu).run _ _ h
    exact ⟨by show Res.bind _ _ = Res.bind _ _; rw [this.1], this.2⟩
  | event =>
    have := (insnEvent_sim (b := 2) hu).run _ _ h
    exact ⟨by show Res.bind _ _ = Res.bind _ _; rw [this.1], this.2⟩

theorem insnSeen_alike {c : InsnCfg} (hu : Usable c.evt) (calls : List FlowCall) {s t : Idec} (h : IAlike c 2 s t) :
    insnSeen c calls t = insnSeen c calls s := by
  induction calls generalizing s t with
  | nil => rfl
  | cons o os ih =>
    obtain ⟨h1, h2⟩ := flowCall_sim hu o h
    have hq := h2.q
    unfold insnSeen
    dsimp only
    rw [h1, ih h2, hq.time, hq.offset, h2.sc.asid]

namespace Props

/-- C68: two instruction flow decoders with the same configuration and the same sections that are synchronized in the same
way give the same results from then on, whatever they did before: the same flags, instructions, events and errors, and
the same time, core:bus ratio, offset and address space after each call. -/
theorem C68_insn_decoder_forgets_partial (c : InsnCfg) (o : SyncCall) (s s' : Idec)
    (hu : Usable c.evt) (hb : o = .backward → IsolatedPsbs c.evt.pkt.mem)
    (hp : (∃ off, o = .set off) ∨ s'.q.ev.pd = s.q.ev.pd)
    (himg : ∀ m, m ∈ s.sc.img.secs ↔ m ∈ s'.sc.img.secs) (hun : Unambiguous s.sc.img.secs)
    (hroom : Room s.sc ∧ Room s'.sc) (hmaps : s.maps = [] ∧ s'.maps = []) (ht : Typed s ∧ Typed s') :
    (o.insn c s').2 = (o.insn c s).2 ∧
    (∀ f, (o.insn c s).2 = .ok f →
      ∀ calls, insnSeen c calls (o.insn c s').1 = insnSeen c calls (o.insn c s).1) := by
  obtain ⟨h1, h2⟩ := insn_forgets hu o hb s s' hp.symm
    ⟨himg, hun, hroom.1, hroom.2, hmaps.1, hmaps.2, ht.1.2, ht.2.2⟩
  exact ⟨h1, fun f hf calls => insnSeen_alike hu calls (h2 f hf)⟩

/-- An instruction flow decoder after a few calls. -/
def afterCalls (c : InsnCfg) (s : Idec) (calls : List InsnCall) : Idec := calls.foldl (fun s o => (o.run c s).1) s

/-- The call, among all calls. -/
def _root_.Ipt.Spec.FlowCall.call : FlowCall → InsnCall
  | .next => .next
  | .event => .event

def usedCalls : List FlowCall := [.event, .event, .next, .next, .next, .next]

/-- A decoder for the program of C42 that has followed it into a function, so that there is a return address on its
stack. -/
def usedIdec : Idec :=
  afterCalls (flowCfg flowProgram [0x0e]) (SyncCall.forward.insn (flowCfg flowProgram [0x0e]) (flowDec flowProgram)).1
    (usedCalls.map FlowCall.call)

/-- What the user sees of it after synchronizing again: the addresses of instructions, and zero for an event. -/
def seenIps (c : InsnCfg) (calls : List FlowCall) (s : Idec) : List (Res Nat) :=
  (insnSeen c calls s).map fun x => x.1.bind fun y => match y with
    | .inl o => .ok o.insn.ip
    | .inr _ => .ok 0

theorem flowRoom : Room (flowDec flowProgram).sc := by
  intro sec
  have : (flowDec flowProgram).sc.img.uc = ucInc (fun _ => 1) 0 := rfl
  rw [this]
  unfold ucInc
  show (if sec = 0 then 2 else 1) < 65535 + _
  split <;> omega

theorem flowUsable : Usable (flowCfg flowProgram [0x0e]).evt :=
  ⟨by decide +kernel, by decide +kernel, (fun f h => by cases h), by decide +kernel⟩

theorem flowUnambiguous : Unambiguous (flowDec flowProgram).sc.img.secs := by
  have h1 : (flowDec flowProgram).sc.img.secs = [⟨0, {}, 0x7001, 0, 17, 1⟩] := by decide +kernel
  rw [h1]
  intro m hm n hn _ _ _
  simp only [List.mem_singleton] at hm hn
  rw [hm, hn]

theorem afterCalls_sim {c : InsnCfg} (hu : Usable c.evt) (calls : List FlowCall) {s : Idec} (h : IAlike c 2 s s) :
    IAlike c 2 (afterCalls c s (calls.map FlowCall.call)) (afterCalls c s (calls.map FlowCall.call)) := by
  induction calls generalizing s with
  | nil => exact h
  | cons o os ih =>
    have := (flowCall_sim hu o h).2
    cases o <;> exact ih this

/-- There is room for references also after the calls. -/
theorem usedRoom : Room usedIdec.sc := by
  have h0 := (insn_forgets flowUsable .forward (fun h => by cases h) (flowDec flowProgram) (flowDec flowProgram) (.inl rfl)
    ⟨fun _ => .rfl, flowUnambiguous, flowRoom, flowRoom, rfl, rfl, rfl, rfl⟩).2 { eventPending := true } (by decide +kernel)
  exact (afterCalls_sim flowUsable usedCalls h0).sc.room

/-- The hypotheses of C68 are met by this decoder and a new one, which are in different states after synchronizing them. -/
example : Usable (flowCfg flowProgram [0x0e]).evt ∧
    (∀ m, m ∈ usedIdec.sc.img.secs ↔ m ∈ (flowDec flowProgram).sc.img.secs) ∧ Unambiguous usedIdec.sc.img.secs ∧
    (Room usedIdec.sc ∧ Room (flowDec flowProgram).sc) ∧ (usedIdec.maps = [] ∧ (flowDec flowProgram).maps = []) ∧
    (Typed usedIdec ∧ Typed (flowDec flowProgram)) ∧
    ((SyncCall.set 0).insn (flowCfg flowProgram [0x0e]) usedIdec).1.retstack.stack.getD 0 0 = 0x7010 ∧
    ((SyncCall.set 0).insn (flowCfg flowProgram [0x0e]) (flowDec flowProgram)).1.retstack.stack.getD 0 0 = 0 ∧
    seenIps (flowCfg flowProgram [0x0e]) [.event, .event, .next, .next, .next, .next, .next, .next, .event]
      ((SyncCall.set 0).insn (flowCfg flowProgram [0x0e]) usedIdec).1 =
      [.ok 0, .ok 0, .ok 0x7001, .ok 0x7002, .ok 0x7006, .ok 0x700b, .ok 0x7011, .ok 0x7010, .err .badQuery] := by
  have hs : usedIdec.sc.img.secs = (flowDec flowProgram).sc.img.secs := by decide +kernel
  exact ⟨flowUsable, fun m => by rw [hs], (by rw [hs]; exact flowUnambiguous), ⟨usedRoom, flowRoom⟩, by decide +kernel,
    ⟨⟨by decide +kernel, by decide +kernel⟩, ⟨by decide +kernel, by decide +kernel⟩⟩, by decide +kernel,
    by decide +kernel, by decide +kernel⟩

/-- Two programs at the same address: `nop; nop` in address space 0x20 and `hlt; nop` in address space 0x40. -/
def twoEnv : SecEnv := ⟨fun _ => 2, fun _ => "a", fun s o => if o = 0 then (if s = 0 then 0x90 else 0xf4) else 0x90⟩

/-- An image with both. -/
def twoImg : Img :=
  (ImgOp.run twoEnv ⟨[], fun _ => 1⟩ [.add 0 { cr3 := 0x20 } 0x7001 1 [], .add 1 { cr3 := 0x40 } 0x7001 2 []]).1

/-- PSB; PIP 0x40; MODE.EXEC 64-bit; FUP 0x7001; PSBEND; PSB; MODE.EXEC 64-bit; FUP 0x7001; PSBEND -/
def twoCfg : InsnCfg :=
  { evt := { pkt := { mem := flowHeader.take 16 ++ [2, 0x43, 4, 0, 0, 0, 0, 0] ++ flowHeader.drop 16 ++ flowHeader } }
    env := twoEnv }

/-- The image section from which the first instruction is read. -/
def firstIsid (s : Idec) : List (Res Nat) :=
  (insnSeen twoCfg [.event, .event, .next] ((SyncCall.set 35).insn twoCfg s).1).map fun x => x.1.bind fun y => match y with
    | .inl o => .ok o.insn.isid
    | .inr _ => .ok 0

/-- Without the assumption that sections do not overlap, C68 does not hold of the code: the address space is not known after
synchronizing to the second PSB, and the instruction is read from whichever section was used last. -/
theorem C68_ambiguous_image_fails :
    firstIsid { sc := { img := twoImg } } = [.ok 0, .ok 0, .ok 1] ∧
    firstIsid (afterCalls twoCfg { sc := { img := twoImg } } [.sync .forward, .event, .event, .event, .next]) =
      [.ok 0, .ok 0, .ok 2] := by
  decide +kernel

end Props

end Ipt
