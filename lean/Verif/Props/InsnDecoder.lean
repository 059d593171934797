import Verif.InsnFlowRun
import Verif.Props.EventInv
import Verif.Props.Query

/-! # C42: the instruction flow decoder follows the program along its trace -/

set_option linter.unusedSimpArgs false

namespace Ipt.Props

open Spec Ild

/-- C42: what a user sees is a run of the machine of `Spec.Flow` on the program in the image: whatever the trace, the image
and the number of calls, after a successful synchronization (with the query decoder's IP and flags), every instruction and
every event the user gets is shown by a step of the machine.  The machine takes its branch outcomes, branch targets and events
from the items the query decoder hands out, each one once and in that order; see C37 for how these relate to the trace.  The
flags tell whether tracing is disabled and whether an event comes next; the instruction that was shown last is executed,
unless an event comes next. -/
theorem C42_follows_program (c : InsnCfg) (henv : c.env.Ok) (o : SyncCall) (s0 s1 s : Idec) (fl0 fl : Flags)
    (out : List Seen) (ht : Typed s0) (hw : ∀ m ∈ s0.sc.img.secs, m.WF c.env)
    (hs : o.insn c s0 = (s1, .ok fl0)) (hf : Follows c s1 fl0 out s fl) :
    ∃ q fq ip qs f, o.run c.evt s0.q = (q, .ok (fq, ip)) ∧ (o ≠ .backward → fq.ipSuppressed = ip.isNone) ∧
      s.q = afterQueries c.evt qs q ∧
      Flow.Run c [] { Flow.start ip s0.sc.img.secs with enabled := !fq.ipSuppressed } (handed c.evt qs q) out f ∧
      fl.ipSuppressed = !f.enabled ∧
      (fl.eventPending = true → ∃ e, f.pend = some e ∧ f.Due c e) ∧
      (fl.eventPending = false → f.cur = none ∧ ∀ e, f.pend = some e → Between e → f.Reached e → countdown e = 0 →
        c.evt.pkt.errata.skd022 = true ∧ ∃ ip, e.data = .disabled ip) := by
  obtain ⟨sa, fq, ip, f1, h1, t1, o1⟩ := start_flow henv ht hw hs
  obtain ⟨f, t2, o2⟩ := follows_flow henv hf f1 o1
  obtain ⟨qs, hq, hr⟩ := t1.trans t2
  have hr := (hr [] (fun _ _ h => h)).2
  refine ⟨sa.q, fq, ip, qs, f, h1, fun ho => (run_ip ho h1).2, hq, hr, ?_, fun hp => ?_, fun hp => ?_⟩
  · rw [o2.suppressed]
    congr 1
    cases hp : fl.eventPending with
    | false => exact (o2.idle hp).core.enabled.symm
    | true => cases o2.pending hp with
      | between e h => exact h.core.enabled.symm
      | belongs e k l i h => exact h.enabled.symm
      | disable e ip i h => exact h.enabled.symm
  · cases o2.pending hp with
    | between e h he hd => exact ⟨e, he, hd⟩
    | belongs e k l i h _ hc _ he hk hb hn => exact ⟨e, he, .belongs k l i hc hk hb hn⟩
    | disable e ip i h hc he hd hu hdis => exact ⟨e, he, .disable ip i hc hd hu hdis⟩
  · exact ⟨(o2.idle hp).cur, (o2.idle hp).none⟩

/-- C42, for two instructions in a row: the second one is at the fall-through, the direct target or the traced target of
the first one.  The items this takes are among those of the trace.  (With erratum BDM64, a transaction abort may correct the
address.) -/
theorem C42_successive (c : InsnCfg) (henv : c.env.Ok) (hb : c.evt.pkt.errata.bdm64 = false) (o : SyncCall)
    (s0 s1 s : Idec) (fl0 fl : Flags) (pre post : List Seen) (i j : Insn) (sp sp' : Bool)
    (ht : Typed s0) (hw : ∀ m ∈ s0.sc.img.secs, m.WF c.env)
    (hs : o.insn c s0 = (s1, .ok fl0)) (hf : Follows c s1 fl0 (pre ++ .insn i sp :: .insn j sp' :: post) s fl) :
    ∃ q fq ip qs, o.run c.evt s0.q = (q, .ok (fq, ip)) ∧
      ∃ before its after calls calls', handed c.evt qs q = before ++ its ++ after ∧ Exec i calls its j.ip calls' := by
  obtain ⟨q, fq, ip, qs, f, h1, -, -, hr, -⟩ := C42_follows_program c henv o s0 s1 s fl0 fl _ ht hw hs hf
  obtain ⟨x, y, g, h2, -, h3⟩ := run_split hr _ _ rfl
  obtain ⟨a, z, b, calls, calls', rfl, h4⟩ := run_pair hb h3 rfl
  exact ⟨q, fq, ip, qs, h1, x ++ a, z, b, calls, calls', by rw [h2]; simp, h4⟩

/-- C42, how the run relates to the trace: there is an event decoder that was synchronized in the same way, and the branch
outcomes the machine takes are the first ones it delivers, in order, and so are the branch targets and events.  (They are not
always interleaved in the order of the trace, see `C42_skips_outcomes`.) -/
theorem C42_trace (c : InsnCfg) (henv : c.env.Ok) (hu : Usable c.evt) (o : SyncCall) (s0 s1 s : Idec) (fl0 fl : Flags)
    (out : List Seen) (ht : Typed s0) (hw : ∀ m ∈ s0.sc.img.secs, m.WF c.env)
    (hs : o.insn c s0 = (s1, .ok fl0)) (hf : Follows c s1 fl0 out s fl) :
    ∃ d q its fq ip f es later, Synchronized c.evt d q ∧ o.run c.evt s0.q = (q, .ok (fq, ip)) ∧
      Flow.Run c [] { Flow.start ip s0.sc.img.secs with enabled := !fq.ipSuppressed } its out f ∧
      Delivers c.evt d es ∧
      its.filter Item.isBit ++ later = (es.flatMap items).filter Item.isBit ∧
      its.filter (fun x => !x.isBit) = (es.flatMap items).filter (fun x => !x.isBit) := by
  obtain ⟨q, fq, ip, qs, f, h1, -, -, hr, -⟩ := C42_follows_program c henv o s0 s1 s fl0 fl out ht hw hs hf
  obtain ⟨d, hd⟩ := C37_synchronized c.evt o s0.q q fq ip h1
  obtain ⟨es, l, h2, h3, h4⟩ := C37_nothing_lost hu hd qs
  exact ⟨d, q, _, fq, ip, f, es, _, hd, h1, hr, h2, h3, h4⟩

/-! ## Examples and counterexamples -/

/-- A user that makes up to `n` calls, and stops at an error. -/
def drive (c : InsnCfg) : Nat → Idec → Flags → List Seen × Idec × Flags
  | 0, s, fl => ([], s, fl)
  | n + 1, s, fl =>
    if fl.eventPending = true then
      match insnEvent c s with
      | (s1, .ok o) => (.event o.event o.resumed :: (drive c n s1 o.flags).1, (drive c n s1 o.flags).2)
      | _ => ([], s, fl)
    else
      match insnNext c s with
      | (s1, .ok o) => (.insn o.insn o.speculative :: (drive c n s1 o.flags).1, (drive c n s1 o.flags).2)
      | _ => ([], s, fl)

theorem drive_follows (c : InsnCfg) : ∀ n s fl, Follows c s fl (drive c n s fl).1 (drive c n s fl).2.1 (drive c n s fl).2.2
  | 0, s, fl => .done s fl
  | n + 1, s, fl => by
    unfold drive
    by_cases hp : fl.eventPending = true
    · rw [if_pos hp]
      rcases h : insnEvent c s with ⟨s1, o | e | _⟩
      · exact .event hp h (drive_follows c n s1 o.flags)
      · exact .done s fl
      · exact .done s fl
    · rw [if_neg hp]
      rcases h : insnNext c s with ⟨s1, o | e | _⟩
      · exact .next (by simpa using hp) h (drive_follows c n s1 o.flags)
      · exact .done s fl
      · exact .done s fl

/-- nop; je +2; nop; nop; call +0; call +1; hlt; ret -/
def flowProgram : List UInt8 := [0x90, 0x74, 0x02, 0x90, 0x90, 0xe8, 0, 0, 0, 0, 0xe8, 1, 0, 0, 0, 0xf4, 0xc3]

/-- One file with the given contents. -/
def flowEnv (code : List UInt8) : SecEnv := ⟨fun _ => code.length, fun _ => "a", fun _ o => code.getD o 0⟩

/-- PSB; MODE.EXEC 64-bit; FUP 0x7001; PSBEND -/
def flowHeader : List UInt8 :=
  [2, 0x82, 2, 0x82, 2, 0x82, 2, 0x82, 2, 0x82, 2, 0x82, 2, 0x82, 2, 0x82, 0x99, 1, 0x7d, 1, 0x70, 0, 0, 0, 0, 2, 0x23]

/-- A configuration. -/
def flowCfg (code trace : List UInt8) : InsnCfg := { evt := { pkt := { mem := flowHeader ++ trace } }, env := flowEnv code }

/-- A decoder whose image has the program at 0x7001. -/
def flowDec (code : List UInt8) : Idec := { sc := { img := (imageAdd (flowEnv code) [] ⟨[], fun _ => 1⟩ 0 {} 0x7001 1).1 } }

/-- What the user of a decoder sees in `n` calls: the addresses of instructions, and zero for an event. -/
def flowSeen (code trace : List UInt8) (o : SyncCall) (n : Nat) : Option (List Nat) :=
  match o.insn (flowCfg code trace) (flowDec code) with
  | (s, .ok fl) => some ((drive (flowCfg code trace) n s fl).1.map fun x =>
    match x with
    | .insn i _ => i.ip
    | .event .. => 0
    | .image _ => 1)
  | _ => none

/-- The hypotheses of C42 hold, and the user sees a non-trivial run: the trace has a TNT packet with two branches taken.  The
first one is for the conditional jump, the second one for the return, which goes to the instruction behind the second call.
The first call does not count because it calls the next instruction. -/
example : (flowCfg flowProgram [0x0e]).env.Ok ∧ Usable (flowCfg flowProgram [0x0e]).evt ∧ Typed (flowDec flowProgram) ∧
    (∀ m ∈ (flowDec flowProgram).sc.img.secs, m.WF (flowEnv flowProgram)) ∧
    flowSeen flowProgram [0x0e] .forward 8 = some [0, 0, 0x7001, 0x7002, 0x7006, 0x700b, 0x7011, 0x7010] := by
  refine ⟨fun _ => by show flowProgram.length < _; decide +kernel,
    ⟨by decide +kernel, by decide +kernel, (by intro f h; cases h), by decide +kernel⟩,
    ⟨by decide +kernel, by decide +kernel⟩, ?_, by decide +kernel⟩
  show ∀ m ∈ (imageAdd (flowEnv flowProgram) [] ⟨[], fun _ => 1⟩ 0 {} 0x7001 1).1.secs, _ ∧ _
  decide +kernel

/-- The user of `C42_follows_program` may make as many calls as they like. -/
example (c : InsnCfg) (n : Nat) (s : Idec) (fl : Flags) : ∃ out s' fl', Follows c s fl out s' fl' :=
  ⟨_, _, _, drive_follows c n s fl⟩

/-- The order in which the machine takes branch outcomes and targets may differ from that of the trace: at an indirect jump,
the trace has an outcome of a conditional branch that is not in the program, and then a target.  The decoder goes to the
target and takes the outcome for the conditional branch it finds there. -/
theorem C42_skips_outcomes :
    flowSeen [0xff, 0xe0, 0x74, 0x01, 0x90, 0x90] [0x06, 0x2d, 3, 0x70] .forward 5 = some [0, 0, 0x7001, 0x7003, 0x7006] ∧
    resultsOf (flowCfg [] [0x06, 0x2d, 3, 0x70]).evt 4 =
      [.ok none, .ok (some (.enabled 0x7001)), .ok (some (.execMode 3 0x7001)), .ok (some (.tnt 1 1)), .ok (some (.tip 0x7003))] := by
  decide +kernel

end Ipt.Props
