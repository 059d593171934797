import Verif.BlockSession
import Verif.Props.QuerySync
import Verif.Props.Block

/-!
# C65: the block decoder follows the program along its trace

See `Verif/Spec/BlockFlow.lean` for the machine.
-/

set_option linter.unusedSimpArgs false

namespace Ipt

open Spec

/-- What is left over does not start with an event, if the current event is not one the user is shown. -/
theorem fair_leftover {s : Bdec} {f : Flow} : Fair s f (leftover s f) := by
  intro hp hx
  unfold leftover
  rw [hp]
  rcases hx with hx | ⟨e, hx, hn, -⟩ <;> rw [hx] <;> dsimp only
  · exact id
  · have : (∃ ip, e.data = .tip ip) ∨ ∃ b n, e.data = .tnt b n := by
      by_cases h1 : ∃ ip, e.data = .tip ip
      · exact .inl h1
      by_cases h2 : ∃ b n, e.data = .tnt b n
      · exact .inr h2
      exact absurd ⟨fun ip h => h1 ⟨ip, h⟩, fun b n h => h2 ⟨b, n, h⟩⟩ hn
    rcases this with ⟨ip, hd⟩ | ⟨b, n, hd⟩
    · unfold blkItems; rw [hd]; exact id
    · unfold blkItems items; rw [hd]
      dsimp only
      rcases tntBits b n with _ | ⟨x, l⟩ <;> exact id

end Ipt

namespace Ipt.Props

open Spec Ild

/-- C65: what the user of a block decoder sees is a run of the machine of `Spec.BlockFlow` on the program in the image.  The
items the machine takes are those of the events the event decoder delivers after the synchronization, and if the user is told
that the trace has ended, there are no more.

Missing: synchronizing backward (see `C65_backward_flags`); with erratum SKL014 and address filtering, ending blocks at calls and
jumps (see `C65_skl014_end_on_jump`); code that is executed in different modes (see `C43_stale_mode_fails`).  Suppressed targets of branches are not always
detected, see `C65_suppressed_target`. -/
theorem C65_follows_program_partial (c : BlkCfg) (henv : c.env.Ok) (M : Nat → Mode) (o : SyncCall) (ho : o ≠ .backward)
    (hcb : ∀ read, c.cb = some read → ∀ n ip asid, read n ip asid ≠ .err .badQuery)
    (hend : c.evt.pkt.errata.skl014 = true → c.filter.cfg ≠ 0 → c.endOnCall = false ∧ c.endOnJump = false)
    (s0 s1 s : Bdec) (fl0 fl : Flags) (out : List BlkSeen)
    (hl : s0.retstack.stack.length = 65) (hw : ∀ m ∈ s0.sc.img.secs, m.WF c.env)
    (hbc : CacheOk c.env (fun sec md => md = M sec) s0.bc) (hot : WritesOk c.env (fun sec md => md = M sec) s0.others)
    (hs : o.blk c s0 = (s1, .ok fl0)) (hf : BlkFollows c M s1 fl0 out s fl) :
    ∃ d ip es its left f, o.evt.run c.evt s0.ev = (d, .ok none) ∧
      (∀ a, ip = some a → ∃ us u, Delivers c.evt d (us ++ [u]) ∧ (∀ e ∈ us, e.statusUpdate = true) ∧ u.statusUpdate = true ∧
        u.data = .enabled a) ∧
      Delivers c.evt d es ∧ (Flow.start ip s0.sc.img.secs).BlkSteps c left its out f ∧
      SameItems (its ++ left) (es.flatMap blkItems) ∧ (left = [] ∨ ∃ e, left = blkItems e) ∧
      (fl.eventPending = false → f.cur = none) ∧
      (fl.eos = true → fl.eventPending = false → left = [] ∧ f.pend = none ∧ Fails c.evt d es .eos) := by
  obtain ⟨d, ip, h1, h2, h3⟩ := sync_done henv ho hl hw hs
  have h4 := follows_done henv hcb hend hf (sync_good ⟨hbc, hot⟩ hs) h3
  have h9 := follows_tells henv hcb hend hf (sync_good ⟨hbc, hot⟩ hs) h3 (sync_tell ho hs)
  rw [List.nil_append] at h4
  obtain ⟨f, ⟨its, h5, es, h6, -, hE, h7⟩, h8⟩ := h4
  refine ⟨d, ip, es, its, leftover s f, f, h1, ?_, h6, h5 _ fair_leftover, h7, ?_, fun hp => ?_, fun he hp => ?_⟩
  · rintro a rfl
    obtain ⟨us, u, a1, a2, a3, a4⟩ := startLoop_ip _ [] d rfl rfl (by simp) h2
    exact ⟨us, u, a1, fun e he => (a2 e he).1, a3, a4⟩
  · unfold leftover
    split
    · exact .inl rfl
    · split
      · exact .inr ⟨_, rfl⟩
      · exact .inl rfl
  · rw [if_neg (by rw [hp]; simp)] at h8
    exact h8.1.insn.trans h8.2.1
  · rw [if_neg (by rw [hp]; simp)] at h8
    have hst := h9 he
    have hev : s.event = none := by
      rcases hx : s.event with _ | e
      · rfl
      · have := h8.1.live.2 (by rw [hx]; simp)
        rw [hst] at this; cases this
    have hpn : f.pend = none := by
      rcases hx : f.pend with _ | e
      · rfl
      · have := (h8.1.pend e hx).1
        rw [hev] at this; cases this
    obtain ⟨er, h10, h11⟩ := hE hev
    rw [hst] at h10
    cases h10
    refine ⟨by unfold leftover; rw [hpn, hev], hpn, h6.fails (Prod.ext rfl h11)⟩

/-! ## Examples and counterexamples -/

instance (M : Nat → Mode) (s : Bdec) : Decidable (InMode M s) := by unfold InMode Msec.Covers; infer_instance

/-- A user that makes up to `n` calls, and stops at an error. -/
def blkDrive (c : BlkCfg) (M : Nat → Mode) : Nat → Bdec → Flags → List BlkSeen × Bdec × Flags
  | 0, s, fl => ([], s, fl)
  | n + 1, s, fl =>
    if fl.eventPending = true then
      match blkEvent c s with
      | (s1, .ok o) => (.event o.event o.resumed :: (blkDrive c M n s1 o.flags).1, (blkDrive c M n s1 o.flags).2)
      | _ => ([], s, fl)
    else if InMode M s ∧ ∀ r ∈ s.maps, r ≠ .err .badQuery then
      match blkNext c s with
      | (s1, .ok fl1) => (.block s1.blk :: (blkDrive c M n s1 fl1).1, (blkDrive c M n s1 fl1).2)
      | _ => ([], s, fl)
    else ([], s, fl)

theorem blkDrive_follows (c : BlkCfg) (M : Nat → Mode) :
    ∀ n s fl, BlkFollows c M s fl (blkDrive c M n s fl).1 (blkDrive c M n s fl).2.1 (blkDrive c M n s fl).2.2
  | 0, s, fl => .done s fl
  | n + 1, s, fl => by
    unfold blkDrive
    split
    · rename_i hp
      split
      · rename_i s1 o h
        exact .event hp h (blkDrive_follows c M n s1 o.flags)
      · exact .done s fl
    · rename_i hp
      split
      · rename_i hm
        split
        · rename_i s1 fl1 h
          exact .next (by simpa using hp) hm.1 hm.2 h (blkDrive_follows c M n s1 fl1)
        · exact .done s fl
      · exact .done s fl

/-- A new decoder whose image has the program at 0x7001. -/
def blkFresh (code : List UInt8) : Bdec :=
  { sc := { img := (imageAdd (flowEnv code) [] ⟨[], fun _ => 1⟩ 0 {} 0x7001 1).1 }, bc := fun _ _ => {} }

/-- What the user of a block decoder sees: the address, the number of instructions and the last address of a block, and zeros
for an event.  And then whether an event is pending, and whether the trace has ended. -/
def blkShows (c : BlkCfg) (code : List UInt8) (o : SyncCall) (n : Nat) : Option (List (Nat × Nat × Nat) × Bool × Bool) :=
  match o.blk c (blkFresh code) with
  | (s, .ok fl) => some ((blkDrive c (fun _ => .b64) n s fl).1.map fun x =>
    match x with
    | .block b => (b.ip, b.ninsn, b.endIp)
    | .event .. => (0, 0, 0)
    | .image _ => (1, 1, 1), (blkDrive c (fun _ => .b64) n s fl).2.2.eventPending, (blkDrive c (fun _ => .b64) n s fl).2.2.eos)
  | _ => none

/-- The address after `n` calls, and what `pt_blk_next` then returns. -/
def blkThen (c : BlkCfg) (code : List UInt8) (n : Nat) : Option (Nat × Res Flags) :=
  match blkSyncForward c (blkFresh code) with
  | (s, .ok fl) => some ((blkDrive c (fun _ => .b64) n s fl).2.1.ip, (blkNext c (blkDrive c (fun _ => .b64) n s fl).2.1).2)
  | _ => none

/-- The hypotheses of C65 hold, and the user sees a non-trivial run, which is that of C42's example: two events; then a nop and
a conditional jump, which is taken; a call of the next instruction; a call; a return, which is compressed; and an instruction
behind the first call.  Then the trace has ended. -/
example : (blkCfg flowProgram [0x0e]).env.Ok ∧
    (∀ read, (blkCfg flowProgram [0x0e]).cb = some read → ∀ n ip asid, read n ip asid ≠ .err .badQuery) ∧
    ((blkCfg flowProgram [0x0e]).evt.pkt.errata.skl014 = true → (blkCfg flowProgram [0x0e]).filter.cfg ≠ 0 →
      (blkCfg flowProgram [0x0e]).endOnCall = false ∧ (blkCfg flowProgram [0x0e]).endOnJump = false) ∧
    (blkFresh flowProgram).retstack.stack.length = 65 ∧
    (∀ m ∈ (blkFresh flowProgram).sc.img.secs, m.WF (flowEnv flowProgram)) ∧
    CacheOk (flowEnv flowProgram) (fun _ md => md = .b64) (blkFresh flowProgram).bc ∧
    WritesOk (flowEnv flowProgram) (fun _ md => md = .b64) (blkFresh flowProgram).others ∧
    blkShows (blkCfg flowProgram [0x0e]) flowProgram .forward 8 = some
      ([(0, 0, 0), (0, 0, 0), (0x7001, 2, 0x7002), (0x7006, 1, 0x7006), (0x700b, 1, 0x700b), (0x7011, 1, 0x7011),
        (0x7010, 1, 0x7010)], false, true) := by
  refine ⟨fun _ => by show flowProgram.length < _; decide +kernel, (by intro _ h; cases h), (by intro h; cases h),
    by decide +kernel, ?_, ?_, ?_, by decide +kernel⟩
  · show ∀ m ∈ (imageAdd (flowEnv flowProgram) [] ⟨[], fun _ => 1⟩ 0 {} 0x7001 1).1.secs, _ ∧ _
    decide +kernel
  · intro a b
    exact ⟨fun h => (by cases h), fun h => (by cases h)⟩
  · intro l h
    cases h

/-- The user of `C65_follows_program_partial` may make as many calls as they like. -/
example (c : BlkCfg) (M : Nat → Mode) (n : Nat) (s : Bdec) (fl : Flags) : ∃ out s' fl', BlkFollows c M s fl out s' fl' :=
  ⟨_, _, _, blkDrive_follows c M n s fl⟩

/-- A suppressed target is an error, unless it is behind outcomes that were not taken.  Then the decoder goes to address zero. -/
theorem C65_suppressed_target :
    blkThen (blkCfg [0xff, 0xe0] [0x0d]) [0xff, 0xe0] 2 = some (0x7001, .err .badPacket) ∧
    blkThen (blkCfg [0xff, 0xe0] [0x06, 0x0d]) [0xff, 0xe0] 2 = some (0x7001, .ok {}) ∧
    blkThen (blkCfg [0xff, 0xe0] [0x06, 0x0d]) [0xff, 0xe0] 3 = some (0, .err .nomap) := by
  decide +kernel

/-- `pt_blk_sync_backward` does not say that an event is pending. -/
theorem C65_backward_flags :
    (blkSyncForward (blkCfg flowProgram [0x0e]) (blkFresh flowProgram)).2 = .ok { eventPending := true } ∧
    (blkSyncBackward (blkCfg flowProgram [0x0e]) (blkFresh flowProgram)).2 = .ok {} ∧
    (blkSyncForward (blkCfg flowProgram [0x0e]) (blkFresh flowProgram)).1.event =
      (blkSyncBackward (blkCfg flowProgram [0x0e]) (blkFresh flowProgram)).1.event := by
  decide +kernel

/-- nop; jmp +0; nop; jmp +0x10. -/
def sklProgram : List UInt8 := [0x90, 0xeb, 0, 0x90, 0xeb, 0x10]

/-- Erratum SKL014 and an address filter for 0x7000-0x700f.  Tracing is disabled, without an address. -/
def sklCfg (endOnJump : Bool) : BlkCfg :=
  { blkCfg sklProgram [] with
    evt := { pkt := { mem := flowHeader ++ [0x01], errata := { skl014 := true } } }
    filter := { cfg := 1, addr := [0x7000, 0x700f] ++ List.replicate 14 0 }
    endOnJump := endOnJump }

/-- With erratum SKL014 and an address filter, a block that ends at a jump changes the program that the user sees: the decoder
shows the disabled event behind the first jump, although that stays in the filtered region, and the instructions at 0x7004 and
0x7005, which leaves it, are not shown. -/
theorem C65_skl014_end_on_jump :
    blkShows (sklCfg false) sklProgram .forward 6 =
      some ([(0, 0, 0), (0, 0, 0), (0x7001, 4, 0x7005), (0, 0, 0)], false, true) ∧
    blkShows (sklCfg true) sklProgram .forward 6 =
      some ([(0, 0, 0), (0, 0, 0), (0x7001, 2, 0x7002), (0, 0, 0)], false, true) := by
  decide +kernel

end Ipt.Props
