import Verif.BlockHist
import Verif.Props.InsnDecoder

/-!
# Block caches
-/

namespace Ipt.Props

open Ild Spec BM

theorem blkRun_hist {c : BlkCfg} (henv : c.env.Ok) : ∀ (l : List BlkCall) (s s' : Bdec),
    (∀ img, BlkCall.image img ∈ l → ∀ m ∈ img.secs, m.WF c.env) → Hist c (· ∈ s.sc.img.secs) s → blkRun c s l = some s' →
    Hist c (· ∈ s'.sc.img.secs) s'
  | [], s, s', _, hs, h => by cases h; exact hs
  | o :: l, s, s', hl, hs, h => by
    unfold blkRun at h
    rcases ho : o.run c s with _ | s1 <;> rw [ho] at h
    · cases h
    refine blkRun_hist henv l s1 s' (fun img hi => hl img (by simp [hi])) ?_ h
    have fix : ∀ {α : Type} {p : BM α}, Keeps c (· ∈ s.sc.img.secs) p → BlkCall.run.after (p s) = some s1 →
        Hist c (· ∈ s1.sc.img.secs) s1 := by
      intro α p hk ha
      have h1 := hk s hs
      unfold wp at h1
      unfold BlkCall.run.after at ha
      rcases hp : p s with ⟨s2, a | e | _⟩ <;> rw [hp] at h1 ha <;> cases ha
      · exact ⟨fun m => Iff.rfl, fun m hm => h1.wf m ((h1.sections m).1 hm), h1.inv, h1.good, h1.ok⟩
      · exact ⟨fun m => Iff.rfl, fun m hm => h1.wf m ((h1.sections m).1 hm), h1.inv, h1.good, h1.ok⟩
    rcases o with _ | _ | o | img | sec
    · exact fix keeps_blkNext ho
    · exact fix keeps_blkEvent ho
    · rcases o with _ | _ | o
      · exact fix keeps_blkSyncForward ho
      · exact fix keeps_blkSyncBackward ho
      · exact fix keeps_blkSyncSet ho
    · cases ho
      exact ⟨fun m => Iff.rfl, fun m hm => hl img (by simp) m hm, hs.inv, hs.good, hs.ok⟩
    · cases ho
      refine ⟨fun m => Iff.rfl, hs.wf, hs.inv, ⟨fun t i => ?_, hs.good.2⟩, hs.ok⟩
      show EntryFor c.env anyMode t i (if t = sec then {} else s.bc t i)
      split
      · exact ⟨fun h => (by cases h), fun h => (by cases h)⟩
      · exact hs.good.1 t i

/-- C43, part 1: whatever a user does, all block cache entries are correct, if those that other decoders add are.  This
includes calls that fail, and any image. -/
theorem C43_entries (c : BlkCfg) (henv : c.env.Ok) (s s' : Bdec) (l : List BlkCall) (hs : s.sc.cache = none)
    (hwf : ∀ m ∈ s.sc.img.secs, m.WF c.env) (himg : ∀ img, .image img ∈ l → ∀ m ∈ img.secs, m.WF c.env)
    (hbc : CacheOk c.env (fun _ _ => True) s.bc) (hother : WritesOk c.env (fun _ _ => True) s.others)
    (h : blkRun c s l = some s') : CacheOk c.env (fun _ _ => True) s'.bc :=
  (blkRun_hist henv l s s' himg ⟨fun m => Iff.rfl, hwf, (by intro m hm; rw [hs] at hm; cases hm), ⟨hbc, hother⟩, henv⟩ h).good.1

/-- C43, part 2: proceeding without events adds the instructions to the block that are executed next, one after the other,
however many of them come from the block cache.  They are counted, the decoder proceeds to the instruction behind them, with
the return addresses of their calls, and the items they need are taken from the trace.  The section is the one they are in.
The block cache entries of the sections in use must be correct, and for the current execution mode. -/
theorem C43_block (c : BlkCfg) (henv : c.env.Ok) (s s' : Bdec) (f : Flow) (hs : Stands s f)
    (hwf : ∀ m, f.sections m → m.WF c.env) (hsc : ∀ m, s.sc.cache = some m → SameSpace m.asid s.sc.asid)
    (hb : s.blk.ninsn = 0 ∧ s.blk.truncated = false ∧ s.blk.mode = s.mode)
    (hbc : CacheOk c.env (fun sec md => f.InUse sec → md = f.mode) s.bc)
    (hother : WritesOk c.env (fun sec md => f.InUse sec → md = f.mode) s.others) (h : noEvent c s = (s', .ok ())) :
    ∃ is its g, f.Walk (Flow.Known c.toInsnCfg s'.blk.isid) is its g ∧ is ≠ [] ∧ s'.blk.ninsn = is.length ∧ Stands s' g ∧
      Takes c s.trace its s'.trace ∧ Ends s'.blk is g.ip ∧ s'.blk.mode = f.mode ∧
      CacheOk c.env (fun sec md => f.InUse sec → md = f.mode) s'.bc := by
  have h0 : Sofar c f s.icnt [] [] s f :=
    ⟨.nil _, hs, hb.1, by simp, fun _ => by simp, fun i hi => (by cases hi), fun ht => absurd (hb.2.1.symm.trans ht) (by simp), hwf, hsc, hb.2.2.trans hs.mode.symm⟩
  have h1 := noEvent_flow (allowed := fun sec md => f.InUse sec → md = f.mode) henv h0 hb.2.1
    (fun m hv md => ⟨fun hm => hm ⟨m, hv.sections, hv.space, hv.covers, rfl⟩, fun hm _ => hm⟩) ⟨hbc, hother⟩
  obtain ⟨⟨is, its, n1, g, -, h2, h3, h4, -⟩, h5⟩ := wp_ok h1 h
  exact ⟨is, its, g, h4.walk, h2, h4.count, h4.stands, h3, h4.ends, h4.mode.trans (by rw [h4.walk.same]), h5.1⟩

/-- The instructions in blocks are those in memory, unless a section in the image ends before the end of its file. -/
theorem C43_whole_sections (c : BlkCfg) (f g : Flow) (isid : Nat) (is : List Insn) (its : List Item)
    (hw : ∀ m, f.sections m → m.WF c.env) (hs : ∀ m, f.sections m → m.offset + m.size = c.env.size m.sec)
    (h : f.Walk (Flow.Known c.toInsnCfg isid) is its g) : f.Walk (Flow.At c.toInsnCfg) is its g := by
  induction h with
  | nil f => exact .nil f
  | @cons f g i is its its' t calls h1 h2 _ ih =>
    refine .cons ?_ h2 (ih hw hs)
    rcases h1.1 with h3 | ⟨-, -, -, -, m, a1, a2, a3, a4, a5, a6⟩
    · exact h3
    · have := a6.inside
      have := hs m a1
      omega

/-! ### Examples -/

/-- A block decoder configuration. -/
def blkCfg (code trace : List UInt8) : BlkCfg := { toInsnCfg := flowCfg code trace }

/-- A decoder about to execute the program, with a TNT event. -/
def blkDec (code : List UInt8) (bc : Bcache) : Bdec :=
  { sc := (flowDec code).sc, ip := 0x7001, mode := .b64, enabled := true, status := none, event := some { data := .tnt 3 2 }
    bc := bc, blk := { ip := 0x7001, mode := .b64 } }

/-- Where it is. -/
def blkFlow (code : List UInt8) : Flow :=
  { enabled := true, ip := 0x7001, mode := .b64, speculative := false, asid := (flowDec code).sc.asid
    sections := (· ∈ (flowDec code).sc.img.secs), calls := [], cur := none, bound := [], pend := none, count := none }

/-- The program's block cache after its first block. -/
def blkCache (code : List UInt8) : Bcache := (noEvent (blkCfg code []) (blkDec code fun _ _ => {})).1.bc

theorem blkStands (code : List UInt8) : Stands (blkDec code fun _ _ => {}) (blkFlow code) :=
  ⟨rfl, rfl, rfl, fun _ => Iff.rfl, ⟨rfl, by show 0 < 65; decide, by show 0 = (0 + 65 - 0) % 65; decide, by show 0 ≤ 64; decide,
    fun i hi => (by cases hi)⟩⟩

theorem blkCache_ok (code : List UInt8) (henv : (blkCfg code []).env.Ok)
    (hwf : ∀ m ∈ (flowDec code).sc.img.secs, m.WF (flowEnv code))
    (hok : (noEvent (blkCfg code []) (blkDec code fun _ _ => {})).2 = .ok ()) :
    CacheOk (blkCfg code []).env (fun sec md => (blkFlow code).InUse sec → md = .b64) (blkCache code) := by
  obtain ⟨_, _, _, _, _, _, _, _, _, _, h⟩ := C43_block (blkCfg code []) henv (blkDec code fun _ _ => {})
    _ (blkFlow code) (blkStands _) hwf
    (by intro m hm; cases hm) ⟨rfl, rfl, rfl⟩ (fun _ _ => ⟨fun h => (by cases h), fun h => (by cases h)⟩)
    (by intro ws hws; cases hws) (Prod.ext rfl hok)
  exact h

/-- The number of instructions in the block, its end, and the next address. -/
def blkSeen (code : List UInt8) (bc : Bcache) : Option (Nat × Nat × Nat) :=
  match noEvent (blkCfg code []) (blkDec code bc) with
  | (s, .ok ()) => some (s.blk.ninsn, s.blk.endIp, s.ip)
  | _ => none

/-- The hypotheses of C43 hold, first with an empty block cache, and then with a block cache that has entries for the first two
instructions.  The block is the same: the first two instructions, up to a conditional branch that is taken. -/
example : (blkCfg flowProgram []).env.Ok ∧ (∀ bc, Stands (blkDec flowProgram bc) (blkFlow flowProgram)) ∧
    (∀ m ∈ (flowDec flowProgram).sc.img.secs, m.WF (flowEnv flowProgram)) ∧
    CacheOk (blkCfg flowProgram []).env (fun sec md => (blkFlow flowProgram).InUse sec → md = .b64) (blkCache flowProgram) ∧
    ((blkCache flowProgram 0 0).qualifier, (blkCache flowProgram 0 0).ninsn) = (.cond, 2) ∧
    blkSeen flowProgram (fun _ _ => {}) = some (2, 0x7002, 0x7006) ∧
    blkSeen flowProgram (blkCache flowProgram) = some (2, 0x7002, 0x7006) := by
  have henv : (blkCfg flowProgram []).env.Ok := fun _ => by show flowProgram.length < _; decide +kernel
  have hwf : ∀ m ∈ (flowDec flowProgram).sc.img.secs, m.WF (flowEnv flowProgram) := by
    show ∀ m ∈ (imageAdd (flowEnv flowProgram) [] ⟨[], fun _ => 1⟩ 0 {} 0x7001 1).1.secs, _ ∧ _
    decide +kernel
  refine ⟨henv, fun _ => ⟨rfl, rfl, rfl, fun _ => Iff.rfl, (blkStands _).calls⟩, hwf,
    blkCache_ok _ henv hwf (by decide +kernel), by decide +kernel, by decide +kernel, by decide +kernel⟩

/-! ### Where blocks differ -/

/-- What the user sees of a block: the number of instructions, their execution mode, the class of the last one, and the next
address.  Or the error. -/
def blkGot (r : Bdec × Res Unit) : Res (Nat × Mode × Iclass × Nat) :=
  match r with
  | (s, .ok ()) => .ok (s.blk.ninsn, s.blk.mode, s.blk.iclass, s.ip)
  | (_, .err e) => .err e
  | (_, .ub) => .ub

/-- Code whose first byte is an instruction in 32-bit mode, and a prefix of the next one in 64-bit mode. -/
def blkCode1 : List UInt8 := [0x40, 0x90, 0x74, 0x01, 0x90, 0x90]

/-- The block cache after executing it in 32-bit mode. -/
def blkCache1 : Bcache :=
  (noEvent (blkCfg blkCode1 []) { blkDec blkCode1 fun _ _ => {} with mode := .b32, blk := { ip := 0x7001, mode := .b32 } }).1.bc

/-- C43 fails for code that is executed in different modes.  In 64-bit mode, there are two instructions up to the conditional
branch.  If the code was executed in 32-bit mode before, the block decoder says that there are three, and that they are 32-bit
code. -/
theorem C43_stale_mode_fails :
    blkGot (noEvent (blkCfg blkCode1 []) (blkDec blkCode1 fun _ _ => {})) = .ok (2, .b64, .condJump, 0x7006) ∧
    blkGot (noEvent (blkCfg blkCode1 []) (blkDec blkCode1 blkCache1)) = .ok (3, .b32, .condJump, 0x7006) := by
  constructor <;> decide +kernel

/-- Code with a direct jump. -/
def blkCode2 : List UInt8 := [0x90, 0xeb, 0x01, 0x90, 0x90, 0x74, 0x01, 0x90, 0x90]

/-- The block cache also brings back what another decoder's flags were: with `end_on_jump`, the block ends with the direct jump,
unless the code was executed before by a decoder without it. -/
theorem C43_end_on_jump_fails :
    blkGot (noEvent { blkCfg blkCode2 [] with endOnJump := true } (blkDec blkCode2 fun _ _ => {})) =
      .ok (2, .b64, .jump, 0x7005) ∧
    blkGot (noEvent { blkCfg blkCode2 [] with endOnJump := true } (blkDec blkCode2 (blkCache blkCode2))) =
      .ok (4, .b64, .condJump, 0x7009) := by
  constructor <;> decide +kernel

/-- A conditional branch. -/
def blkCode3 : List UInt8 := [0x74, 0x01, 0x90, 0x90]

/-- The decoder when only its first byte is in the image, say, because another section was added on top of the rest.  The branch
is not taken. -/
def blkDecCut (bc : Bcache) : Bdec :=
  { blkDec blkCode3 bc with sc := { img := { secs := [⟨0, {}, 0x7001, 0, 1, 1⟩], uc := fun _ => 1 } }, event := some { data := .tnt 0 1 } }

/-- C43 fails for sections that end within a branch.  The second byte of the conditional branch is not in the image.  The
decoder returns an error, unless the code was executed before with an image that had it.  It then passes the branch. -/
theorem C43_cut_branch_fails :
    blkGot (noEvent (blkCfg blkCode3 []) (blkDecCut fun _ _ => {})) = .err .badInsn ∧
    blkGot (noEvent (blkCfg blkCode3 []) (blkDecCut (blkCache blkCode3))) = .ok (1, .b64, .condJump, 0x7003) := by
  constructor <;> decide +kernel

end Ipt.Props
