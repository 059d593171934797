import Verif.Spec.Block

/-!
# Specification: what the flow decoders require of memory, and sequences of calls
-/

namespace Ipt.Spec

open Ild

/-- There is a byte at an address, in some address space: in a section of an image the user may use, or provided by the
user's callback. -/
def Readable (c : InsnCfg) (secs : Msec → Prop) (x : Nat) (b : UInt8) : Prop :=
  (∃ m, secs m ∧ m.vaddr ≤ x ∧ x < m.vaddr + m.size ∧ b = c.env.byte m.sec (m.offset + (x - m.vaddr))) ∨
  (∃ g n asid a bs k, c.cb = some g ∧ g n asid a = .ok bs ∧ x = (a + k) % 2 ^ 64 ∧ bs[k]? = some b)

/-- What memory must be like.  Sections lie within their files.  The callback is defined and does not return more bytes
than it was asked for.  There are no fifteen bytes in a row of which the last but one is 0xd5 (see `C39_overread`). -/
structure SafeMemory (c : InsnCfg) (secs : Msec → Prop) : Prop where
  files : c.env.Ok
  sections : ∀ m, secs m → m.WF c.env
  callback : ∀ g, c.cb = some g → ∀ n asid x, g n asid x ≠ .ub ∧ ∀ bs, g n asid x = .ok bs → bs.length ≤ n
  rex2 : ∀ x, (∀ k, k < 15 → ∃ b, Readable c secs ((x + k) % 2 ^ 64) b) → ¬ Readable c secs ((x + 13) % 2 ^ 64) 0xd5

/-- What a user does with an instruction flow decoder. -/
inductive InsnCall
  | next | event | sync (o : SyncCall) | image (img : Img)

/-- The decoder after a call, and whether it was successful. -/
def InsnCall.run (c : InsnCfg) (s : Idec) : InsnCall → Idec × Res Unit
  | .next => drop (insnNext c s)
  | .event => drop (insnEvent c s)
  | .sync o => drop (o.insn c s)
  | .image img => ({ s with sc := scSetImage s.sc img }, .ok ())
where
  drop {α : Type} (r : Idec × Res α) : Idec × Res Unit := (r.1, r.2.bind fun _ => .ok ())

/-- The results of a sequence of calls.  The user may go on after an error. -/
def insnResults (c : InsnCfg) : List InsnCall → Idec → List (Res Unit)
  | [], _ => []
  | o :: os, s => (o.run c s).2 :: insnResults c os (o.run c s).1

/-- The sections of the images a decoder uses. -/
def usedSections (img : Img) (imgs : List Img) (m : Msec) : Prop := m ∈ img.secs ∨ ∃ i ∈ imgs, m ∈ i.secs

/-- The images a user sets. -/
def InsnCall.images : List InsnCall → List Img
  | [] => []
  | .image img :: os => img :: images os
  | _ :: os => images os

/-- The results of a sequence of calls of a block decoder. -/
def blkResults (c : BlkCfg) : List BlkCall → Bdec → List (Res Unit)
  | [], _ => []
  | .next :: os, s => drop (blkNext c s) :: blkResults c os (blkNext c s).1
  | .event :: os, s => drop (blkEvent c s) :: blkResults c os (blkEvent c s).1
  | .sync .forward :: os, s => drop (blkSyncForward c s) :: blkResults c os (blkSyncForward c s).1
  | .sync .backward :: os, s => drop (blkSyncBackward c s) :: blkResults c os (blkSyncBackward c s).1
  | .sync (.set o) :: os, s => drop (blkSyncSet c o s) :: blkResults c os (blkSyncSet c o s).1
  | .image img :: os, s => .ok () :: blkResults c os { s with sc := { s.sc with img := img } }
  | .forget sec :: os, s => .ok () :: blkResults c os { s with bc := fun t i => if t = sec then {} else s.bc t i }
where
  drop {α : Type} (r : Bdec × Res α) : Res Unit := r.2.bind fun _ => .ok ()

/-- The images a user sets. -/
def BlkCall.images : List BlkCall → List Img
  | [] => []
  | .image img :: os => img :: images os
  | _ :: os => images os

/-- A block cache entry counts its instructions: there is at least one, and the number fits its field. -/
def Counts (e : Bce) : Prop := e.isValid = true → 1 ≤ e.ninsn ∧ e.ninsn < 2 ^ 8

/-- What the world a block decoder lives in must be like: mapping sections and requesting block caches are defined; mapping a
section does not fail with `-pte_bad_query`; neither does the user's callback; and the entries other decoders write count
their instructions. -/
structure SafeWorld (c : BlkCfg) (s : Bdec) : Prop where
  maps : ∀ r ∈ s.maps, r ≠ .ub ∧ r ≠ .err .badQuery
  requests : ∀ r ∈ s.reqs, r ≠ .ub
  callback : ∀ g, c.cb = some g → ∀ n a x, g n a x ≠ .err .badQuery
  others : ∀ l ∈ s.others, ∀ w ∈ l, Counts w.entry

end Ipt.Spec
