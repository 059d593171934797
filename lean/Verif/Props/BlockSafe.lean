import Verif.BlockSafeCall
import Verif.Props.Block
import Verif.Props.InsnSafe

/-!
# C64: the block decoder is total

See `Verif/Spec/Safe.lean` and `Verif/Spec/Block.lean` for the vocabulary.
-/

set_option linter.unusedSimpArgs false

namespace Ipt.Props

open Ipt Spec Ild Blk

/-- C64: no call of a block decoder performs an undefined operation (reading an event or an instruction that was not
written, reading or writing behind an array) and every call terminates, for every trace buffer, image, sequence of calls,
errors from mapping sections, contents of the block caches and writes of other decoders to them, and also when the user
ignores errors.  The entries the decoder writes to the block caches are of the kind it relies on.  Missing for the full
property: fifteen readable bytes of which the last but one is 0xd5 (`C64_overread`); backward synchronization with adjacent
PSBs (`C64_hangs`); a callback that fails with `-pte_bad_query` (`C64_uninitialized`). -/
theorem C64_block_decoder_total_partial (c : BlkCfg) (img : Img) (maps reqs : List (Res Unit)) (bc : Bcache) (avail : List Bool)
    (others : List (List BceWrite)) (calls : List BlkCall)
    (hu : Usable c.evt) (hf : c.filter.addr.length = 16)
    (hm : SafeMemory c.toInsnCfg (usedSections img (BlkCall.images calls)))
    (hw : SafeWorld c { sc := { img := img }, maps := maps, reqs := reqs, bc := bc, avail := avail, others := others })
    (hbc : ∀ sec i, Counts (bc sec i)) (hb : .sync .backward ∈ calls → IsolatedPsbs c.evt.pkt.mem) :
    ∃ s', blkRun c { sc := { img := img }, maps := maps, reqs := reqs, bc := bc, avail := avail, others := others } calls = some s' ∧
      ∀ sec i, Counts (s'.bc sec i) := by
  have key : ∀ (secs : Msec → Prop), BCfgSafe c secs → (∀ i ∈ BlkCall.images calls, ∀ m ∈ i.secs, secs m) →
      ∀ s, BSafe c secs none s → ∃ s', blkRun c s calls = some s' ∧ ∀ sec i, Counts (s'.bc sec i) := by
    intro secs hc hi
    clear hm
    induction calls with
    | nil => exact fun s hs => ⟨s, rfl, hs.bc⟩
    | cons o os ih =>
      intro s hs
      obtain ⟨s1, h1, h2⟩ := blk_step hc o (fun h => hb (by simp [h])) (fun i hoi => hi i (by rw [hoi]; simp [BlkCall.images])) hs
      obtain ⟨s2, h3⟩ := ih (fun h => hb (by simp [h])) (fun i hi' => hi i (by cases o <;> simp [BlkCall.images, hi'])) _ h2
      refine ⟨s2, ?_, h3.2⟩
      show (o.run c s).bind _ = _
      rw [h1]
      exact h3.1
  refine key _ ⟨⟨hu, hm, hf⟩, hw.callback⟩ (fun i hi m hmm => .inr ⟨i, hi, hmm⟩) _ ⟨fun h => (by cases h), fun m hm => .inl hm,
    hw.maps, hw.requests, hbc, hw.others, ⟨[], ?_⟩, (by show 0 < _; decide), fun _ h => by cases h⟩
  exact ⟨by simp, by simp, by simp, by simp, by simp⟩

/-- The results of calls on a new decoder. -/
def blkSession (c : BlkCfg) (img : Img) (calls : List BlkCall) : List (Res Unit) :=
  blkResults c calls { sc := { img := img } }

/-- The hypotheses of C64 hold for the program and trace of C42, and for another decoder that writes to the block cache. -/
example : Usable (blkCfg flowProgram [0x0e]).evt ∧ (blkCfg flowProgram [0x0e]).filter.addr.length = 16 ∧
    IsolatedPsbs (blkCfg flowProgram [0x0e]).evt.pkt.mem ∧
    SafeMemory (blkCfg flowProgram [0x0e]).toInsnCfg (usedSections (flowDec flowProgram).sc.img []) ∧
    SafeWorld (blkCfg flowProgram [0x0e])
      { sc := { img := (flowDec flowProgram).sc.img }, maps := [.ok (), .err .badFile], reqs := [.err .nomem],
        others := [[⟨0, 0, { ninsn := 255, mode := .b64 }⟩], []] } := by
  have hw : ∀ m ∈ (imageAdd (flowEnv flowProgram) [] ⟨[], fun _ => 1⟩ 0 {} 0x7001 1).1.secs, m.WF (flowEnv flowProgram) := by
    show ∀ m ∈ (imageAdd (flowEnv flowProgram) [] ⟨[], fun _ => 1⟩ 0 {} 0x7001 1).1.secs, _ ∧ _
    decide +kernel
  refine ⟨⟨by decide +kernel, by decide +kernel, (by intro f h; cases h), by decide +kernel⟩, by decide +kernel,
    isolated_of_bounded _ (by decide +kernel), ⟨fun _ => (by show flowProgram.length < _; decide +kernel), fun m hm => ?_,
    fun g h => (by cases h), fun x _ h => ?_⟩, ⟨by simp, by simp, fun g h => (by cases h), ?_⟩⟩
  · rcases hm with hm | ⟨_, h, _⟩
    · exact hw m hm
    · cases h
  · rcases h with ⟨m, -, -, -, h⟩ | ⟨_, _, _, _, _, _, h, -⟩
    · have hb : ∀ b ∈ flowProgram ++ [0], b ≠ 0xd5 := by decide +kernel
      refine hb _ ?_ h.symm
      show flowProgram.getD _ 0 ∈ _
      rw [List.getD_eq_getElem?_getD]
      cases hg : flowProgram[m.offset + ((x + 13) % 2 ^ 64 - m.vaddr)]? with
      | none => simp
      | some b => exact List.mem_append_left _ (List.mem_of_getElem? hg)
    · cases h
  · intro l hl w hw
    simp at hl
    rcases hl with rfl | rfl
    · simp at hw; subst hw; exact fun _ => by simp
    · cases hw

/-- A session: calls before synchronization fail, the program runs to the end of the trace, the user goes on after an
error, synchronizes backward, loses the block cache and changes the image. -/
example : blkSession (blkCfg flowProgram [0x0e]) (flowDec flowProgram).sc.img
    [.next, .event, .sync .forward, .event, .event, .next, .next, .next, .next, .next, .next, .next, .next, .sync .backward,
      .next, .event, .forget 0, .next, .image ⟨[], fun _ => 0⟩, .next] =
    [.err .nosync, .err .nosync, .ok (), .ok (), .ok (), .ok (), .ok (), .ok (), .ok (), .ok (), .err .badQuery, .err .badQuery,
      .err .badQuery, .ok (), .ok (), .ok (), .ok (), .ok (), .ok (), .ok ()] := by
  decide +kernel

/-- The decoder reads behind the fifteen bytes of an instruction: thirteen prefixes and 0xd5 (see `C39_overread`). -/
theorem C64_overread :
    blkSession (blkCfg (List.replicate 13 0x66 ++ [0xd5, 0]) []) (flowDec (List.replicate 13 0x66 ++ [0xd5, 0])).sc.img
      [.sync .forward, .event, .event, .next] = [.ok (), .ok (), .ok (), .ub] := by
  decide +kernel

/-- Backward synchronization does not terminate if there are adjacent PSBs (see `C41_hangs`). -/
theorem C64_hangs :
    blkSession { evt := { pkt := { mem := adjacentPsbs } }, env := flowEnv [] } ⟨[], fun _ => 0⟩ [.sync .backward] = [.ub] := by
  decide +kernel

/-- If the user's callback fails with `-pte_bad_query` on the way to a disabled event, the decoder takes this for a branch
that needs trace, and reads an instruction it did not write. -/
theorem C64_uninitialized :
    blkSession { toInsnCfg := { flowCfg flowProgram [0x21, 0x7a, 0x56] with cb := some fun _ _ _ => .err .badQuery } }
      ⟨[], fun _ => 0⟩ [.sync .forward, .event, .event, .next] = [.ok (), .ok (), .ok (), .ub] := by
  decide +kernel

/-- At the end of the trace, an instruction flow decoder that needs trace says so.  A block decoder claims that it got out of
sync. -/
theorem C64_end_of_trace :
    insnSession (flowCfg flowProgram [0x0e]) (flowDec flowProgram).sc.img
      ([.sync .forward, .event, .event] ++ List.replicate 7 .next) = List.replicate 9 (.ok ()) ++ [.err .eos] ∧
    blkSession (blkCfg flowProgram [0x0e]) (flowDec flowProgram).sc.img
      ([.sync .forward, .event, .event] ++ List.replicate 6 .next) = List.replicate 8 (.ok ()) ++ [.err .badQuery] := by
  decide +kernel

end Ipt.Props
