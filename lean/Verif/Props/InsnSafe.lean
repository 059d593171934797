import Verif.InsnSafe
import Verif.Props.InsnDecoder

/-!
# C63: the instruction flow decoder is total

See `Verif/Spec/Safe.lean` for the vocabulary.
-/

set_option linter.unusedSimpArgs false

namespace Ipt.Props

open Ipt Spec Ild

/-- C63: no call of an instruction flow decoder performs an undefined operation (reading an event or an instruction that
was not written, reading or writing behind an array) and every call terminates, for every trace buffer, image, sequence of
calls and sequence of errors from mapping sections, and also when the user ignores errors.  Missing for the full property:
fifteen readable bytes of which the last but one is 0xd5 (`C63_overread`); backward synchronization with adjacent PSBs
(`C63_hangs`). -/
theorem C63_insn_decoder_total_partial (c : InsnCfg) (img : Img) (maps : List (Res Unit)) (calls : List InsnCall)
    (hu : Usable c.evt) (hf : c.filter.addr.length = 16) (hm : SafeMemory c (usedSections img (InsnCall.images calls)))
    (hmaps : ∀ r ∈ maps, r ≠ .ub)
    (hb : .sync .backward ∈ calls → IsolatedPsbs c.evt.pkt.mem) :
    ∀ r ∈ insnResults c calls { sc := { img := img }, maps := maps }, r ≠ .ub := by
  have key : ∀ (secs : Msec → Prop), CfgSafe c secs → (∀ i ∈ InsnCall.images calls, ∀ m ∈ i.secs, secs m) →
      ∀ s, ISafe c secs False s → ∀ r ∈ insnResults c calls s, r ≠ .ub := by
    intro secs hc hi
    clear hm
    induction calls with
    | nil => intro s _ r hr; simp [insnResults] at hr
    | cons o os ih =>
      intro s hs r hr
      have step := insn_step hc o (fun h => hb (by simp [h])) (fun i hoi => hi i (by rw [hoi]; simp [InsnCall.images])) hs
      rcases List.mem_cons.1 hr with rfl | hr
      · exact step.1
      · refine ih (fun h => hb (by simp [h])) (fun i hi' => hi i ?_) _ step.2 r hr
        cases o <;> simp [InsnCall.images, hi']
  refine key _ ⟨hu, hm, hf⟩ (fun i hi m hmm => .inr ⟨i, hi, hmm⟩) _ ⟨.inl ⟨rfl, rfl⟩, fun m hm => .inl hm, hmaps, ⟨[], ?_⟩,
    fun h => (by cases h), fun _ h => (by cases h), fun h => h.elim⟩
  exact ⟨by simp, by simp, by simp, by simp, by simp⟩

/-- The results of calls on a new decoder. -/
def insnSession (c : InsnCfg) (img : Img) (calls : List InsnCall) : List (Res Unit) :=
  insnResults c calls { sc := { img := img } }

/-- The hypotheses of C63 hold for the program and trace of C42. -/
example : Usable (flowCfg flowProgram [0x0e]).evt ∧ (flowCfg flowProgram [0x0e]).filter.addr.length = 16 ∧
    IsolatedPsbs (flowCfg flowProgram [0x0e]).evt.pkt.mem ∧
    SafeMemory (flowCfg flowProgram [0x0e]) (usedSections (flowDec flowProgram).sc.img []) := by
  have hw : ∀ m ∈ (imageAdd (flowEnv flowProgram) [] ⟨[], fun _ => 1⟩ 0 {} 0x7001 1).1.secs, m.WF (flowEnv flowProgram) := by
    show ∀ m ∈ (imageAdd (flowEnv flowProgram) [] ⟨[], fun _ => 1⟩ 0 {} 0x7001 1).1.secs, _ ∧ _
    decide +kernel
  refine ⟨⟨by decide +kernel, by decide +kernel, (by intro f h; cases h), by decide +kernel⟩, by decide +kernel,
    isolated_of_bounded _ (by decide +kernel), fun _ => (by show flowProgram.length < _; decide +kernel), fun m hm => ?_,
    fun g h => (by cases h), fun x _ h => ?_⟩
  · rcases hm with hm | ⟨_, h, _⟩
    · exact hw m hm
    · cases h
  · rcases h with ⟨m, -, -, -, h⟩ | ⟨_, _, _, _, _, _, h, -⟩
    · have hb : ∀ b ∈ flowProgram ++ [0], b ≠ 0xd5 := by decide +kernel
      refine hb _ ?_ h.symm
      show flowProgram.getD _ 0 ∈ _
      rw [List.getD_eq_getElem?_getD]
      cases hg : flowProgram[m.offset + ((x + 13) % 2 ^ 64 - m.vaddr)]? with
      | none => simp
      | some b => exact List.mem_append_left _ (List.mem_of_getElem? hg)
    · cases h

/-- A session: calls before synchronization fail, the program runs to the end of the trace, the user goes on after an
error and synchronizes backward. -/
example : insnSession (flowCfg flowProgram [0x0e]) (flowDec flowProgram).sc.img
    [.next, .event, .sync .forward, .event, .event, .next, .next, .next, .next, .next, .next, .next, .next, .sync .backward,
      .next, .event, .image ⟨[], fun _ => 0⟩, .next] =
    [.err .noEnable, .err .badQuery, .ok (), .ok (), .ok (), .ok (), .ok (), .ok (), .ok (), .ok (), .ok (), .err .eos,
      .err .nomap, .ok (), .ok (), .err .badQuery, .ok (), .err .nomap] := by
  decide +kernel

/-- The decoder reads behind the fifteen bytes of an instruction: thirteen prefixes and 0xd5 (see `C39_overread`). -/
theorem C63_overread :
    insnSession (flowCfg (List.replicate 13 0x66 ++ [0xd5, 0]) []) (flowDec (List.replicate 13 0x66 ++ [0xd5, 0])).sc.img
      [.sync .forward, .event, .event, .next] = [.ok (), .ok (), .ok (), .ub] := by
  decide +kernel

/-- Backward synchronization does not terminate if there are adjacent PSBs (see `C41_hangs`). -/
theorem C63_hangs :
    insnSession { evt := { pkt := { mem := adjacentPsbs } }, env := flowEnv [] } ⟨[], fun _ => 0⟩ [.sync .backward] = [.ub] := by
  decide +kernel

/-- After backward synchronization the user is not told about events, cannot ask for them, and cannot get beyond the first
branch.  After forward synchronization to the same packets they can. -/
theorem C63_backward_stuck :
    insnSession (flowCfg flowProgram [0x0e]) (flowDec flowProgram).sc.img [.sync .backward, .event, .next, .next] =
      [.ok (), .err .badQuery, .ok (), .err .badQuery] ∧
    insnSession (flowCfg flowProgram [0x0e]) (flowDec flowProgram).sc.img
      [.sync .forward, .event, .event, .next, .next, .next] = [.ok (), .ok (), .ok (), .ok (), .ok (), .ok ()] := by
  decide +kernel

end Ipt.Props
