import Verif.BlockEvent
import Verif.BlockReach
import Verif.BlockCached
import Verif.BlockFlags

/-!
# Helper lemmas: `pt_blk_next`
-/

set_option linter.unusedSimpArgs false

namespace Ipt

open Ild Spec Props BM

variable {c : BlkCfg} {f0 f g : Flow} {n0 : Int} {is : List Insn} {its : List Item} {s s' : Bdec} {i : Insn} {e e' : Event}
  {d : Evd} {out o : List BlkSeen} {M : Nat → Mode}

instance (env : SecEnv) (allowed : Nat → Mode → Prop) : Blind (Good env allowed) where
  of _ _ h3 h4 h := by unfold Good at *; rw [h3, h4]; exact h

/-- What executing instructions does not change. -/
structure Kept (s s' : Bdec) : Prop where
  enabled : s'.enabled = s.enabled
  speculative : s'.speculative = s.speculative
  insn : s'.insn = s.insn
  bound : ∀ k, s'.boundTo k = s.boundTo k

theorem kept_frame (h : s'.frame = s.frame) : Kept s s' :=
  ⟨congrArg (·.enabled) h, congrArg (·.speculative) h, congrArg (·.insn) h, fun k => by
    cases k
    · exact congrArg (·.boundPaging) h
    · exact congrArg (·.boundVmcs) h
    · exact congrArg (·.boundPtwrite) h
    · exact congrArg (·.boundIret) h
    · exact congrArg (·.boundVmentry) h
    · exact congrArg (·.boundUiret) h⟩

theorem kept_quiet (h : s'.quiet = s.quiet) : Kept s s' :=
  ⟨congrArg (·.enabled) h, congrArg (·.speculative) h, congrArg (·.insn) h, fun k => by
    cases k
    · exact congrArg (·.boundPaging) h
    · exact congrArg (·.boundVmcs) h
    · exact congrArg (·.boundPtwrite) h
    · exact congrArg (·.boundIret) h
    · exact congrArg (·.boundVmentry) h
    · exact congrArg (·.boundUiret) h⟩

theorem _root_.Ipt.Spec.Flow.Waits.normal {isid : Nat} (h : f.Waits c isid e is g e') (hn : Normal e) : Normal e' := by
  induction h with
  | nil => exact hn
  | cons a b d x _ ih =>
    refine ih ?_
    unfold nearer
    repeat' split
    all_goals first | exact hn | exact ⟨fun _ => by simp, fun _ _ => by simp⟩
  | locate a n m k h1 h2 h3 _ ih => exact ih ⟨fun _ => by simp, fun _ _ => by simp⟩
  | skd022 a ip i h1 h2 h3 h4 h5 _ ih => exact ih ⟨fun _ => by simp, fun _ _ => by simp⟩

/-- The state after executing instructions. -/
theorem went_base (hb : Base c s f) (hi : s.insn = none) (h : Sofar c f n0 is its s' g) (hk : Kept s s')
    (hl : s'.status = none ↔ s'.event ≠ none) :
    Base c s' { g with pend := none } := by
  have hs := h.walk.same
  have hcur : g.cur = none := by rw [hs]; exact hb.insn.trans hi
  have hbd : g.bound = [] := by rw [hs]; exact hb.free hi
  have hsi : s'.insn = none := hk.insn.trans hi
  refine ⟨?_, h.stands.ip, h.stands.mode, ?_, h.stands.asid, h.stands.sections, h.wf, h.inv, hcur.trans hsi.symm,
    fun _ => h.stands.calls, fun i hi => (by rw [hsi] at hi; cases hi), fun i hi => (by rw [hsi] at hi; cases hi), fun k => ?_,
    fun _ => hbd, fun e he => (by cases he), hl⟩
  · show g.enabled = _
    rw [hs, hk.enabled]; exact hb.enabled
  · show g.speculative = _
    rw [hs, hk.speculative]; exact hb.speculative
  · show k ∈ g.bound ↔ _
    rw [hbd, hk.bound, ← hb.bound, hb.free hi]

/-- And with an instruction that was not executed. -/
theorem held_base (hb : Base c s f) (hi : s.insn = none) (h : Mid c f n0 is its s' g i) (hk : Kept s s')
    (hl : s'.status = none ↔ s'.event ≠ none) (he : s'.event = some e') (hn : Normal e') :
    Base c { s' with insn := some i } { g with pend := some e', cur := some i, bound := [] } := by
  have hs := h.walk.same
  refine ⟨?_, h.ip, h.fmode, ?_, h.asid, h.sections, h.wf, h.inv, rfl, fun h => (by cases h), fun j hj => ?_, fun j hj _ => ?_,
    fun k => ?_, fun h => (by cases h), fun e hp => ?_, hl⟩
  · show g.enabled = s'.enabled
    rw [hs, hk.enabled]; exact hb.enabled
  · show g.speculative = s'.speculative
    rw [hs, hk.speculative]; exact hb.speculative
  · cases hj
    exact ⟨h.calls, h.known.shape.1, fun h1 h2 => (h.known.shape.2 h1 h2).1⟩
  · cases hj
    exact h.known.ip.trans h.ip
  · have : ({ s' with insn := some i } : Bdec).boundTo k = s'.boundTo k := by cases k <;> rfl
    rw [this, hk.bound, ← hb.bound, hb.free hi]
  · cases hp
    exact ⟨he, hn⟩

theorem newBlock_base (h : Base c s f) : Base c (newBlock s) f :=
  ⟨h.enabled, h.ip, h.mode, h.speculative, h.asid, h.sections, h.wf, h.inv, h.insn, h.calls, h.called, h.here, h.bound, h.free,
    h.pend, h.live⟩

/-- The block is empty. -/
structure Blank (s : Bdec) : Prop where
  head : HeadIs s.ip s.speculative s
  mode : s.blk.mode = s.mode
  count : s.blk.ninsn = 0
  truncated : s.blk.truncated = false

theorem newBlock_fresh : Blank (newBlock s) := ⟨⟨rfl, rfl⟩, rfl, rfl, rfl⟩

theorem fresh_sofar (hb : Base c s f) (hi : s.insn = none) (hf : Blank s) : Sofar c f s.icnt [] [] s f :=
  ⟨.nil _, ⟨hb.ip, hb.mode, hb.asid, hb.sections, hb.calls hi⟩, hf.count, by simp, fun _ => by simp, fun i h => (by cases h),
    fun h => (by rw [hf.truncated] at h; cases h), hb.wf, hb.inv, hf.mode.trans hb.mode.symm⟩

/-- The last instruction. -/
theorem walk_last {P : Flow → Insn → Prop} (h : f.Walk P is its g) (hn : is ≠ []) (hi : its = []) :
    ∃ js i g' t calls, is = js ++ [i] ∧ f.Walk P js [] g' ∧ P g' i ∧ Exec i g'.calls [] t calls ∧
      g = { g' with ip := t, calls := calls } := by
  induction h with
  | nil => exact absurd rfl hn
  | @cons f1 g1 i1 is1 its1 its2 t1 calls1 hk hx hw ih =>
    obtain ⟨h1, h2⟩ := List.append_eq_nil_iff.1 hi
    subst h1 h2
    rcases is1 with _ | ⟨j, js⟩
    · cases hw
      exact ⟨[], i1, f1, t1, calls1, rfl, .nil _, hk, hx, rfl⟩
    · obtain ⟨js1, i, g', t, calls, a1, a2, a3, a4, a5⟩ := ih (by simp) rfl
      refine ⟨i1 :: js1, i, g', t, calls, by rw [a1]; rfl, ?_, a3, a4, a5⟩
      have := Flow.Walk.cons hk hx a2
      simpa using this

/-- Executing instructions with the help of the trace. -/
theorem noEvent_told (henv : c.env.Ok) (hg : Good c.env (fun sec md => md = M sec) s) (hm : InMode M s) (hb : Base c s f)
    (hi : s.insn = none) (hf : Blank s) (hen : s.enabled = true) (hp : f.pend = none) (ht : Trail c d f0 out s f)
    (hr : BReady s f) :
    wp (noEvent c) (fun _ s' => ∃ g, Base c s' g ∧ Trail c d f0 (out ++ [.block s'.blk]) s' g ∧ s'.insn = none ∧
      (s.event = none → s'.event = none) ∧ (c.tick = true → BReady s' g)) (fun _ _ => True) s := by
  have h0 := fresh_sofar hb hi hf
  have h1 := noEvent_flow (allowed := fun sec md => md = M sec) henv h0 hf.truncated (fun m hv md => by
    have := hm m ((hb.sections m).2 hv.sections) (by rw [← hb.asid]; exact hv.space) (by rw [← hb.ip]; exact hv.covers)
    rw [this, hb.mode]) hg
  refine wp_mono (wp_and h1 (holds_noEvent (K := HeadIs s.ip s.speculative) s hf.head)) (fun _ s1 h => ?_) fun _ _ _ => trivial
  obtain ⟨⟨⟨is, its, n1, g, -, a2, a3, a4, a5, a6⟩, -⟩, hhd⟩ := h
  rw [List.nil_append] at a4
  have hk := kept_frame a5
  have hl := takes_live a3 hb.live
  have hb1 := went_base hb hi a4 hk hl
  have hs := a4.walk.same
  have hgp : g.pend = none := by rw [hs]; exact hp
  rw [show ({ g with pend := none } : Flow) = g by rw [← hgp]] at hb1
  have hlast : ∃ js i g' t calls, is = js ++ [i] ∧ f.Walk (Flow.Known c.toInsnCfg s1.blk.isid) js [] g' ∧
      g'.Known c.toInsnCfg s1.blk.isid i ∧ Exec i g'.calls its t calls ∧ g = { g' with ip := t, calls := calls } := by
    rcases a6 with rfl | h
    · exact walk_last a4.walk a2 rfl
    · exact h
  have step : ∀ rest, (its = [] → s1.event = s.event ∧ Fair s1 { g with late := c.tick && (f.late || !its.isEmpty) } rest) →
      f.BlkStep c rest its [.block s1.blk] { g with late := c.tick && (f.late || !its.isEmpty) } := by
    intro rest hfr
    obtain ⟨js, i, g', t, calls, b1, b2, b3, b4, b5⟩ := hlast
    have hend := a4.ends
    have hmd := a4.mode
    have hct := a4.count
    subst b5 b1
    refine .told f g' js i its t calls s1.blk (hb.enabled.trans hen) (hb.insn.trans hi) hp (hr.passes hp hfr hgp) b2 b3 b4
      ⟨hhd.1.trans hb.ip.symm, ?_, hhd.2.trans hb.speculative.symm, hct⟩ hend
    rw [hmd, hs]
  have hin : s1.insn = none := hk.insn.trans hi
  have hno : s.event = none → s1.event = none := by
    intro h
    unfold Bdec.trace at a3
    rw [h] at a3
    generalize hy : (s1.ev, s1.event, s1.status) = y at a3
    cases a3 with
    | nothing => exact congrArg (·.2.1) hy
  rcases ht.takes hp step hgp a3 with h | ⟨e, ip, htk, he, hx, h⟩
  · refine ⟨_, hb1.late, h, hin, hno, fun htk _ hlt => ?_⟩
    have hlt : (c.tick && (f.late || !its.isEmpty)) = false := hlt
    rw [htk] at hlt
    rcases its with _ | ⟨it, its⟩
    · have hev : s1.event = s.event := by
        unfold Bdec.trace at a3
        generalize hx : (s.ev, s.event, s.status) = x at a3
        generalize hy : (s1.ev, s1.event, s1.status) = y at a3
        cases a3 with
        | nothing => subst hx; exact congrArg (·.2.1) hy
      rw [hev]
      exact hr hp (by simpa using hlt)
    · simp at hlt
  · exact ⟨_, hb1.late.take he ⟨fun _ => by rw [hx]; simp, fun _ _ => by rw [hx]; simp⟩, h, hin, hno, fun _ => ready_pend rfl⟩

/-- Executing instructions up to an event. -/
theorem proceedEvent_done (henv : c.env.Ok) (hcb : CbNoBq c)
    (hend : c.evt.pkt.errata.skl014 = true → c.filter.cfg ≠ 0 → c.endOnCall = false ∧ c.endOnJump = false)
    (hmaps : NoBq s.maps) (hb : Base c s f) (hi : s.insn = none) (hf : Blank s) (he : s.event = some e) (hn : Normal e)
    (ht : Trail c d f0 out s f) :
    wp (proceedEvent c) (fun fl s' => Done c d f0 (out ++ [.block s'.blk]) fl s') (fun _ _ => True) s := by
  obtain ⟨l0, hb, ht⟩ := hb.taken ht he hn
  generalize hf1 : ({ f with pend := some e, late := l0 } : Flow) = f1 at hb ht
  have hp : f1.pend = some e := by subst hf1; rfl
  have h0 := fresh_sofar hb hi hf
  refine wp_mono (wp_and (proceedEvent_wait henv hcb hend hb.enabled ⟨h0, .nil _ _, he, hmaps⟩)
    (holds_proceedEvent (K := HeadIs s.ip s.speculative) s hf.head)) (fun fl s1 h => ?_) fun _ _ _ => trivial
  obtain ⟨hr, hhd⟩ := h
  have live : ∀ {s2 : Bdec} {e' : Event}, s2.quiet = s.quiet → s2.event = some e' → (s2.status = none ↔ s2.event ≠ none) := by
    intro s2 e' h1 h2
    have h3 : s2.status = s.status := congrArg (·.status) h1
    rw [h2, h3, hb.live.2 (by rw [he]; simp)]
    simp
  have quiet : ∀ {s2 : Bdec} {e' : Event} {g : Flow} {b : Block}, s2.ev = s.ev → s2.event ≠ none → g.pend = some e' → (∀ rest, f1.BlkStep c rest [] [.block b] g) →
      Trail c d f0 (out ++ [.block b]) s2 g := by
    intro s2 e' g b h1 h0 h2 h3
    refine ht.quiet h3 ?_ (fun _ => ⟨by rw [he]; simp, h1⟩) (.inl (by rw [hp]; simp)) fun h => absurd h h0
    unfold leftover
    rw [h2, hp]
  have wait : ∀ {is : List Insn} {g : Flow} {e' : Event} {s2 : Bdec}, Wait c f1 e s.icnt is s2 g e' → s2.quiet = s.quiet →
      HeadIs s.ip s.speculative s2 →
      Base c s2 { g with pend := some e' } ∧ s2.insn = none ∧ Trail c d f0 (out ++ [.block s2.blk]) s2 { g with pend := some e' } := by
    intro is g e' s2 hw hq hhd
    have hk := kept_quiet hq
    have hne := hw.waits.normal hn
    have hs := hw.so.walk.same
    refine ⟨?_, hk.insn.trans hi, quiet (congrArg (·.ev) hq) (by rw [hw.event]; simp) rfl fun rest => ?_⟩
    · exact (went_base hb hi hw.so hk (live hq hw.event)).take hw.event hne
    · refine .wait f1 g is s2.blk e e' (hb.insn.trans hi) hp hw.waits ⟨hhd.1.trans hb.ip.symm, ?_,
        hhd.2.trans hb.speculative.symm, hw.so.count⟩ hw.so.ends
      rw [hw.so.mode, hs]
  cases hr with
  | some hw hq =>
    obtain ⟨a, b, t⟩ := wait hw hq hhd
    exact ⟨_, t, by rw [if_neg (by decide)]; exact ⟨a, b, ready_pend rfl⟩⟩
  | @event is g e' _ _ hw hq hc hfl =>
    obtain ⟨a, b, t⟩ := wait hw hq hhd
    refine ⟨_, t, ?_⟩
    rw [if_pos hfl]
    exact .event e' a rfl (.inl b) hc
  | @held is g i k l s2 _ hh hq hen hk hbl hfl =>
    have hkp := kept_quiet hq
    have hs := hh.mid.walk.same
    have hgp : g.pend = some e := by rw [hs]; exact hp
    have hbase := held_base hb hi hh.mid hkp (live hq hh.event) hh.event hn
    have hblk : (s2.mark k).blk = s2.blk ∧ (s2.mark k).ev = s2.ev ∧ (s2.mark k).event = s2.event := by
      cases k <;> exact ⟨rfl, rfl, rfl⟩
    have hh1 : s2.blk.ip = s.ip ∧ s2.blk.speculative = s.speculative := by
      rw [← hblk.1]
      exact hhd
    have hev : s2.ev = s.ev := congrArg (·.ev) hq
    have hgq : ({ g with pend := some e, cur := some i, bound := [] } : Flow) = { g with cur := some i, bound := [] } := by
      rw [hs, ← hp]
    rw [hgq] at hbase
    refine ⟨{ g with cur := some i, bound := [] }, quiet (e' := e) (hblk.2.1.trans hev) (by rw [hblk.2.2, hh.event]; simp) hgp (fun rest => ?_), ?_⟩
    · show f1.BlkStep c rest [] [.block (s2.mark k).blk] _
      rw [hblk.1]
      refine .hold f1 g is i s2.blk e k l (hb.enabled.trans hen) (hb.insn.trans hi) hp hh.waits hh.mid.known hk hbl
        ⟨hh1.1.trans hb.ip.symm, ?_, hh1.2.trans hb.speculative.symm, ?_⟩ hh.mid.ends
      · rw [hh.mid.mode, hs]
      · rw [hh.mid.count, List.length_append]; rfl
    · rw [if_pos hfl]
      refine .belongs { s2 with insn := some i } e k l i hbase ?_ ?_ (hkp.enabled.trans hen) rfl hgp hk hbl
      · cases k <;> rfl
      · have h1 : ({ s2 with insn := some i } : Bdec).boundTo k = s2.boundTo k := by cases k <;> rfl
        rw [h1, hkp.bound]
        have := hb.bound k
        rw [hb.free hi] at this
        rcases hx : s.boundTo k with _ | _
        · rfl
        · rw [hx] at this; simp at this
  | @leave is g e' i ip t s2 _ hh hq hx hsu hlv hfl =>
    have hkp := kept_quiet hq
    have hs := hh.mid.walk.same
    have hne := hh.waits.normal hn
    have hbase := held_base hb hi hh.mid hkp (live hq hh.event) hh.event hne
    refine ⟨{ g with pend := some e', cur := some i, bound := [] }, quiet (e' := e') (congrArg (·.ev) hq) (by rw [show ({ s2 with insn := some i } : Bdec).event = s2.event from rfl, hh.event]; simp) rfl (fun rest => ?_), ?_⟩
    · refine .leave f1 g is i s2.blk e e' ip t (hb.insn.trans hi) hp hh.waits hh.mid.known hx hsu hlv
        ⟨hhd.1.trans hb.ip.symm, ?_, hhd.2.trans hb.speculative.symm, ?_⟩ hh.mid.ends
      · rw [hh.mid.mode, hs]
      · rw [hh.mid.count, List.length_append]; rfl
    · rw [if_pos hfl]
      rcases Bool.eq_false_or_eq_true s2.enabled with hen | hen
      · refine .leaving { s2 with insn := some i } e' ip t i hbase rfl hen rfl hx hsu hlv (.inr ⟨?_, rfl⟩)
        rw [← hkp.insn.trans hi]
      · exact .doomed (.inr ⟨e', ip, hh.event, hx, hsu.trans hen.symm⟩)

/-- `pt_blk_next` -/
theorem next_done (henv : c.env.Ok) (hcb : CbNoBq c)
    (hend : c.evt.pkt.errata.skl014 = true → c.filter.cfg ≠ 0 → c.endOnCall = false ∧ c.endOnJump = false)
    (hg : Good c.env (fun sec md => md = M sec) s) (hm : InMode M s) (hmaps : NoBq s.maps) (hb : Base c s f) (hi : s.insn = none)
    (ht : Trail c d f0 out s f) (hr : BReady s f) :
    wp (blkNext c) (fun fl s' => Done c d f0 (out ++ [.block s'.blk]) fl s') (fun _ _ => True) s := by
  unfold blkNext
  rw [wp_bind, wp_modify]
  have hb0 := newBlock_base hb
  have hf0 := newBlock_fresh (s := s)
  have hi0 : (newBlock s).insn = none := hi
  have ht0 : Trail c d f0 out (newBlock s) f := ht.still rfl fun h => ⟨h, rfl⟩
  have hg0 : Good c.env (fun sec md => md = M sec) (newBlock s) := hg
  have hm0 : InMode M (newBlock s) := hm
  have hmaps0 : NoBq (newBlock s).maps := hmaps
  have hr0 : BReady (newBlock s) f := hr
  generalize newBlock s = s0 at *
  unfold blkProceed
  rw [wp_bind, wp_get]
  rcases hst : s0.status with _ | er
  · dsimp only
    obtain ⟨e, he⟩ := Option.ne_none_iff_exists'.1 (hb0.live.1 hst)
    rw [he]
    have told : ¬ Normal e → wp (if s0.enabled = false then BM.fail .noEnable
        else do
          noEvent c
          trailingEvent c true c.evt.fuel) (fun fl s' => Done c d f0 (out ++ [.block s'.blk]) fl s') (fun _ _ => True) s0 := by
      intro hn
      have hp : f.pend = none := by
        rcases hp : f.pend with _ | e'
        · rfl
        · have := hb0.pend e' hp
          rw [he] at this
          cases this.1
          exact absurd this.2 hn
      rw [wp_ite]
      refine ⟨fun _ => trivial, fun hen => ?_⟩
      rw [wp_bind]
      refine wp_mono (noEvent_told henv hg0 hm0 hb0 hi0 hf0 (by simpa using hen) hp ht0 hr0) (fun _ s1 h => ?_) fun _ _ _ => trivial
      obtain ⟨g, h1, h2, h3, -, h4⟩ := h
      refine wp_mono (wp_and (trailing_done henv _ s1 g h1 h2 fun _ => ⟨h3, h4⟩)
        (holds_trailingEvent (K := fun s => s.blk = s1.blk) _ s1 rfl)) (fun fl s2 h => ?_) fun _ _ _ => trivial
      rw [h.2]
      exact h.1
    by_cases hn : Normal e
    · have main := proceedEvent_done henv hcb hend hmaps0 hb0 hi0 hf0 he hn ht0
      obtain ⟨data, hs, t, a, b, su, ips⟩ := e
      cases data <;> first | exact main | exact absurd rfl (hn.1 _) | exact absurd rfl (hn.2 _ _)
    · have main := told hn
      obtain ⟨data, hs, t, a, b, su, ips⟩ := e
      cases data <;> first | exact main | exact absurd ⟨fun _ => by simp, fun _ _ => by simp⟩ hn
  · dsimp only
    rw [wp_ite]
    refine ⟨fun _ => trivial, fun h1 => ?_⟩
    rw [wp_ite]
    refine ⟨fun _ => trivial, fun hen => ?_⟩
    have he : s0.event = none := by
      rcases he : s0.event with _ | e
      · rfl
      · have := hb0.live.2 (by rw [he]; simp)
        rw [hst] at this; cases this
    have hp : f.pend = none := by
      rcases hp : f.pend with _ | e'
      · rfl
      · have := (hb0.pend e' hp).1
        rw [he] at this; cases this
    rw [wp_bind]
    refine wp_mono (noEvent_told henv hg0 hm0 hb0 hi0 hf0 (by simpa using hen) hp ht0 hr0) (fun _ s1 h => ?_) fun _ _ _ => trivial
    obtain ⟨g, h2, h3, h4, h5, -⟩ := h
    exact ⟨g, h3, by rw [if_neg (by decide)]; exact ⟨h2, h4, ready_none (h5 he)⟩⟩

/-! ### The caches -/

theorem next_good (henv : c.env.Ok) (hg : Good c.env (fun sec md => md = M sec) s) (hm : InMode M s) (hb : Base c s f) (hi : s.insn = none) :
    wp (blkNext c) (fun _ s' => Good c.env (fun sec md => md = M sec) s') (fun _ s' => True) s := by
  unfold blkNext
  rw [wp_bind, wp_modify]
  have hb0 := newBlock_base hb
  have hf0 := newBlock_fresh (s := s)
  have hi0 : (newBlock s).insn = none := hi
  have hg0 : Good c.env (fun sec md => md = M sec) (newBlock s) := hg
  have hm0 : InMode M (newBlock s) := hm
  generalize newBlock s = s0 at *
  have h0 := fresh_sofar hb0 hi0 hf0
  have h1 := noEvent_flow (allowed := fun sec md => md = M sec) henv h0 hf0.truncated (fun m hv md => by
    have := hm0 m ((hb0.sections m).2 hv.sections) (by rw [← hb0.asid]; exact hv.space) (by rw [← hb0.ip]; exact hv.covers)
    rw [this, hb0.mode]) hg0
  have told : wp (do noEvent c; trailingEvent c true c.evt.fuel) (fun _ s' => Good c.env (fun sec md => md = M sec) s')
      (fun _ _ => True) s0 := by
    rw [wp_bind]
    exact wp_mono h1 (fun _ s1 h => wp_mono (holds_trailingEvent (K := Good c.env (fun sec md => md = M sec)) _ s1 h.2)
      (fun _ _ h => h) fun _ _ _ => trivial) fun _ _ _ => trivial
  have ev : wp (proceedEvent c) (fun _ s' => Good c.env (fun sec md => md = M sec) s') (fun _ _ => True) s0 :=
    wp_mono (holds_proceedEvent (K := Good c.env (fun sec md => md = M sec)) s0 hg0) (fun _ _ h => h) fun _ _ _ => trivial
  unfold blkProceed
  rw [wp_bind, wp_get]
  rcases hst : s0.status with _ | er
  · dsimp only
    split
    · rw [wp_ite]
      exact ⟨fun _ => trivial, fun _ => told⟩
    · rw [wp_ite]
      exact ⟨fun _ => trivial, fun _ => told⟩
    · exact ev
  · dsimp only
    rw [wp_ite]
    refine ⟨fun _ => trivial, fun _ => ?_⟩
    rw [wp_ite]
    refine ⟨fun _ => trivial, fun _ => ?_⟩
    rw [wp_bind]
    exact wp_mono h1 (fun _ s1 h => h.2) fun _ _ _ => trivial

theorem next_tells (henv : c.env.Ok) (hg : Good c.env (fun sec md => md = M sec) s) (hm : InMode M s) (hb : Base c s f)
    (hi : s.insn = none) : wp (blkNext c) (fun fl s' => fl.eos = true → s'.status = some .eos) (fun _ _ => True) s := by
  unfold blkNext
  rw [wp_bind, wp_modify]
  have hb0 := newBlock_base hb
  have hf0 := newBlock_fresh (s := s)
  have hi0 : (newBlock s).insn = none := hi
  have hg0 : Good c.env (fun sec md => md = M sec) (newBlock s) := hg
  have hm0 : InMode M (newBlock s) := hm
  generalize newBlock s = s0 at *
  have of : ∀ {m : BM Flags}, Tells m → wp m (fun fl s' => fl.eos = true → s'.status = some .eos) (fun _ _ => True) s0 := by
    intro m h
    unfold wp
    rcases hx : m s0 with ⟨t, a | x | _⟩ <;> dsimp only
    exact h s0 t a hx
  unfold blkProceed
  rw [wp_bind, wp_get]
  rcases hst : s0.status with _ | er
  · dsimp only
    split
    · rw [wp_ite]
      exact ⟨fun _ => trivial, fun _ => of (tells_bind fun _ => tells_trailing _)⟩
    · rw [wp_ite]
      exact ⟨fun _ => trivial, fun _ => of (tells_bind fun _ => tells_trailing _)⟩
    · exact of tells_proceedEvent
  · dsimp only
    rw [wp_ite]
    refine ⟨fun _ => trivial, fun her => ?_⟩
    rw [wp_ite]
    refine ⟨fun _ => trivial, fun _ => ?_⟩
    have h1 := noEvent_flow (allowed := fun sec md => md = M sec) henv (fresh_sofar hb0 hi0 hf0) hf0.truncated (fun m hv md => by
      have := hm0 m ((hb0.sections m).2 hv.sections) (by rw [← hb0.asid]; exact hv.space) (by rw [← hb0.ip]; exact hv.covers)
      rw [this, hb0.mode]) hg0
    rw [wp_bind]
    refine wp_mono h1 (fun _ s1 h => ?_) fun _ _ _ => trivial
    obtain ⟨⟨is, its, n1, g, -, a2, a3, -⟩, -⟩ := h
    rw [wp_pure]
    intro _
    have he : s0.event = none := by
      rcases he : s0.event with _ | e
      · rfl
      · have := hb0.live.2 (by rw [he]; simp)
        rw [hst] at this; cases this
    unfold Bdec.trace at a3
    rw [he, hst] at a3
    generalize hy : (s1.ev, s1.event, s1.status) = y at a3
    cases a3 with
    | nothing =>
      have := congrArg (·.2.2) hy
      have her : er = .eos := by simpa using her
      rw [← her]
      exact this

/-! ### Changing the image -/

theorem Base.image {img : Img} (h : Base c s f) (hw : ∀ m ∈ img.secs, m.WF c.env) :
    Base c { s with sc := scSetImage s.sc img } { f with sections := fun m => m ∈ img.secs } :=
  ⟨h.enabled, h.ip, h.mode, h.speculative, h.asid, fun _ => Iff.rfl, hw, h.inv, h.insn, h.calls, h.called, h.here, fun k => by
    have : ({ s with sc := scSetImage s.sc img } : Bdec).boundTo k = s.boundTo k := by cases k <;> rfl
    rw [this]; exact h.bound k, h.free, h.pend, h.live⟩

theorem Pending.image {img : Img} (h : Pending c s f) (hw : ∀ m ∈ img.secs, m.WF c.env) :
    Pending c { s with sc := scSetImage s.sc img } { f with sections := fun m => m ∈ img.secs } := by
  cases h with
  | doomed h => exact .doomed h
  | event e hb hp hi hc => exact .event e (hb.image hw) hp hi hc
  | belongs s1 e k l i hb hs h1 h2 h3 h4 h5 h6 =>
    refine .belongs { s1 with sc := scSetImage s1.sc img } e k l i (hb.image hw) ?_ ?_ h2 h3 h4 h5 h6
    · rw [hs]; cases k <;> rfl
    · cases k <;> exact h1
  | leaving s1 e ip t i hb h1 h2 h3 h4 h5 h6 h7 =>
    refine .leaving { s1 with sc := scSetImage s1.sc img } e ip t i (hb.image hw) h1 h2 h3 h4 h5 h6 ?_
    rcases h7 with rfl | ⟨rfl, h7⟩
    · exact .inl rfl
    · exact .inr ⟨rfl, h7⟩
  | tick e b n hb h1 h2 h3 h4 h5 => exact .tick e b n (hb.image hw) h1 h2 h3 h4 h5

theorem image_done {img : Img} {fl : Flags} (h : Done c d f0 out fl s) (hw : ∀ m ∈ img.secs, m.WF c.env) :
    Done c d f0 (out ++ [.image img.secs]) fl { s with sc := scSetImage s.sc img } := by
  obtain ⟨f, ht, h⟩ := h
  refine ⟨_, ht.quiet (fun _ => .image f img.secs) (leftover_event rfl) fun h => ⟨h, rfl⟩, ?_⟩
  by_cases hp : fl.eventPending = true
  · rw [if_pos hp] at h ⊢
    exact h.image hw
  · rw [if_neg hp] at h ⊢
    exact ⟨h.1.image hw, h.2⟩

/-! ### Synchronizing -/

/-- The decoder after `pt_blk_reset`. -/
theorem reset_base (hl : s.retstack.stack.length = 65) (hw : ∀ m ∈ s.sc.img.secs, m.WF c.env) {ip : Option Nat} {x : Evd}
    {e : Option Event} {y : Option Err} (hy : y = none ↔ e ≠ none) :
    Base c { blkReset s with ev := x, event := e, status := y, enabled := ip.isSome, ip := ip.getD 0 } (Flow.start ip s.sc.img.secs) :=
  ⟨rfl, rfl, rfl, rfl, rfl, fun _ => Iff.rfl, hw, fun m _ => sameSpace_unknown _, rfl,
    fun _ => ⟨hl, by simp [blkReset, RetStack.init], by simp [blkReset, RetStack.init, Flow.start], by simp [Flow.start],
      by simp [Flow.start]⟩,
    (by intro _ h; cases h), (by intro _ h; cases h), (by intro k; constructor <;> intro h <;> [cases h; (cases k <;> cases h)]),
    fun _ => rfl, (by intro _ h; cases h), hy⟩

/-- `pt_blk_start` -/
theorem start_done (henv : c.env.Ok) (hl : s.retstack.stack.length = 65) (hw : ∀ m ∈ s.sc.img.secs, m.WF c.env) :
    wp (blkStart c) (fun fl s' => ∃ ip, startLoop c.evt d.pd.pos evqFuel d = .ok ip ∧
      Done c d (Flow.start ip s.sc.img.secs) [] fl s') (fun _ _ => True) { blkReset s with ev := d } := by
  unfold blkStart
  rw [wp_bind, wp_get, wp_bind]
  rcases hs : startLoop c.evt d.pd.pos evqFuel d with ip | e | _
  swap
  · simp only [hs]; trivial
  swap
  · simp only [hs]; trivial
  simp only [hs]
  rw [show BM.lift (Res.ok ip) = (pure ip : BM _) from rfl, wp_pure, wp_bind, wp_modify, wp_bind, wp_try, wp_evt]
  have fin : ∀ (x : Evd) (e : Option Event) (y : Option Err), (y = none ↔ e ≠ none) →
      (∀ e', e = some e' → evtNext c.evt d = (x, .ok e')) → (∀ er, y = some er → evtNext c.evt d = (x, .err er)) →
      wp (trailingEvent c false c.evt.fuel) (fun fl s' => ∃ ip', Res.ok ip = Res.ok ip' ∧
        Done c d (Flow.start ip' s.sc.img.secs) [] fl s') (fun _ _ => True)
        { blkReset s with ev := x, event := e, status := y, enabled := ip.isSome, ip := ip.getD 0 } := by
    intro x e y hy he hz
    refine wp_mono (trailing_done (d := d) (f0 := Flow.start ip s.sc.img.secs) (out := []) henv _ _ _ (reset_base hl hw hy) ?_
      (fun h => by cases h)) (fun fl s' h => ⟨ip, rfl, h⟩) fun _ _ _ => trivial
    refine ⟨[], fun _ _ => .nil _, ?_⟩
    rcases e with _ | e
    · refine ⟨[], rfl, fun h => absurd rfl h, fun _ => ?_, .rfl _⟩
      rcases y with _ | er
      · exact absurd rfl (hy.1 rfl)
      · refine ⟨er, rfl, ?_⟩
        show (evtNext c.evt d).2 = _
        rw [hz er rfl]
    · have h0 : Delivers c.evt d [] := rfl
      refine ⟨[e], h0.snoc (he e rfl), fun _ => ?_, fun h => (by cases h), ?_⟩
      · show (EvtCall.run c.evt EvtCall.next d).1 = x
        rw [next_run (he e rfl)]
      · simp [leftover, Flow.start, SameItems.rfl]
  have f1 := fun x e hn => fin x (some e) none (by simp) (fun e' h => by cases h; exact hn) fun er h => by cases h
  have f2 := fun x er hn => fin x none (some er) (by simp) (fun e' h => by cases h) fun er' h => by cases h; exact hn
  clear fin
  rcases ip with _ | a <;> unfold wp <;> dsimp only <;> rcases hn : evtNext c.evt d with ⟨x, e | er | _⟩ <;>
    first | trivial | exact f1 x e hn | exact f2 x er hn

/-- `pt_blk_sync_forward`, `pt_blk_sync_set` -/
theorem sync_done (henv : c.env.Ok) {o : SyncCall} {fl : Flags} (ho : o ≠ .backward) (hl : s.retstack.stack.length = 65)
    (hw : ∀ m ∈ s.sc.img.secs, m.WF c.env) (h : o.blk c s = (s', .ok fl)) :
    ∃ d ip, o.evt.run c.evt s.ev = (d, .ok none) ∧ startLoop c.evt d.pd.pos evqFuel d = .ok ip ∧
      Done c d (Flow.start ip s.sc.img.secs) [] fl s' := by
  have key : ∀ (m : EM Unit), (do BM.modify blkReset; BM.evt m; blkStart c) s = (s', .ok fl) →
      ∃ d ip, (m s.ev).1 = d ∧ (m s.ev).2 = .ok () ∧ startLoop c.evt d.pd.pos evqFuel d = .ok ip ∧
      Done c d (Flow.start ip s.sc.img.secs) [] fl s' := by
    intro m hm
    have hm : BM.bind (BM.evt m) (fun _ => blkStart c) (blkReset s) = (s', .ok fl) := hm
    unfold BM.bind BM.evt at hm
    dsimp only at hm
    have he : (blkReset s).ev = s.ev := rfl
    rw [he] at hm
    rcases hr : m s.ev with ⟨d, _ | _ | _⟩ <;> rw [hr] at hm <;> dsimp only at hm
    · have := start_done (d := d) henv hl hw
      unfold wp at this
      rw [hm] at this
      obtain ⟨ip, h1, h2⟩ := this
      exact ⟨d, ip, rfl, rfl, h1, h2⟩
    · cases hm
    · cases hm
  cases o with
  | forward =>
    obtain ⟨d, ip, h1, h2, h3⟩ := key _ h
    refine ⟨d, ip, ?_, h3⟩
    simp only [SyncCall.evt, EvtCall.run]
    rw [h1, h2]; rfl
  | backward => exact absurd rfl ho
  | set off =>
    obtain ⟨d, ip, h1, h2, h3⟩ := key _ h
    refine ⟨d, ip, ?_, h3⟩
    simp only [SyncCall.evt, EvtCall.run]
    rw [h1, h2]; rfl

/-! ### Sessions -/

theorem follows_done (henv : c.env.Ok) (hcb : CbNoBq c)
    (hend : c.evt.pkt.errata.skl014 = true → c.filter.cfg ≠ 0 → c.endOnCall = false ∧ c.endOnJump = false)
    {out' : List BlkSeen} {fl fl' : Flags} (hf : BlkFollows c M s fl out' s' fl') :
    ∀ {out : List BlkSeen}, Good c.env (fun sec md => md = M sec) s → Done c d f0 out fl s → Done c d f0 (out ++ out') fl' s' := by
  induction hf with
  | done s fl => intro out _ h; rw [List.append_nil]; exact h
  | @next s fl s1 fl1 o s2 fl2 h1 h2 h3 h4 _ ih =>
    intro out hg hd
    obtain ⟨f, ht, hd⟩ := hd
    rw [if_neg (by rw [h1]; simp)] at hd
    have a := next_done henv hcb hend hg h2 h3 hd.1 hd.2.1 ht hd.2.2
    have b := next_good henv hg h2 hd.1 hd.2.1
    unfold wp at a b
    rw [h4] at a b
    have := ih b a
    rwa [List.append_assoc] at this
  | @event s fl s1 o out1 s2 fl2 h1 h2 _ ih =>
    intro out hg hd
    obtain ⟨f, ht, hd⟩ := hd
    rw [if_pos h1] at hd
    have a := event_done henv ht hd
    have b := holds_blkEvent (c := c) (K := Good c.env (fun sec md => md = M sec)) s hg
    unfold wp at a b
    rw [h2] at a b
    have := ih b a
    rwa [List.append_assoc] at this
  | @image s fl img out1 s2 fl2 hw _ ih =>
    intro out hg hd
    have := ih (out := out ++ [.image img.secs]) hg (image_done hd hw)
    rwa [List.append_assoc] at this

theorem follows_tells (henv : c.env.Ok) (hcb : CbNoBq c)
    (hend : c.evt.pkt.errata.skl014 = true → c.filter.cfg ≠ 0 → c.endOnCall = false ∧ c.endOnJump = false)
    {out' : List BlkSeen} {fl fl' : Flags} (hf : BlkFollows c M s fl out' s' fl') :
    ∀ {out : List BlkSeen}, Good c.env (fun sec md => md = M sec) s → Done c d f0 out fl s →
      (fl.eos = true → s.status = some .eos) → fl'.eos = true → s'.status = some .eos := by
  induction hf with
  | done s fl => intro out _ _ h; exact h
  | @next s fl s1 fl1 o s2 fl2 h1 h2 h3 h4 _ ih =>
    intro out hg hd _
    obtain ⟨f, ht, hd⟩ := hd
    rw [if_neg (by rw [h1]; simp)] at hd
    have a := next_done henv hcb hend hg h2 h3 hd.1 hd.2.1 ht hd.2.2
    have b := next_good henv hg h2 hd.1 hd.2.1
    have e := next_tells henv hg h2 hd.1 hd.2.1
    unfold wp at a b e
    rw [h4] at a b e
    exact ih b a e
  | @event s fl s1 o out1 s2 fl2 h1 h2 _ ih =>
    intro out hg hd _
    obtain ⟨f, ht, hd⟩ := hd
    rw [if_pos h1] at hd
    have a := event_done henv ht hd
    have b := holds_blkEvent (c := c) (K := Good c.env (fun sec md => md = M sec)) s hg
    unfold wp at a b
    rw [h2] at a b
    exact ih b a (event_tells _ _ _ h2)
  | @image s fl img out1 s2 fl2 hw _ ih =>
    intro out hg hd he
    exact ih (out := out ++ [.image img.secs]) hg (image_done hd hw) he

theorem sync_tell {o : SyncCall} {fl : Flags} (ho : o ≠ .backward) (h : o.blk c s = (s', .ok fl)) :
    fl.eos = true → s'.status = some .eos := by
  cases o with
  | forward => exact sync_tells.1 _ _ _ h
  | backward => exact absurd rfl ho
  | set off => exact sync_tells.2 off _ _ _ h

theorem sync_good {o : SyncCall} {fl : Flags} (hg : Good c.env (fun sec md => md = M sec) s) (h : o.blk c s = (s', .ok fl)) :
    Good c.env (fun sec md => md = M sec) s' := by
  cases o with
  | forward =>
    have b := holds_blkSyncForward (c := c) (K := Good c.env (fun sec md => md = M sec)) s hg
    unfold wp at b; unfold SyncCall.blk at h; dsimp only at h; rw [h] at b; exact b
  | backward =>
    have b := holds_blkSyncBackward (c := c) (K := Good c.env (fun sec md => md = M sec)) s hg
    unfold wp at b; unfold SyncCall.blk at h; dsimp only at h; rw [h] at b; exact b
  | set off =>
    have b := holds_blkSyncSet (c := c) (o := off) (K := Good c.env (fun sec md => md = M sec)) s hg
    unfold wp at b; unfold SyncCall.blk at h; dsimp only at h; rw [h] at b; exact b

end Ipt
