import Verif.BlockExec

/-!
# Helper lemmas: proceeding over several instructions
-/

set_option linter.unusedSimpArgs false

namespace Ipt

open Ild Spec Props BM

variable {c : BlkCfg} {f0 f : Flow} {n0 : Int} {is : List Insn} {its : List Item} {s s' : Bdec} {i : Insn}

theorem wp_insn {Q : Insn → Bdec → Prop} {E : Err → Bdec → Prop} (h : ∀ i, s.out = some i → Q i s) :
    wp BM.insn Q E s := by
  unfold BM.insn
  rw [wp_bind, wp_get]
  rcases ho : s.out with _ | i
  · trivial
  · exact h i ho

/-- Reaching an instruction that needs trace, or failing for some other reason. -/
def Stuck (c : BlkCfg) (f0 : Flow) (n0 : Int) (is : List Insn) (its : List Item) (s s' : Bdec) : Prop :=
  (∃ is' f' i, s'.out = some i ∧ is <+: is' ∧ Mid c f0 n0 is' its s' f' i ∧ NeedsTrace i) ∨ s'.out = s.out ∨
    ∃ i t, s'.out = some i ∧ nextIp i = .ok t

/-- `pt_blk_proceed_to_insn` -/
theorem toInsnLoop_flow (henv : c.env.Ok) (p : Iext → Bool) : ∀ (n : Nat) (is : List Insn) (s : Bdec) (f : Flow),
    Sofar c f0 n0 is its s f →
    wp (toInsnLoop c p n)
      (fun b s' => s'.still = s.still ∧ SameCache s s' ∧ ∃ is' f', is <+: is' ∧ is' ≠ [] ∧
        if b = true then ∃ is'' i, is' = is'' ++ [i] ∧ s'.out = some i ∧ p i.ext = true ∧ Mid c f0 n0 is'' its s' f' i
        else Sofar c f0 n0 is' its s' f')
      (fun e s' => s'.still = s.still ∧ SameCache s s' ∧ (e = .badQuery → Stuck c f0 n0 is its s s')) s
  | 0, is, s, f, h => trivial
  | n + 1, is, s, f, h => by
    unfold toInsnLoop
    rw [wp_bind]
    refine wp_mono (oneInsn_flow henv h) (fun b s1 hb => ?_) fun e s1 he => ⟨he.2.1, he.1, fun h1 => .inr (.inl (he.2.2 h1))⟩
    obtain ⟨h1, h2, h3, h4⟩ := hb
    rcases b with _ | _
    · rw [if_neg (by decide), wp_pure]
      rw [if_neg (by decide)] at h4
      refine ⟨h1, ⟨h2, h3⟩, is, f, List.prefix_rfl, h4.2.1, ?_⟩
      rw [if_neg (by decide)]
      exact h4.1
    · rw [if_pos rfl] at h4
      obtain ⟨i, h5, h6, h7⟩ := h4
      rw [if_pos rfl, wp_bind]
      refine wp_insn fun j hj => ?_
      have : j = i := by rw [h5] at hj; cases hj; rfl
      subst this
      rw [wp_ite]
      refine ⟨fun hp => ?_, fun hp => ?_⟩
      · rw [wp_pure]
        refine ⟨h1, ⟨h2, h3⟩, is ++ [j], f, List.prefix_append _ _, by simp, ?_⟩
        rw [if_pos rfl]
        exact ⟨is, j, rfl, h5, hp, h6⟩
      · rw [wp_bind]
        refine wp_mono (nextInsn_flow h6) (fun _ s2 hs => ?_) fun e s2 he => ?_
        · obtain ⟨t, calls, hx, rfl, hso, hn⟩ := hs
          rw [wp_ite]
          refine ⟨fun hc => ?_, fun hc => ?_⟩
          · rw [wp_pure]
            exact ⟨h1, ⟨h2, h3⟩, is ++ [j], _, List.prefix_append _ _, by simp, hso⟩
          · refine wp_mono (toInsnLoop_flow henv p n _ _ _ hso) (fun b s3 hs => ?_) fun e s3 he => ?_
            · obtain ⟨a1, ⟨a2, a3⟩, is', f', a4, a5, a6⟩ := hs
              exact ⟨a1.trans h1, ⟨a2.trans h2, a3.trans h3⟩, is', f', (List.prefix_append _ _).trans a4, a5, a6⟩
            · obtain ⟨a1, ⟨a2, a3⟩, a4⟩ := he
              refine ⟨a1.trans h1, ⟨a2.trans h2, a3.trans h3⟩, fun hb => ?_⟩
              rcases a4 hb with ⟨is', f', i, b1, b2, b3, b4⟩ | b1 | b1
              · exact .inl ⟨is', f', i, b1, (List.prefix_append _ _).trans b2, b3, b4⟩
              · exact .inr (.inr ⟨j, t, by rw [b1]; exact h5, hn⟩)
              · exact .inr (.inr b1)
        · obtain ⟨rfl, he⟩ := he
          exact ⟨h1, ⟨h2, h3⟩, fun hb => .inl ⟨is, f, j, h5, List.prefix_rfl, h6, he hb⟩⟩

theorem calm_of_still (h : s'.still = s.still) : s'.calm = s.calm := by
  unfold Bdec.calm
  rw [h]

theorem trace_of_still (h : s'.still = s.still) : s'.trace = s.trace := by
  have := still_inv h
  unfold Bdec.trace
  rw [this.2.2.2.1, this.2.2.2.2.1, this.2.2.2.2.2.2.2.2]

/-- Proceeding with trace does not work for instructions that do not need it. -/
theorem withTrace_fails {t : Nat} (h : nextIp i = .ok t) : ∃ e, proceedWithTrace c i s = (s, .err e) := by
  unfold nextIp at h
  unfold proceedWithTrace
  rcases hcl : i.ext.cls <;> simp only [hcl] at h ⊢ <;> (try (cases h; done)) <;> (try exact ⟨_, rfl⟩)
  · split at h
    · rename_i hd
      rw [if_pos hd]; exact ⟨_, rfl⟩
    · cases h
  · split at h
    · cases h
    rename_i hj
    rw [if_neg hj]
    split at h
    · rename_i hd
      rw [if_pos hd]; exact ⟨_, rfl⟩
    · cases h

/-- Only the last instruction was executed with trace. -/
def Lasts (c : BlkCfg) (isid : Nat) (f0 : Flow) (is : List Insn) (its its' : List Item) (g : Flow) : Prop :=
  its' = [] ∨ ∃ js i g' t calls, is = js ++ [i] ∧ f0.Walk (Flow.Known c.toInsnCfg isid) js its g' ∧
    g'.Known c.toInsnCfg isid i ∧ Exec i g'.calls its' t calls ∧ g = { g' with ip := t, calls := calls }

/-- Instructions were executed, some of them with trace. -/
def Ran (c : BlkCfg) (f0 : Flow) (is : List Insn) (its : List Item) (s s' : Bdec) : Prop :=
  ∃ is' its' n1 g, is <+: is' ∧ is' ≠ [] ∧ Takes c s.trace its' s'.trace ∧ Sofar c f0 n1 is' (its ++ its') s' g ∧
    s'.calm = s.calm ∧ Lasts c s'.blk.isid f0 is' its its' g

theorem Told.ran {is0 : List Insn} {s0 : Bdec} (h : Told c f0 is its s f i s') (hp : is0 <+: is) (h1 : s.trace = s0.trace)
    (h2 : s.calm = s0.calm) : Ran c f0 is0 its s0 s' := by
  obtain ⟨it, n1, t, calls, a1, a2, b, d, e, -⟩ := h
  exact ⟨is ++ [i], [it], n1, _, hp.trans (List.prefix_append _ _), by simp, h1 ▸ b, d, e.trans h2,
    .inr ⟨is, i, f, t, calls, rfl, a1.1, a1.2, a2, rfl⟩⟩

/-- `pt_blk_proceed_no_event_uncached` -/
theorem uncached_flow (henv : c.env.Ok) (h : Sofar c f0 n0 is its s f) :
    wp (noEventUncached c) (fun _ s' => Ran c f0 is its s s' ∧ SameCache s s') (fun _ s' => SameCache s s') s := by
  unfold noEventUncached
  rw [wp_bind, wp_modify, wp_orQuery, wp_bind]
  have h0 : Sofar c f0 n0 is its
      { s with out := some { ip := 0, mode := .unknown, ext := { cls := .unknown } } } f :=
    ⟨h.walk, ⟨h.stands.ip, h.stands.mode, h.stands.asid, h.stands.sections, h.stands.calls⟩, h.count, h.lt, h.icnt, h.ends,
      h.trunc, h.wf, h.inv, h.mode⟩
  refine wp_mono (toInsnLoop_flow henv _ _ _ _ _ h0) (fun b s1 hb => ?_) fun e s1 he => ?_
  · obtain ⟨h1, h2, is', f', h3, h4, h5⟩ := hb
    rcases b with _ | _
    · rw [if_neg (by decide)] at h5
      refine ⟨⟨is', [], n0, f', h3, h4, ?_, by rw [List.append_nil]; exact h5, calm_of_still h1, .inl rfl⟩, h2⟩
      rw [trace_of_still h1]
      exact .nothing _
    · rw [if_pos rfl] at h5
      obtain ⟨_, _, _, _, h6, _⟩ := h5
      cases h6
  · obtain ⟨h1, h2, h3⟩ := he
    refine ⟨fun hb => ?_, fun _ => h2⟩
    unfold proceedOut
    rw [wp_bind, wp_get]
    rcases h3 hb with ⟨is', f', i, a1, a2, a3, a4⟩ | a1 | ⟨i, t, a1, a2⟩
    · rw [a1]
      dsimp only
      refine wp_mono (withTrace_flow a3) (fun _ s2 hs => ?_) fun _ s2 hs => ⟨hs.1.trans h2.1, hs.2.trans h2.2⟩
      refine ⟨hs.ran a2 (trace_of_still h1) (calm_of_still h1), ?_⟩
      obtain ⟨_, _, _, _, _, _, _, _, _, b1, b2⟩ := hs
      exact ⟨b1.trans h2.1, b2.trans h2.2⟩
    · rw [a1]
      exact h2
    · rw [a1]
      dsimp only
      obtain ⟨e, he⟩ := withTrace_fails (c := c) (s := s1) a2
      unfold wp
      rw [he]
      exact h2

end Ipt
