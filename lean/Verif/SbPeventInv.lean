import Verif.SbPevent
import Verif.SbContextInv
import Verif.SidebandSafe

/-! # Lemmas: the contexts of perf event sideband decoders -/

namespace Ipt

variable {ι κ : Type} (env : SbEnv ι κ)

/-- The references of a decoder. -/
def PevPriv.refs (p : PevPriv) : List Nat := p.nextContext.toList ++ p.context.toList

/-- The references of several decoders. -/
def refsOf (l : List PevPriv) : List Nat := l.flatMap PevPriv.refs

/-- There is one context for each process. -/
structure SbWorld.Uniq (w : SbWorld ι κ) : Prop where
  of : ∀ i ∈ w.contexts, ∀ j ∈ w.contexts, (w.seen i).map (·.1) = (w.seen j).map (·.1) → i = j

/-- The contexts of a session whose decoders have the given private data. -/
structure Sound (w : SbWorld ι κ) (l : List PevPriv) : Prop where
  own : Own w (refsOf l)
  uniq : w.Uniq
  image : ∀ i, w.image = some i → ∃ p ∈ l, p.context = some i

theorem Sound.perm {w : SbWorld ι κ} {l l' : List PevPriv} (h : Sound w l) (hp : l'.Perm l) : Sound w l' :=
  ⟨h.own.perm (hp.flatMap_right _), h.uniq, fun i hi => by
    obtain ⟨p, hm, hc⟩ := h.image i hi
    exact ⟨p, hp.mem_iff.2 hm, hc⟩⟩

theorem SbSame.eq_seen {w w' : SbWorld ι κ} {rs : List Nat} (h : SbSame w w') (ho : Own w' rs) {i : Nat} (hi : i ∈ w'.refs rs) :
    w'.seen i = w.seen i := by
  obtain ⟨c, hc⟩ := ho.live hi
  have hs : w'.seen i = some (c.pid, c.image, c.abi) := by simp [SbWorld.seen, hc]
  rw [hs, h.seen i _ hs]

theorem SbWorld.Uniq.same {w w' : SbWorld ι κ} {rs : List Nat} (hu : w.Uniq) (h : SbSame w w') (ho : Own w' rs) : w'.Uniq := by
  refine ⟨fun i hi j hj he => ?_⟩
  rw [h.eq_seen ho (by simp [SbWorld.refs, hi]), h.eq_seen ho (by simp [SbWorld.refs, hj])] at he
  rw [h.contexts] at hi hj
  exact hu.of i hi j hj he

theorem SbWorld.Uniq.drop {w : SbWorld ι κ} (hu : w.Uniq) (i : Nat) : (w.drop i).Uniq := ⟨fun j hj k hk he =>
  hu.of j (List.mem_of_mem_erase hj) k (List.mem_of_mem_erase hk) he⟩

theorem find_none {w : SbWorld ι κ} {pid : Nat} (h : w.find pid = none) : ∀ i ∈ w.contexts, (w.seen i).map (·.1) ≠ some pid := by
  intro i hi
  have := List.find?_eq_none.1 h i hi
  simpa using this

theorem SbWorld.seen_add {w : SbWorld ι κ} {pid : Nat} {image : ι} (j : Nat) :
    (w.add pid image).seen j = if j = w.heap.length then some (pid, image, .unknown) else w.seen j := by
  unfold SbWorld.seen
  rw [SbWorld.at_add]
  split <;> rfl

theorem SbWorld.Uniq.add {w : SbWorld ι κ} {rs : List Nat} (hu : w.Uniq) (h : Own w rs) {pid : Nat} {image : ι} (hf : w.find pid = none) :
    (w.add pid image).Uniq := by
  have hfr : ∀ i ∈ w.contexts, i ≠ w.heap.length := fun i hi e => h.fresh (by simp [SbWorld.refs, ← e, hi])
  have hn := find_none hf
  refine ⟨fun i hi j hj he => ?_⟩
  simp only [SbWorld.add, List.mem_cons] at hi hj
  rw [SbWorld.seen_add, SbWorld.seen_add] at he
  rcases hi with rfl | hi <;> rcases hj with rfl | hj
  · rfl
  · rw [if_pos rfl, if_neg (hfr j hj)] at he
    exact absurd he.symm (hn j hj)
  · rw [if_pos rfl, if_neg (hfr i hi)] at he
    exact absurd he (hn i hi)
  · rw [if_neg (hfr i hi), if_neg (hfr j hj)] at he
    exact hu.of i hi j hj he

theorem Got.uniq {w w' : SbWorld ι κ} {rs : List Nat} {pid i : Nat} (hg : Got env w pid i w') (h : Own w rs) (hu : w.Uniq) :
    w'.Uniq := by
  cases hg with
  | old => exact hu
  | new hf => exact hu.add h hf

theorem Got.image {w w' : SbWorld ι κ} {pid i : Nat} (hg : Got env w pid i w') : w'.image = w.image ∧ w'.kernel = w.kernel := by
  cases hg <;> exact ⟨rfl, rfl⟩

/-- Changing a context's image or ABI. -/
theorem SbWorld.Uniq.store {w : SbWorld ι κ} {i : Nat} {c d : SbCtx ι} (hu : w.Uniq) (hc : w.at i = some c) (hd : d.pid = c.pid) :
    (w.put i (some d)).Uniq := by
  have he : ∀ j, ((w.put i (some d)).seen j).map (·.1) = (w.seen j).map (·.1) := by
    intro j
    unfold SbWorld.seen
    rw [SbWorld.at_put hc]
    by_cases hj : j = i
    · subst hj; simp [hc, hd]
    · simp [hj]
  refine ⟨fun j hj k hk h => ?_⟩
  rw [he, he] at h
  exact hu.of j hj k hk h

theorem Sound.store {w : SbWorld ι κ} {l : List PevPriv} {i : Nat} {c d : SbCtx ι} (h : Sound w l) (hc : w.at i = some c)
    (hp : d.pid = c.pid) (hn : d.ucount = c.ucount) : Sound (w.put i (some d)) l :=
  ⟨h.own.store hc hn, h.uniq.store hc hp, h.image⟩

theorem Sound.ext {w : SbWorld ι κ} {l : List PevPriv} (h : Sound w l) (x : κ) : Sound { w with ext := x } l :=
  ⟨h.own.congr rfl h.own.nodup fun _ => rfl, ⟨h.uniq.of⟩, h.image⟩

theorem Sound.same {w w' : SbWorld ι κ} {l : List PevPriv} (h : Sound w l) (hs : SbSame w w') (ho : Own w' (refsOf l)) : Sound w' l :=
  ⟨ho, h.uniq.same hs ho, by rw [hs.image]; exact h.image⟩

theorem Sound.waste {w : SbWorld ι κ} {l : List PevPriv} (h : Sound w l) : Sound w.waste l :=
  h.same ⟨rfl, rfl, rfl, fun j x hx => by rwa [SbWorld.seen, SbWorld.at_waste] at hx⟩ h.own.waste

theorem Sound.got {w w' : SbWorld ι κ} {l : List PevPriv} {pid i : Nat} (h : Sound w l) (hg : Got env w pid i w') : Sound w' l :=
  ⟨hg.own env h.own, hg.uniq env h.own h.uniq, by rw [(hg.image env).1]; exact h.image⟩

theorem onWorld_does {α : Type} {m : SbM (SbWorld ι κ) α} {s : SbBoth ι κ} {Q : α → SbBoth ι κ → Prop} {E : Err → SbBoth ι κ → Prop} :
    (onWorld m).Does s Q E ↔ m.Does s.world (fun a w => Q a { s with world := w }) (fun e w => E e { s with world := w }) := by
  show SbM.Ends (onWorld m s) Q E ↔ SbM.Ends (m s.world) _ _
  unfold onWorld
  rcases m s.world with ⟨w, _ | _ | _⟩ <;> exact Iff.rfl

/-- Only the contexts and the location have changed. -/
def Moves (p p' : PevPriv) : Prop := p' = { p with context := p'.context, nextContext := p'.nextContext, location := p'.location }

theorem Moves.refl (p : PevPriv) : Moves p p := rfl

theorem Moves.trans {p p' p'' : PevPriv} (h : Moves p p') (h' : Moves p' p'') : Moves p p'' := by
  unfold Moves at *
  rw [h'] 
  rw [h]

/-- The state is sound, with the private data of other decoders. -/
def SbBoth.Good (l : List PevPriv) (s : SbBoth ι κ) : Prop := Sound s.world (s.priv :: l)

/-- What errors leave. -/
def Left (l : List PevPriv) (s : SbBoth ι κ) (_ : Err) (s' : SbBoth ι κ) : Prop :=
  s'.Good l ∧ Moves s.priv s'.priv ∧ s'.priv.context = s.priv.context ∧ s'.world.image = s.world.image

theorem pevRefs_cons (p : PevPriv) (l : List PevPriv) : refsOf (p :: l) = p.refs ++ refsOf l := rfl

variable {l : List PevPriv} {s : SbBoth ι κ}

theorem mem_refs_next {p : PevPriv} {i : Nat} (h : p.nextContext = some i) (w : SbWorld ι κ) : i ∈ w.refs (refsOf (p :: l)) := by
  simp [SbWorld.refs, refsOf, PevPriv.refs, h]

theorem pevError_does {note : SbNote} :
    (pevError env note).Does s (fun _ s' => s' = { s with world := { s.world with ext := (env.onError s.world.ext note (s.priv.current.getD s.priv.next)).1 } })
      (fun _ s' => s' = { s with world := { s.world with ext := (env.onError s.world.ext note (s.priv.current.getD s.priv.next)).1 } }) := by
  unfold pevError
  rw [SbM.does_bind, SbM.does_get, onWorld_does, SbM.does_of_eq (sbError_eq ..)]
  rcases (env.onError s.world.ext note (s.priv.current.getD s.priv.next)).2 <;> exact rfl

/-- Switching contexts: the pending context becomes the current one, and the image pointer is set. -/
theorem switchContexts_does (h : s.Good l) {image : Bool} :
    (pevSwitchContexts env image).Does s
      (fun _ s' => s'.Good l ∧ ∃ n, s.priv.nextContext = some n ∧ s'.priv = { s.priv with nextContext := none, context := some n } ∧
        ∃ v, SbSame s.world v ∧ SbSame { v with image := some n } s'.world)
      (fun _ s' => s'.Good l ∧ s'.priv = s.priv ∧ SbSame s.world s'.world) := by
  unfold pevSwitchContexts
  by_cases hi : image = false
  · rw [if_pos hi]
    exact ⟨h, rfl, .rfl⟩
  rw [if_neg hi, SbM.does_bind, SbM.does_get]
  rcases hn : s.priv.nextContext with _ | n
  · exact ⟨h, rfl, .rfl⟩
  dsimp only
  rw [SbM.does_bind, onWorld_does]
  refine (switchTo_does env h.own (mem_refs_next hn _)).mono (fun _ w' ⟨ho, him, v, hs, hv⟩ => ?_) fun e w' ⟨ho, hs, _⟩ =>
    ⟨h.same hs ho, rfl, hs⟩
  have hu : v.Uniq := h.uniq.same (rs := refsOf (s.priv :: l)) hs (by subst hv; exact ho.congr (w' := v) rfl ho.nodup fun _ => rfl)
  rw [SbM.does_bind, SbM.does_modify]
  rcases hc : s.priv.context with _ | i
  · refine ⟨⟨ho.congr rfl ho.nodup fun j => ?_, by subst hv; exact ⟨hu.of⟩, fun i hi => ⟨_, List.mem_cons_self, ?_⟩⟩, n, rfl, rfl, v, hs, ?_⟩
    · simp [SbWorld.refs, refsOf, PevPriv.refs, hn, hc]
    · rw [← hi]; exact him.symm
    · rw [← hv]; exact .rfl
  · dsimp only
    rw [onWorld_does]
    have ho' : Own w' (i :: refsOf ({ s.priv with nextContext := none, context := some n } :: l)) :=
      ho.congr rfl ho.nodup fun j => by simp [SbWorld.refs, refsOf, PevPriv.refs, hn, hc, List.count_cons]; omega
    refine (put_does ho').mono (fun _ w'' ⟨o2, s2, _⟩ => ?_) fun _ _ h => h.elim
    have hvw : w'.Uniq := by subst hv; exact ⟨hu.of⟩
    refine ⟨⟨o2, hvw.same s2 o2, fun j hj => ⟨_, List.mem_cons_self, ?_⟩⟩, n, rfl, rfl, v, hs, ?_⟩
    · have hj : w''.image = some j := hj
      rw [s2.image, him] at hj
      exact hj
    · rw [← hv]; exact s2

theorem cancelSwitch_does (h : s.Good l) :
    pevCancelSwitch.Does s
      (fun _ s' => s'.Good l ∧ s'.priv = { s.priv with nextContext := none } ∧ SbSame s.world s'.world) (fun _ _ => False) := by
  unfold pevCancelSwitch
  rw [SbM.does_bind, SbM.does_get]
  rcases hn : s.priv.nextContext with _ | n
  · exact ⟨h, by rw [← hn], .rfl⟩
  dsimp only
  rw [SbM.does_bind, SbM.does_modify, onWorld_does]
  have ho' : Own s.world (n :: refsOf ({ s.priv with nextContext := none } :: l)) :=
    h.own.congr rfl h.own.nodup fun j => by simp [SbWorld.refs, refsOf, PevPriv.refs, hn, List.count_cons]
  refine (put_does ho').mono (fun _ w'' ⟨o2, s2, _⟩ => ?_) fun _ _ h => h.elim
  refine ⟨⟨o2, h.uniq.same s2 o2, fun j hj => ?_⟩, rfl, s2⟩
  have hj : w''.image = some j := hj
  rw [s2.image] at hj
  obtain ⟨p, hp, hc⟩ := h.image j hj
  rcases List.mem_cons.1 hp with rfl | hp
  · exact ⟨_, List.mem_cons_self, hc⟩
  · exact ⟨p, by simp [hp], hc⟩

/-- The context that a switch would be to. -/
def nextFor (p : PevPriv) (i : Nat) : Option Nat :=
  if p.nextContext = some i then some i else if p.context = some i then none else some i

theorem prepareSwitch_does {i : Nat} (h : s.Good l) (hi : i ∈ s.world.contexts) :
    (pevPrepareSwitch i).Does s
      (fun _ s' => s'.Good l ∧ s'.priv = { s.priv with nextContext := nextFor s.priv i } ∧ SbSame s.world s'.world)
      (fun _ s' => s'.Good l ∧ s'.priv = { s.priv with nextContext := none } ∧ SbSame s.world s'.world) := by
  unfold pevPrepareSwitch nextFor
  rw [SbM.does_bind, SbM.does_get]
  by_cases hn : s.priv.nextContext = some i
  · rw [if_pos hn, if_pos hn]
    exact ⟨h, by rw [← hn], .rfl⟩
  rw [if_neg hn, if_neg hn, SbM.does_bind]
  refine (cancelSwitch_does h).mono (fun _ s1 ⟨g1, p1, m1⟩ => ?_) fun _ _ h => h.elim
  by_cases hc : s.priv.context = some i
  · rw [if_pos hc, if_pos hc]
    exact ⟨g1, p1, m1⟩
  rw [if_neg hc, if_neg hc, SbM.does_bind, onWorld_does]
  refine (get_does g1.own (i := i) (by simp [SbWorld.refs, m1.contexts, hi])).mono (fun _ w2 ⟨o2, s2, _⟩ => ?_) fun e w2 he => ?_
  · rw [SbM.does_modify]
    have o3 : Own w2 (refsOf ({ s1.priv with nextContext := some i } :: l)) := o2.congr rfl o2.nodup fun j => by
      simp [SbWorld.refs, refsOf, PevPriv.refs, p1, List.count_cons]
    refine ⟨⟨o3, g1.uniq.same s2 o3, fun j hj => ?_⟩, by rw [p1], m1.trans s2⟩
    have hj : w2.image = some j := hj
    rw [s2.image] at hj
    obtain ⟨p, hp, hc⟩ := g1.image j hj
    rcases List.mem_cons.1 hp with rfl | hp
    · exact ⟨_, List.mem_cons_self, hc⟩
    · exact ⟨p, by simp [hp], hc⟩
  · subst he
    exact ⟨g1, p1, m1⟩

theorem getContext_good {pid : Nat} (h : s.Good l) :
    (onWorld (sbGetContext env pid)).Does s
      (fun i s' => Got env s.world pid i s'.world ∧ s'.Good l ∧ s'.priv = s.priv)
      (fun _ s' => s'.Good l ∧ s'.priv = s.priv ∧ s'.world.image = s.world.image) := by
  rw [onWorld_does]
  exact (getContext_does env h.own pid).mono (fun i w' hg => ⟨hg, h.got env hg, rfl⟩)
    fun e w' ⟨_, _, he⟩ => by subst he; exact ⟨h.waste, rfl, rfl⟩

/-- A switch is pending, or not needed. -/
theorem prepareSwitchToPid_does {pid : Nat} (h : s.Good l) :
    (pevPrepareSwitchToPid env pid).Does s
      (fun _ s' => s'.Good l ∧ ∃ i w, Got env s.world pid i w ∧ SbSame w s'.world ∧
        s'.priv = { s.priv with nextContext := nextFor s.priv i })
      (Left l s) := by
  unfold pevPrepareSwitchToPid
  rw [SbM.does_bind]
  refine (getContext_good env h).mono (fun i s1 ⟨g1, g2, p1⟩ => ?_) fun _ _ ⟨a, b, c⟩ => ⟨a, by rw [b]; exact .refl _, by rw [b], c⟩
  refine (prepareSwitch_does g2 (g1.mem env)).mono (fun _ s2 ⟨a, b, c⟩ => ?_) fun _ s2 ⟨a, b, c⟩ => ?_
  · exact ⟨a, i, s1.world, g1, c, by rw [b, p1]⟩
  · refine ⟨a, by rw [b, p1]; rfl, by rw [b, p1], ?_⟩
    rw [c.image, (g1.image env).1]

theorem removeContextForPid_does {pid : Nat} {w : SbWorld ι κ} {q : List PevPriv} (h : Sound w q) :
    (pevRemoveContextForPid pid).Does w
      (fun _ w' => Sound w' q ∧ w'.ext = w.ext ∧ match w.find pid with
        | none => w' = w
        | some i => SbSame (w.drop i) w') (fun _ _ => False) := by
  unfold pevRemoveContextForPid
  rw [SbM.does_bind, SbM.does_ok (sbFindContext_eq h.own pid)]
  rcases hf : w.find pid with _ | i
  · exact ⟨h, rfl, rfl⟩
  · refine (removeContext_does h.own (find_mem hf).1).mono (fun _ w' ⟨a, b, c, d⟩ => ?_) fun _ _ h => h
    exact ⟨⟨a, (h.uniq.drop i).same b a, by rw [b.image]; exact h.image⟩, d, b⟩

end Ipt
