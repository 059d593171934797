import Verif.CompleteBase

/-!
# Helper lemmas: events are processed
-/

set_option linter.unusedSimpArgs false

namespace Ipt

open Ild Spec Props

variable {c : InsnCfg} {s s' : Idec} {f : Flow}

theorem setCr3_fit {sc : ScSt} (h : ScAlike sc sc) (v : Nat) : (setCr3 sc (.ok ()) v).2 = .ok () := by
  unfold setCr3
  split
  · obtain ⟨a1, -⟩ := invalidate_fit ⟨h.fits, h.room⟩
    rcases hs : cacheInvalidate sc (.ok ()) with ⟨s', r⟩
    rw [hs] at a1
    dsimp only at a1
    subst a1
    rfl
  · rfl

theorem setVmcs_fit {sc : ScSt} (h : ScAlike sc sc) (v : Nat) : (setVmcs sc (.ok ()) v).2 = .ok () := by
  unfold setVmcs
  split
  · obtain ⟨a1, -⟩ := invalidate_fit ⟨h.fits, h.room⟩
    rcases hs : cacheInvalidate sc (.ok ()) with ⟨s', r⟩
    rw [hs] at a1
    dsimp only at a1
    subst a1
    rfl
  · rfl

/-- What processing an event changes. -/
def OnlyState (s s1 : Idec) : Prop :=
  s1 = { s with enabled := s1.enabled, ip := s1.ip, mode := s1.mode, speculative := s1.speculative, sc := s1.sc,
                maps := s1.maps, hasIcnt := s1.hasIcnt, icnt := s1.icnt }

/-- The location of the event is reached. -/
def ReachedBy (s : Idec) (e : Event) : Prop :=
  ∀ x, location e = some x → s.ip = x ∨
    (s.enabled = false ∧
      match e.data with
      | .asyncDisabled .. | .asyncBranch .. | .asyncPaging .. | .asyncVmcs .. | .tsx .. => False
      | _ => True)

theorem paging_fwd (hfit : Fit c s) (hinv : ScInv s.sc) (v : Nat) :
    ∃ s1, processPaging v s = (s1, .ok ()) ∧ Fit c s1 ∧ OnlyState s s1 := by
  have h1 := setCr3_fit hfit.sc v
  refine ⟨{ s with sc := (setCr3 s.sc (.ok ()) v).1, maps := [] }, ?_, ⟨(setCr3_sim hfit.sc v).2, rfl, ?_⟩, rfl⟩
  · unfold processPaging
    rw [IM.mapped_bind, hfit.maps]
    exact Prod.ext rfl h1
  · exact placed_same hfit.placed (setCr3_ok hinv h1).2.2

theorem vmcs_fwd {e : Event} (hfit : Fit c s) (hinv : ScInv s.sc) (v : Nat) :
    ∃ s1, processVmcs e v s = (s1, .ok ()) ∧ Fit c s1 ∧ OnlyState s s1 := by
  have h1 := setVmcs_fit hfit.sc v
  have hf : Fit c { s with sc := (setVmcs s.sc (.ok ()) v).1, maps := [] } :=
    ⟨(setVmcs_sim hfit.sc v).2, rfl, placed_same hfit.placed (setVmcs_ok hinv h1).2.2⟩
  have e1 : processVmcs e v s = IM.when (!e.ipSuppressed) (IM.modify anchor)
      { s with sc := (setVmcs s.sc (.ok ()) v).1, maps := [] } := by
    unfold processVmcs
    rw [IM.mapped_bind, hfit.maps]
    show IM.bind _ _ _ = _
    unfold IM.bind IM.cache
    dsimp only [List.headD]
    rw [h1]
    rfl
  rw [e1]
  cases e.ipSuppressed
  · exact ⟨_, rfl, ⟨hf.sc, hf.maps, hf.placed⟩, rfl⟩
  · exact ⟨_, rfl, hf, rfl⟩

theorem mustBeAt_fwd {e : Event} {x : Nat} (hl : e.ipSuppressed = false → s.ip = x ∨ s.enabled = false) :
    ∃ s1, mustBeAt e x s = (s1, .ok ()) ∧ s1.sc = s.sc ∧ s1.maps = s.maps ∧ OnlyState s s1 := by
  unfold mustBeAt
  rw [IM.get_bind]
  cases hs : e.ipSuppressed
  · rw [if_pos rfl, if_neg]
    · exact ⟨_, rfl, rfl, rfl, rfl⟩
    · rintro ⟨a, b⟩
      rcases hl hs with h | h
      · exact b h
      · rw [a] at h; cases h
  · exact ⟨_, rfl, rfl, rfl, rfl⟩

theorem process_fwd {e : Event} (hfit : Fit c s) (hinv : ScInv s.sc) (ht : Tame c e) (ha : f.Allows e)
    (hen : f.enabled = s.enabled) (hmode : f.mode = s.mode) (hloc : ReachedBy s e)
    (hz : countdown e = 0) :
    ∃ s1, processEvent e s = (s1, .ok ()) ∧ Fit c s1 ∧ OnlyState s s1 := by
  have fin : (∃ s1, processEvent e s = (s1, .ok ()) ∧ s1.sc = s.sc ∧ s1.maps = s.maps ∧ OnlyState s s1) →
      ∃ s1, processEvent e s = (s1, .ok ()) ∧ Fit c s1 ∧ OnlyState s s1 := by
    rintro ⟨s1, h1, h2, h3, h4⟩
    exact ⟨s1, h1, ⟨h2 ▸ hfit.sc, h3.trans hfit.maps, h2 ▸ hfit.placed⟩, h4⟩
  unfold processEvent at fin ⊢
  rw [IM.get_bind] at fin ⊢
  unfold Flow.Allows at ha
  unfold ReachedBy location at hloc
  unfold countdown at hz
  have dis : (if e.statusUpdate = true then f.enabled = false else f.enabled = true) →
      ∃ s1, processDisabled e s = (s1, .ok ()) ∧ s1.sc = s.sc ∧ s1.maps = s.maps ∧ OnlyState s s1 := by
    intro ha
    unfold processDisabled
    rw [IM.get_bind]
    cases hst : e.statusUpdate <;> simp only [hst, if_true, if_false, Bool.false_eq_true, hen] at ha
    · rw [if_neg (by simp), if_neg (by simp [ha])]
      exact ⟨_, rfl, rfl, rfl, rfl⟩
    · rw [if_pos rfl, if_neg (by simp [ha])]
      exact ⟨_, rfl, rfl, rfl, rfl⟩
  rcases hd : e.data <;> simp only [hd] at fin ha hloc hz ⊢
  case tip ip => exact absurd hd (ht.tip ip)
  case tnt p n => exact absurd hd (ht.tnt p n)
  case paging v nr => exact paging_fwd hfit hinv v
  case vmcs v => exact vmcs_fwd hfit hinv v
  case asyncPaging v nr x =>
    rw [if_neg]
    · exact paging_fwd hfit hinv v
    · rintro ⟨a, b⟩
      rcases hloc x (by simp [a]) with h | h
      · exact b h
      · exact h.2
  case asyncVmcs v x =>
    rw [if_neg]
    · exact vmcs_fwd hfit hinv v
    · rintro ⟨a, b⟩
      rcases hloc x (by simp [a]) with h | h
      · exact b h
      · exact h.2
  all_goals apply fin
  case enabled x =>
    unfold processEnabled
    rw [IM.get_bind]
    cases hst : e.statusUpdate <;> simp only [hst, if_true, if_false, Bool.false_eq_true, hen] at ha
    · rw [if_neg (by simp), if_neg (by simp [ha.2]), if_neg (by simp [ha.1])]
      exact ⟨_, rfl, rfl, rfl, rfl⟩
    · rw [if_pos rfl, if_neg (by simp [ha])]
      exact ⟨_, rfl, rfl, rfl, rfl⟩
  case disabled x => exact dis ha
  case asyncDisabled x y =>
    rw [if_neg]
    · exact dis ha
    · rintro ⟨a, b⟩
      rcases hloc x rfl with h | h
      · exact b h
      · exact h.2
  case asyncBranch x y =>
    rw [if_neg]
    · unfold processAsyncBranch
      rw [IM.get_bind, if_neg (by simp [ha.1]), if_neg (by rw [← hen]; simp [ha.2])]
      exact ⟨_, rfl, rfl, rfl, rfl⟩
    · intro b
      rcases hloc x rfl with h | h
      · exact b h
      · exact h.2
  case overflow x =>
    unfold processOverflow
    rw [if_neg (by simp [ha])]
    cases hs : e.ipSuppressed
    · exact ⟨_, rfl, rfl, rfl, rfl⟩
    · exact ⟨_, rfl, rfl, rfl, rfl⟩
  case execMode md x =>
    unfold processExecMode
    rw [IM.get_bind, if_neg]
    · exact ⟨_, rfl, rfl, rfl, rfl⟩
    · rintro ⟨a1, a2, a3, a4⟩
      rw [hen, hmode] at ha
      rcases ha a1 a2 with h | h
      · exact a3 h
      · exact a4 (by rw [modeOf_eq]; exact h)
  case tsx => exact ⟨_, rfl, rfl, rfl, rfl⟩
  case stop =>
    unfold processStop
    rw [IM.get_bind, if_neg (by simp [ha.1]), if_neg (by rw [← hen]; simp [ha.2])]
    exact ⟨_, rfl, rfl, rfl, rfl⟩
  case rsm | sipi =>
    rw [if_neg (by simp [ha])]
    exact ⟨_, rfl, rfl, rfl, rfl⟩
  case trig a n m x =>
    cases hs : e.ipSuppressed
    · rw [if_neg (by simp), if_neg, if_neg (by simpa [hs] using hz)]
      · exact ⟨_, rfl, rfl, rfl, rfl⟩
      · rintro ⟨a2, a3⟩
        rcases hloc x (by simp [hs]) with h | h
        · exact a3 h.symm
        · rw [a2] at h; cases h.1
    · exact ⟨_, rfl, rfl, rfl, rfl⟩
  case mwait a b x =>
    rw [if_neg]
    · exact ⟨_, rfl, rfl, rfl, rfl⟩
    · rintro ⟨a1, a2, a3⟩
      rcases hloc x (by simp [a1]) with h | h
      · exact a3 h
      · rw [a2] at h; cases h.1
  case pwre | pwrx | ptwrite | tick | cbr | mnt | iret | vmentry | uiret => exact ⟨_, rfl, rfl, rfl, rfl⟩
  all_goals
    refine mustBeAt_fwd fun a => ?_
    rcases hloc _ (by rw [if_neg (by simp [a])]) with h | h
    · exact .inl h
    · exact .inr h.1

end Ipt
