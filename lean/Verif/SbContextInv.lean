import Verif.SbContext

/-! # Lemmas about process contexts -/

namespace Ipt

namespace SbM

variable {ω α β : Type}

/-- What holds of a result, in the state it comes with. -/
def Ends (r : ω × Res α) (Q : α → ω → Prop) (E : Err → ω → Prop) : Prop :=
  match r with
  | (w', .ok a) => Q a w'
  | (w', .err e) => E e w'
  | (_, .ub) => False

/-- The results of a function and the states it leaves. -/
def Does (m : SbM ω α) (w : ω) (Q : α → ω → Prop) (E : Err → ω → Prop) : Prop := Ends (m w) Q E

theorem Ends.cases {r : ω × Res α} {Q : α → ω → Prop} {E : Err → ω → Prop} (h : Ends r Q E) :
    (∃ a w', r = (w', .ok a) ∧ Q a w') ∨ ∃ e w', r = (w', .err e) ∧ E e w' := by
  rcases r with ⟨w', a | e | _⟩
  · exact .inl ⟨a, w', rfl, h⟩
  · exact .inr ⟨e, w', rfl, h⟩
  · exact h.elim

theorem does_bind {m : SbM ω α} {f : α → SbM ω β} {w : ω} {Q : β → ω → Prop} {E : Err → ω → Prop} :
    (m >>= f).Does w Q E ↔ m.Does w (fun a w' => (f a).Does w' Q E) E := by
  show Ends (SbM.bind m f w) Q E ↔ _
  unfold Does SbM.bind
  rcases m w with ⟨w', _ | _ | _⟩ <;> exact Iff.rfl

theorem bind_eq {m : SbM ω α} {f : α → SbM ω β} {w : ω} :
    (m >>= f) w = match m w with
      | (w, .ok a) => f a w
      | (w, .err e) => (w, .err e)
      | (w, .ub) => (w, .ub) := rfl

theorem bind_ok {m : SbM ω α} {f : α → SbM ω β} {w w' : ω} {a : α} (h : m w = (w', .ok a)) : (m >>= f) w = f a w' := by
  rw [bind_eq, h]

theorem bind_err {m : SbM ω α} {f : α → SbM ω β} {w w' : ω} {e : Err} (h : m w = (w', .err e)) :
    (m >>= f) w = (w', .err e) := by
  rw [bind_eq, h]

theorem pure_eq (a : α) (w : ω) : (pure a : SbM ω α) w = (w, .ok a) := rfl

theorem does_pure {a : α} {w : ω} {Q : α → ω → Prop} {E : Err → ω → Prop} : (pure a : SbM ω α).Does w Q E ↔ Q a w := Iff.rfl
theorem does_fail {e : Err} {w : ω} {Q : α → ω → Prop} {E : Err → ω → Prop} : (fail e : SbM ω α).Does w Q E ↔ E e w := Iff.rfl
theorem does_get {w : ω} {Q : ω → ω → Prop} {E : Err → ω → Prop} : (get : SbM ω ω).Does w Q E ↔ Q w w := Iff.rfl
theorem does_modify {f : ω → ω} {w : ω} {Q : Unit → ω → Prop} {E : Err → ω → Prop} : (modify f).Does w Q E ↔ Q () (f w) := Iff.rfl
theorem does_check {o : Option Err} {w : ω} {Q : Unit → ω → Prop} {E : Err → ω → Prop} :
    (check o : SbM ω Unit).Does w Q E ↔ match o with | none => Q () w | some e => E e w := by cases o <;> exact Iff.rfl
theorem does_lift {r : Res α} {w : ω} {Q : α → ω → Prop} {E : Err → ω → Prop} :
    (lift r).Does w Q E ↔ match r with | .ok a => Q a w | .err e => E e w | .ub => False := by cases r <;> exact Iff.rfl

theorem Does.mono {m : SbM ω α} {w : ω} {Q Q' : α → ω → Prop} {E E' : Err → ω → Prop} (h : m.Does w Q E)
    (hq : ∀ a w, Q a w → Q' a w) (he : ∀ e w, E e w → E' e w) : m.Does w Q' E' := by
  rcases Ends.cases h with ⟨a, w', hr, h⟩ | ⟨e, w', hr, h⟩
  · show Ends (m w) Q' E'
    rw [hr]; exact hq _ _ h
  · show Ends (m w) Q' E'
    rw [hr]; exact he _ _ h

theorem does_of_eq {m : SbM ω α} {w : ω} {r : ω × Res α} {Q : α → ω → Prop} {E : Err → ω → Prop} (h : m w = r) :
    m.Does w Q E ↔ Ends r Q E := by
  show Ends (m w) Q E ↔ _
  rw [h]

theorem does_ok {m : SbM ω α} {w w' : ω} {a : α} {Q : α → ω → Prop} {E : Err → ω → Prop} (h : m w = (w', .ok a)) :
    m.Does w Q E ↔ Q a w' := does_of_eq h

theorem does_attempt {m : SbM ω α} {w : ω} {Q : Option Err → ω → Prop} {E : Err → ω → Prop} :
    m.attempt.Does w Q E ↔ m.Does w (fun _ w' => Q none w') (fun e w' => Q (some e) w') := by
  show Ends (m.attempt w) Q E ↔ Ends (m w) _ _
  unfold attempt
  rcases m w with ⟨w', _ | _ | _⟩ <;> exact Iff.rfl

theorem attempt_ok {m : SbM ω α} {w w' : ω} {a : α} (h : m w = (w', .ok a)) : m.attempt w = (w', .ok none) := by
  unfold attempt; rw [h]

theorem attempt_err {m : SbM ω α} {w w' : ω} {e : Err} (h : m w = (w', .err e)) : m.attempt w = (w', .ok (some e)) := by
  unfold attempt; rw [h]

end SbM

variable {ι κ : Type}

/-- A context, if it is alive. -/
def SbWorld.at (w : SbWorld ι κ) (i : Nat) : Option (SbCtx ι) := (w.heap[i]?).join

/-- The number of references that a context counts. -/
def SbWorld.uses (w : SbWorld ι κ) (i : Nat) : Nat := ((w.at i).map (·.ucount)).getD 0

/-- All references: those of the session's list, those that the user holds, and others. -/
def SbWorld.refs (w : SbWorld ι κ) (rs : List Nat) : List Nat := w.contexts ++ w.held ++ rs

/-- Contexts count their references, and are alive as long as there are any. -/
structure Own (w : SbWorld ι κ) (rs : List Nat) : Prop where
  count : ∀ i, w.uses i = (w.refs rs).count i
  pos : ∀ i c, w.at i = some c → 0 < c.ucount
  nodup : w.contexts.Nodup

theorem SbWorld.at_some {w : SbWorld ι κ} {i : Nat} {c : SbCtx ι} : w.at i = some c ↔ w.heap[i]? = some (some c) := by
  unfold SbWorld.at
  rcases w.heap[i]? with _ | _ | _ <;> simp

theorem SbWorld.at_lt {w : SbWorld ι κ} {i : Nat} {c : SbCtx ι} (h : w.at i = some c) : i < w.heap.length := by
  rw [SbWorld.at_some] at h
  exact (List.getElem?_eq_some_iff.1 h).1

theorem sbDeref_eq {w : SbWorld ι κ} {i : Nat} {c : SbCtx ι} (h : w.at i = some c) : sbDeref i w = (w, .ok c) := by
  rw [SbWorld.at_some] at h
  simp [sbDeref, h]

theorem Own.live {w : SbWorld ι κ} {rs : List Nat} (h : Own w rs) {i : Nat} (hi : i ∈ w.refs rs) : ∃ c, w.at i = some c := by
  have := h.count i
  have hp := List.count_pos_iff.2 hi
  unfold SbWorld.uses at this
  rcases hc : w.at i with _ | c
  · rw [hc] at this; simp at this; omega
  · exact ⟨c, rfl⟩

theorem Own.mem {w : SbWorld ι κ} {rs : List Nat} (h : Own w rs) {i : Nat} {c : SbCtx ι} (hc : w.at i = some c) :
    i ∈ w.refs rs := by
  have := h.count i
  have hp := h.pos i c hc
  rw [SbWorld.uses, hc] at this
  simp at this
  exact List.count_pos_iff.1 (by omega)

theorem Own.congr {w w' : SbWorld ι κ} {rs rs' : List Nat} (h : Own w rs) (hh : w'.heap = w.heap)
    (hc : w'.contexts.Nodup) (hp : ∀ i, (w'.refs rs').count i = (w.refs rs).count i) : Own w' rs' := by
  have ha : ∀ i, w'.at i = w.at i := fun i => by simp [SbWorld.at, hh]
  exact ⟨fun i => by rw [hp, ← h.count i, SbWorld.uses, SbWorld.uses, ha], fun i c hc => h.pos i c (by rw [← ha]; exact hc), hc⟩

theorem Own.perm {w : SbWorld ι κ} {rs rs' : List Nat} (h : Own w rs) (hp : rs'.Perm rs) : Own w rs' :=
  h.congr rfl h.nodup fun i => by simp [SbWorld.refs, hp.count_eq]

/-! ## Single steps -/

/-- The state with a context changed or freed. -/
def SbWorld.put (w : SbWorld ι κ) (i : Nat) (o : Option (SbCtx ι)) : SbWorld ι κ := { w with heap := w.heap.set i o }

theorem SbWorld.at_put {w : SbWorld ι κ} {i j : Nat} {o : Option (SbCtx ι)} {c : SbCtx ι} (h : w.at i = some c) :
    (w.put i o).at j = if j = i then o else w.at j := by
  have hl := SbWorld.at_lt h
  unfold SbWorld.at SbWorld.put
  simp only [List.getElem?_set]
  by_cases hj : j = i
  · subst hj; simp [hl]
  · rw [if_neg (fun e => hj e.symm), if_neg hj]

theorem sbCtxGet_eq {w : SbWorld ι κ} {i : Nat} {c : SbCtx ι} (h : w.at i = some c) :
    sbCtxGet i w = if 65535 ≤ c.ucount then (w, .err .overflow)
      else (w.put i (some { c with ucount := c.ucount + 1 }), .ok ()) := by
  unfold sbCtxGet
  rw [SbM.bind_ok (sbDeref_eq h)]
  split <;> rfl

theorem sbCtxPut_eq {w : SbWorld ι κ} {i : Nat} {c : SbCtx ι} (h : w.at i = some c) (hc : 0 < c.ucount) :
    sbCtxPut i w = (w.put i (if 1 < c.ucount then some { c with ucount := c.ucount - 1 } else none), .ok ()) := by
  unfold sbCtxPut
  rw [SbM.bind_ok (sbDeref_eq h)]
  by_cases h1 : 1 < c.ucount
  · rw [if_pos h1, if_pos h1]; rfl
  · rw [if_neg h1, if_neg h1, if_neg (by omega)]; rfl

/-- What one sees of a context. -/
def SbWorld.seen (w : SbWorld ι κ) (i : Nat) : Option (Nat × ι × SbAbi) := (w.at i).map fun c => (c.pid, c.image, c.abi)

/-- Only reference counts have changed, and contexts may have been freed. -/
structure SbSame (w w' : SbWorld ι κ) : Prop where
  contexts : w'.contexts = w.contexts
  kernel : w'.kernel = w.kernel
  image : w'.image = w.image
  seen : ∀ j x, w'.seen j = some x → w.seen j = some x

theorem SbSame.rfl {w : SbWorld ι κ} : SbSame w w := ⟨Eq.refl _, Eq.refl _, Eq.refl _, fun _ _ h => h⟩

theorem SbSame.trans {w w' w'' : SbWorld ι κ} (h : SbSame w w') (h' : SbSame w' w'') : SbSame w w'' :=
  ⟨h'.contexts.trans h.contexts, h'.kernel.trans h.kernel, h'.image.trans h.image, fun j x hx => h.seen j x (h'.seen j x hx)⟩

theorem get_does {w : SbWorld ι κ} {rs : List Nat} {i : Nat} (h : Own w rs) (hi : i ∈ w.refs rs) :
    (sbCtxGet i).Does w (fun _ w' => Own w' (i :: rs) ∧ SbSame w w' ∧ w'.held = w.held ∧ w'.ext = w.ext)
      (fun _ w' => w' = w) := by
  obtain ⟨c, hc⟩ := h.live hi
  rw [SbM.does_of_eq (sbCtxGet_eq hc)]
  by_cases ho : 65535 ≤ c.ucount
  · rw [if_pos ho]; exact rfl
  rw [if_neg ho]
  refine ⟨⟨fun j => ?_, fun j d hd => ?_, h.nodup⟩, ⟨rfl, rfl, rfl, fun j x => ?_⟩, rfl, rfl⟩
  · have := h.count j
    have h1 : ((w.put i (some { c with ucount := c.ucount + 1 })).refs (i :: rs)).count j =
        (w.refs rs).count j + if j = i then 1 else 0 := by
      simp [SbWorld.refs, SbWorld.put, List.count_cons, eq_comm (a := i), Nat.add_assoc]
    rw [h1, ← this, SbWorld.uses, SbWorld.uses, SbWorld.at_put hc]
    by_cases hj : j = i
    · subst hj; simp [hc]
    · simp [hj]
  · rw [SbWorld.at_put hc] at hd
    split at hd
    · cases hd; simp
    · exact h.pos j d hd
  · rw [SbWorld.seen, SbWorld.at_put hc, SbWorld.seen]
    by_cases hj : j = i
    · subst hj; simp [hc]
    · simp [hj]

theorem put_does {w : SbWorld ι κ} {rs : List Nat} {i : Nat} (h : Own w (i :: rs)) :
    (sbCtxPut i).Does w (fun _ w' => Own w' rs ∧ SbSame w w' ∧ w'.held = w.held ∧ w'.ext = w.ext)
      (fun _ _ => False) := by
  obtain ⟨c, hc⟩ := h.live (i := i) (by simp [SbWorld.refs])
  have hp := h.pos i c hc
  rw [SbM.does_of_eq (sbCtxPut_eq hc hp)]
  refine ⟨⟨fun j => ?_, fun j d hd => ?_, h.nodup⟩, ⟨rfl, rfl, rfl, fun j x => ?_⟩, rfl, rfl⟩
  · have := h.count j
    have h1 : (w.refs (i :: rs)).count j = (w.refs rs).count j + if j = i then 1 else 0 := by
      simp [SbWorld.refs, List.count_cons, eq_comm (a := i), Nat.add_assoc]
    have h2 : ∀ o, ((w.put i o).refs rs) = w.refs rs := fun _ => rfl
    rw [h1] at this
    rw [h2, SbWorld.uses, SbWorld.at_put hc]
    rw [SbWorld.uses] at this
    by_cases hj : j = i
    · subst hj
      rw [hc] at this
      by_cases h1 : 1 < c.ucount <;> simp [h1] at this ⊢ <;> omega
    · simp [hj] at this ⊢; exact this
  · rw [SbWorld.at_put hc] at hd
    split at hd
    · split at hd
      · cases hd; simp; omega
      · cases hd
    · exact h.pos j d hd
  · rw [SbWorld.seen, SbWorld.at_put hc, SbWorld.seen]
    by_cases hj : j = i
    · subst hj
      simp only [if_true, hc]
      split <;> simp
    · simp [hj]

/-- Changing a context. -/
theorem Own.store {w : SbWorld ι κ} {rs : List Nat} {i : Nat} {c d : SbCtx ι} (h : Own w rs) (hc : w.at i = some c)
    (hd : d.ucount = c.ucount) : Own (w.put i (some d)) rs := by
  refine ⟨fun j => ?_, fun j e he => ?_, h.nodup⟩
  · have := h.count j
    have h2 : ∀ o, ((w.put i o).refs rs) = w.refs rs := fun _ => rfl
    rw [h2, ← this, SbWorld.uses, SbWorld.uses, SbWorld.at_put hc]
    by_cases hj : j = i
    · subst hj; simp [hc, hd]
    · simp [hj]
  · rw [SbWorld.at_put hc] at he
    split at he
    · cases he; rw [hd]; exact h.pos i c hc
    · exact h.pos j e he

/-! ## Finding contexts -/

/-- The first context of a process. -/
def SbWorld.find (w : SbWorld ι κ) (pid : Nat) : Option Nat := w.contexts.find? fun i => (w.seen i).map (·.1) = some pid

theorem sbFindLoop_eq {w : SbWorld ι κ} {pid : Nat} : ∀ {l : List Nat}, (∀ i ∈ l, ∃ c, w.at i = some c) →
    sbFindLoop pid l w = (w, .ok (l.find? fun i => (w.seen i).map (·.1) = some pid))
  | [], _ => rfl
  | i :: l, h => by
    obtain ⟨c, hc⟩ := h i (by simp)
    have ih := sbFindLoop_eq (pid := pid) (l := l) fun j hj => h j (by simp [hj])
    unfold sbFindLoop
    rw [SbM.bind_ok (sbDeref_eq hc)]
    by_cases hp : c.pid = pid
    · simp [hp, SbWorld.seen, hc, SbM.pure_eq]
    · simp [hp, SbWorld.seen, hc, ih]

theorem Own.listed {w : SbWorld ι κ} {rs : List Nat} (h : Own w rs) : ∀ i ∈ w.contexts, ∃ c, w.at i = some c :=
  fun i hi => h.live (by simp [SbWorld.refs, hi])

theorem sbFindContext_eq {w : SbWorld ι κ} {rs : List Nat} (h : Own w rs) (pid : Nat) :
    sbFindContext pid w = (w, .ok (w.find pid)) := by
  unfold sbFindContext
  rw [SbM.bind_ok (show SbM.get w = (w, .ok w) from rfl), sbFindLoop_eq h.listed]
  rfl

theorem find_mem {w : SbWorld ι κ} {pid i : Nat} (h : w.find pid = some i) :
    i ∈ w.contexts ∧ ∃ x, w.seen i = some (pid, x) := by
  have := List.find?_some h
  refine ⟨List.mem_of_find?_eq_some h, ?_⟩
  rcases hs : w.seen i with _ | ⟨p, x⟩
  · simp [hs] at this
  · simp [hs] at this; subst this; exact ⟨x, rfl⟩

theorem sbSeek_eq {w : SbWorld ι κ} {i : Nat} : ∀ {l : List Nat}, (∀ j ∈ l, ∃ c, w.at j = some c) →
    sbSeek i l w = (w, .ok (decide (i ∈ l)))
  | [], _ => rfl
  | j :: l, h => by
    obtain ⟨c, hc⟩ := h j (by simp)
    have ih := sbSeek_eq (i := i) (l := l) fun j hj => h j (by simp [hj])
    unfold sbSeek
    by_cases hj : j = i
    · subst hj; simp [SbM.pure_eq]
    · rw [if_neg hj, SbM.bind_ok (sbDeref_eq hc), ih]
      simp [show ¬ i = j from fun e => hj e.symm]

/-- The state with a new context in the list. -/
def SbWorld.add (w : SbWorld ι κ) (pid : Nat) (image : ι) : SbWorld ι κ :=
  { w with heap := w.heap ++ [some { image, pid, ucount := 1 }], contexts := w.heap.length :: w.contexts }

theorem Own.fresh {w : SbWorld ι κ} {rs : List Nat} (h : Own w rs) : w.heap.length ∉ w.refs rs := fun hm => by
  obtain ⟨c, hc⟩ := h.live hm
  exact Nat.lt_irrefl _ (SbWorld.at_lt hc)

theorem SbWorld.at_add (w : SbWorld ι κ) (pid : Nat) (image : ι) (j : Nat) :
    (w.add pid image).at j = if j = w.heap.length then some { image, pid, ucount := 1 } else w.at j := by
  unfold SbWorld.at SbWorld.add
  dsimp only
  by_cases hj : j = w.heap.length
  · subst hj; simp
  · rw [if_neg hj]
    rcases Nat.lt_or_gt_of_ne hj with hl | hl
    · rw [List.getElem?_append_left hl]
    · rw [List.getElem?_eq_none (by simp; omega), List.getElem?_eq_none (by omega)]

theorem Own.add {w : SbWorld ι κ} {rs : List Nat} (h : Own w rs) (pid : Nat) (image : ι) : Own (w.add pid image) rs := by
  have hf := h.fresh
  refine ⟨fun j => ?_, fun j c hc => ?_, ?_⟩
  · rw [SbWorld.uses, SbWorld.at_add]
    have h1 : ((w.add pid image).refs rs).count j = (w.refs rs).count j + if j = w.heap.length then 1 else 0 := by
      simp [SbWorld.refs, SbWorld.add, List.count_cons, eq_comm (a := w.heap.length)]
    rw [h1]
    by_cases hj : j = w.heap.length
    · subst hj
      simp [List.count_eq_zero.2 hf]
    · rw [if_neg hj, if_neg hj]; exact h.count j
  · rw [SbWorld.at_add] at hc
    split at hc
    · cases hc; simp
    · exact h.pos j c hc
  · exact List.nodup_cons.2 ⟨fun hm => hf (by simp [SbWorld.refs, hm]), h.nodup⟩

/-- A freed allocation. -/
def SbWorld.waste (w : SbWorld ι κ) : SbWorld ι κ := { w with heap := w.heap ++ [none] }

theorem SbWorld.at_waste (w : SbWorld ι κ) (j : Nat) : w.waste.at j = w.at j := by
  unfold SbWorld.at SbWorld.waste
  dsimp only
  by_cases hj : j < w.heap.length
  · rw [List.getElem?_append_left hj]
  · rw [List.getElem?_append_right (by omega), List.getElem?_eq_none (l := w.heap) (by omega)]
    rcases j - w.heap.length with _ | n <;> simp

theorem Own.waste {w : SbWorld ι κ} {rs : List Nat} (h : Own w rs) : Own w.waste rs :=
  ⟨fun j => by rw [SbWorld.uses, SbWorld.at_waste]; exact h.count j,
    fun j c hc => h.pos j c (by rw [← SbWorld.at_waste]; exact hc), h.nodup⟩

variable (env : SbEnv ι κ)

theorem sbAddContext_eq (w : SbWorld ι κ) (pid : Nat) :
    sbAddContext env pid w = match env.copy env.empty w.kernel with
      | (image, none) => (w.add pid image, .ok w.heap.length)
      | (_, some e) => (w.waste, .err e) := by
  have hl : ∀ o : Option (SbCtx ι), (w.heap ++ [o])[w.heap.length]? = some o := fun o => by simp
  have hs : ∀ o o' : Option (SbCtx ι), (w.heap ++ [o]).set w.heap.length o' = w.heap ++ [o'] := fun o o' => by
    rw [List.set_append_right _ _ (Nat.le_refl _)]; simp
  unfold sbAddContext
  rw [SbM.bind_ok (show sbCtxAlloc env w = (_, .ok w.heap.length) from rfl), SbM.bind_ok (show SbM.get _ = (_, .ok _) from rfl)]
  have hcopy : sbCopyImage env w.heap.length w.kernel { w with heap := w.heap ++ [some { image := env.empty, ucount := 1 }] } =
      ({ w with heap := w.heap ++ [some { image := (env.copy env.empty w.kernel).1, ucount := 1 }] },
        match (env.copy env.empty w.kernel).2 with | none => .ok () | some e => .err e) := by
    unfold sbCopyImage
    rw [SbM.bind_ok (sbDeref_eq (c := { image := env.empty, ucount := 1 }) (by simp [SbWorld.at]))]
    rcases (env.copy env.empty w.kernel).2 <;> simp [SbM.bind_eq, sbStore, SbM.modify, SbM.check, SbM.pure_eq, SbM.fail, hs]
  rcases hc : env.copy env.empty w.kernel with ⟨image, _ | e⟩
  · rw [hc] at hcopy
    rw [SbM.bind_ok (SbM.attempt_ok hcopy)]
    simp only [SbM.bind_eq, sbStore, SbM.modify, SbM.pure_eq, hs, sbDeref, hl, SbWorld.add]
  · rw [hc] at hcopy
    rw [SbM.bind_ok (SbM.attempt_err hcopy)]
    dsimp only
    rw [SbM.bind_ok (sbCtxPut_eq (c := { image, ucount := 1 }) (by simp [SbWorld.at]) (by simp))]
    simp [SbWorld.put, SbWorld.waste, hs, SbM.fail]

theorem sbGetContext_eq {w : SbWorld ι κ} {rs : List Nat} (h : Own w rs) (pid : Nat) :
    sbGetContext env pid w = match w.find pid with
      | some i => (w, .ok i)
      | none => sbAddContext env pid w := by
  unfold sbGetContext
  rw [SbM.bind_ok (sbFindContext_eq h pid)]
  rcases w.find pid <;> rfl

/-- What `sbGetContext` does. -/
inductive Got (w : SbWorld ι κ) (pid : Nat) : Nat → SbWorld ι κ → Prop
  | old {i : Nat} (h : w.find pid = some i) : Got w pid i w
  | new {image : ι} (h : w.find pid = none) (hc : env.copy env.empty w.kernel = (image, none)) :
      Got w pid w.heap.length (w.add pid image)

theorem Got.own {w w' : SbWorld ι κ} {rs : List Nat} {pid i : Nat} (hg : Got env w pid i w') (h : Own w rs) : Own w' rs := by
  cases hg with
  | old => exact h
  | new => exact h.add _ _

theorem Got.mem {w w' : SbWorld ι κ} {pid i : Nat} (hg : Got env w pid i w') : i ∈ w'.contexts := by
  cases hg with
  | old h => exact (find_mem h).1
  | new => simp [SbWorld.add]

theorem getContext_does {w : SbWorld ι κ} {rs : List Nat} (h : Own w rs) (pid : Nat) :
    (sbGetContext env pid).Does w (fun i w' => Got env w pid i w')
      (fun e w' => w.find pid = none ∧ (env.copy env.empty w.kernel).2 = some e ∧ w' = w.waste) := by
  rw [SbM.does_of_eq (sbGetContext_eq env h pid)]
  rcases hf : w.find pid with _ | i
  · rw [sbAddContext_eq]
    rcases hc : env.copy env.empty w.kernel with ⟨image, _ | e⟩
    · exact .new hf hc
    · exact ⟨rfl, rfl, rfl⟩
  · exact .old hf

/-- The state with a context taken from the list. -/
def SbWorld.drop (w : SbWorld ι κ) (i : Nat) : SbWorld ι κ := { w with contexts := w.contexts.erase i }

theorem Own.drop {w : SbWorld ι κ} {rs : List Nat} {i : Nat} (h : Own w rs) (hi : i ∈ w.contexts) : Own (w.drop i) (i :: rs) :=
  h.congr (w' := w.drop i) rfl (h.nodup.erase i) fun j => by
    have := (List.perm_cons_erase hi).count_eq j
    simp [SbWorld.refs, SbWorld.drop, List.count_cons] at this ⊢
    omega

theorem removeContext_does {w : SbWorld ι κ} {rs : List Nat} {i : Nat} (h : Own w rs) (hi : i ∈ w.contexts) :
    (sbRemoveContext i).Does w (fun _ w' => Own w' rs ∧ SbSame (w.drop i) w' ∧ w'.held = w.held ∧ w'.ext = w.ext)
      (fun _ _ => False) := by
  unfold sbRemoveContext
  rw [SbM.does_bind, SbM.does_get, SbM.does_bind, SbM.does_ok (sbSeek_eq h.listed)]
  simp only [hi, decide_true, if_true]
  rw [SbM.does_bind, SbM.does_modify]
  exact put_does (h.drop hi)

/-! ## Images -/

theorem sbCopyImage_eq {w : SbWorld ι κ} {i : Nat} {c : SbCtx ι} (hc : w.at i = some c) (image : ι) :
    sbCopyImage env i image w =
      (w.put i (some { c with image := (env.copy c.image image).1 }),
        match (env.copy c.image image).2 with | none => .ok () | some e => .err e) := by
  unfold sbCopyImage
  rw [SbM.bind_ok (sbDeref_eq hc)]
  rcases (env.copy c.image image).2 <;> rfl

theorem sbCtxMmap_eq {w : SbWorld ι κ} {i : Nat} {c : SbCtx ι} (hc : w.at i = some c) (file : List UInt8) (offset size vaddr : Nat) :
    sbCtxMmap env i file offset size vaddr w =
      ({ w.put i (some { c with image := (env.mmap w.ext c.image file offset size vaddr).2.1 }) with
          ext := (env.mmap w.ext c.image file offset size vaddr).1 },
        match (env.mmap w.ext c.image file offset size vaddr).2.2 with | none => .ok () | some e => .err e) := by
  unfold sbCtxMmap
  rw [SbM.bind_ok (sbDeref_eq hc)]
  rcases h : (env.mmap w.ext c.image file offset size vaddr).2.2 <;> simp [SbM.bind_eq, SbM.get, sbStore, SbM.modify, SbM.check, h, SbM.fail, SbM.pure_eq, SbWorld.put]

theorem sbError_eq (w : SbWorld ι κ) (note : SbNote) (offset : Nat) :
    sbError env note offset w = ({ w with ext := (env.onError w.ext note offset).1 },
      match (env.onError w.ext note offset).2 with | none => .ok () | some e => .err e) := by
  unfold sbError
  rcases h : (env.onError w.ext note offset).2 <;> simp [SbM.bind_eq, SbM.get, SbM.modify, SbM.check, h, SbM.fail, SbM.pure_eq]

theorem hold_does {w : SbWorld ι κ} {rs : List Nat} {i : Nat} (h : Own w rs) (hi : i ∈ w.refs rs) :
    (sbHold i).Does w (fun _ w' => Own w' rs ∧ SbSame w w' ∧ w'.ext = w.ext) (fun _ w' => w' = w) := by
  unfold sbHold
  rw [SbM.does_bind]
  refine (get_does h hi).mono (fun _ w' ⟨ho, hs, hh, he⟩ => ?_) fun _ _ h => h
  rw [SbM.does_modify]
  refine ⟨ho.congr rfl ho.nodup fun j => ?_, ⟨hs.contexts, hs.kernel, hs.image, hs.seen⟩, he⟩
  simp [SbWorld.refs, List.count_cons]
  omega

theorem drop_does {w : SbWorld ι κ} {rs : List Nat} {i : Nat} (h : Own w rs) (hi : i ∈ w.held) :
    (sbDrop i).Does w (fun _ w' => Own w' rs ∧ SbSame w w' ∧ w'.ext = w.ext) (fun _ _ => False) := by
  unfold sbDrop
  rw [SbM.does_bind, SbM.does_modify]
  have ho : Own { w with held := w.held.erase i } (i :: rs) := h.congr rfl h.nodup fun j => by
    have := (List.perm_cons_erase hi).count_eq j
    simp [SbWorld.refs, List.count_cons] at this ⊢
    omega
  exact (put_does ho).mono (fun _ w' ⟨a, b, c, d⟩ => ⟨a, ⟨b.contexts, b.kernel, b.image, b.seen⟩, d⟩) fun _ _ h => h

theorem switchTo_does {w : SbWorld ι κ} {rs : List Nat} {i : Nat} (h : Own w rs) (hi : i ∈ w.refs rs) :
    (sbSwitchTo env i).Does w
      (fun _ w' => Own w' rs ∧ w'.image = some i ∧ ∃ v, SbSame w v ∧ w' = { v with image := some i })
      (fun e w' => Own w' rs ∧ SbSame w w' ∧ (env.onSwitch w.ext i).2.2 = some e) := by
  obtain ⟨c, hc⟩ := h.live hi
  unfold sbSwitchTo
  rw [SbM.does_bind, SbM.does_ok (sbDeref_eq hc), SbM.does_bind, SbM.does_get]
  dsimp only
  rw [SbM.does_bind, SbM.does_modify, SbM.does_bind]
  have h1 : Own { w with ext := (env.onSwitch w.ext i).1 } rs := h.congr rfl h.nodup fun _ => rfl
  have key : (if (env.onSwitch w.ext i).2.1 = true then (sbHold i).attempt else pure none :
      SbM (SbWorld ι κ) (Option Err)).Does { w with ext := (env.onSwitch w.ext i).1 }
      (fun _ w' => Own w' rs ∧ SbSame w w') (fun _ _ => False) := by
    split
    · rw [SbM.does_attempt]
      refine (hold_does h1 (i := i) hi).mono (fun _ w' ⟨ho, hs, _⟩ => ?_) fun _ w' h2 => ?_
      · exact ⟨ho, ⟨hs.contexts, hs.kernel, hs.image, hs.seen⟩⟩
      · subst h2
        exact ⟨h1, ⟨rfl, rfl, rfl, fun _ _ h => h⟩⟩
    · exact ⟨h1, ⟨rfl, rfl, rfl, fun _ _ h => h⟩⟩
  refine key.mono (fun _ w' ⟨ho, hs⟩ => ?_) fun _ _ h => h.elim
  rw [SbM.does_bind, SbM.does_check]
  rcases he : (env.onSwitch w.ext i).2.2 with _ | e
  · exact ⟨ho.congr rfl ho.nodup fun _ => rfl, rfl, w', hs, rfl⟩
  · exact ⟨ho, hs, rfl⟩

theorem freeContexts_does : ∀ {l : List Nat} {w : SbWorld ι κ} {rs : List Nat}, Own w rs → w.contexts = l →
    (sbFreeContexts l).Does w (fun _ w' => Own w' rs ∧ w'.contexts = [] ∧ w'.held = w.held ∧
      ∀ j x, w'.seen j = some x → w.seen j = some x) (fun _ _ => False)
  | [], w, rs, h, hl => ⟨h, hl, rfl, fun _ _ h => h⟩
  | i :: l, w, rs, h, hl => by
    obtain ⟨c, hc⟩ := h.live (i := i) (by simp [SbWorld.refs, hl])
    have hn := h.nodup
    rw [hl] at hn
    have ho : Own { w with contexts := l } (i :: rs) := h.congr (w' := { w with contexts := l }) rfl (List.nodup_cons.1 hn).2
      fun j => by simp [SbWorld.refs, hl, List.count_cons]; omega
    unfold sbFreeContexts
    rw [SbM.does_bind, SbM.does_ok (sbDeref_eq hc), SbM.does_bind, SbM.does_modify, SbM.does_bind, SbM.does_attempt]
    refine (put_does ho).mono (fun _ w' ⟨hw, hs, hh, _⟩ => ?_) fun _ _ h => h.elim
    exact (freeContexts_does (l := l) hw hs.contexts).mono
      (fun _ w'' ⟨h1, h2, h3, h4⟩ => ⟨h1, h2, h3.trans hh, fun j x hx => hs.seen j x (h4 j x hx)⟩) fun _ _ h => h

end Ipt
