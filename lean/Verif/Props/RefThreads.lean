import Verif.RefThreadsProg
import Verif.Spec.RefThreads

/-!
# C70, C71: a section object exists as long as somebody uses it
-/

namespace Ipt

open Refs Spec

namespace Refs

variable {n : Nat}

/-- What to do next, if there are alternatives, is `c`. -/
def free? (σ : St n) (t : Fin n) (k : List Prog) (c : Nat) : Prog → Option (St n)
  | .get s =>
    if (σ.cell s).ucount = 65535 then none
    else some (σ.act t k s { σ.cell s with ucount := (σ.cell s).ucount + 1 }
        (((σ.thread t).view.set s
          { (σ.thread t).view.loc s with ref := ((σ.thread t).view.loc s).ref + 1 }).ret true))
  | .put s =>
    if 1 < (σ.cell s).ucount then
      some (σ.act t k s { σ.cell s with ucount := (σ.cell s).ucount - 1 }
        (((σ.thread t).view.set s
          { (σ.thread t).view.loc s with ref := ((σ.thread t).view.loc s).ref - 1 }).ret true))
    else if (σ.cell s).ucount = 1 ∧ (σ.cell s).mcount = 0 then
      some { σ with thread := upd σ.thread t ⟨k, some s, (σ.thread t).view.ret true⟩ }
    else if (σ.cell s).ucount = 1 ∧ (σ.cell s).mcount ≠ 0 then some (σ.run t k ((σ.thread t).view.ret false))
    else none
  | .mk s =>
    if (σ.cell s).alive = false then
      some (σ.act t k s { σ.cell s with alive := true, ucount := 1, mcount := 0, acount := 0 }
        ((σ.thread t).view.set s
          { (σ.thread t).view.loc s with ref := ((σ.thread t).view.loc s).ref + 1 }))
    else none
  | .map s =>
    some (σ.act t k s { σ.cell s with mcount := (σ.cell s).mcount + 1 }
        (((σ.thread t).view.set s
          { (σ.thread t).view.loc s with own := ((σ.thread t).view.loc s).own + 1 }).ret true))
  | .unmap s =>
    if (σ.cell s).mcount ≠ 0 then
      some (σ.act t k s { σ.cell s with mcount := (σ.cell s).mcount - 1 }
        (((σ.thread t).view.set s
          { (σ.thread t).view.loc s with own := ((σ.thread t).view.loc s).own - 1 }).ret true))
    else none
  | .access _ => some (σ.run t k (σ.thread t).view)
  | .attach s =>
    if (σ.cell s).acount ≠ 65535 ∧ (σ.cell s).acount + 1 ≤ (σ.cell s).ucount then
      some (σ.act t k s { σ.cell s with acount := (σ.cell s).acount + 1 }
        (((σ.thread t).view.set s
          { (σ.thread t).view.loc s with att := ((σ.thread t).view.loc s).att + 1 }).ret true))
    else none
  | .detach s =>
    if (σ.cell s).acount ≠ 0 ∧ (σ.cell s).acount - 1 ≤ (σ.cell s).ucount then
      some (σ.act t k s { σ.cell s with acount := (σ.cell s).acount - 1 }
        (((σ.thread t).view.set s
          { (σ.thread t).view.loc s with att := ((σ.thread t).view.loc s).att - 1 }).ret true))
    else none
  | .insert s =>
    some (σ.act t k s { σ.cell s with entry := (σ.cell s).entry + 1 }
        ((σ.thread t).view.set s
          { (σ.thread t).view.loc s with
            ref := ((σ.thread t).view.loc s).ref - 1, att := ((σ.thread t).view.loc s).att - 1, known := true }))
  | .remove s =>
    if (σ.cell s).entry ≠ 0 then
      some (σ.act t k s { σ.cell s with entry := (σ.cell s).entry - 1 }
        ((σ.thread t).view.set s
          { (σ.thread t).view.loc s with
            ref := ((σ.thread t).view.loc s).ref + 1, att := ((σ.thread t).view.loc s).att + 1 }))
    else none
  | .find s =>
    if (σ.cell s).entry ≠ 0 then
      some (σ.run t k ((σ.thread t).view.set s { (σ.thread t).view.loc s with known := true }))
    else none
  | .give s =>
    some (σ.act t k s { σ.cell s with pool := (σ.cell s).pool + 1 }
        ((σ.thread t).view.set s { (σ.thread t).view.loc s with own := ((σ.thread t).view.loc s).own - 1 }))
  | .take s =>
    if (σ.cell s).pool ≠ 0 then
      some (σ.act t k s { σ.cell s with pool := (σ.cell s).pool - 1 }
        ((σ.thread t).view.set s
          { (σ.thread t).view.loc s with own := ((σ.thread t).view.loc s).own + 1, known := true }))
    else none
  | .imgAdd s =>
    some (σ.run t k
        ((σ.thread t).view.set s { (σ.thread t).view.loc s with img := ((σ.thread t).view.loc s).img + 1 }))
  | .imgDel s =>
    if ((σ.thread t).view.loc s).img ≠ 0 then
      some (σ.run t k
        ((σ.thread t).view.set s { (σ.thread t).view.loc s with img := ((σ.thread t).view.loc s).img - 1 }))
    else none
  | .imgFind s => if ((σ.thread t).view.loc s).img ≠ 0 then some (σ.run t k (σ.thread t).view) else none
  | .hold s =>
    some (σ.run t k
        ((σ.thread t).view.set s { (σ.thread t).view.loc s with held := ((σ.thread t).view.loc s).held + 1 }))
  | .unhold s =>
    if ((σ.thread t).view.loc s).held ≠ 0 then
      some (σ.run t k
        ((σ.thread t).view.set s { (σ.thread t).view.loc s with held := ((σ.thread t).view.loc s).held - 1 }))
    else none
  | .heldFind s => if ((σ.thread t).view.loc s).held ≠ 0 then some (σ.run t k (σ.thread t).view) else none
  | .lose s =>
    some (σ.run t k
        ((σ.thread t).view.set s { (σ.thread t).view.loc s with lost := ((σ.thread t).view.loc s).lost + 1 }))
  | .ifAtt s p q =>
    if (σ.cell s).acount ≠ 0 then
      some (σ.run t (p :: k) ((σ.thread t).view.set s { (σ.thread t).view.loc s with known := true }))
    else some (σ.run t (q :: k) (σ.thread t).view)
  | .skip => some (σ.run t k (σ.thread t).view)
  | .done b => some (σ.run t k ((σ.thread t).view.ret b))
  | .seq p q => some (σ.run t (p :: q :: k) (σ.thread t).view)
  | .alt p q => if c = 0 then some (σ.run t (p :: k) (σ.thread t).view) else some (σ.run t (q :: k) (σ.thread t).view)
  | .ifOk p q => some (σ.run t ((if (σ.thread t).view.res = true then p else q) :: k) (σ.thread t).view)
  | .any f => some (σ.run t (f c :: k) (σ.thread t).view)
  | .anyList f => some (σ.run t (f (List.replicate c 0) :: k) (σ.thread t).view)
  | .star p =>
    if c = 0 then some (σ.run t k (σ.thread t).view) else some (σ.run t (p :: .star p :: k) (σ.thread t).view)

def step? (σ : St n) (t : Fin n) (c : Nat) : Option (St n) :=
  match (σ.thread t).freeing with
  | some s => some
      { thread := upd σ.thread t
          { σ.thread t with
            freeing := none
            view := (σ.thread t).view.set s
              { (σ.thread t).view.loc s with ref := ((σ.thread t).view.loc s).ref - 1 } }
        cell := upd σ.cell s { σ.cell s with alive := false, ucount := 0 } }
  | none =>
    match (σ.thread t).code with
    | [] => none
    | p :: k => free? σ t k c p

/-- Does thread `t` have alternatives? -/
def chooses (σ : St n) (t : Fin n) : Bool :=
  match (σ.thread t).freeing, (σ.thread t).code with
  | none, .alt _ _ :: _ | none, .any _ :: _ | none, .anyList _ :: _ | none, .star _ :: _ => true
  | _, _ => false

/-- `m` steps of thread `t` with the choices `l`. -/
def go (σ : St n) (t : Fin n) : Nat → List Nat → Option (St n)
  | 0, _ => some σ
  | m + 1, l =>
    if chooses σ t = true then (step? σ t (l.headD 0)).bind fun σ' => go σ' t m l.tail
    else (step? σ t 0).bind fun σ' => go σ' t m l

/-- Follow a schedule: threads, numbers of steps, and choices. -/
def exec (σ : St n) : List (Fin n × Nat × List Nat) → Option (St n)
  | [] => some σ
  | (t, m, l) :: r => (go σ t m l).bind fun σ' => exec σ' r

theorem free?_sound {σ σ' : St n} {t : Fin n} {k : List Prog} {c : Nat} {p : Prog} (h : free? σ t k c p = some σ') :
    Free σ t k p σ' := by
  by_cases hp : ∃ q r, p = .ifOk q r
  · obtain ⟨q, r, rfl⟩ := hp
    cases h
    exact .ifOk
  cases p <;> simp only [free?] at h <;> (try split at h) <;> (try split at h) <;> (try split at h) <;>
    first
    | (cases h; done)
    | (exact absurd ⟨_, _, rfl⟩ hp)
    | (cases h
       first
       | exact .access | exact .map | exact .insert | exact .give | exact .imgAdd | exact .hold | exact .lose
       | exact .skip | exact .done | exact .seq | exact .ifOk | exact .any _ | exact .anyList _
       | exact .get (by assumption) | exact .put (by assumption)
       | exact .putLast (by simp_all) (by simp_all)
       | exact .putBad (.inr (by assumption))
       | exact .mk (by assumption) | exact .unmap (by assumption)
       | exact .attach (by simp_all) (by simp_all)
       | exact .detach (by simp_all) (by simp_all)
       | exact .remove (by assumption) | exact .find (by assumption) | exact .take (by assumption)
       | exact .imgDel (by assumption) | exact .imgFind (by assumption)
       | exact .unhold (by assumption) | exact .heldFind (by assumption)
       | exact .attYes (by assumption) | exact .attNo (by simp_all)
       | exact .altL | exact .altR | exact .stop | exact .more)

theorem step?_sound {σ σ' : St n} {t : Fin n} {c : Nat} (h : step? σ t c = some σ') : Step σ t σ' := by
  unfold step? at h
  split at h
  · cases h; exact .free (by assumption)
  · split at h
    · cases h
    · exact .code (by assumption) (by assumption) (free?_sound h)

theorem Steps.cons {σ σ' σ'' : St n} {t : Fin n} (h : Step σ t σ') (hs : Steps σ' σ'') : Steps σ σ'' := by
  induction hs with
  | refl => exact .step (.refl _) h
  | step _ hs ih => exact .step ih hs

theorem Steps.trans {σ σ' σ'' : St n} (h : Steps σ σ') (hs : Steps σ' σ'') : Steps σ σ'' := by
  induction hs with
  | refl => exact h
  | step _ hs ih => exact .step ih hs

theorem bind_steps {σ σ'' : St n} {t : Fin n} {c : Nat} {f : St n → Option (St n)}
    (h : (step? σ t c).bind f = some σ'') (hf : ∀ σ', f σ' = some σ'' → Steps σ' σ'') : Steps σ σ'' := by
  rcases hs : step? σ t c with _ | σ'
  · rw [hs] at h; cases h
  · rw [hs] at h
    exact (hf σ' h).cons (step?_sound hs)

theorem go_steps {σ σ' : St n} {t : Fin n} {m : Nat} {l : List Nat} (h : go σ t m l = some σ') : Steps σ σ' := by
  induction m generalizing σ l with
  | zero => cases h; exact .refl _
  | succ m ih =>
    unfold go at h
    split at h
    · exact bind_steps h fun _ h => ih h
    · exact bind_steps h fun _ h => ih h

theorem exec_steps {σ σ' : St n} {l : List (Fin n × Nat × List Nat)} (h : exec σ l = some σ') : Steps σ σ' := by
  induction l generalizing σ with
  | nil => cases h; exact .refl _
  | cons x l ih =>
    unfold exec at h
    rcases hs : go σ x.1 x.2.1 x.2.2 with _ | σ1
    · rw [hs] at h; cases h
    · rw [hs] at h
      exact (go_steps hs).trans (ih h)

theorem exec_any {σ : St n} {l : List (Fin n × Nat × List Nat)} {p : St n → Bool} (h : (exec σ l).any p = true) :
    ∃ σ', Steps σ σ' ∧ p σ' = true := by
  rcases hs : exec σ l with _ | σ'
  · rw [hs] at h; cases h
  · rw [hs] at h; exact ⟨σ', exec_steps hs, h⟩

/-- Does thread `t` go on with an access to section `s`? -/
def accessing (σ : St n) (t : Fin n) (s : Nat) : Bool :=
  match (σ.thread t).freeing, (σ.thread t).code with
  | none, .access x :: _ => x == s
  | _, _ => false

/-- Does thread `t` go on with dropping a reference of section `s`? -/
def putting (σ : St n) (t : Fin n) (s : Nat) : Bool :=
  match (σ.thread t).freeing, (σ.thread t).code with
  | none, .put x :: _ => x == s
  | _, _ => false

/-- Has thread `t` finished? -/
def finished (σ : St n) (t : Fin n) : Bool := (σ.thread t).freeing.isNone && (σ.thread t).code.isEmpty

/-- No reference is forgotten. -/
def keeps : Prog → Prop
  | .lose _ => False
  | .ifAtt _ p q | .seq p q | .alt p q | .ifOk p q => keeps p ∧ keeps q
  | .any f => ∀ s, keeps (f s)
  | .anyList f => ∀ l, keeps (f l)
  | .star p => keeps p
  | _ => True

theorem keeps_lruFree (l : List Nat) : keeps (lruFree l) := by
  induction l with
  | nil => trivial
  | cons s l ih => exact ⟨trivial, ih, trivial⟩

theorem keeps_takeAll (l : List Nat) : keeps (takeAll l) := by
  induction l with
  | nil => trivial
  | cons s l ih => exact ⟨trivial, ih⟩

theorem keeps_addLoop (l : List Nat) (s : Nat) : keeps (addLoop l s) := by
  induction l generalizing s with
  | nil => simp [addLoop, keeps, lruDrop, keeps_lruFree, keeps_takeAll]
  | cons x l ih => simp [addLoop, keeps, lruDrop, keeps_lruFree, keeps_takeAll, ih]

theorem keeps_removeAll (l : List Nat) : keeps (removeAll l) := by
  induction l with
  | nil => trivial
  | cons s l ih => exact ⟨trivial, ih⟩

theorem keeps_dropAll (l : List Nat) : keeps (dropAll l) := by
  induction l with
  | nil => trivial
  | cons s l ih => exact ⟨trivial, ⟨trivial, ih, trivial⟩, trivial⟩

theorem keeps_call (c : Call) (h : GoodAsid c) : keeps c.prog := by
  cases c <;>
    simp_all [Call.prog, keeps, GoodAsid, Refs.iscacheRead, lookup, mapSection, notify, lruAdd, lruDrop, keeps_lruFree,
      keeps_takeAll, Refs.iscacheAddFile, iscacheAdd, keeps_addLoop, Refs.imageAddFile, imageAdd, listAdd,
      Refs.imageAddCached, Refs.imageRemove, Refs.imageCopy, Refs.imageRead, Refs.decoderFill, Refs.decoderUse,
      allocBcache, Refs.decoderForget, Refs.iscacheFree, keeps_removeAll, keeps_dropAll]

/-- Threads that do not forget references have not forgotten any. -/
def Keeps (x : Thread) : Prop := (∀ p ∈ x.code, keeps p) ∧ ∀ s, (x.view.loc s).lost = 0

theorem Keeps.set {v : View} {s : Nat} {l : Loc} (h : ∀ x, (v.loc x).lost = 0) (hl : l.lost = 0) :
    ∀ x, ((v.set s l).loc x).lost = 0 := by
  intro x
  by_cases hx : x = s
  · subst hx; simpa [View.set] using hl
  · simpa [View.set, upd_ne _ _ hx] using h x

theorem step_keeps {σ σ' : St n} {t : Fin n} (h : Step σ t σ') (hk : ∀ u, Keeps (σ.thread u)) :
    ∀ u, Keeps (σ'.thread u) := by
  have hl : ∀ s, ((σ.thread t).view.loc s).lost = 0 := (hk t).2
  have run : ∀ {k v}, (∀ p ∈ k, keeps p) → (∀ s, (v.loc s).lost = 0) → ∀ u, Keeps ((σ.run t k v).thread u) := by
    intro k v h1 h2 u
    by_cases hu : u = t
    · subst hu; simpa [St.run, Keeps] using ⟨h1, h2⟩
    · simpa [St.run, upd_ne _ _ hu] using hk u
  have act : ∀ {k s c v}, (∀ p ∈ k, keeps p) → (∀ s, (v.loc s).lost = 0) →
      ∀ u, Keeps ((σ.act t k s c v).thread u) := by
    intro k s c v h1 h2 u
    by_cases hu : u = t
    · subst hu; simpa [St.act, Keeps] using ⟨h1, h2⟩
    · simpa [St.act, upd_ne _ _ hu] using hk u
  cases h with
  | @free s hf =>
    intro u
    by_cases hu : u = t
    · subst hu
      simp only [upd_same]
      exact ⟨(hk u).1, Keeps.set hl (hl s)⟩
    · simpa [upd_ne _ _ hu] using hk u
  | @code p k _ hf hc h =>
    have hp : keeps p := (hk t).1 p (by rw [hc]; simp)
    have hr : ∀ q ∈ k, keeps q := fun q hq => (hk t).1 q (by rw [hc]; simp [hq])
    have two : ∀ {q}, keeps q → ∀ x ∈ q :: k, keeps x := fun h x hx => by
      rcases List.mem_cons.1 hx with rfl | hx
      · exact h
      · exact hr x hx
    cases h
    case get => exact act hr (Keeps.set hl (hl _))
    case getMany => exact run hr hl
    case put => exact act hr (Keeps.set hl (hl _))
    case putLast =>
      intro u
      by_cases hu : u = t
      · subst hu; simpa [Keeps, View.ret] using ⟨hr, hl⟩
      · simpa [upd_ne _ _ hu] using hk u
    case putBad => exact run hr hl
    case mk => exact act hr (Keeps.set hl (hl _))
    case map => exact act hr (Keeps.set hl (hl _))
    case mapFail => exact run hr hl
    case unmap => exact act hr (Keeps.set hl (hl _))
    case unmapBad => exact run hr hl
    case access => exact run hr hl
    case attach => exact act hr (Keeps.set hl (hl _))
    case attachFail => exact run hr hl
    case detach => exact act hr (Keeps.set hl (hl _))
    case detachBad => exact run hr hl
    case insert => exact act hr (Keeps.set hl (hl _))
    case remove => exact act hr (Keeps.set hl (hl _))
    case find => exact run hr (Keeps.set hl (hl _))
    case give => exact act hr (Keeps.set hl (hl _))
    case take => exact act hr (Keeps.set hl (hl _))
    case imgAdd => exact run hr (Keeps.set hl (hl _))
    case imgDel => exact run hr (Keeps.set hl (hl _))
    case imgFind => exact run hr hl
    case hold => exact run hr (Keeps.set hl (hl _))
    case unhold => exact run hr (Keeps.set hl (hl _))
    case heldFind => exact run hr hl
    case lose => exact hp.elim
    case attYes => exact run (two hp.1) (Keeps.set hl (hl _))
    case attNo => exact run (two hp.2) hl
    case skip => exact run hr hl
    case done => exact run hr hl
    case seq =>
      refine run (fun x hx => ?_) hl
      rcases List.mem_cons.1 hx with rfl | hx
      · exact hp.1
      · exact two hp.2 x hx
    case altL => exact run (two hp.1) hl
    case altR => exact run (two hp.2) hl
    case ifOk =>
      refine run (two ?_) hl
      split
      · exact hp.1
      · exact hp.2
    case any l => exact run (two (hp l)) hl
    case anyList l => exact run (two (hp l)) hl
    case stop => exact run hr hl
    case more p =>
      refine run (fun x hx => ?_) hl
      rcases List.mem_cons.1 hx with rfl | hx
      · exact hp
      · exact two (q := .star p) hp x hx

theorem steps_keeps (calls : Fin n → List Call) (ha : ∀ t, ∀ c ∈ calls t, GoodAsid c) {σ : St n}
    (h : Steps (start calls) σ) : ∀ u, Keeps (σ.thread u) := by
  have key : ∀ {σ₀ σ₁ : St n}, Steps σ₀ σ₁ → (∀ u, Keeps (σ₀.thread u)) → ∀ u, Keeps (σ₁.thread u) := by
    intro σ₀ σ₁ h h0
    induction h with
    | refl => exact h0
    | step _ hs ih => exact step_keeps hs ih
  refine key h fun u => ⟨fun p hp => ?_, fun s => rfl⟩
  obtain ⟨c, hc, rfl⟩ := List.mem_map.1 hp
  exact keeps_call c (ha u c hc)

end Refs

namespace Props

theorem noFree_of {n : Nat} {calls : Fin n → List Call} (h : ∀ t, ∀ c ∈ calls t, KeepsCache c) :
    ∀ t, ∀ c ∈ calls t, c.noFree := fun t c hc => by
  have := h t c hc
  cases c <;> exact this

/-- C70: whatever calls each of `n` threads makes and however their steps interleave, no thread accesses a section object
that has been freed or that another thread is about to free, no section object is freed twice, and no cache, image or
decoder refers to a section object that has been freed or is about to be. -/
theorem C70_not_freed {n : Nat} (calls : Fin n → List Call) (hk : ∀ t, ∀ c ∈ calls t, KeepsCache c) (σ : St n)
    (h : Steps (start calls) σ) : ¬ AccessAfterFree σ ∧ ¬ DoubleFree σ ∧ ¬ Dangling σ := by
  have hi := (inv_start calls (noFree_of hk)).steps h
  have zero : ∀ {s}, (σ.cell s).entry = 0 → (∀ t, ((σ.thread t).view.loc s).ref = 0 ∨
        ((σ.thread t).view.loc s).own = 0 ∧ ((σ.thread t).view.loc s).att = 0 ∧ ((σ.thread t).view.loc s).kept = 0) →
      (σ.cell s).mcount = 0 ∧ (σ.cell s).acount = 0 ∧ (σ.cell s).pool = 0 ∧
        ∀ t, ((σ.thread t).view.loc s).img = 0 ∧ ((σ.thread t).view.loc s).held = 0 := by
    intro s he hz
    have S := hi.sec s
    have hp : (σ.cell s).pool = 0 := by
      by_contra h
      exact S.pool h he
    have all : ∀ t, ((σ.thread t).view.loc s).own = 0 ∧ ((σ.thread t).view.loc s).att = 0 ∧
        ((σ.thread t).view.loc s).kept = 0 := by
      intro t
      rcases hz t with h0 | h0
      · have hkn : ((σ.thread t).view.loc s).known = false := by
          by_contra h
          exact S.known t (by simpa using h) he
        have := S.own t hkn
        have := S.att t
        have := S.kept t
        omega
      · exact h0
    refine ⟨?_, ?_, hp, fun t => ?_⟩
    · rw [S.mcount, hp, Finset.sum_eq_zero fun t _ => (all t).1]
    · rw [S.acount, he, Finset.sum_eq_zero fun t _ => (all t).2.1]
    · have := (all t).2.2
      simp only [Loc.kept] at this
      omega
  refine ⟨?_, ?_, ?_⟩
  · rintro ⟨t, s, p, ⟨h1, k, h2⟩, h3, h4⟩
    have S := hi.sec s
    have ob := hi.ob t
    rw [h2] at ob
    simp only [Thread.after, h1] at ob
    have ht : Touch ((σ.thread t).view.loc s) := by
      cases p <;> simp only [Accesses] at h3 <;> try subst h3
      case get => exact ob.1
      case put => exact Sec.map_touch (f := fun t => (σ.thread t).view.loc _) ob.2.2.1
      case map => exact Sec.map_touch (f := fun t => (σ.thread t).view.loc _) ob.1
      case unmap => exact S.own_touch (t := t) ob.1
      case access =>
        rcases ob.1 with o | o
        · exact o
        · exact S.own_touch (t := t) o
      case attach => exact .inl (by have := ob.1; omega)
      case detach => exact S.att_touch (t := t) ob.1
      case ifAtt => exact ob.1
    rcases h4 with h4 | ⟨u, h4⟩
    · rw [S.touch_alive (t := t) ht] at h4; cases h4
    · have := S.quiet (t := t) ht h4
      subst this
      rw [h1] at h4; cases h4
  · rintro ⟨t, s, h1, h2⟩
    have S := hi.sec s
    obtain ⟨b1, b2, b3, b4⟩ := S.busy t h1
    rcases h2 with h2 | ⟨u, h2, h3⟩
    · rw [S.alive.2 (by omega)] at h2; cases h2
    · exact h2 (S.quiet (t := t) (.inl (by omega)) h3)
  · rintro ⟨s, h1, h2⟩
    have S := hi.sec s
    have fin : (σ.cell s).entry = 0 ∧ (σ.cell s).mcount = 0 ∧ (σ.cell s).acount = 0 ∧ (σ.cell s).pool = 0 ∧
        ∀ t, ((σ.thread t).view.loc s).img = 0 ∧ ((σ.thread t).view.loc s).held = 0 := by
      rcases h1 with h1 | ⟨u, h1⟩
      · have hu : (σ.cell s).ucount = 0 := by
          by_contra h
          rw [S.alive.2 h] at h1; cases h1
        have hent : (σ.cell s).entry = 0 := by have := S.ucount; omega
        exact ⟨hent, zero hent fun t => .inl (by have := S.ref_le t; omega)⟩
      · obtain ⟨b1, b2, b3, b4⟩ := S.busy u h1
        have hr := S.ref_le u
        have hent : (σ.cell s).entry = 0 := by omega
        refine ⟨hent, zero hent fun t => ?_⟩
        by_cases htu : t = u
        · subst htu
          have := S.own_le t
          exact .inr ⟨by omega, by omega, by omega⟩
        · refine .inl ?_
          by_contra h
          exact htu (S.lone hent t u (by omega) (by omega))
    obtain ⟨f1, f2, f3, f4, f5⟩ := fin
    rcases h2 with h2 | h2 | h2 | h2 | ⟨t, h2 | h2⟩
    · exact h2 f2
    · exact h2 f3
    · exact h2 f1
    · exact h2 f4
    · exact h2 (f5 t).1
    · exact h2 (f5 t).2

/-- A thread adds a file to a cache, adds the section to an image, gets it for a decoder, and removes it from the image.  Another
one reads from the section: it has three users. -/
example : ∃ σ : St 2,
    Steps (start fun t => if t = 0 then [.iscacheAddFile, .imageAddCached true, .decoderFill, .imageRemove]
      else [.iscacheRead]) σ ∧
    (accessing σ 1 0 && (σ.cell 0).ucount == 3 && (σ.cell 0).mcount == 3 && (σ.cell 0).alive) = true :=
  exec_any (l := [(0, 62, [1, 0, 1, 0, 0, 0, 0, 0, 0, 0, 0, 1, 0, 0]), (1, 34, [0, 1, 1, 1, 1, 0, 0])]) (by decide +kernel)

/-- A thread removes a section from its image while one of its decoders has it in its cache.  It exists until the
decoder drops it. -/
example : ∃ σ : St 1,
    Steps (start fun _ => [.imageAddFile, .decoderFill, .imageRemove, .decoderForget]) σ ∧
    ((σ.cell 0).alive && ((σ.thread 0).view.loc 0).img == 0 && ((σ.thread 0).view.loc 0).held == 1) = true :=
  exec_any (l := [(0, 31, [0, 0, 0, 0, 1, 0])]) (by decide +kernel)

example : ∃ σ : St 1,
    Steps (start fun _ => [.imageAddFile, .decoderFill, .imageRemove, .decoderForget]) σ ∧
    ((σ.thread 0).freeing == some 0) = true :=
  exec_any (l := [(0, 38, [0, 0, 0, 0, 1, 0, 0, 0])]) (by decide +kernel)

/-- C70: no thread finds the reference count, the map count and the attach count of a section inconsistent. -/
theorem C70_counts {n : Nat} (calls : Fin n → List Call) (hk : ∀ t, ∀ c ∈ calls t, KeepsCache c) (σ : St n)
    (h : Steps (start calls) σ) : ¬ Inconsistent σ := by
  have hi := (inv_start calls (noFree_of hk)).steps h
  have ob : ∀ {t p}, Next σ t p → ∃ k, wp p (wpL k) (σ.thread t).view := by
    rintro t p ⟨h1, k, h2⟩
    have := hi.ob t
    rw [h2] at this
    simp only [Thread.after, h1] at this
    exact ⟨k, this⟩
  rintro ⟨t, s, ⟨h1, h2⟩ | ⟨h1, h2⟩ | ⟨h1, h2⟩ | ⟨h1, h2⟩⟩ <;> obtain ⟨k, o⟩ := ob h1
  · exact hi.put_good o.1 o.2.2.1 h2
  · have := (hi.sec s).own_le t
    have := o.1
    omega
  · have := (hi.sec s).acount_le t
    have := o.1
    omega
  · have := (hi.sec s).acount_le t
    have := (hi.sec s).att_le t
    have := (hi.sec s).att t
    have := o.1
    omega


/-- C71, without calls that have an address space identifier that cannot be read: when all threads have
finished, a section exists if and only if an image, a decoder or a cache refers to it, and
its reference count says how many of them do. -/
theorem C71_nothing_left_partial {n : Nat} (calls : Fin n → List Call) (hk : ∀ t, ∀ c ∈ calls t, KeepsCache c)
    (ha : ∀ t, ∀ c ∈ calls t, GoodAsid c) (σ : St n) (h : Steps (start calls) σ) (hd : AllDone σ) (s : Nat) :
    (σ.cell s).ucount = uses σ s ∧ ((σ.cell s).alive = true ↔ uses σ s ≠ 0) := by
  have hi := (inv_start calls (noFree_of hk)).steps h
  have hl := steps_keeps calls ha h
  have S := hi.sec s
  have hu : (σ.cell s).ucount = uses σ s := by
    rw [S.ucount, uses]
    congr 1
    refine Finset.sum_congr rfl fun t _ => ?_
    have := hi.ob t
    rw [(hd t).2] at this
    simp only [Thread.after, (hd t).1] at this
    rw [(this s).1, Loc.kept, (hl t).2 s]
    omega
  exact ⟨hu, by rw [S.alive, hu]⟩

/-- The thread of the last example has freed its section. -/
example : ∃ σ : St 1,
    Steps (start fun _ => [.imageAddFile, .decoderFill, .imageRemove, .decoderForget]) σ ∧
    (finished σ 0 && !(σ.cell 0).alive && (σ.cell 0).ucount == 0) = true :=
  exec_any (l := [(0, 39, [0, 0, 0, 0, 1, 0, 0, 0])]) (by decide +kernel)

/-- Two threads have finished.  The section is in the cache and in a decoder. -/
example : ∃ σ : St 2,
    Steps (start fun t => if t = 0 then [.iscacheAddFile, .imageAddCached true, .decoderFill, .imageRemove]
      else [.iscacheRead]) σ ∧
    (finished σ 0 && finished σ 1 && (σ.cell 0).ucount == 2 && (σ.cell 0).alive) = true :=
  exec_any (l := [(0, 63, [1, 0, 1, 0, 0, 0, 0, 0, 0, 0, 0, 1, 0, 0]), (1, 37, [0, 1, 1, 1, 1, 0, 0])]) (by decide +kernel)

/-- `C71_nothing_left_partial` needs `GoodAsid`: a thread that adds a section from a cache to an image with a bad address space
identifier keeps a reference.  The section exists although nobody uses it, even after the cache has been freed. -/
theorem C71_bad_asid_leaks : ∃ σ : St 1,
    Steps (start fun _ => [.iscacheAddFile, .imageAddCached false, .iscacheFree [] [0]]) σ ∧ AllDone σ ∧
    uses σ 0 = 0 ∧ (σ.cell 0).alive = true := by
  obtain ⟨σ, h1, h2⟩ := exec_any (σ := start fun _ : Fin 1 => [.iscacheAddFile, .imageAddCached false, .iscacheFree [] [0]])
    (l := [(0, 41, [1, 0, 1, 0, 0, 0])])
    (p := fun σ => finished σ 0 && (σ.cell 0).alive && ((σ.thread 0).view.loc 0).img == 0 &&
      ((σ.thread 0).view.loc 0).held == 0 && (σ.cell 0).entry == 0) (by decide +kernel)
  simp only [finished, Bool.and_eq_true, beq_iff_eq, Option.isNone_iff_eq_none, List.isEmpty_iff] at h2
  obtain ⟨⟨⟨⟨h3, h4⟩, h5⟩, h6⟩, h7⟩ := h2
  refine ⟨σ, h1, fun t => ?_, ?_, h4⟩
  · rw [Subsingleton.elim t 0]; exact h3
  · simp [uses, h5, h6, h7]

/-- `C70_counts` needs `KeepsCache`: while one thread frees an image section cache, another one has removed a section from the
list of recently used ones and has not unmapped it yet.  Freeing the cache fails in the middle. -/
theorem C70_free_cache_fails : ∃ σ : St 2,
    Steps (start fun t => if t = 0 then [.iscacheAddFile, .iscacheFree [] [0]] else [.iscacheRead, .iscacheSetLimit]) σ ∧
    Inconsistent σ := by
  obtain ⟨σ, h1, h2⟩ := exec_any
    (σ := start fun t : Fin 2 =>
      if t = 0 then [.iscacheAddFile, .iscacheFree [] [0]] else [.iscacheRead, .iscacheSetLimit])
    (l := [(0, 18, [1, 0, 1, 0, 0]), (1, 43, [0, 1, 1, 1, 1, 0, 0, 1]), (0, 13, [])])
    (p := fun σ => putting σ 0 0 && (σ.cell 0).ucount == 1 && (σ.cell 0).mcount != 0) (by decide +kernel)
  simp only [Bool.and_eq_true, beq_iff_eq, bne_iff_ne] at h2
  obtain ⟨⟨h3, h4⟩, h5⟩ := h2
  refine ⟨σ, h1, 0, 0, .inl ⟨?_, .inr ⟨h4, h5⟩⟩⟩
  unfold putting at h3
  split at h3
  · rename_i x k hf hc
    rw [beq_iff_eq] at h3
    subst h3
    exact ⟨hf, k, hc⟩
  · cases h3

end Props

end Ipt
