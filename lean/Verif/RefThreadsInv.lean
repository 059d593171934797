import Mathlib.Algebra.Order.BigOperators.Group.Finset
import Verif.RefThreads

/-!
# Invariants of threads that share section objects
-/

namespace Ipt.Refs

open Prog

/-- The references that are accounted for by images, decoders and forgotten ones. -/
def Loc.kept (l : Loc) : Nat := l.img + l.held + l.lost

/-- The thread may access the section object. -/
def Touch (l : Loc) : Prop := 1 ≤ l.ref ∨ l.known = true

/-- The thread may map the section. -/
def Mappable (l : Loc) : Prop := l.own + 1 ≤ l.ref ∨ l.known = true

/-- What must hold of a thread for `Q` to hold after `p`. -/
def wp : Prog → (View → Prop) → View → Prop
  | .get s, Q, v =>
    Touch (v.loc s) ∧ Q ((v.set s { v.loc s with ref := (v.loc s).ref + 1 }).ret true) ∧ Q (v.ret false)
  | .put s, Q, v =>
    (v.loc s).att + 1 ≤ (v.loc s).ref ∧ (v.loc s).kept + 1 ≤ (v.loc s).ref ∧ Mappable (v.loc s) ∧
      Q ((v.set s { v.loc s with ref := (v.loc s).ref - 1 }).ret true)
  | .mk s, Q, v => Q (v.set s { v.loc s with ref := (v.loc s).ref + 1 })
  | .map s, Q, v =>
    Mappable (v.loc s) ∧ Q ((v.set s { v.loc s with own := (v.loc s).own + 1 }).ret true) ∧ Q (v.ret false)
  | .unmap s, Q, v =>
    1 ≤ (v.loc s).own ∧ Q ((v.set s { v.loc s with own := (v.loc s).own - 1 }).ret true)
  | .access s, Q, v => (Touch (v.loc s) ∨ 1 ≤ (v.loc s).own) ∧ Q v
  | .attach s, Q, v =>
    (v.loc s).att + 1 ≤ (v.loc s).ref ∧ Q ((v.set s { v.loc s with att := (v.loc s).att + 1 }).ret true) ∧ Q (v.ret false)
  | .detach s, Q, v =>
    1 ≤ (v.loc s).att ∧ Q ((v.set s { v.loc s with att := (v.loc s).att - 1 }).ret true)
  | .insert s, Q, v =>
    1 ≤ (v.loc s).att ∧ (v.loc s).kept + 1 ≤ (v.loc s).ref ∧
      Q (v.set s { v.loc s with ref := (v.loc s).ref - 1, att := (v.loc s).att - 1, known := true })
  | .remove _, _, _ => False
  | .find s, Q, v => Q (v.set s { v.loc s with known := true })
  | .give s, Q, v =>
    (v.loc s).known = true ∧ 1 ≤ (v.loc s).own ∧ Q (v.set s { v.loc s with own := (v.loc s).own - 1 })
  | .take s, Q, v => Q (v.set s { v.loc s with own := (v.loc s).own + 1, known := true })
  | .imgAdd s, Q, v =>
    (v.loc s).kept + 1 ≤ (v.loc s).ref ∧ Q (v.set s { v.loc s with img := (v.loc s).img + 1 })
  | .imgDel s, Q, v => (v.loc s).img ≠ 0 → Q (v.set s { v.loc s with img := (v.loc s).img - 1 })
  | .imgFind s, Q, v => (v.loc s).img ≠ 0 → Q v
  | .hold s, Q, v =>
    (v.loc s).kept + 1 ≤ (v.loc s).ref ∧ Q (v.set s { v.loc s with held := (v.loc s).held + 1 })
  | .unhold s, Q, v => (v.loc s).held ≠ 0 → Q (v.set s { v.loc s with held := (v.loc s).held - 1 })
  | .heldFind s, Q, v => (v.loc s).held ≠ 0 → Q v
  | .lose s, Q, v =>
    (v.loc s).kept + 1 ≤ (v.loc s).ref ∧ Q (v.set s { v.loc s with lost := (v.loc s).lost + 1 })
  | .ifAtt s p q, Q, v =>
    Touch (v.loc s) ∧ (v.loc s).att = 0 ∧ wp p Q (v.set s { v.loc s with known := true }) ∧ wp q Q v
  | .skip, Q, v => Q v
  | .done b, Q, v => Q (v.ret b)
  | .seq p q, Q, v => wp p (wp q Q) v
  | .alt p q, Q, v => wp p Q v ∧ wp q Q v
  | .ifOk p q, Q, v => (v.res = true → wp p Q v) ∧ (v.res = false → wp q Q v)
  | .any f, Q, v => ∀ s, wp (f s) Q v
  | .anyList f, Q, v => ∀ l, wp (f l) Q v
  | .star p, Q, v => ∃ I : View → Prop, I v ∧ (∀ x, I x → wp p I x) ∧ ∀ x, I x → Q x

theorem wp_mono {p Q R} (h : ∀ v, Q v → R v) (v : View) : wp p Q v → wp p R v := by
  induction p generalizing Q R v with
  | get => exact fun k => ⟨k.1, h _ k.2.1, h _ k.2.2⟩
  | put => exact fun k => ⟨k.1, k.2.1, k.2.2.1, h _ k.2.2.2⟩
  | mk => exact h _
  | map => exact fun k => ⟨k.1, h _ k.2.1, h _ k.2.2⟩
  | unmap => exact fun k => ⟨k.1, h _ k.2⟩
  | access => exact fun k => ⟨k.1, h _ k.2⟩
  | attach => exact fun k => ⟨k.1, h _ k.2.1, h _ k.2.2⟩
  | detach => exact fun k => ⟨k.1, h _ k.2⟩
  | insert => exact fun k => ⟨k.1, k.2.1, h _ k.2.2⟩
  | remove => exact id
  | find => exact h _
  | give => exact fun k => ⟨k.1, k.2.1, h _ k.2.2⟩
  | take => exact h _
  | imgAdd => exact fun k => ⟨k.1, h _ k.2⟩
  | imgDel => exact fun k e => h _ (k e)
  | imgFind => exact fun k e => h _ (k e)
  | hold => exact fun k => ⟨k.1, h _ k.2⟩
  | unhold => exact fun k e => h _ (k e)
  | heldFind => exact fun k e => h _ (k e)
  | lose => exact fun k => ⟨k.1, h _ k.2⟩
  | ifAtt s p q hp hq => exact fun k => ⟨k.1, k.2.1, hp h _ k.2.2.1, hq h _ k.2.2.2⟩
  | skip => exact h v
  | done => exact h _
  | seq p q hp hq => exact hp (fun v => hq h v) v
  | alt p q hp hq => exact fun k => ⟨hp h v k.1, hq h v k.2⟩
  | ifOk p q hp hq => exact fun k => ⟨fun e => hp h v (k.1 e), fun e => hq h v (k.2 e)⟩
  | any f hf => exact fun k l => hf l h v (k l)
  | anyList f hf => exact fun k l => hf l h v (k l)
  | star p hp => exact fun ⟨I, h1, h2, h3⟩ => ⟨I, h1, h2, fun x hx => h x (h3 x hx)⟩

/-- What must hold of a thread that has `k` to do: in the end, it is not responsible for anything except what its images
and decoders refer to. -/
def wpL : List Prog → View → Prop
  | [] => fun v => ∀ s, (v.loc s).ref = (v.loc s).kept ∧ (v.loc s).own = (v.loc s).held ∧ (v.loc s).att = 0
  | p :: k => wp p (wpL k)

/-- The view of a thread after freeing the section it is about to free. -/
def Thread.after (x : Thread) : View :=
  match x.freeing with
  | none => x.view
  | some s => x.view.set s { x.view.loc s with ref := (x.view.loc s).ref - 1 }

section
variable {n : Nat}

/-- What holds of a section that threads have `f` to do with, and of which `b` says if they are freeing it. -/
structure Sec (c : Cell) (f : Fin n → Loc) (b : Fin n → Prop) : Prop where
  ucount : c.ucount = (∑ t, (f t).ref) + c.entry
  mcount : c.mcount = (∑ t, (f t).own) + c.pool
  acount : c.acount = (∑ t, (f t).att) + c.entry
  lone : c.entry = 0 → ∀ t u, 1 ≤ (f t).ref → 1 ≤ (f u).ref → t = u
  pool : c.pool ≠ 0 → c.entry ≠ 0
  known : ∀ t, (f t).known = true → c.entry ≠ 0
  att : ∀ t, (f t).att ≤ (f t).ref
  own : ∀ t, (f t).known = false → (f t).own ≤ (f t).ref
  kept : ∀ t, (f t).kept ≤ (f t).ref
  alive : c.alive = true ↔ c.ucount ≠ 0
  busy : ∀ t, b t → c.ucount = 1 ∧ c.mcount = 0 ∧ (f t).att + 1 ≤ (f t).ref ∧ (f t).kept + 1 ≤ (f t).ref

structure Inv (σ : St n) : Prop where
  sec : ∀ s, Sec (σ.cell s) (fun t => (σ.thread t).view.loc s) (fun t => (σ.thread t).freeing = some s)
  ob : ∀ t, wpL (σ.thread t).code (σ.thread t).after

theorem sum_change {f g : Fin n → Nat} (t : Fin n) (h : ∀ u, u ≠ t → g u = f u) :
    (∑ u, g u) + f t = (∑ u, f u) + g t := by
  have h1 := Finset.add_sum_erase Finset.univ f (Finset.mem_univ t)
  have h2 := Finset.add_sum_erase Finset.univ g (Finset.mem_univ t)
  have h3 : ∑ x ∈ Finset.univ.erase t, g x = ∑ x ∈ Finset.univ.erase t, f x :=
    Finset.sum_congr rfl fun x hx => h x (Finset.ne_of_mem_erase hx)
  omega

theorem le_sum {f : Fin n → Nat} (t : Fin n) : f t ≤ ∑ u, f u := by
  have h1 := Finset.add_sum_erase Finset.univ f (Finset.mem_univ t)
  omega

theorem exists_of_sum {f : Fin n → Nat} (h : (∑ u, f u) ≠ 0) : ∃ t, f t ≠ 0 := by
  by_contra hc
  push Not at hc
  exact h (Finset.sum_eq_zero fun t _ => hc t)

@[simp] theorem upd_same {α β : Type} [DecidableEq α] (f : α → β) (a : α) (b : β) : upd f a b a = b := if_pos rfl
theorem upd_ne {α β : Type} [DecidableEq α] (f : α → β) {a x : α} (b : β) (h : x ≠ a) : upd f a b x = f x := if_neg h

namespace Sec
variable {c : Cell} {f : Fin n → Loc} {b : Fin n → Prop} {t u : Fin n}

theorem ref_le (h : Sec c f b) (t : Fin n) : (f t).ref + c.entry ≤ c.ucount := by
  have := h.ucount
  have := le_sum (f := fun u => (f u).ref) t
  omega

theorem own_le (h : Sec c f b) (t : Fin n) : (f t).own + c.pool ≤ c.mcount := by
  have := h.mcount
  have := le_sum (f := fun u => (f u).own) t
  omega

theorem att_le (h : Sec c f b) (t : Fin n) : (f t).att + c.entry ≤ c.acount := by
  have := h.acount
  have := le_sum (f := fun u => (f u).att) t
  omega

/-- The attachments do not exceed the references. -/
theorem acount_le (h : Sec c f b) (t : Fin n) : c.acount + (f t).ref ≤ c.ucount + (f t).att := by
  have h1 := Finset.add_sum_erase Finset.univ (fun u => (f u).ref) (Finset.mem_univ t)
  have h2 := Finset.add_sum_erase Finset.univ (fun u => (f u).att) (Finset.mem_univ t)
  have h3 : ∑ x ∈ Finset.univ.erase t, (f x).att ≤ ∑ x ∈ Finset.univ.erase t, (f x).ref :=
    Finset.sum_le_sum fun x _ => h.att x
  have := h.ucount
  have := h.acount
  omega

/-- While a thread is freeing a section, others do not access it. -/
theorem quiet (h : Sec c f b) (ht : Touch (f t)) (hu : b u) : u = t := by
  obtain ⟨h1, _, h3, _⟩ := h.busy u hu
  have h4 := h.ref_le u
  rcases ht with ht | ht
  · exact h.lone (by omega) u t (by omega) ht
  · have := h.known t ht
    omega

theorem touch_alive (h : Sec c f b) (ht : Touch (f t)) : c.alive = true := by
  rw [h.alive]
  have := h.ref_le t
  rcases ht with ht | ht
  · omega
  · have := h.known t ht
    omega

theorem map_touch (h : Mappable (f t)) : Touch (f t) := by
  rcases h with h | h
  · exact .inl (by omega)
  · exact .inr h

theorem own_touch (h : Sec c f b) (ho : 1 ≤ (f t).own) : Touch (f t) := by
  rcases Bool.eq_false_or_eq_true (f t).known with hk | hk
  · exact .inr hk
  · have := h.own t hk
    exact .inl (by omega)

theorem att_touch (h : Sec c f b) (ho : 1 ≤ (f t).att) : Touch (f t) := .inl (by have := h.att t; omega)

/-- A section that is attached to a cache, although not by this thread, is in a cache. -/
theorem attached (h : Sec c f b) (ht : Touch (f t)) (ha : (f t).att = 0) (hc : c.acount ≠ 0) : c.entry ≠ 0 := by
  intro he
  have h1 := h.acount
  obtain ⟨u, hu⟩ := exists_of_sum (f := fun u => (f u).att) (by omega)
  have h2 := h.att u
  rcases ht with ht | ht
  · have := h.lone he u t (by omega) ht
    subst this
    exact hu ha
  · exact h.known t ht he

/-- Thread `t` changes the section. -/
theorem change {c' : Cell} {g : Fin n → Loc} (h : Sec c f b) (hb : ¬ b t) (hg : ∀ u, u ≠ t → g u = f u)
    (hu : c'.ucount + (f t).ref + c.entry = c.ucount + (g t).ref + c'.entry)
    (hm : c'.mcount + (f t).own + c.pool = c.mcount + (g t).own + c'.pool)
    (ha : c'.acount + (f t).att + c.entry = c.acount + (g t).att + c'.entry)
    (lone : c'.entry = 0 → c.entry = 0 ∧ ∀ u, u ≠ t → 1 ≤ (f u).ref → (g t).ref = 0)
    (pool : c'.pool ≠ 0 → c'.entry ≠ 0)
    (known : (g t).known = true → c'.entry ≠ 0)
    (att : (g t).att ≤ (g t).ref) (own : (g t).known = false → (g t).own ≤ (g t).ref) (kept : (g t).kept ≤ (g t).ref)
    (alive : c'.alive = true ↔ c'.ucount ≠ 0)
    (busy : ∀ u, u ≠ t → b u → c'.ucount = c.ucount ∧ c'.mcount = c.mcount) : Sec c' g b where
  ucount := by
    have h1 := sum_change (f := fun u => (f u).ref) (g := fun u => (g u).ref) t (fun u hu => by show _ = _; rw [hg u hu])
    have h2 := h.ucount
    omega
  mcount := by
    have h1 := sum_change (f := fun u => (f u).own) (g := fun u => (g u).own) t (fun u hu => by show _ = _; rw [hg u hu])
    have h2 := h.mcount
    omega
  acount := by
    have h1 := sum_change (f := fun u => (f u).att) (g := fun u => (g u).att) t (fun u hu => by show _ = _; rw [hg u hu])
    have h2 := h.acount
    omega
  lone := by
    intro he x y hx hy
    obtain ⟨h1, h2⟩ := lone he
    by_cases ex : x = t
    · by_cases ey : y = t
      · rw [ex, ey]
      · rw [hg y ey] at hy
        have := h2 y ey hy
        rw [ex] at hx
        omega
    · rw [hg x ex] at hx
      by_cases ey : y = t
      · have := h2 x ex hx
        rw [ey] at hy
        omega
      · rw [hg y ey] at hy
        exact h.lone h1 x y hx hy
  pool := pool
  known := by
    intro x hx
    by_cases ex : x = t
    · subst ex; exact known hx
    · rw [hg x ex] at hx
      exact fun he => h.known x hx (lone he).1
  att := by
    intro x
    by_cases ex : x = t
    · subst ex; exact att
    · rw [hg x ex]; exact h.att x
  own := by
    intro x
    by_cases ex : x = t
    · subst ex; exact own
    · rw [hg x ex]; exact h.own x
  kept := by
    intro x
    by_cases ex : x = t
    · subst ex; exact kept
    · rw [hg x ex]; exact h.kept x
  alive := alive
  busy := by
    intro x hx
    by_cases ex : x = t
    · subst ex; exact absurd hx hb
    · obtain ⟨h1, h2⟩ := busy x ex hx
      rw [hg x ex, h1, h2]
      exact h.busy x hx

end Sec

variable {σ σ' : St n} {t : Fin n}

/-- Nothing changes about a section. -/
theorem Sec.same {c : Cell} {f g : Fin n → Loc} {b d : Fin n → Prop} (h : Sec c f b) (hg : ∀ u, g u = f u)
    (hd : ∀ u, d u → b u) : Sec c g d := by
  have : g = f := funext hg
  subst this
  exact { h with busy := fun t ht => h.busy t (hd t ht) }

/-- Thread `t` changes section `s` and goes on. -/
theorem Inv.act {k : List Prog} {s : Nat} {c : Cell} {v : View} (hi : Inv σ) (hf : (σ.thread t).freeing = none)
    (hv : ∀ x, x ≠ s → v.loc x = (σ.thread t).view.loc x) (ob : wpL k v)
    (hs : ∀ g : Fin n → Loc, (∀ u, u ≠ t → g u = (σ.thread u).view.loc s) → g t = v.loc s →
      Sec c g (fun t => (σ.thread t).freeing = some s)) : Inv (σ.act t k s c v) where
  sec := by
    intro x
    have e : ∀ u, ((σ.act t k s c v).thread u).freeing = (σ.thread u).freeing := by
      intro u
      by_cases hu : u = t
      · subst hu; simp [St.act]
      · simp [St.act, upd_ne _ _ hu]
    by_cases hx : x = s
    · subst hx
      have := hs (fun u => ((σ.act t k x c v).thread u).view.loc x)
        (fun u hu => by simp [St.act, upd_ne _ _ hu]) (by simp [St.act])
      simp only [e]
      simpa [St.act] using this
    · have h1 : (σ.act t k s c v).cell x = σ.cell x := upd_ne _ _ hx
      rw [h1]
      refine (hi.sec x).same ?_ ?_
      · intro u
        by_cases hu : u = t
        · subst hu; simp [St.act, hv x hx]
        · simp [St.act, upd_ne _ _ hu]
      · intro u hu; rwa [e] at hu
  ob := by
    intro u
    by_cases hu : u = t
    · subst hu
      simpa [St.act, Thread.after, hf] using ob
    · simpa [St.act, upd_ne _ _ hu] using hi.ob u

/-- Thread `t` goes on. -/
theorem Inv.run {k : List Prog} {v : View} (hi : Inv σ) (hf : (σ.thread t).freeing = none)
    (hv : ∀ x, v.loc x = (σ.thread t).view.loc x) (ob : wpL k v) : Inv (σ.run t k v) := by
  have h : σ.run t k v = σ.act t k 0 (σ.cell 0) v := by
    simp only [St.run, St.act]
    congr 1
    funext x
    by_cases hx : x = 0
    · subst hx; simp
    · rw [upd_ne _ _ hx]
  rw [h]
  refine hi.act hf (fun x _ => hv x) ob fun g hg hgt => (hi.sec 0).same (fun u => ?_) fun u hu => hu
  by_cases hu : u = t
  · subst hu; rw [hgt, hv]
  · exact hg u hu

/-- Thread `t` changes what it has to do with section `s`, and goes on. -/
theorem Inv.runAt {k : List Prog} {s : Nat} {l : Loc} (hi : Inv σ) (hf : (σ.thread t).freeing = none)
    (ob : wpL k ((σ.thread t).view.set s l))
    (hs : ∀ g : Fin n → Loc, (∀ u, u ≠ t → g u = (σ.thread u).view.loc s) → g t = l →
      Sec (σ.cell s) g (fun t => (σ.thread t).freeing = some s)) : Inv (σ.run t k ((σ.thread t).view.set s l)) := by
  have h : σ.run t k ((σ.thread t).view.set s l) = σ.act t k s (σ.cell s) ((σ.thread t).view.set s l) := by
    simp only [St.run, St.act]
    congr 1
    funext x
    by_cases hx : x = s
    · subst hx; simp
    · rw [upd_ne _ _ hx]
  rw [h]
  refine hi.act hf (fun x hx => upd_ne _ _ hx) ob fun g hg hgt => hs g hg ?_
  rw [hgt]; simp [View.set]


/-- A thread that drops one of its references does not find the counts inconsistent. -/
theorem Inv.put_good {s : Nat} (hi : Inv σ) (o1 : ((σ.thread t).view.loc s).att + 1 ≤ ((σ.thread t).view.loc s).ref)
    (o3 : Mappable ((σ.thread t).view.loc s)) :
    ¬ ((σ.cell s).ucount = 0 ∨ ((σ.cell s).ucount = 1 ∧ (σ.cell s).mcount ≠ 0)) := by
  intro hc
  have S := hi.sec s
  have h1 := S.ref_le t
  rcases hc with hc | ⟨hc, hm⟩
  · omega
  · have hent : (σ.cell s).entry = 0 := by omega
    have hp : (σ.cell s).pool = 0 := by
      by_contra h
      exact S.pool h hent
    have hsum := S.mcount
    obtain ⟨u, hu⟩ := exists_of_sum (f := fun u => ((σ.thread u).view.loc s).own) (by omega)
    have hk : ((σ.thread u).view.loc s).known = false := by
      by_contra h
      exact S.known u (by simpa using h) hent
    have h2 := S.own u hk
    have h3 := S.lone hent u t (by omega) (by omega)
    subst h3
    rcases o3 with o3 | o3
    · omega
    · rw [hk] at o3; cases o3

/-- A step of a thread that is not freeing a section. -/
theorem Inv.free {p : Prog} {k : List Prog} (hi : Inv σ) (hf : (σ.thread t).freeing = none)
    (ob : wp p (wpL k) (σ.thread t).view) (h : Free σ t k p σ') : Inv σ' := by
  have nb : ∀ s, ¬ (σ.thread t).freeing = some s := fun s => by rw [hf]; simp
  have setne : ∀ (v : View) (s : Nat) (l : Loc) (x : Nat), x ≠ s → (v.set s l).loc x = v.loc x :=
    fun v s l x hx => upd_ne _ _ hx
  cases h with
  | @get s hc =>
    have S := hi.sec s
    refine hi.act hf (fun x hx => upd_ne _ _ hx) ob.2.1 fun g hg hgt => ?_
    replace hgt : g t = { (σ.thread t).view.loc s with ref := ((σ.thread t).view.loc s).ref + 1 } := by
      rw [hgt]; simp [View.set, View.ret]
    have ht := ob.1
    refine S.change (nb s) hg ?_ ?_ ?_ ?_ S.pool ?_ ?_ ?_ ?_ ?_ ?_ <;> try rewrite [hgt]
    iterate 3 (on_goal 1 => (first | (dsimp only at *; done) | (dsimp only at *; omega)))
    · intro he
      refine ⟨he, fun u hu h1 => absurd ?_ hu⟩
      rcases ht with ht | ht
      · exact S.lone he u t h1 ht
      · exact absurd he (S.known t ht)
    · exact S.known t
    · have := S.att t; dsimp only; omega
    · intro h; have := S.own t h; dsimp only; omega
    · have := S.kept t; simp only [Loc.kept] at *; omega
    · have := S.touch_alive ht; simp [this]
    · intro u hu h1
      exact absurd (S.quiet ht h1) hu
  | @getMany s hc => exact hi.run hf (fun x => rfl) ob.2.2
  | @put s hc =>
    have S := hi.sec s
    obtain ⟨o1, o2, o3, o4⟩ := ob
    refine hi.act hf (fun x hx => upd_ne _ _ hx) o4 fun g hg hgt => ?_
    replace hgt : g t = { (σ.thread t).view.loc s with ref := ((σ.thread t).view.loc s).ref - 1 } := by
      rw [hgt]; simp [View.set, View.ret]
    have ht := Sec.map_touch (f := fun t => (σ.thread t).view.loc s) o3
    have hm : Mappable ((σ.thread t).view.loc s) := o3
    have ha := S.touch_alive ht
    refine S.change (nb s) hg ?_ ?_ ?_ ?_ S.pool ?_ ?_ ?_ ?_ ?_ ?_ <;> try rewrite [hgt]
    iterate 3 (on_goal 1 => (first | (dsimp only at *; done) | (dsimp only at *; omega)))
    · intro he
      refine ⟨he, fun u hu h1 => absurd ?_ hu⟩
      rcases ht with ht | ht
      · exact S.lone he u t h1 ht
      · exact absurd he (S.known t ht)
    · exact S.known t
    · dsimp only; omega
    · intro h
      dsimp only at h ⊢
      rcases hm with hm | hm
      · omega
      · rw [hm] at h; cases h
    · simp only [Loc.kept] at *; omega
    · simp [ha]; omega
    · intro u hu h1
      exact absurd (S.quiet ht h1) hu
  | @putLast s h1 h2 =>
    have S := hi.sec s
    obtain ⟨o1, o2, o3, o4⟩ := ob
    have ht := Sec.map_touch (f := fun t => (σ.thread t).view.loc s) o3
    constructor
    · intro x
      have e : ∀ u, (upd σ.thread t ⟨k, some s, (σ.thread t).view.ret true⟩ u).view.loc = (σ.thread u).view.loc := by
        intro u
        by_cases hu : u = t
        · subst hu; simp [View.ret]
        · simp [upd_ne _ _ hu]
      have e2 : ∀ u, u ≠ t →
          (upd σ.thread t ⟨k, some s, (σ.thread t).view.ret true⟩ u).freeing = (σ.thread u).freeing := by
        intro u hu; simp [upd_ne _ _ hu]
      dsimp only
      simp only [e]
      by_cases hx : x = s
      · subst hx
        refine { S with busy := fun u hu => ?_ }
        by_cases hut : u = t
        · subst hut; exact ⟨h1, h2, o1, o2⟩
        · rw [e2 u hut] at hu
          exact S.busy u hu
      · refine (hi.sec x).same (fun _ => rfl) fun u hu => ?_
        by_cases hut : u = t
        · subst hut
          simp at hu
          exact absurd hu.symm hx
        · rwa [e2 u hut] at hu
    · intro u
      by_cases hu : u = t
      · subst hu
        simpa [Thread.after, View.ret, View.set] using o4
      · simpa [upd_ne _ _ hu] using hi.ob u
  | @putBad s hc => exact absurd hc (hi.put_good ob.1 ob.2.2.1)
  | @mk s hc =>
    have S := hi.sec s
    have hz : (σ.cell s).ucount = 0 := by
      by_contra h
      rw [S.alive.2 h] at hc
      cases hc
    have hr : ∀ u, ((σ.thread u).view.loc s).ref = 0 := fun u => by have := S.ref_le u; omega
    have he : (σ.cell s).entry = 0 := by have := S.ref_le t; omega
    have hk : ∀ u, ((σ.thread u).view.loc s).known = false := by
      intro u
      by_contra h
      exact S.known u (by simpa using h) he
    have ho : ∀ u, ((σ.thread u).view.loc s).own = 0 := fun u => by
      have := S.own u (hk u); have := hr u; omega
    have ha : ∀ u, ((σ.thread u).view.loc s).att = 0 := fun u => by
      have := S.att u; have := hr u; omega
    have hp : (σ.cell s).pool = 0 := by
      by_contra h
      exact S.pool h he
    have hm : (σ.cell s).mcount = 0 := by
      rw [S.mcount, hp, Finset.sum_eq_zero fun u _ => ho u]
    have hac : (σ.cell s).acount = 0 := by
      rw [S.acount, he, Finset.sum_eq_zero fun u _ => ha u]
    refine hi.act hf (fun x hx => upd_ne _ _ hx) ob fun g hg hgt => ?_
    replace hgt : g t = { (σ.thread t).view.loc s with ref := ((σ.thread t).view.loc s).ref + 1 } := by
      rw [hgt]; simp [View.set]
    refine S.change (nb s) hg ?_ ?_ ?_ ?_ S.pool ?_ ?_ ?_ ?_ ?_ ?_ <;> try rewrite [hgt]
    iterate 3 (on_goal 1 => (first | (dsimp only at *; done) | (dsimp only at *; omega)))
    · intro _
      refine ⟨he, fun u hu h1 => ?_⟩
      have := hr u; omega
    · exact S.known t
    · have := S.att t; dsimp only at *; omega
    · intro h; have := S.own t h; dsimp only at *; omega
    · have := S.kept t; simp only [Loc.kept] at *; omega
    · simp
    · intro u hu h1
      have := (S.busy u h1).1
      omega
  | @map s =>
    have S := hi.sec s
    refine hi.act hf (fun x hx => upd_ne _ _ hx) ob.2.1 fun g hg hgt => ?_
    replace hgt : g t = { (σ.thread t).view.loc s with own := ((σ.thread t).view.loc s).own + 1 } := by
      rw [hgt]; simp [View.set, View.ret]
    have hm : Mappable ((σ.thread t).view.loc s) := ob.1
    have ht := Sec.map_touch (f := fun t => (σ.thread t).view.loc s) ob.1
    refine S.change (nb s) hg ?_ ?_ ?_ ?_ S.pool ?_ ?_ ?_ ?_ S.alive ?_ <;> try rewrite [hgt]
    iterate 3 (on_goal 1 => (first | (dsimp only at *; done) | (dsimp only at *; omega)))
    · intro he
      refine ⟨he, fun u hu h1 => absurd ?_ hu⟩
      rcases ht with ht | ht
      · exact S.lone he u t h1 ht
      · exact absurd he (S.known t ht)
    · exact S.known t
    · exact S.att t
    · intro h
      dsimp only at h ⊢
      rcases hm with hm | hm
      · omega
      · rw [hm] at h; cases h
    · exact S.kept t
    · intro u hu h1
      exact absurd (S.quiet ht h1) hu
  | @mapFail s => exact hi.run hf (fun x => rfl) ob.2.2
  | @unmap s hc =>
    have S := hi.sec s
    obtain ⟨o1, o2⟩ := ob
    refine hi.act hf (fun x hx => upd_ne _ _ hx) o2 fun g hg hgt => ?_
    replace hgt : g t = { (σ.thread t).view.loc s with own := ((σ.thread t).view.loc s).own - 1 } := by
      rw [hgt]; simp [View.set, View.ret]
    have ht := S.own_touch (t := t) o1
    refine S.change (nb s) hg ?_ ?_ ?_ ?_ S.pool ?_ ?_ ?_ ?_ S.alive ?_ <;> try rewrite [hgt]
    iterate 3 (on_goal 1 => (first | (dsimp only at *; done) | (dsimp only at *; omega)))
    · intro he
      refine ⟨he, fun u hu h1 => absurd ?_ hu⟩
      rcases ht with ht | ht
      · exact S.lone he u t h1 ht
      · exact absurd he (S.known t ht)
    · exact S.known t
    · exact S.att t
    · intro h; have := S.own t h; dsimp only at *; omega
    · exact S.kept t
    · intro u hu h1
      exact absurd (S.quiet ht h1) hu
  | @unmapBad s hc =>
    have := (hi.sec s).own_le t
    have := ob.1
    omega
  | @access s => exact hi.run hf (fun x => rfl) ob.2
  | @attach s h1 h2 =>
    have S := hi.sec s
    obtain ⟨o1, o2, o3⟩ := ob
    refine hi.act hf (fun x hx => upd_ne _ _ hx) o2 fun g hg hgt => ?_
    replace hgt : g t = { (σ.thread t).view.loc s with att := ((σ.thread t).view.loc s).att + 1 } := by
      rw [hgt]; simp [View.set, View.ret]
    refine S.change (nb s) hg ?_ ?_ ?_ ?_ S.pool ?_ ?_ ?_ ?_ S.alive ?_ <;> try rewrite [hgt]
    iterate 3 (on_goal 1 => (first | (dsimp only at *; done) | (dsimp only at *; omega)))
    · intro he
      exact ⟨he, fun u hu h1 => absurd (S.lone he u t h1 (by omega)) hu⟩
    · exact S.known t
    · dsimp only; omega
    · exact S.own t
    · exact S.kept t
    · exact fun _ _ _ => ⟨rfl, rfl⟩
  | @attachFail s => exact hi.run hf (fun x => rfl) ob.2.2
  | @detach s hc _ =>
    have S := hi.sec s
    obtain ⟨o1, o2⟩ := ob
    refine hi.act hf (fun x hx => upd_ne _ _ hx) o2 fun g hg hgt => ?_
    replace hgt : g t = { (σ.thread t).view.loc s with att := ((σ.thread t).view.loc s).att - 1 } := by
      rw [hgt]; simp [View.set, View.ret]
    have hl := S.att t
    refine S.change (nb s) hg ?_ ?_ ?_ ?_ S.pool ?_ ?_ ?_ ?_ S.alive ?_ <;> try rewrite [hgt]
    iterate 3 (on_goal 1 => (first | (dsimp only at *; done) | (dsimp only at *; omega)))
    · intro he
      exact ⟨he, fun u hu h1 => absurd (S.lone he u t h1 (by dsimp only at *; omega)) hu⟩
    · exact S.known t
    · dsimp only at *; omega
    · exact S.own t
    · exact S.kept t
    · exact fun _ _ _ => ⟨rfl, rfl⟩
  | @detachBad s hc =>
    exfalso
    have h1 := (hi.sec s).att_le t
    have h2 := (hi.sec s).acount_le t
    have h3 := (hi.sec s).att t
    have h4 := ob.1
    omega
  | @insert s =>
    have S := hi.sec s
    obtain ⟨o1, o2, o3⟩ := ob
    refine hi.act hf (fun x hx => upd_ne _ _ hx) o3 fun g hg hgt => ?_
    replace hgt : g t = { (σ.thread t).view.loc s with
        ref := ((σ.thread t).view.loc s).ref - 1, att := ((σ.thread t).view.loc s).att - 1, known := true } := by
      rw [hgt]; simp [View.set]
    have hl := S.att t
    refine S.change (nb s) hg ?_ ?_ ?_ ?_ ?_ ?_ ?_ ?_ ?_ S.alive ?_ <;> try rewrite [hgt]
    iterate 3 (on_goal 1 => (first | (dsimp only at *; done) | (dsimp only at *; omega)))
    · intro h; dsimp only at h; omega
    · intro _; dsimp only; omega
    · intro _; dsimp only; omega
    · dsimp only at *; omega
    · intro h; cases h
    · simp only [Loc.kept] at *; omega
    · exact fun _ _ _ => ⟨rfl, rfl⟩
  | @remove s hc => exact ob.elim
  | @find s hc =>
    have S := hi.sec s
    refine hi.runAt hf ob fun g hg hgt => ?_
    refine S.change (nb s) hg ?_ ?_ ?_ ?_ S.pool ?_ ?_ ?_ ?_ S.alive ?_ <;> try rewrite [hgt]
    iterate 3 (on_goal 1 => (first | (dsimp only at *; done) | (dsimp only at *; omega)))
    · intro he; exact absurd he hc
    · exact fun _ => hc
    · exact S.att t
    · intro h; cases h
    · exact S.kept t
    · exact fun _ _ _ => ⟨rfl, rfl⟩
  | @give s =>
    have S := hi.sec s
    obtain ⟨o1, o2, o3⟩ := ob
    refine hi.act hf (fun x hx => upd_ne _ _ hx) o3 fun g hg hgt => ?_
    replace hgt : g t = { (σ.thread t).view.loc s with own := ((σ.thread t).view.loc s).own - 1 } := by
      rw [hgt]; simp [View.set]
    have he := S.known t o1
    refine S.change (nb s) hg ?_ ?_ ?_ ?_ (fun _ => he) ?_ ?_ ?_ ?_ S.alive ?_ <;> try rewrite [hgt]
    iterate 3 (on_goal 1 => (first | (dsimp only at *; done) | (dsimp only at *; omega)))
    · exact fun h => absurd h he
    · exact fun _ => he
    · exact S.att t
    · intro h; have := S.own t h; dsimp only at *; omega
    · exact S.kept t
    · exact fun _ _ _ => ⟨rfl, rfl⟩
  | @take s hc =>
    have S := hi.sec s
    refine hi.act hf (fun x hx => upd_ne _ _ hx) ob fun g hg hgt => ?_
    replace hgt : g t = { (σ.thread t).view.loc s with
        own := ((σ.thread t).view.loc s).own + 1, known := true } := by
      rw [hgt]; simp [View.set]
    have he := S.pool hc
    refine S.change (nb s) hg ?_ ?_ ?_ ?_ (fun _ => he) ?_ ?_ ?_ ?_ S.alive ?_ <;> try rewrite [hgt]
    iterate 3 (on_goal 1 => (first | (dsimp only at *; done) | (dsimp only at *; omega)))
    · exact fun h => absurd h he
    · exact fun _ => he
    · exact S.att t
    · intro h; cases h
    · exact S.kept t
    · exact fun _ _ _ => ⟨rfl, rfl⟩
  | @imgAdd s =>
    have S := hi.sec s
    obtain ⟨o1, o2⟩ := ob
    refine hi.runAt hf o2 fun g hg hgt => ?_
    refine S.change (nb s) hg ?_ ?_ ?_ ?_ S.pool ?_ ?_ ?_ ?_ S.alive ?_ <;> try rewrite [hgt]
    iterate 3 (on_goal 1 => (first | (dsimp only at *; done) | (dsimp only at *; omega)))
    · intro he
      exact ⟨he, fun u hu h1 => absurd (S.lone he u t h1 (by omega)) hu⟩
    · exact S.known t
    · exact S.att t
    · exact S.own t
    · simp only [Loc.kept] at *; omega
    · exact fun _ _ _ => ⟨rfl, rfl⟩
  | @imgDel s hc =>
    have S := hi.sec s
    have hl := S.kept t
    refine hi.runAt hf (ob hc) fun g hg hgt => ?_
    refine S.change (nb s) hg ?_ ?_ ?_ ?_ S.pool ?_ ?_ ?_ ?_ S.alive ?_ <;> try rewrite [hgt]
    iterate 3 (on_goal 1 => (first | (dsimp only at *; done) | (dsimp only at *; omega)))
    · intro he
      exact ⟨he, fun u hu h1 => absurd (S.lone he u t h1 (by simp only [Loc.kept] at *; omega)) hu⟩
    · exact S.known t
    · exact S.att t
    · exact S.own t
    · simp only [Loc.kept] at *; omega
    · exact fun _ _ _ => ⟨rfl, rfl⟩
  | @imgFind s hc => exact hi.run hf (fun x => rfl) (ob hc)
  | @hold s =>
    have S := hi.sec s
    obtain ⟨o1, o2⟩ := ob
    refine hi.runAt hf o2 fun g hg hgt => ?_
    refine S.change (nb s) hg ?_ ?_ ?_ ?_ S.pool ?_ ?_ ?_ ?_ S.alive ?_ <;> try rewrite [hgt]
    iterate 3 (on_goal 1 => (first | (dsimp only at *; done) | (dsimp only at *; omega)))
    · intro he
      exact ⟨he, fun u hu h1 => absurd (S.lone he u t h1 (by omega)) hu⟩
    · exact S.known t
    · exact S.att t
    · exact S.own t
    · simp only [Loc.kept] at *; omega
    · exact fun _ _ _ => ⟨rfl, rfl⟩
  | @unhold s hc =>
    have S := hi.sec s
    have hl := S.kept t
    refine hi.runAt hf (ob hc) fun g hg hgt => ?_
    refine S.change (nb s) hg ?_ ?_ ?_ ?_ S.pool ?_ ?_ ?_ ?_ S.alive ?_ <;> try rewrite [hgt]
    iterate 3 (on_goal 1 => (first | (dsimp only at *; done) | (dsimp only at *; omega)))
    · intro he
      exact ⟨he, fun u hu h1 => absurd (S.lone he u t h1 (by simp only [Loc.kept] at *; omega)) hu⟩
    · exact S.known t
    · exact S.att t
    · exact S.own t
    · simp only [Loc.kept] at *; omega
    · exact fun _ _ _ => ⟨rfl, rfl⟩
  | @heldFind s hc => exact hi.run hf (fun x => rfl) (ob hc)
  | @lose s =>
    have S := hi.sec s
    obtain ⟨o1, o2⟩ := ob
    refine hi.runAt hf o2 fun g hg hgt => ?_
    refine S.change (nb s) hg ?_ ?_ ?_ ?_ S.pool ?_ ?_ ?_ ?_ S.alive ?_ <;> try rewrite [hgt]
    iterate 3 (on_goal 1 => (first | (dsimp only at *; done) | (dsimp only at *; omega)))
    · intro he
      exact ⟨he, fun u hu h1 => absurd (S.lone he u t h1 (by omega)) hu⟩
    · exact S.known t
    · exact S.att t
    · exact S.own t
    · simp only [Loc.kept] at *; omega
    · exact fun _ _ _ => ⟨rfl, rfl⟩
  | @attYes s p q hc =>
    have S := hi.sec s
    obtain ⟨o1, o2, o3, o4⟩ := ob
    have he := S.attached (t := t) o1 o2 hc
    refine hi.runAt hf o3 fun g hg hgt => ?_
    refine S.change (nb s) hg ?_ ?_ ?_ ?_ S.pool ?_ ?_ ?_ ?_ S.alive ?_ <;> try rewrite [hgt]
    iterate 3 (on_goal 1 => (first | (dsimp only at *; done) | (dsimp only at *; omega)))
    · exact fun h => absurd h he
    · exact fun _ => he
    · exact S.att t
    · intro h; cases h
    · exact S.kept t
    · exact fun _ _ _ => ⟨rfl, rfl⟩
  | attNo hc => exact hi.run hf (fun x => rfl) ob.2.2.2
  | skip => exact hi.run hf (fun x => rfl) ob
  | done => exact hi.run hf (fun x => rfl) ob
  | seq => exact hi.run hf (fun x => rfl) ob
  | altL => exact hi.run hf (fun x => rfl) ob.1
  | altR => exact hi.run hf (fun x => rfl) ob.2
  | ifOk =>
    refine hi.run hf (fun x => rfl) ?_
    split
    · exact ob.1 ‹_›
    · exact ob.2 (Bool.eq_false_of_not_eq_true ‹_›)
  | any l => exact hi.run hf (fun x => rfl) (ob l)
  | anyList l => exact hi.run hf (fun x => rfl) (ob l)
  | stop =>
    obtain ⟨I, h1, h2, h3⟩ := ob
    exact hi.run hf (fun x => rfl) (h3 _ h1)
  | more =>
    obtain ⟨I, h1, h2, h3⟩ := ob
    exact hi.run hf (fun x => rfl) (wp_mono (fun v hv => ⟨I, hv, h2, h3⟩) _ (h2 _ h1))

theorem Inv.step (hi : Inv σ) (h : Step σ t σ') : Inv σ' := by
  cases h with
  | @code p k _ hf hc h =>
    have ob := hi.ob t
    rw [hc] at ob
    simp only [Thread.after, hf] at ob
    exact hi.free hf ob h
  | @free s hf =>
    have S := hi.sec s
    obtain ⟨b1, b2, b3, b4⟩ := S.busy t hf
    have hr := S.ref_le t
    have he : (σ.cell s).entry = 0 := by omega
    have hz : ∀ u, u ≠ t → ((σ.thread u).view.loc s).ref = 0 := by
      intro u hu
      by_contra h
      exact hu (S.lone he u t (by omega) (by omega))
    constructor
    · intro x
      by_cases hx : x = s
      · subst hx
        have nofree : ∀ u, u ≠ t → ¬ (σ.thread u).freeing = some x := by
          intro u hu h
          have := (S.busy u h).2.2.1
          have := hz u hu
          omega
        have S' : Sec (σ.cell x) (fun u => (σ.thread u).view.loc x) (fun _ => False) :=
          { S with busy := fun _ h => h.elim }
        have hk : ((σ.thread t).view.loc x).known = true → False := fun h => S.known t h he
        have ho := S.own_le t
        have : Sec { σ.cell x with alive := false, ucount := 0 }
            (fun u => if u = t then
              { (σ.thread t).view.loc x with ref := ((σ.thread t).view.loc x).ref - 1 }
              else (σ.thread u).view.loc x) (fun _ => False) := by
          refine S'.change (t := t) id (fun u hu => if_neg hu) ?_ ?_ ?_ ?_ S.pool ?_ ?_ ?_ ?_ ?_ ?_ <;>
            simp only [if_pos]
          · omega
          · intro _
            refine ⟨he, fun u hu h => ?_⟩
            have := hz u hu; omega
          · exact fun h => (hk h).elim
          · omega
          · intro _; omega
          · simp only [Loc.kept] at *; omega
          · simp
          · exact fun _ _ h => h.elim
        simp only [upd_same]
        refine this.same ?_ ?_
        · intro u
          by_cases hu : u = t
          · subst hu; simp [View.set]
          · simp [upd_ne _ _ hu, hu]
        · intro u h
          by_cases hu : u = t
          · subst hu; simp at h
          · simp only [upd_ne _ _ hu] at h
            exact nofree u hu h
      · simp only [upd_ne _ _ hx]
        refine (hi.sec x).same ?_ ?_
        · intro u
          by_cases hu : u = t
          · subst hu; simp [View.set, upd_ne _ _ hx]
          · simp [upd_ne _ _ hu]
        · intro u h
          by_cases hu : u = t
          · subst hu; simp at h
          · simpa only [upd_ne _ _ hu] using h
    · intro u
      have ob := hi.ob u
      by_cases hu : u = t
      · subst hu
        simp only [Thread.after, hf] at ob
        simpa [Thread.after] using ob
      · simpa [upd_ne _ _ hu] using ob

theorem Inv.steps (hi : Inv σ) (h : Steps σ σ') : Inv σ' := by
  induction h with
  | refl => exact hi
  | step _ hs ih => exact ih.step hs

end
end Ipt.Refs
