import Verif.MapThreads

/-!
# Invariants of threads that share sections
-/

namespace Ipt.Maps

open Prog

/-- What must hold of a thread that is at `m` in section `s`, for `Q` to hold when it has left. -/
def wpM (s : Nat) (m : Micro) (Q : View → Prop) (v : View) : Prop :=
  match m with
  | .mapTest | .mapSet | .mapCount => Q (v.ret false) ∧ Q ((v.gain s).ret true)
  | .shareTest => 1 ≤ v.own s ∧ Q (v.ret false) ∧ Q ((v.gain s).ret true)
  | .unmapTest => 1 ≤ v.own s ∧ Q ((v.lose s).ret true)
  | .unmapFree | .bcacheFree => Q (v.ret true)
  | .allocTest | .allocSet => 1 ≤ v.own s ∧ Q (v.ret false) ∧ Q (v.ret true)
  | .leave b => Q (v.ret b)

/-- Functions start here. -/
def Micro.entry : Micro → Prop
  | .mapTest | .shareTest | .unmapTest | .allocTest => True
  | _ => False

/-- What must hold of a thread for `Q` to hold after `p`: it has mappings of the sections it accesses and unmaps. -/
def wp : Prog → (View → Prop) → View → Prop
  | .skip, Q, v => Q v
  | .enter s m, Q, v => m.entry ∧ wpM s m Q v
  | .load k s, Q, v => 1 ≤ v.own s ∧ Q (v.loaded k s)
  | .use k s, Q, v => v.valid k s = true ∧ Q v
  | .give s, Q, v => 1 ≤ v.own s ∧ Q (v.lose s)
  | .take s, Q, v => Q (v.gain s)
  | .done b, Q, v => Q (v.ret b)
  | .seq p q, Q, v => wp p (wp q Q) v
  | .alt p q, Q, v => wp p Q v ∧ wp q Q v
  | .ifOk p q, Q, v => (v.res = true → wp p Q v) ∧ (v.res = false → wp q Q v)
  | .any f, Q, v => ∀ l, wp (f l) Q v
  | .star p, Q, v => ∃ I : View → Prop, I v ∧ (∀ x, I x → wp p I x) ∧ ∀ x, I x → Q x

theorem wpM_mono {s m Q R} (h : ∀ v, Q v → R v) (v : View) : wpM s m Q v → wpM s m R v := by
  cases m <;> simp only [wpM] <;> intro k
  case mapTest => exact ⟨h _ k.1, h _ k.2⟩
  case mapSet => exact ⟨h _ k.1, h _ k.2⟩
  case mapCount => exact ⟨h _ k.1, h _ k.2⟩
  case shareTest => exact ⟨k.1, h _ k.2.1, h _ k.2.2⟩
  case unmapTest => exact ⟨k.1, h _ k.2⟩
  case unmapFree => exact h _ k
  case bcacheFree => exact h _ k
  case allocTest => exact ⟨k.1, h _ k.2.1, h _ k.2.2⟩
  case allocSet => exact ⟨k.1, h _ k.2.1, h _ k.2.2⟩
  case leave => exact h _ k

theorem wp_mono {p Q R} (h : ∀ v, Q v → R v) (v : View) : wp p Q v → wp p R v := by
  induction p generalizing Q R v with
  | skip => exact h v
  | enter s m => exact fun k => ⟨k.1, wpM_mono h v k.2⟩
  | load => exact fun k => ⟨k.1, h _ k.2⟩
  | use => exact fun k => ⟨k.1, h _ k.2⟩
  | give => exact fun k => ⟨k.1, h _ k.2⟩
  | take => exact h _
  | done => exact h _
  | seq p q hp hq => exact hp (fun v => hq h v) v
  | alt p q hp hq => exact fun k => ⟨hp h v k.1, hq h v k.2⟩
  | ifOk p q hp hq => exact fun k => ⟨fun e => hp h v (k.1 e), fun e => hq h v (k.2 e)⟩
  | any f hf => exact fun k l => hf l h v (k l)
  | star p hp => exact fun ⟨I, h1, h2, h3⟩ => ⟨I, h1, h2, fun x hx => h x (h3 x hx)⟩

/-- What must hold of a thread that has `k` to do: in the end, it has no mappings left. -/
def wpL : List Prog → View → Prop
  | [] => fun v => ∀ s, v.own s = 0
  | p :: k => wp p (wpL k)

/-- What holds of a thread. -/
def Ob (x : Thread) : Prop :=
  match x.at_ with
  | none => wpL x.code x.view
  | some (s, m) => wpM s m (wpL x.code) x.view

/-- The map count and the objects of a section whose lock is free. -/
def Cons (c : Nat) (o b : Option Nat) : Prop := (c = 0 → o = none ∧ b = none) ∧ (c ≠ 0 → o ≠ none)

/-- The map count and the objects of a section whose lock is held by a thread at `m`. -/
def HeapAt (m : Micro) (c : Nat) (o b : Option Nat) : Prop :=
  match m with
  | .mapSet => c = 0 ∧ o = none ∧ b = none
  | .mapCount => o ≠ none ∧ (c = 0 → b = none)
  | .unmapFree => c = 0 ∧ o ≠ none
  | .bcacheFree => c = 0 ∧ o = none
  | .allocSet => c ≠ 0 ∧ o ≠ none ∧ b = none
  | _ => Cons c o b

structure Inv {n : Nat} (σ : St n) : Prop where
  count : ∀ s, σ.mcount s = (∑ t, (σ.thread t).view.own s) + σ.pool s
  lock : ∀ s t, σ.owner s = some t ↔ ∃ m, (σ.thread t).at_ = some (s, m)
  ob : ∀ t, Ob (σ.thread t)
  idle : ∀ s, σ.owner s = none → Cons (σ.mcount s) (σ.obj .mapping s) (σ.obj .bcache s)
  busy : ∀ s t m, (σ.thread t).at_ = some (s, m) → HeapAt m (σ.mcount s) (σ.obj .mapping s) (σ.obj .bcache s)
  ptr : ∀ t k s, (σ.thread t).view.valid k s = true → 1 ≤ (σ.thread t).view.own s ∧
    (k = .mapping → (σ.thread t).ptr k s ≠ none) ∧ ∀ b, (σ.thread t).ptr k s = some b → σ.obj k s = some b

variable {n : Nat} {σ σ' : St n} {t : Fin n}

theorem sum_change {f g : Fin n → Nat} (t : Fin n) (h : ∀ u, u ≠ t → g u = f u) :
    (∑ u, g u) + f t = (∑ u, f u) + g t := by
  have h1 := Finset.add_sum_erase Finset.univ f (Finset.mem_univ t)
  have h2 := Finset.add_sum_erase Finset.univ g (Finset.mem_univ t)
  have h3 : ∑ x ∈ Finset.univ.erase t, g x = ∑ x ∈ Finset.univ.erase t, f x :=
    Finset.sum_congr rfl fun x hx => h x (Finset.ne_of_mem_erase hx)
  omega

theorem own_le {f : Fin n → Nat} (t : Fin n) : f t ≤ ∑ u, f u := by
  have h1 := Finset.add_sum_erase Finset.univ f (Finset.mem_univ t)
  omega

/-- Thread `t` changed section `s` only. -/
structure Frame (σ σ' : St n) (t : Fin n) (s : Nat) : Prop where
  thr : ∀ u, u ≠ t → σ'.thread u = σ.thread u
  owner : ∀ x, x ≠ s → σ'.owner x = σ.owner x
  mcount : ∀ x, x ≠ s → σ'.mcount x = σ.mcount x
  obj : ∀ k x, x ≠ s → σ'.obj k x = σ.obj k x
  pool : ∀ x, x ≠ s → σ'.pool x = σ.pool x
  own : ∀ x, x ≠ s → (σ'.thread t).view.own x = (σ.thread t).view.own x
  valid : ∀ k x, x ≠ s → (σ'.thread t).view.valid k x = true →
    (σ.thread t).view.valid k x = true ∧ (σ'.thread t).ptr k x = (σ.thread t).ptr k x
  at_ : ∀ x m, x ≠ s → ((σ'.thread t).at_ = some (x, m) ↔ (σ.thread t).at_ = some (x, m))

theorem Inv.of_frame {s : Nat} (hi : Inv σ) (hf : Frame σ σ' t s)
    (count : σ'.mcount s + ((σ.thread t).view.own s + σ.pool s) =
      σ.mcount s + ((σ'.thread t).view.own s + σ'.pool s))
    (lock : ∀ u, σ'.owner s = some u ↔ ∃ m, (σ'.thread u).at_ = some (s, m))
    (ob : Ob (σ'.thread t))
    (idle : σ'.owner s = none → Cons (σ'.mcount s) (σ'.obj .mapping s) (σ'.obj .bcache s))
    (busy : ∀ u m, (σ'.thread u).at_ = some (s, m) → HeapAt m (σ'.mcount s) (σ'.obj .mapping s) (σ'.obj .bcache s))
    (ptr : ∀ k, (σ'.thread t).view.valid k s = true → 1 ≤ (σ'.thread t).view.own s ∧
      (k = .mapping → (σ'.thread t).ptr k s ≠ none) ∧ ∀ b, (σ'.thread t).ptr k s = some b → σ'.obj k s = some b)
    (keep : ∀ u, u ≠ t → 1 ≤ (σ.thread u).view.own s → ∀ k b, σ.obj k s = some b → σ'.obj k s = some b) : Inv σ' where
  count := by
    intro x
    by_cases hx : x = s
    · subst hx
      have := sum_change (f := fun u => (σ.thread u).view.own x) (g := fun u => (σ'.thread u).view.own x) t
        (fun u hu => by show _ = _; rw [hf.thr u hu])
      have h2 := hi.count x
      omega
    · rw [hf.mcount x hx, hf.pool x hx, hi.count x]
      congr 1
      refine Finset.sum_congr rfl fun u _ => ?_
      by_cases hu : u = t
      · subst hu; exact (hf.own x hx).symm
      · rw [hf.thr u hu]
  lock := by
    intro x u
    by_cases hx : x = s
    · subst hx; exact lock u
    · rw [hf.owner x hx, hi.lock x u]
      by_cases hu : u = t
      · subst hu
        exact exists_congr fun m => (hf.at_ x m hx).symm
      · rw [hf.thr u hu]
  ob := by
    intro u
    by_cases hu : u = t
    · subst hu; exact ob
    · rw [hf.thr u hu]; exact hi.ob u
  idle := by
    intro x ho
    by_cases hx : x = s
    · subst hx; exact idle ho
    · rw [hf.owner x hx] at ho
      rw [hf.mcount x hx, hf.obj _ x hx, hf.obj _ x hx]
      exact hi.idle x ho
  busy := by
    intro x u m ha
    by_cases hx : x = s
    · subst hx; exact busy u m ha
    · rw [hf.mcount x hx, hf.obj _ x hx, hf.obj _ x hx]
      refine hi.busy x u m ?_
      by_cases hu : u = t
      · subst hu; exact (hf.at_ x m hx).1 ha
      · rwa [hf.thr u hu] at ha
  ptr := by
    intro u k x hv
    by_cases hu : u = t
    · subst hu
      by_cases hx : x = s
      · subst hx; exact ptr k hv
      · obtain ⟨h1, h2⟩ := hf.valid k x hx hv
        rw [hf.own x hx, h2, hf.obj k x hx]
        exact hi.ptr u k x h1
    · rw [hf.thr u hu] at hv ⊢
      obtain ⟨h1, h2, h3⟩ := hi.ptr u k x hv
      refine ⟨h1, h2, fun b hb => ?_⟩
      by_cases hx : x = s
      · subst hx; exact keep u hu h1 k b (h3 b hb)
      · rw [hf.obj k x hx]; exact h3 b hb

/-- A thread that is at `m` in section `s` goes on to `m'`. -/
theorem Inv.goto {s : Nat} {m m' : Micro} (hi : Inv σ) (ha : (σ.thread t).at_ = some (s, m)) (hf : Frame σ σ' t s)
    (ha' : (σ'.thread t).at_ = some (s, m')) (ho : σ'.owner s = σ.owner s)
    (count : σ'.mcount s + (σ.thread t).view.own s = σ.mcount s + (σ'.thread t).view.own s) (hp : σ'.pool s = σ.pool s)
    (code : (σ'.thread t).code = (σ.thread t).code)
    (ob : wpM s m (wpL (σ.thread t).code) (σ.thread t).view → wpM s m' (wpL (σ.thread t).code) (σ'.thread t).view)
    (busy : HeapAt m (σ.mcount s) (σ.obj .mapping s) (σ.obj .bcache s) →
      HeapAt m' (σ'.mcount s) (σ'.obj .mapping s) (σ'.obj .bcache s))
    (ptr : ∀ k, (σ'.thread t).view.valid k s = true →
      (σ.thread t).view.valid k s = true ∧ 1 ≤ (σ'.thread t).view.own s ∧ (σ'.thread t).ptr k s = (σ.thread t).ptr k s)
    (keep : ∀ u, 1 ≤ (σ.thread u).view.own s → (u = t → 1 ≤ (σ'.thread t).view.own s) →
      ∀ k b, σ.obj k s = some b → σ'.obj k s = some b) : Inv σ' := by
  have h1 : σ.owner s = some t := (hi.lock s t).2 ⟨m, ha⟩
  have only : ∀ u x, (σ'.thread u).at_ = some (s, x) → u = t := by
    intro u x hx
    by_cases hu : u = t
    · exact hu
    · rw [hf.thr u hu] at hx
      have := (hi.lock s u).2 ⟨x, hx⟩
      rw [h1] at this
      cases this; rfl
  refine hi.of_frame hf (by omega) ?_ ?_ ?_ ?_ ?_ ?_
  · intro u
    rw [ho, h1]
    constructor
    · intro h; cases h; exact ⟨m', ha'⟩
    · rintro ⟨x, hx⟩; rw [only u x hx]
  · have := hi.ob t
    unfold Ob at this ⊢
    rw [ha] at this
    rw [ha', code]
    exact ob this
  · intro h; rw [ho, h1] at h; cases h
  · intro u x hx
    have := only u x hx
    subst this
    rw [ha'] at hx
    cases hx
    exact busy (hi.busy s u m ha)
  · intro k hv
    obtain ⟨h1, h2, h3⟩ := ptr k hv
    obtain ⟨h4, h5, h6⟩ := hi.ptr t k s h1
    rw [h3]
    exact ⟨h2, h5, fun b hb => keep t h4 (fun _ => h2) k b (h6 b hb)⟩
  · intro u hu h k b hb
    exact keep u h (fun e => absurd e hu) k b hb

theorem Inv.own_pos (hi : Inv σ) {s : Nat} (h : 1 ≤ (σ.thread t).view.own s) : σ.mcount s ≠ 0 := by
  have := own_le (f := fun u => (σ.thread u).view.own s) t
  have h2 := hi.count s
  omega

@[simp] theorem upd_same {α β : Type} [DecidableEq α] (f : α → β) (a : α) (b : β) : upd f a b a = b := if_pos rfl
theorem upd_ne {α β : Type} [DecidableEq α] (f : α → β) {a x : α} (b : β) (h : x ≠ a) : upd f a b x = f x := if_neg h
@[simp] theorem upd2_same {β : Type} (f : Kind → Nat → β) (k : Kind) (s : Nat) (b : β) : upd2 f k s b k s = b :=
  if_pos ⟨rfl, rfl⟩
theorem upd2_ne {β : Type} (f : Kind → Nat → β) (k k' : Kind) {s x : Nat} (b : β) (h : x ≠ s) :
    upd2 f k s b k' x = f k' x := if_neg fun h' => h h'.2

/-- Going on without changing anything but where the thread is. -/
theorem frame_goto {s : Nat} {m m' : Micro} (ha : (σ.thread t).at_ = some (s, m)) : Frame σ (σ.goto t s m') t s where
  thr := fun u hu => upd_ne _ _ hu
  owner := fun _ _ => rfl
  mcount := fun _ _ => rfl
  obj := fun _ _ _ => rfl
  pool := fun _ _ => rfl
  own := fun x _ => by simp [St.goto, St.thr]
  valid := fun k x _ h => by simpa [St.goto, St.thr] using h
  at_ := fun x m hx => by
    rw [ha]
    simp only [St.goto, St.thr, upd_same]
    constructor <;> (intro h; cases h; exact absurd rfl hx)

theorem Frame.trans {σ'' : St n} {s : Nat} (h1 : Frame σ σ' t s) (h2 : Frame σ' σ'' t s) : Frame σ σ'' t s where
  thr := fun u hu => (h2.thr u hu).trans (h1.thr u hu)
  owner := fun x hx => (h2.owner x hx).trans (h1.owner x hx)
  mcount := fun x hx => (h2.mcount x hx).trans (h1.mcount x hx)
  obj := fun k x hx => (h2.obj k x hx).trans (h1.obj k x hx)
  pool := fun x hx => (h2.pool x hx).trans (h1.pool x hx)
  own := fun x hx => (h2.own x hx).trans (h1.own x hx)
  valid := fun k x hx h => by
    obtain ⟨a, b⟩ := h2.valid k x hx h
    obtain ⟨c, d⟩ := h1.valid k x hx a
    exact ⟨c, b.trans d⟩
  at_ := fun x m hx => (h2.at_ x m hx).trans (h1.at_ x m hx)

theorem frame_count {s c : Nat} : Frame σ (σ.setCount s c) t s :=
  ⟨fun _ _ => rfl, fun _ _ => rfl, fun _ h => upd_ne _ _ h, fun _ _ _ => rfl, fun _ _ => rfl, fun _ _ => rfl,
    fun _ _ _ h => ⟨h, rfl⟩, fun _ _ _ => .rfl⟩
theorem frame_pool {s c : Nat} : Frame σ (σ.setPool s c) t s :=
  ⟨fun _ _ => rfl, fun _ _ => rfl, fun _ _ => rfl, fun _ _ _ => rfl, fun _ h => upd_ne _ _ h, fun _ _ => rfl,
    fun _ _ _ h => ⟨h, rfl⟩, fun _ _ _ => .rfl⟩
theorem frame_obj {s : Nat} {k : Kind} {o : Option Nat} : Frame σ (σ.setObj k s o) t s :=
  ⟨fun _ _ => rfl, fun _ _ => rfl, fun _ _ => rfl, fun _ _ h => upd2_ne _ _ _ _ h, fun _ _ => rfl, fun _ _ => rfl,
    fun _ _ _ h => ⟨h, rfl⟩, fun _ _ _ => .rfl⟩
theorem frame_alloc {s : Nat} {k : Kind} : Frame σ (σ.alloc k s) t s :=
  ⟨fun _ _ => rfl, fun _ _ => rfl, fun _ _ => rfl, fun _ _ h => upd2_ne _ _ _ _ h, fun _ _ => rfl, fun _ _ => rfl,
    fun _ _ _ h => ⟨h, rfl⟩, fun _ _ _ => .rfl⟩
theorem frame_gain {s : Nat} : Frame σ (σ.look t (·.gain s)) t s :=
  ⟨fun _ h => upd_ne _ _ h, fun _ _ => rfl, fun _ _ => rfl, fun _ _ _ => rfl, fun _ _ => rfl,
    fun x h => by simp [St.look, St.thr, View.gain, upd_ne _ _ h],
    fun k x h hv => by simpa [St.look, St.thr, View.gain] using hv, fun x m _ => by simp [St.look, St.thr]⟩
theorem frame_lose {s : Nat} : Frame σ (σ.look t (·.lose s)) t s :=
  ⟨fun _ h => upd_ne _ _ h, fun _ _ => rfl, fun _ _ => rfl, fun _ _ _ => rfl, fun _ _ => rfl,
    fun x h => by simp [St.look, St.thr, View.lose, upd_ne _ _ h],
    fun k x h hv => by
      simp [St.look, St.thr, View.lose] at hv
      exact ⟨hv.1, by simp [St.look, St.thr]⟩, fun x m _ => by simp [St.look, St.thr]⟩

theorem goto_at {s : Nat} {m : Micro} : ((σ.goto t s m).thread t).at_ = some (s, m) := by simp [St.goto, St.thr]
theorem goto_view {s : Nat} {m : Micro} : ((σ.goto t s m).thread t).view = (σ.thread t).view := by simp [St.goto, St.thr]
theorem goto_code {s : Nat} {m : Micro} : ((σ.goto t s m).thread t).code = (σ.thread t).code := by simp [St.goto, St.thr]
theorem goto_ptr {s : Nat} {m : Micro} : ((σ.goto t s m).thread t).ptr = (σ.thread t).ptr := by simp [St.goto, St.thr]

/-- A step that changes nothing but where the thread is. -/
theorem Inv.move {s : Nat} {m m' : Micro} (hi : Inv σ) (ha : (σ.thread t).at_ = some (s, m))
    (ob : wpM s m (wpL (σ.thread t).code) (σ.thread t).view → wpM s m' (wpL (σ.thread t).code) (σ.thread t).view)
    (busy : HeapAt m (σ.mcount s) (σ.obj .mapping s) (σ.obj .bcache s) →
      HeapAt m' (σ.mcount s) (σ.obj .mapping s) (σ.obj .bcache s)) : Inv (σ.goto t s m') := by
  refine hi.goto ha (frame_goto ha) goto_at rfl ?_ rfl goto_code ?_ busy ?_ ?_
  · rw [goto_view]; rfl
  · rw [goto_view]; exact ob
  · intro k hv
    rw [goto_view] at hv ⊢
    exact ⟨hv, (hi.ptr t k s hv).1, by rw [goto_ptr]⟩
  · exact fun _ _ _ _ _ h => h

/-- A step that allocates or frees an object. -/
theorem Inv.change {s : Nat} {m m' : Micro} {o : St n} (hi : Inv σ) (ha : (σ.thread t).at_ = some (s, m))
    (hf : Frame σ o t s) (ht : o.thread = σ.thread) (how : o.owner = σ.owner) (hm : o.mcount = σ.mcount)
    (hp : o.pool = σ.pool)
    (ob : wpM s m (wpL (σ.thread t).code) (σ.thread t).view → wpM s m' (wpL (σ.thread t).code) (σ.thread t).view)
    (busy : HeapAt m (σ.mcount s) (σ.obj .mapping s) (σ.obj .bcache s) →
      HeapAt m' (σ.mcount s) (o.obj .mapping s) (o.obj .bcache s))
    (keep : ∀ u, 1 ≤ (σ.thread u).view.own s → ∀ k b, σ.obj k s = some b → o.obj k s = some b) :
    Inv (o.goto t s m') := by
  have e : (o.thread t).at_ = some (s, m) := by rw [ht]; exact ha
  have hv : ((o.goto t s m').thread t).view = (σ.thread t).view := by rw [goto_view, ht]
  refine hi.goto ha (hf.trans (frame_goto e)) goto_at (by show o.owner s = _; rw [how]) ?_ (by show o.pool s = _; rw [hp])
    (by rw [goto_code, ht]) ?_ ?_ ?_ ?_
  · rw [hv]; show o.mcount s + _ = _; rw [hm]
  · rw [hv]; exact ob
  · show _ → HeapAt m' (o.mcount s) _ _; rw [hm]; exact busy
  · intro k h
    rw [hv] at h ⊢
    exact ⟨h, (hi.ptr t k s h).1, by rw [goto_ptr, ht]⟩
  · exact fun u h _ => keep u h

/-- A step that takes a mapping. -/
theorem Inv.gained {s : Nat} {m m' : Micro} (hi : Inv σ) (ha : (σ.thread t).at_ = some (s, m))
    (ob : wpM s m (wpL (σ.thread t).code) (σ.thread t).view → wpM s m' (wpL (σ.thread t).code) ((σ.thread t).view.gain s))
    (busy : HeapAt m (σ.mcount s) (σ.obj .mapping s) (σ.obj .bcache s) →
      HeapAt m' (σ.mcount s + 1) (σ.obj .mapping s) (σ.obj .bcache s)) :
    Inv (((σ.setCount s (σ.mcount s + 1)).look t (·.gain s)).goto t s m') := by
  have hv : ((((σ.setCount s (σ.mcount s + 1)).look t (·.gain s)).goto t s m').thread t).view =
      (σ.thread t).view.gain s := by simp [St.goto, St.look, St.thr, St.setCount]
  refine hi.goto ha ((frame_count.trans frame_gain).trans (frame_goto (m := m) ?_)) goto_at rfl ?_ rfl ?_ ?_ ?_ ?_ ?_
  · simp [St.look, St.thr, St.setCount, ha]
  · rw [hv]
    simp [St.goto, St.look, St.thr, St.setCount, View.gain]
    omega
  · simp [St.goto, St.look, St.thr, St.setCount]
  · rw [hv]; exact ob
  · intro h
    simpa [St.goto, St.look, St.thr, St.setCount] using busy h
  · intro k h
    rw [hv] at h ⊢
    refine ⟨h, ?_, by simp [St.goto, St.look, St.thr, St.setCount]⟩
    simp [View.gain]
  · exact fun _ _ _ _ _ h => h

/-- A step that gives up a mapping. -/
theorem Inv.lost {s : Nat} {m m' : Micro} (hi : Inv σ) (ha : (σ.thread t).at_ = some (s, m))
    (hm : 1 ≤ σ.mcount s) (how : 1 ≤ (σ.thread t).view.own s)
    (ob : wpM s m (wpL (σ.thread t).code) (σ.thread t).view → wpM s m' (wpL (σ.thread t).code) ((σ.thread t).view.lose s))
    (busy : HeapAt m (σ.mcount s) (σ.obj .mapping s) (σ.obj .bcache s) →
      HeapAt m' (σ.mcount s - 1) (σ.obj .mapping s) (σ.obj .bcache s)) :
    Inv (((σ.setCount s (σ.mcount s - 1)).look t (·.lose s)).goto t s m') := by
  have hv : ((((σ.setCount s (σ.mcount s - 1)).look t (·.lose s)).goto t s m').thread t).view =
      (σ.thread t).view.lose s := by simp [St.goto, St.look, St.thr, St.setCount]
  refine hi.goto ha ((frame_count.trans frame_lose).trans (frame_goto (m := m) ?_)) goto_at rfl ?_ rfl ?_ ?_ ?_ ?_ ?_
  · simp [St.look, St.thr, St.setCount, ha]
  · rw [hv]
    simp [St.goto, St.look, St.thr, St.setCount, View.lose]
    omega
  · simp [St.goto, St.look, St.thr, St.setCount]
  · rw [hv]; exact ob
  · intro h
    simpa [St.goto, St.look, St.thr, St.setCount] using busy h
  · intro k h
    rw [hv] at h ⊢
    simp [View.lose] at h ⊢
    exact ⟨h.1, by omega, by simp [St.goto, St.look, St.thr, St.setCount]⟩
  · exact fun _ _ _ _ _ h => h

theorem locked_inv {s : Nat} {m : Micro} (hi : Inv σ) (ha : (σ.thread t).at_ = some (s, m)) (h : Locked σ t s m σ') :
    Inv σ' := by
  have hob := hi.ob t
  unfold Ob at hob
  rw [ha] at hob
  dsimp only at hob
  have hb := hi.busy s t m ha
  cases h with
  | mapAgain hc =>
    exact hi.move ha id fun h => ⟨h.2 hc, fun h0 => absurd h0 hc⟩
  | mapFail hc =>
    exact hi.move ha (fun h => h.1) id
  | mapOk hc ho =>
    exact hi.move ha id fun h => ⟨hc, ho, (h.1 hc).2⟩
  | mapSet =>
    exact hi.change ha frame_alloc rfl rfl rfl rfl id
      (fun h => ⟨by simp [St.alloc], fun _ => by simpa [St.alloc, upd2] using h.2.2⟩)
      (fun u hu => absurd hb.1 (hi.own_pos hu))
  | mapMany hc =>
    exact hi.move ha (fun h => h.1) fun h => ⟨fun h0 => by omega, fun _ => h.1⟩
  | mapCount hc =>
    exact hi.gained ha (fun h => h.2) fun h => ⟨fun h0 => by omega, fun _ => h.1⟩
  | shareNone hc =>
    exact hi.move ha (fun h => h.2.1) id
  | shareMany hc =>
    exact hi.move ha (fun h => h.2.1) id
  | share hc hc' =>
    exact hi.gained ha (fun h => h.2.2) fun h => ⟨fun h0 => by omega, fun _ => h.2 hc⟩
  | unmapNone hc =>
    exact absurd hc (hi.own_pos hob.1)
  | unmap hc =>
    exact hi.lost ha (by omega) hob.1 (fun h => h.2) fun h => ⟨fun h0 => by omega, fun _ => h.2 (by omega)⟩
  | unmapLast hc =>
    exact hi.lost ha (by omega) hob.1 (fun h => h.2) fun h => ⟨by omega, h.2 (by omega)⟩
  | unmapNull ho =>
    exact absurd ho hb.2
  | unmapFree ho =>
    exact hi.change ha frame_obj rfl rfl rfl rfl id (fun h => ⟨h.1, by simp [St.setObj]⟩)
      (fun u hu => absurd hb.1 (hi.own_pos hu))
  | bcacheFree =>
    exact hi.change ha frame_obj rfl rfl rfl rfl id
      (fun h => ⟨fun _ => ⟨by simpa [St.setObj, upd2] using h.2, by simp [St.setObj]⟩, fun h0 => absurd h.1 h0⟩)
      (fun u hu => absurd hb.1 (hi.own_pos hu))
  | allocNone hc =>
    exact hi.move ha (fun h => h.2.1) id
  | allocHave hc ho =>
    exact hi.move ha (fun h => h.2.2) id
  | allocFail hc =>
    exact hi.move ha (fun h => h.2.1) id
  | allocOk hc ho =>
    exact hi.move ha id fun h => ⟨hc, h.2 hc, ho⟩
  | allocSet b =>
    refine hi.change ha frame_alloc rfl rfl rfl rfl (fun h => by cases b; exacts [h.2.1, h.2.2])
      (fun h => ⟨fun h0 => absurd h0 h.1, fun _ => by simpa [St.alloc, upd2] using h.2.1⟩) ?_
    intro u hu k b hb'
    cases k with
    | mapping => simpa [St.alloc, upd2] using hb'
    | bcache => rw [hb.2.2] at hb'; cases hb'
  | leave b =>
    have h1 : σ.owner s = some t := (hi.lock s t).2 ⟨_, ha⟩
    have only : ∀ u m, u ≠ t → (σ.thread u).at_ ≠ some (s, m) := by
      intro u m hu h
      have := (hi.lock s u).2 ⟨m, h⟩
      rw [h1] at this
      cases this
      exact hu rfl
    refine hi.of_frame (t := t) (s := s)
      ⟨fun u hu => upd_ne _ _ hu, fun x hx => upd_ne _ _ hx, fun _ _ => rfl, fun _ _ _ => rfl, fun _ _ => rfl,
        fun x _ => by simp [View.ret], fun k x _ h => by simpa [View.ret] using h,
        fun x m hx => by rw [ha]; simpa using fun h => absurd h.symm hx⟩ ?_ ?_ ?_ ?_ ?_ ?_ ?_
    · simp [View.ret]
    · intro u
      by_cases hu : u = t
      · subst hu; simp
      · simpa [upd_ne _ _ hu] using fun m => only u m hu
    · unfold Ob; simp only [upd_same]; exact hob
    · exact fun _ => hb
    · intro u m h
      by_cases hu : u = t
      · subst hu; simp at h
      · have h : (upd σ.thread t _ u).at_ = _ := h
        rw [upd_ne _ _ hu] at h
        exact absurd h (only u m hu)
    · intro k h
      simp only [upd_same] at h ⊢
      exact hi.ptr t k s h
    · exact fun _ _ _ _ _ h => h

/-- A step of a thread that does not hold a lock. -/
theorem Inv.free {s : Nat} (hi : Inv σ) (ha : (σ.thread t).at_ = none) (hf : Frame σ σ' t s)
    (ha' : (σ'.thread t).at_ = none) (how : σ'.owner = σ.owner) (hm : σ'.mcount = σ.mcount) (hobj : σ'.obj = σ.obj)
    (count : (σ'.thread t).view.own s + σ'.pool s = (σ.thread t).view.own s + σ.pool s)
    (ob : wpL (σ'.thread t).code (σ'.thread t).view)
    (ptr : ∀ k, (σ'.thread t).view.valid k s = true → 1 ≤ (σ'.thread t).view.own s ∧
      (k = .mapping → (σ'.thread t).ptr k s ≠ none) ∧ ∀ b, (σ'.thread t).ptr k s = some b → σ.obj k s = some b) :
    Inv σ' := by
  have same : ∀ u, (σ'.thread u).at_ = (σ.thread u).at_ := by
    intro u
    by_cases hu : u = t
    · subst hu; rw [ha, ha']
    · rw [hf.thr u hu]
  refine hi.of_frame hf (by rw [hm]; omega) ?_ ?_ ?_ ?_ ?_ ?_
  · intro u; rw [how, same]; exact hi.lock s u
  · unfold Ob; rw [ha']; exact ob
  · rw [how, hm, hobj]; exact hi.idle s
  · intro u m; rw [same, hm, hobj]; exact hi.busy s u m
  · rw [hobj]; exact ptr
  · rw [hobj]; exact fun _ _ _ _ _ h => h

theorem frame_thr {x : Thread} {s : Nat} (ho : ∀ y, y ≠ s → x.view.own y = (σ.thread t).view.own y)
    (hv : ∀ k y, y ≠ s → x.view.valid k y = true →
      (σ.thread t).view.valid k y = true ∧ x.ptr k y = (σ.thread t).ptr k y)
    (ha : x.at_ = (σ.thread t).at_) : Frame σ (σ.thr t x) t s where
  thr := fun u hu => upd_ne _ _ hu
  owner := fun _ _ => rfl
  mcount := fun _ _ => rfl
  obj := fun _ _ _ => rfl
  pool := fun _ _ => rfl
  own := fun y hy => by simpa [St.thr] using ho y hy
  valid := fun k y hy h => by
    simp only [St.thr, upd_same] at h ⊢
    exact hv k y hy h
  at_ := fun y m _ => by simp [St.thr, ha]

/-- A step that changes what there is to do. -/
theorem Inv.run {k : List Prog} (hi : Inv σ) (ha : (σ.thread t).at_ = none) (ob : wpL k (σ.thread t).view) :
    Inv (σ.run t k) := by
  refine hi.free (s := 0) ha (frame_thr (fun _ _ => rfl) (fun _ _ _ h => ⟨h, rfl⟩) rfl) ?_ rfl rfl rfl ?_ ?_ ?_
  · simp [St.run, St.thr, ha]
  · simp [St.run, St.thr]
  · simpa [St.run, St.thr] using ob
  · intro o; simpa [St.run, St.thr] using hi.ptr t o 0

theorem free_inv {p : Prog} {k : List Prog} (hi : Inv σ) (ha : (σ.thread t).at_ = none)
    (hc : (σ.thread t).code = p :: k) (h : Free σ t k p σ') : Inv σ' := by
  have hob := hi.ob t
  unfold Ob at hob
  rw [ha, hc] at hob
  dsimp only [wpL] at hob
  cases h with
  | skip => exact hi.run ha hob
  | use => exact hi.run ha hob.2
  | seq => exact hi.run ha hob
  | altL => exact hi.run ha hob.1
  | altR => exact hi.run ha hob.2
  | any l => exact hi.run ha (hob l)
  | ifOk =>
    refine hi.run ha ?_
    cases hr : (σ.thread t).view.res with
    | true => exact hob.1 hr
    | false => exact hob.2 hr
  | stop =>
    obtain ⟨I, h1, h2, h3⟩ := hob
    exact hi.run ha (h3 _ h1)
  | more =>
    obtain ⟨I, h1, h2, h3⟩ := hob
    exact hi.run ha (wp_mono (fun v hv => ⟨I, hv, h2, h3⟩) _ (h2 _ h1))
  | @done b =>
    refine hi.free (s := 0) ha ?_ ?_ rfl rfl rfl ?_ ?_ ?_
    · have h1 : Frame σ (σ.look t (·.ret b)) t 0 := frame_thr (fun _ _ => rfl) (fun _ _ _ h => ⟨h, rfl⟩) rfl
      exact h1.trans (frame_thr (fun _ _ => rfl) (fun _ _ _ h => ⟨h, rfl⟩) rfl)
    · simp [St.look, St.thr, St.run, ha]
    · simp [St.look, St.thr, St.run, View.ret]
    · simp only [St.look, St.thr, St.run, upd_same]; exact hob
    · intro o; simpa [St.look, St.thr, St.run, View.ret] using hi.ptr t o 0
  | @load o s =>
    refine hi.free (s := s) ha (frame_thr (fun _ _ => rfl) (fun _ _ hy h => ?_) rfl) ?_ rfl rfl rfl ?_ ?_ ?_
    · simp only [View.loaded, upd2_ne _ _ _ _ hy] at h ⊢
      exact ⟨h, trivial⟩
    · simp [St.thr, ha]
    · simp [St.thr, View.loaded]
    · simpa [St.thr] using hob.2
    · intro k'
      simp only [St.thr, upd_same, View.loaded]
      by_cases hk : k' = o
      · subst hk
        intro _
        simp only [upd2_same]
        refine ⟨hob.1, ?_, fun b h => h⟩
        rintro rfl
        have hne := hi.own_pos hob.1
        rcases how : σ.owner s with _ | u
        · exact (hi.idle s how).2 hne
        · obtain ⟨m, hm⟩ := (hi.lock s u).1 how
          have := hi.busy s u m hm
          cases m <;> simp only [HeapAt, Cons] at this <;> first | exact this.2 hne | exact absurd this.1 hne | exact this.1 | exact this.2.1
      · have e : ∀ {β : Type} (f : Kind → Nat → β) b, upd2 f o s b k' s = f k' s := fun f b => if_neg fun h => hk h.1
        rw [e, e]
        exact hi.ptr t k' s
  | @enter s m how =>
    have only : ∀ u m, (σ.thread u).at_ ≠ some (s, m) := by
      intro u m h
      have := (hi.lock s u).2 ⟨m, h⟩
      rw [how] at this
      cases this
    refine hi.of_frame (t := t) (s := s)
      ⟨fun u hu => upd_ne _ _ hu, fun x hx => upd_ne _ _ hx, fun _ _ => rfl, fun _ _ _ => rfl, fun _ _ => rfl,
        fun x _ => by simp, fun k x _ h => by simpa using h,
        fun x m hx => by rw [ha]; simpa using fun h => absurd h.symm hx⟩ ?_ ?_ ?_ ?_ ?_ ?_ ?_
    · simp
    · intro u
      by_cases hu : u = t
      · subst hu; simp
      · simp [upd_ne _ _ hu, Ne.symm hu]
        exact fun m => only u m
    · unfold Ob; simp only [upd_same]; exact hob.2
    · simp
    · intro u x h
      by_cases hu : u = t
      · subst hu
        simp only [upd_same] at h
        cases h
        have := hi.idle s how
        have he := hob.1
        cases m <;> first | exact this | exact he.elim
      · have h : (upd σ.thread t _ u).at_ = _ := h
        rw [upd_ne _ _ hu] at h
        exact absurd h (only u x)
    · intro k' h
      simp only [upd_same] at h ⊢
      exact hi.ptr t k' s h
    · exact fun _ _ _ _ _ h => h
  | @give s =>
    refine hi.free (s := s) ha ((frame_pool.trans frame_lose).trans (frame_thr ?_ ?_ ?_)) ?_ rfl rfl rfl ?_ ?_ ?_
    · exact fun _ _ => rfl
    · exact fun _ _ _ h => ⟨h, rfl⟩
    · rfl
    · simp [St.run, St.setPool, St.look, St.thr, ha]
    · have := hob.1
      simp [St.run, St.setPool, St.look, St.thr, View.lose]
      omega
    · simpa [St.run, St.setPool, St.look, St.thr] using hob.2
    · intro o
      simp [St.run, St.setPool, St.look, St.thr, View.lose]
      intro hv h0
      exact ⟨by omega, (hi.ptr t o s hv).2⟩
  | @take s hp =>
    refine hi.free (s := s) ha ((frame_pool.trans frame_gain).trans (frame_thr ?_ ?_ ?_)) ?_ rfl rfl rfl ?_ ?_ ?_
    · exact fun _ _ => rfl
    · exact fun _ _ _ h => ⟨h, rfl⟩
    · rfl
    · simp [St.run, St.setPool, St.look, St.thr, ha]
    · simp [St.run, St.setPool, St.look, St.thr, View.gain]
      omega
    · simp only [St.run, St.setPool, St.look, St.thr, upd_same]; exact hob
    · intro o
      simp [St.run, St.setPool, St.look, St.thr, View.gain]
      intro hv
      exact (hi.ptr t o s hv).2

theorem step_inv (hi : Inv σ) (h : Step σ t σ') : Inv σ' := by
  cases h with
  | locked ha h => exact locked_inv hi ha h
  | free ha hc h => exact free_inv hi ha hc h

/-! ## The functions -/

theorem wp_seq {p q : Prog} {Q R : View → Prop} {v : View} (h : wp p R v) (hq : ∀ x, R x → wp q Q x) : wp (p ;; q) Q v :=
  wp_mono hq v h

/-- The thread has the same mappings. -/
def Same (o : Nat → Nat) (v : View) : Prop := v.own = o

/-- The mappings of `o` and those of the sections in `l`. -/
def plus (l : List Nat) (o : Nat → Nat) : Nat → Nat := fun s => o s + l.count s

theorem gain_lose (v : View) (s : Nat) : ((v.gain s).lose s).own = v.own := by
  funext x; simp only [View.gain, View.lose, upd]; split <;> simp_all

theorem gain_pos (v : View) (s : Nat) : 1 ≤ (v.gain s).own s := by simp [View.gain]

theorem wp_takeAll {l : List Nat} {Q : View → Prop} {v : View} (h : ∀ v', v'.own = plus l v.own → Q v') :
    wp (takeAll l) Q v := by
  induction l generalizing v with
  | nil => exact h v (by funext x; simp [plus])
  | cons s l ih =>
    show wp (takeAll l) Q (v.gain s)
    refine ih fun v' hv => h v' ?_
    rw [hv]
    funext x
    simp only [plus, View.gain, upd, List.count_cons]
    split <;> rename_i hx
    · subst hx; simp; omega
    · simp [Ne.symm hx]

theorem wp_lruFree {l : List Nat} {o : Nat → Nat} {v : View} (h : v.own = plus l o) : wp (lruFree l) (Same o) v := by
  induction l generalizing v with
  | nil =>
    show v.own = o
    rw [h]; funext x; simp [plus]
  | cons s l ih =>
    refine ⟨trivial, ?_, fun _ => ?_, (fun h => by cases h)⟩
    · rw [h]; simp [plus]; omega
    · refine ih ?_
      funext x
      simp only [View.ret, View.lose, h, plus, upd, List.count_cons]
      split <;> rename_i hx
      · subst hx; simp
      · simp [Ne.symm hx]

theorem wp_lruDrop {v : View} : wp lruDrop (Same v.own) v := fun _ => wp_takeAll fun _ h => wp_lruFree h

theorem wp_lruAdd {s : Nat} {v : View} (h : 1 ≤ v.own s) : wp (lruAdd s) (Same v.own) v := by
  refine ⟨rfl, rfl, trivial, h, ⟨(fun e => by cases e), fun _ => rfl⟩, fun _ => ⟨⟨trivial, gain_pos v s, ?_⟩, gain_pos v s, ?_⟩,
    (fun e => by cases e)⟩
  · exact gain_lose v s
  · exact ⟨gain_lose v s, gain_lose v s⟩

theorem wp_notify {s : Nat} {v : View} (h : 1 ≤ v.own s) : wp (notify s) (Same v.own) v := by
  refine wp_seq (wp_lruAdd h) fun x hx => ?_
  refine ⟨fun _ => ⟨hx, hx, ?_⟩, fun _ => hx⟩
  rw [← show x.own = v.own from hx]
  exact wp_lruDrop

theorem wp_map {s : Nat} {v : View} {Q : View → Prop} (h0 : ∀ x, x.own = v.own → x.res = false → Q x)
    (h1 : ∀ x, x.own = (v.gain s).own → x.res = true → Q x) : wp (map s) Q v := by
  refine ⟨trivial, ⟨(fun e => by cases e), fun _ => h0 _ rfl rfl⟩, fun _ => ⟨h1 _ rfl rfl, ?_⟩, (fun e => by cases e)⟩
  refine wp_seq (wp_notify (v := (v.gain s).ret true) (gain_pos v s)) fun x hx =>
    ⟨fun e => h1 x hx e, fun _ => ⟨trivial, ?_, h0 _ ?_ rfl⟩⟩
  · rw [show x.own = _ from hx]; exact gain_pos v s
  · have : x.own = (v.gain s).own := hx
    funext y
    simp only [View.ret, View.lose, this, View.gain, upd]
    split <;> simp_all

theorem wp_read {s : Nat} {v : View} (h : 1 ≤ v.own s) : wp (read s) (Same v.own) v :=
  ⟨h, by simp [View.loaded], rfl⟩

theorem wp_unmapped {s : Nat} {o : Nat → Nat} {v : View} (h : v.own = upd o s (o s + 1)) : wp (unmap s) (Same o) v := by
  refine ⟨trivial, by rw [h]; simp, ?_⟩
  funext x
  simp only [View.ret, View.lose, h, upd]
  split <;> simp_all

theorem wp_readOnce {s : Nat} {v : View} : wp (readOnce s) (Same v.own) v := by
  refine wp_map (fun x hx hr => ⟨(fun e => by rw [hr] at e; cases e), fun _ => hx⟩)
    fun x hx hr => ⟨fun _ => ?_, (fun e => by rw [hr] at e; cases e)⟩
  refine wp_seq (wp_read (by rw [hx]; exact gain_pos v s)) fun y hy => wp_unmapped ?_
  rw [show y.own = x.own from hy, hx]; rfl

theorem wp_allocBcache {s : Nat} {v : View} (h : 1 ≤ v.own s) : wp (allocBcache s) (Same v.own) v := by
  refine ⟨trivial, h, ⟨(fun e => by cases e), fun _ => rfl⟩, fun _ => ⟨rfl, ?_⟩, (fun e => by cases e)⟩
  exact wp_notify (v := v.ret true) h

theorem wp_cached {s : Nat} {v : View} (h : 1 ≤ v.own s) : wp (cached s) (Same v.own) v := by
  refine ⟨Same v.own, rfl, fun x hx => ?_, fun x hx => hx⟩
  have hx : x.own = v.own := hx
  have h : 1 ≤ x.own s := by rw [hx]; exact h
  rw [← hx]
  refine ⟨wp_read h, ⟨h, rfl, wp_allocBcache (v := x.loaded .bcache s) h⟩, ⟨h, ?_⟩, fun l => wp_readOnce⟩
  refine ⟨fun y => y.own = x.own ∧ y.valid .bcache s = true, ⟨rfl, by simp [View.loaded]⟩, fun y hy => ?_, fun y hy => hy.1⟩
  refine ⟨⟨hy.2, hy⟩, by rw [hy.1]; exact h, by simp [View.loaded], hy.1, ?_⟩
  simp [View.loaded, upd2, hy.2]

theorem wp_session {s : Nat} {v : View} : wp (session s) (Same v.own) v := by
  refine wp_map (fun x hx hr => ⟨(fun e => by rw [hr] at e; cases e), fun _ => hx⟩)
    fun x hx hr => ⟨fun _ => ?_, (fun e => by rw [hr] at e; cases e)⟩
  refine wp_seq (wp_cached (by rw [hx]; exact gain_pos v s)) fun y hy => wp_unmapped ?_
  rw [show y.own = x.own from hy, hx]; rfl

theorem wp_decode {v : View} : wp decode (Same v.own) v :=
  ⟨Same v.own, rfl, fun x hx l => by rw [← show x.own = v.own from hx]; exact wp_session, fun _ hx => hx⟩

theorem wp_call (c : Call) {v : View} : wp c.prog (Same v.own) v := by
  cases c with
  | iscacheRead s => exact wp_readOnce
  | iscacheDrop => exact wp_lruDrop
  | decode => exact wp_decode

theorem wpL_calls (l : List Call) {v : View} (h : ∀ s, v.own s = 0) : wpL (l.map Call.prog) v := by
  induction l generalizing v with
  | nil => exact h
  | cons c l ih => exact wp_mono (fun x hx => ih fun s => by rw [show x.own = v.own from hx]; exact h s) v (wp_call c)

theorem start_inv (calls : Fin n → List Call) : Inv (start calls) where
  count := fun s => by simp [start]
  lock := fun s t => by simp [start]
  ob := fun t => wpL_calls (calls t) fun _ => rfl
  idle := fun s _ => ⟨fun _ => ⟨rfl, rfl⟩, fun h => absurd rfl h⟩
  busy := fun s t m h => by cases h
  ptr := fun t k s h => by cases h

theorem steps_inv {calls : Fin n → List Call} (h : Steps (start calls) σ) : Inv σ := by
  generalize hs : start calls = σ0 at h
  induction h with
  | refl => subst hs; exact start_inv calls
  | step h hstep ih => exact step_inv ih hstep

end Ipt.Maps
