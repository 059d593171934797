import Verif.RefThreadsInv

/-!
# What the functions that use shared sections are responsible for
-/

namespace Ipt.Refs

open Prog

/-- Besides what its images and decoders refer to, the thread is responsible for the references `L`, the mappings `O` and
the attachments `A`. -/
def Has (L O A : List Nat) (v : View) : Prop :=
  ∀ s, (v.loc s).ref = (v.loc s).kept + L.count s ∧ (v.loc s).own = (v.loc s).held + O.count s ∧
    (v.loc s).att = A.count s

variable {L O A : List Nat} {v : View} {s : Nat} {Q : View → Prop}

theorem Has.congr {L' O' A' : List Nat} (h : Has L O A v) (h1 : ∀ s, L.count s = L'.count s)
    (h2 : ∀ s, O.count s = O'.count s) (h3 : ∀ s, A.count s = A'.count s) : Has L' O' A' v := by
  intro s
  have := h s
  rw [h1, h2, h3] at this
  exact this

theorem Has.ret {b : Bool} (h : Has L O A v) : Has L O A (v.ret b) := h

theorem Has.set {L' O' A' : List Nat} {l : Loc} (h : Has L O A v)
    (hs : l.ref = l.kept + L'.count s ∧ l.own = l.held + O'.count s ∧ l.att = A'.count s)
    (h1 : ∀ x, x ≠ s → L'.count x = L.count x) (h2 : ∀ x, x ≠ s → O'.count x = O.count x)
    (h3 : ∀ x, x ≠ s → A'.count x = A.count x) : Has L' O' A' (v.set s l) := by
  intro x
  by_cases hx : x = s
  · subst hx; simpa [View.set] using hs
  · rw [h1 x hx, h2 x hx, h3 x hx]
    simpa [View.set, upd_ne _ _ hx] using h x

theorem cnt_self (l : List Nat) : (s :: l).count s = l.count s + 1 := List.count_cons_self
theorem cnt_ne {x : Nat} (l : List Nat) (h : x ≠ s) : (s :: l).count x = l.count x := by
  rw [List.count_cons]; simp [Ne.symm h]

theorem Has.get (h : Has L O A v) : Has (s :: L) O A (v.set s { v.loc s with ref := (v.loc s).ref + 1 }) := by
  refine h.set ?_ (fun x hx => cnt_ne L hx) (fun _ _ => rfl) fun _ _ => rfl
  have := h s
  rw [cnt_self]
  simp only [Loc.kept] at *
  omega

theorem Has.put (h : Has (s :: L) O A v) : Has L O A (v.set s { v.loc s with ref := (v.loc s).ref - 1 }) := by
  refine h.set ?_ (fun x hx => (cnt_ne L hx).symm) (fun _ _ => rfl) fun _ _ => rfl
  have := h s
  rw [cnt_self] at this
  simp only [Loc.kept] at *
  omega

theorem Has.map (h : Has L O A v) : Has L (s :: O) A (v.set s { v.loc s with own := (v.loc s).own + 1 }) := by
  refine h.set ?_ (fun _ _ => rfl) (fun x hx => cnt_ne O hx) fun _ _ => rfl
  have := h s
  rw [cnt_self]
  simp only [Loc.kept] at *
  omega

theorem Has.unmap (h : Has L (s :: O) A v) : Has L O A (v.set s { v.loc s with own := (v.loc s).own - 1 }) := by
  refine h.set ?_ (fun _ _ => rfl) (fun x hx => (cnt_ne O hx).symm) fun _ _ => rfl
  have := h s
  rw [cnt_self] at this
  simp only [Loc.kept] at *
  omega

theorem Has.take (h : Has L O A v) :
    Has L (s :: O) A (v.set s { v.loc s with own := (v.loc s).own + 1, known := true }) := by
  refine h.set ?_ (fun _ _ => rfl) (fun x hx => cnt_ne O hx) fun _ _ => rfl
  have := h s
  rw [cnt_self]
  simp only [Loc.kept] at *
  omega

theorem Has.attach (h : Has L O A v) : Has L O (s :: A) (v.set s { v.loc s with att := (v.loc s).att + 1 }) := by
  refine h.set ?_ (fun _ _ => rfl) (fun _ _ => rfl) fun x hx => cnt_ne A hx
  have := h s
  rw [cnt_self]
  simp only [Loc.kept] at *
  omega

theorem Has.detach (h : Has L O (s :: A) v) : Has L O A (v.set s { v.loc s with att := (v.loc s).att - 1 }) := by
  refine h.set ?_ (fun _ _ => rfl) (fun _ _ => rfl) fun x hx => (cnt_ne A hx).symm
  have := h s
  rw [cnt_self] at this
  simp only [Loc.kept] at *
  omega

theorem Has.insert (h : Has (s :: L) O (s :: A) v) :
    Has L O A (v.set s { v.loc s with ref := (v.loc s).ref - 1, att := (v.loc s).att - 1, known := true }) := by
  refine h.set ?_ (fun x hx => (cnt_ne L hx).symm) (fun _ _ => rfl) fun x hx => (cnt_ne A hx).symm
  have := h s
  rw [cnt_self, cnt_self] at this
  simp only [Loc.kept] at *
  omega

theorem Has.known (h : Has L O A v) : Has L O A (v.set s { v.loc s with known := true }) :=
  h.set (h s) (fun _ _ => rfl) (fun _ _ => rfl) fun _ _ => rfl

theorem Has.imgAdd (h : Has (s :: L) O A v) : Has L O A (v.set s { v.loc s with img := (v.loc s).img + 1 }) := by
  refine h.set ?_ (fun x hx => (cnt_ne L hx).symm) (fun _ _ => rfl) fun _ _ => rfl
  have := h s
  rw [cnt_self] at this
  simp only [Loc.kept] at *
  omega

theorem Has.imgDel (h : Has L O A v) (hn : (v.loc s).img ≠ 0) :
    Has (s :: L) O A (v.set s { v.loc s with img := (v.loc s).img - 1 }) := by
  refine h.set ?_ (fun x hx => cnt_ne L hx) (fun _ _ => rfl) fun _ _ => rfl
  have := h s
  rw [cnt_self]
  simp only [Loc.kept] at *
  omega

theorem Has.hold (h : Has (s :: L) (s :: O) A v) : Has L O A (v.set s { v.loc s with held := (v.loc s).held + 1 }) := by
  refine h.set ?_ (fun x hx => (cnt_ne L hx).symm) (fun x hx => (cnt_ne O hx).symm) fun _ _ => rfl
  have := h s
  rw [cnt_self, cnt_self] at this
  simp only [Loc.kept] at *
  omega

theorem Has.unhold (h : Has L O A v) (hn : (v.loc s).held ≠ 0) :
    Has (s :: L) (s :: O) A (v.set s { v.loc s with held := (v.loc s).held - 1 }) := by
  refine h.set ?_ (fun x hx => cnt_ne L hx) (fun x hx => cnt_ne O hx) fun _ _ => rfl
  have := h s
  rw [cnt_self, cnt_self]
  simp only [Loc.kept] at *
  omega

theorem Has.lose (h : Has (s :: L) O A v) : Has L O A (v.set s { v.loc s with lost := (v.loc s).lost + 1 }) := by
  refine h.set ?_ (fun x hx => (cnt_ne L hx).symm) (fun _ _ => rfl) fun _ _ => rfl
  have := h s
  rw [cnt_self] at this
  simp only [Loc.kept] at *
  omega

theorem Has.more (h : Has (s :: L) O A v) : (v.loc s).kept + 1 ≤ (v.loc s).ref := by
  have := h s
  rw [cnt_self] at this
  omega

theorem Has.touch (h : Has (s :: L) O A v) : Touch (v.loc s) := .inl (by have := h.more; omega)

theorem Has.mappable (h : Has (s :: L) O A v) (ho : O.count s ≤ L.count s) : Mappable (v.loc s) := by
  have := h s
  rw [cnt_self] at this
  simp only [Loc.kept] at this
  exact .inl (by omega)

theorem img_touch (h : Has L O A v) (hn : (v.loc s).img ≠ 0) : Touch (v.loc s) := by
  have := h s
  simp only [Loc.kept] at this
  exact .inl (by omega)

theorem img_mappable (h : Has L [] A v) (hn : (v.loc s).img ≠ 0) : Mappable (v.loc s) := by
  have := h s
  simp only [Loc.kept, List.count_nil] at this
  exact .inl (by omega)

theorem held_touch (h : Has L O A v) (hn : (v.loc s).held ≠ 0) : Touch (v.loc s) := by
  have := h s
  simp only [Loc.kept] at this
  exact .inl (by omega)

/-! ## Steps -/

theorem get_ok {p q} (h : Has L O A v) (ht : Touch (v.loc s)) (h1 : ∀ v, Has (s :: L) O A v → wp p Q v)
    (h2 : ∀ v, Has L O A v → wp q Q v) : wp (get s ;; ifOk p q) Q v :=
  ⟨ht, ⟨fun _ => h1 _ h.get, fun e => (by cases e)⟩, ⟨fun e => (by cases e), fun _ => h2 _ h⟩⟩

theorem put_ok (h : Has (s :: L) O A v) (ho : O.count s ≤ L.count s) (ha : A.count s ≤ L.count s)
    (h1 : ∀ v, Has L O A v → Q v) : wp (put s) Q v := by
  refine ⟨?_, h.more, h.mappable ho, h1 _ h.put⟩
  have := h s
  rw [cnt_self] at this
  omega

theorem unmap_ok (h : Has L (s :: O) A v) (h1 : ∀ v, v.res = true → Has L O A v → Q v) : wp (unmap s) Q v := by
  refine ⟨?_, h1 _ rfl h.unmap⟩
  have := h s
  rw [cnt_self] at this
  omega

theorem detach_ok (h : Has L O (s :: A) v) (h1 : ∀ v, Has L O A v → Q v) : wp (detach s) Q v := by
  refine ⟨?_, h1 _ h.detach⟩
  have := h s
  rw [cnt_self] at this
  omega

theorem attach_ok {p q} (h : Has (s :: L) O A v) (ha : A.count s ≤ L.count s)
    (h1 : ∀ v, Has (s :: L) O (s :: A) v → wp p Q v) (h2 : ∀ v, Has (s :: L) O A v → wp q Q v) :
    wp (attach s ;; ifOk p q) Q v := by
  refine ⟨?_, ⟨fun _ => h1 _ h.attach, fun e => by cases e⟩, ⟨fun e => (by cases e), fun _ => h2 _ h⟩⟩
  have := h s
  rw [cnt_self] at this
  omega

/-! ## Functions -/

theorem lruFree_ok (l : List Nat) (h : Has L (l ++ O) A v) (h1 : ∀ v, Has L O A v → Q v) : wp (lruFree l) Q v := by
  induction l generalizing v with
  | nil => exact h1 _ h
  | cons s l ih =>
    show wp (unmap s) (wp (ifOk (lruFree l) skip) Q) v
    exact unmap_ok h fun v hr hv => ⟨fun _ => ih hv, fun e => by rw [hr] at e; cases e⟩

theorem takeAll_ok (l : List Nat) (h : Has L O A v) (h1 : ∀ v, Has L (l ++ O) A v → Q v) : wp (takeAll l) Q v := by
  induction l generalizing v O with
  | nil => exact h1 _ h
  | cons s l ih =>
    show wp (takeAll l) Q _
    refine ih (Has.take (s := s) h) fun v hv => h1 v (hv.congr (fun _ => rfl) (fun x => ?_) fun _ => rfl)
    simp only [List.count_append, List.count_cons, List.cons_append]
    omega

theorem lruDrop_ok (h : Has L O A v) (h1 : ∀ v, Has L O A v → Q v) : wp lruDrop Q v :=
  fun l => takeAll_ok l h fun _ hv => lruFree_ok l hv h1

theorem lruAdd_ok (h : Has L O A v) (hk : (v.loc s).known = true) (h1 : ∀ v, Has L O A v → Q v) :
    wp (lruAdd s) Q v := by
  refine ⟨h1 _ h, h1 _ h, .inr hk, ⟨fun _ => ⟨?_, ?_⟩, fun e => (by cases e)⟩, ⟨fun e => (by cases e), fun _ => h1 _ h⟩⟩
  · exact unmap_ok h.map fun v _ hv => h1 _ hv
  · refine ⟨?_, ?_, h1 _ ?_, h1 _ ?_⟩
    · simpa [View.set, View.ret] using hk
    · simp [View.set, View.ret]
    all_goals exact Has.unmap (s := s) (v := (v.set s { v.loc s with own := (v.loc s).own + 1 }).ret true) h.map

theorem notify_ok (h : Has L O A v) (hk : (v.loc s).known = true) (h1 : ∀ v, Has L O A v → Q v) :
    wp (notify s) Q v := by
  refine ⟨.inl (.inr hk), lruAdd_ok h hk fun v hv => ⟨fun _ => ⟨h1 _ hv, h1 _ hv, lruDrop_ok hv h1⟩, fun _ => h1 _ hv⟩⟩

theorem mapSection_ok {p q} (h : Has L O A v) (hm : Mappable (v.loc s)) (ha : A.count s = 0)
    (h1 : ∀ v, Has L (s :: O) A v → wp p Q v) (h2 : ∀ v, Has L O A v → wp q Q v) :
    wp (mapSection s ;; ifOk p q) Q v := by
  have hok : ∀ v, v.res = true → Has L (s :: O) A v → wp (ifOk p q) Q v :=
    fun v hr hv => ⟨fun _ => h1 v hv, fun e => by rw [hr] at e; cases e⟩
  have hno : ∀ v, v.res = false → Has L O A v → wp (ifOk p q) Q v :=
    fun v hr hv => ⟨fun e => by (rw [hr] at e; cases e), fun _ => h2 v hv⟩
  refine ⟨hm, ⟨fun _ => ⟨?_, ?_, ?_, hok _ rfl h.map⟩, fun e => (by cases e)⟩,
    ⟨fun e => (by cases e), fun _ => hno _ rfl h⟩⟩
  · simp only [View.ret, View.set, upd_same, Touch]
    rcases hm with hm | hm
    · exact .inl (by omega)
    · exact .inr hm
  · have := (h s).2.2
    simp [View.ret, View.set, this, ha]
  · refine notify_ok (Has.known (s := s) (v := (v.set s { v.loc s with own := (v.loc s).own + 1 }).ret true) h.map)
      (by simp [View.set]) fun v hv => ⟨fun hr => hok v hr hv, fun _ => ?_⟩
    exact unmap_ok hv fun v _ hv => hno _ rfl hv

theorem allocBcache_ok (h : Has L O A v) (ht : Touch (v.loc s)) (ha : A.count s = 0) (h1 : ∀ v, Has L O A v → Q v) :
    wp (allocBcache s) Q v := by
  refine ⟨.inl ht, h1 _ h, h1 _ h, ht, ?_, ?_, h1 _ h⟩
  · rw [(h s).2.2, ha]
  · exact notify_ok h.known (by simp [View.set]) h1

theorem lookup_ok {p q} (h : Has L O A v) (h1 : ∀ v, Has (s :: L) O A v → wp p Q v) (h2 : ∀ v, Has L O A v → wp q Q v) :
    wp (lookup s ;; ifOk p q) Q v := by
  show wp (get s ;; ifOk p q) Q _
  exact get_ok h.known (.inr (by simp [View.set])) h1 h2

theorem put1 (h : Has (s :: L) [] [] v) (h1 : ∀ v, Has L [] [] v → Q v) : wp (put s) Q v :=
  put_ok h (by simp) (by simp) h1

theorem iscacheRead_ok (h : Has L [] [] v) (h1 : ∀ v, Has L [] [] v → Q v) : wp iscacheRead Q v := by
  intro s
  refine lookup_ok h (fun v hv => ⟨put1 hv h1, ?_⟩) h1
  refine mapSection_ok hv (hv.mappable (by simp)) (by simp) (fun v hv => ⟨.inl hv.touch, ?_⟩) (fun v hv => put1 hv h1)
  exact unmap_ok hv fun v _ hv => put1 hv h1

theorem addLoop_ok (l : List Nat) (h : Has (s :: L) [] [s] v) (h1 : ∀ v, Has L [] [] v → Q v) :
    wp (addLoop l s) Q v := by
  induction l generalizing s v with
  | nil =>
    refine ⟨⟨?_, h.more, h1 _ h.insert⟩, detach_ok h fun v hv => put1 hv fun v hv => h1 _ hv,
      detach_ok h fun v hv => lruDrop_ok hv fun v hv => put1 hv fun v hv => h1 _ hv⟩
    have := (h s).2.2
    rw [cnt_self] at this
    omega
  | cons x l ih =>
    show wp (get x ;; ifOk _ _) Q _
    refine get_ok (s := x) (Has.known (s := x) h) (.inr (by simp [View.set])) (fun v hv => ?_) fun v hv => ?_
    · refine detach_ok hv fun v hv => attach_ok hv (by simp) (fun v hv => ?_) fun v hv => ?_
      · have key : ∀ v, Has (x :: s :: L) [] [x] v → wp (put s ;; addLoop l x) Q v := by
          intro v hv
          refine put_ok (s := s) (L := x :: L) (hv.congr (fun y => ?_) (fun _ => rfl) fun _ => rfl) (by simp) ?_ fun v hv => ih hv
          · simp only [List.count_cons]; omega
          · simp only [List.count_cons, List.count_nil]; omega
        exact ⟨key v hv, unmap_ok hv.take fun v _ hv => key v hv⟩
      · exact put1 hv fun v hv => lruDrop_ok hv fun v hv => put1 hv fun v hv => h1 _ hv
    · exact detach_ok hv fun v hv => lruDrop_ok hv fun v hv => put1 hv fun v hv => h1 _ hv

theorem iscacheAdd_ok (h : Has L [] [] v) (ht : Touch (v.loc s)) (h1 : ∀ v, Has L [] [] v → Q v) :
    wp (iscacheAdd s) Q v := by
  refine get_ok h ht (fun v hv => ?_) h1
  exact attach_ok hv (by simp) (fun v hv l => addLoop_ok l hv h1) fun v hv => put1 hv fun v hv => h1 _ hv

theorem iscacheAddFile_ok (h : Has L [] [] v) (h1 : ∀ v, Has L [] [] v → Q v) : wp iscacheAddFile Q v := by
  refine ⟨h1 _ h, fun s => ⟨lookup_ok h (fun v hv => ?_) h1, ?_⟩⟩
  · exact iscacheAdd_ok hv hv.touch fun v hv => put1 hv h1
  · show wp (iscacheAdd s) (wp (put s) Q) _
    have := h.get (s := s)
    exact iscacheAdd_ok this this.touch fun v hv => put1 hv h1

theorem listAdd_ok (h : Has L [] [] v) (ht : Touch (v.loc s)) (h1 : ∀ v, Has L [] [] v → Q v) : wp (listAdd s) Q v :=
  get_ok h ht (fun v hv => ⟨⟨hv.more, h1 _ hv.imgAdd⟩, put1 hv fun v hv => h1 _ hv⟩) h1

theorem imgPut_ok (h : Has L [] [] v) (h1 : ∀ v, Has L [] [] v → Q v) : wp (imgDel s ;; put s) Q v :=
  fun hn => put1 (h.imgDel hn) h1

theorem imageAdd_ok (h : Has L [] [] v) (ht : Touch (v.loc s)) (h1 : ∀ v, Has L [] [] v → Q v) :
    wp (imageAdd s) Q v := by
  refine listAdd_ok h ht fun v hv => ⟨Has L [] [], hv, fun v hv s => ⟨?_, imgPut_ok hv fun _ => id⟩, h1⟩
  exact fun hn => listAdd_ok hv (img_touch hv hn) fun _ => id

theorem imageAddFile_ok (h : Has L [] [] v) (h1 : ∀ v, Has L [] [] v → Q v) : wp imageAddFile Q v := by
  intro s
  have := h.get (s := s)
  exact imageAdd_ok this this.touch fun v hv => put1 hv h1

theorem imageAddCached_ok (b : Bool) (h : Has L [] [] v) (h1 : ∀ v, Has L [] [] v → Q v) :
    wp (imageAddCached b) Q v := by
  intro s
  refine lookup_ok h (fun v hv => ?_) h1
  split
  · exact imageAdd_ok hv hv.touch fun v hv => put1 hv h1
  · exact ⟨hv.more, h1 _ hv.lose⟩

theorem imageRemove_ok (h : Has L [] [] v) (h1 : ∀ v, Has L [] [] v → Q v) : wp imageRemove Q v :=
  ⟨Has L [] [], h, fun _ hv _ => imgPut_ok hv fun _ => id, h1⟩

theorem imageCopy_ok (h : Has L [] [] v) (h1 : ∀ v, Has L [] [] v → Q v) : wp imageCopy Q v :=
  ⟨Has L [] [], h, fun _ hv _ hn => imageAdd_ok hv (img_touch hv hn) fun _ => id, h1⟩

theorem imageRead_ok (h : Has L [] [] v) (h1 : ∀ v, Has L [] [] v → Q v) : wp imageRead Q v := by
  intro s hn
  refine mapSection_ok h (img_mappable h hn) (by simp) (fun v hv => ⟨.inr ?_, unmap_ok hv fun v _ hv => h1 v hv⟩) h1
  have := (hv s).2.1
  rw [cnt_self] at this
  omega

theorem decoderFill_ok (h : Has L [] [] v) (h1 : ∀ v, Has L [] [] v → Q v) : wp decoderFill Q v := by
  intro s hn
  refine get_ok h (img_touch h hn) (fun v hv => ?_) h1
  exact mapSection_ok hv (hv.mappable (by simp)) (by simp) (fun v hv => ⟨hv.more, h1 _ hv.hold⟩) fun v hv => put1 hv h1

theorem decoderUse_ok (h : Has L [] [] v) (h1 : ∀ v, Has L [] [] v → Q v) : wp decoderUse Q v :=
  fun _ hn => ⟨⟨.inl (held_touch h hn), h1 _ h⟩, allocBcache_ok h (held_touch h hn) (by simp) h1⟩

theorem decoderForget_ok (h : Has L [] [] v) (h1 : ∀ v, Has L [] [] v → Q v) : wp decoderForget Q v :=
  fun _ hn => unmap_ok (h.unhold hn) fun _ _ hv => put1 hv h1

/-- The call is not `pt_iscache_free`. -/
def Call.noFree : Call → Prop
  | .iscacheFree _ _ => False
  | _ => True

theorem call_ok (c : Call) (hc : c.noFree) (h : Has [] [] [] v) (h1 : ∀ v, Has [] [] [] v → Q v) : wp c.prog Q v := by
  cases c with
  | iscacheRead => exact iscacheRead_ok h h1
  | iscacheAddFile => exact iscacheAddFile_ok h h1
  | iscacheSetLimit => exact lruDrop_ok h h1
  | imageAddFile => exact imageAddFile_ok h h1
  | imageAddCached b => exact imageAddCached_ok b h h1
  | imageRemove => exact imageRemove_ok h h1
  | imageCopy => exact imageCopy_ok h h1
  | imageRead => exact imageRead_ok h h1
  | decoderFill => exact decoderFill_ok h h1
  | decoderUse => exact decoderUse_ok h h1
  | decoderForget => exact decoderForget_ok h h1
  | iscacheFree => exact hc.elim

theorem calls_ok (l : List Call) (hl : ∀ c ∈ l, c.noFree) (h : Has [] [] [] v) : wpL (l.map Call.prog) v := by
  induction l generalizing v with
  | nil =>
    intro s
    have := h s
    simpa using this
  | cons c l ih =>
    exact call_ok c (hl c (by simp)) h fun v hv => ih (fun c hc => hl c (by simp [hc])) hv

theorem inv_start {n : Nat} (calls : Fin n → List Call) (h : ∀ t, ∀ c ∈ calls t, c.noFree) : Inv (start calls) where
  sec := by
    intro s
    constructor <;> simp [start, Loc.kept]
  ob := fun t => calls_ok _ (h t) (by intro s; simp [start, Loc.kept, Thread.after])

end Ipt.Refs
