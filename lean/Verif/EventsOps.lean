import Verif.EventsBase

/-! Helper lemmas: the event decoder follows `Spec.trace`.  Queue operations, and packets with one event. -/

set_option linter.unusedSimpArgs false

namespace Ipt.Events

open Ipt Ipt.Spec

variable {c : EvtCfg} {fin : Err} {s : Evd} {v : TraceView} {rest : List Packet} {t : List Event × Bool}

/-! ## Splitting a list at the first match -/

theorem split_first {α : Type} (p : α → Bool) : ∀ (l : List α), (∀ x ∈ l, p x = false) ∨
    ∃ l1 x l2, l = l1 ++ x :: l2 ∧ (∀ y ∈ l1, p y = false) ∧ p x = true
  | [] => .inl (by simp)
  | a :: l => by
    cases ha : p a with
    | true => exact .inr ⟨[], a, l, rfl, by simp, ha⟩
    | false =>
      rcases split_first p l with h | ⟨l1, x, l2, rfl, h1, h2⟩
      · exact .inl (by simpa [ha] using h)
      · exact .inr ⟨a :: l1, x, l2, rfl, by simpa [ha] using h1, h2⟩

theorem findIdx_split {α : Type} {p : α → Bool} {l1 l2 : List α} {x : α} (h : ∀ y ∈ l1, p y = false) (hx : p x = true) :
    (l1 ++ x :: l2).findIdx? p = some l1.length := by
  rw [List.findIdx?_append, List.findIdx?_eq_none_iff.2 h]
  simp [List.findIdx?_cons, hx]

theorem find_split {α : Type} {p : α → Bool} {l1 l2 : List α} {x : α} (h : ∀ y ∈ l1, p y = false) (hx : p x = true) :
    (l1 ++ x :: l2).find? p = some x := by
  rw [List.find?_append, List.find?_eq_none.2 (by simpa using h)]
  simp [hx]

theorem filter_split {α : Type} {p : α → Bool} {l1 l2 : List α} {x : α} (h : ∀ y ∈ l1, p y = false) (hx : p x = true) :
    (l1 ++ x :: l2).filter p = x :: l2.filter p := by
  rw [List.filter_append, List.filter_eq_nil_iff.2 (by simpa using h), List.filter_cons_of_pos hx]; rfl

theorem filter_split' {α : Type} {p : α → Bool} {l1 l2 : List α} (h : ∀ y ∈ l1, p y = false) :
    (l1 ++ l2).filter p = l2.filter p := by
  rw [List.filter_append, List.filter_eq_nil_iff.2 (by simpa using h)]; rfl

theorem filter_not_split {α : Type} {p : α → Bool} {l1 l2 : List α} {x : α} (hx : p x = true) :
    (l1 ++ x :: l2).filter (fun y => !p y) = (l1 ++ l2).filter (fun y => !p y) := by
  rw [List.filter_append, List.filter_cons_of_neg (by simp [hx]), ← List.filter_append]

theorem eraseP_split {α : Type} {p : α → Bool} {l1 l2 : List α} {x : α} (h : ∀ y ∈ l1, p y = false) (hx : p x = true) :
    (l1 ++ x :: l2).eraseP p = l1 ++ l2 := by
  rw [List.eraseP_append_right _ (by simpa using h), List.eraseP_cons_of_pos hx]

/-! ## The queue -/

theorem firstMatch_lst {evb : Nat} {pred : Waits → Bool} (hp : ∀ w, decide (mask w &&& evb ≠ 0) = pred w)
    (l : List (Event × Waits)) : firstMatch evb (lst l) = l.findIdx? fun x => pred x.2 := by
  unfold firstMatch lst
  rw [List.findIdx?_map]
  congr 1
  funext x
  exact hp x.2

theorem wlp_deqs {evb : Nat} {l : List (Event × Waits)} {pred : Waits → Bool} {Q : Option Nat → Evd → Prop}
    {E : Err → Evd → Prop} (hl : s.q.Holds (lst l)) (hp : ∀ w, decide (mask w &&& evb ≠ 0) = pred w)
    (h0 : (∀ x ∈ l, pred x.2 = false) → Q none s)
    (h1 : ∀ l1 x l2 q', l = l1 ++ x :: l2 → (∀ y ∈ l1, pred y.2 = false) → pred x.2 = true → q'.Holds (lst (l1 ++ l2)) →
      q'.get s.q.begin = x.1 → Free (.slot s.q.begin) q' → Q (some s.q.begin) { s with q := q' }) :
    EM.wlp (deq evb) Q E s := by
  refine wlp_deq hl ?_ ?_
  · intro h
    rw [firstMatch_lst hp] at h
    exact h0 (by simpa using h)
  · intro j x q' h2 h3 h4 h5 h6
    rw [firstMatch_lst hp] at h2
    rcases split_first (fun x : Event × Waits => pred x.2) l with hn | ⟨l1, y, l2, rfl, a1, a2⟩
    · rw [List.findIdx?_eq_none_iff.2 hn] at h2; cases h2
    · rw [findIdx_split a1 a2, Option.some.injEq] at h2
      subst h2
      have e1 : lst (l1 ++ y :: l2) = lst l1 ++ (y.1, mask y.2) :: lst l2 := by rw [lst_append]; rfl
      have e2 : (lst l1).length = l1.length := lst_length l1
      rw [e1, List.getElem?_append_right (by omega), e2, Nat.sub_self] at h3
      rw [e1, List.eraseIdx_append_of_length_le (by omega), e2, Nat.sub_self] at h4
      refine h1 l1 y l2 q' rfl a1 a2 (by rw [lst_append]; exact h4) ?_ h6
      rw [h5]
      simpa using (congrArg Prod.fst (Option.some.inj h3)).symm

theorem wlp_enqSlots {evb : Nat} {l : List (Event × Nat)} {Q : Nat → Evd → Prop} {E : Err → Evd → Prop} (hl : s.q.Holds l)
    (hE : 14 ≤ l.length → E .nomem s)
    (hq : ∀ q', l.length < 14 → q'.Holds (l ++ [(default, evb)]) → q'.begin = s.q.begin → q'.standalone = s.q.standalone →
      (∀ j, j ≠ (s.q.begin + l.length) % 16 → q'.entry j = s.q.entry j) →
      Q ((s.q.begin + l.length) % 16) { s with q := q' }) : EM.wlp (enqSlot evb) Q E s := by
  unfold EM.wlp enqSlot
  have hlen := hl.len
  by_cases h : l.length < 14
  · obtain ⟨q', h1, h2, h3, h4, h5⟩ := (enqueue_holds hl evb).1 h
    rw [h1]
    dsimp only
    rw [hl.end_]
    refine hq q' h h2 h3 h5 ?_
    rw [← hl.end_]; exact h4
  · rw [(enqueue_holds hl evb).2 (by omega)]
    exact hE (by omega)

theorem wlp_enqs {evb : Nat} {e : Event} {l : List (Event × Nat)} {Q : Unit → Evd → Prop} {E : Err → Evd → Prop}
    (hl : s.q.Holds l) (hE : 14 ≤ l.length → E .nomem s)
    (hq : ∀ q', l.length < 14 → q'.Holds (l ++ [(e, evb)]) → q'.begin = s.q.begin → Q () { s with q := q' }) :
    EM.wlp (enq evb e) Q E s := by
  unfold enq
  rw [EM.wlp_bind]
  refine wlp_enqSlots hl hE fun q' h0 h1 h2 _ _ => ?_
  unfold updEv
  rw [EM.wlp_modify]
  exact hq (q'.put _ e) h0 (put_last_holds h1 (by rw [h2]) e) h2

/-! ## States -/

theorem Rel.withQ {q' : Evq Event} {l : List (Event × Waits)} (h : Rel c s v) (hq : q'.Holds (lst l)) (hf : ∀ x ∈ l, Fit x) :
    Rel c { s with q := q' } { v with waiting := l } := ⟨h.ip, h.tm, h.on, h.mode, hq, hf, h.hdr⟩

/-- No more waiting events than fit. -/
theorem wait_full {e : Event} {w : Waits} (h : 14 ≤ v.waiting.length) : v.wait e w = none := by
  unfold TraceView.wait; rw [if_neg (by omega)]

theorem wait_ok {e : Event} {w : Waits} (h : v.waiting.length < 14) :
    v.wait e w = some { v with waiting := v.waiting ++ [(e, w)] } := by
  unfold TraceView.wait; rw [if_pos h]

theorem fit_snoc {l : List (Event × Waits)} {x : Event × Waits} (h : ∀ y ∈ l, Fit y) (hx : Fit x) : ∀ y ∈ l ++ [x], Fit y := by
  intro y hy
  rcases List.mem_append.1 hy with hy | hy
  · exact h y hy
  · rw [List.mem_singleton.1 hy]; exact hx

/-- Enqueueing an event. -/
theorem wlp_wait {e : Event} {w : Waits} {evb : Nat} {Q : Unit → Evd → Prop} {E : Err → Evd → Prop} (hr : Rel c s v)
    (hw : evb = mask w) (hf : Fit (e, w)) (hE : v.wait e w = none → E .nomem s)
    (hq : ∀ q', v.wait e w = some { v with waiting := v.waiting ++ [(e, w)] } → q'.begin = s.q.begin →
      Rel c { s with q := q' } { v with waiting := v.waiting ++ [(e, w)] } → Q () { s with q := q' }) :
    EM.wlp (enq evb e) Q E s := by
  subst hw
  refine wlp_enqs hr.q ?_ ?_
  · rw [lst_length]; exact fun h => hE (wait_full h)
  · intro q' h1 h2 h3
    rw [lst_length] at h1
    refine hq q' (wait_ok h1) h3 (hr.withQ ?_ (fit_snoc hr.fit hf))
    rw [lst_append]; exact h2

/-- A state between packets. -/
structure St (c : EvtCfg) (fin : Err) (s : Evd) (v : TraceView) (rest : List Packet) : Prop where
  rel : Rel c s v
  ord : Ord v.waiting
  left : Left c fin s.pd rest
  ev : s.event = none

theorem St.more (h : St c fin s v rest) (ht : t = trace c fin v rest) : Out c fin t true s := by
  unfold Out
  rw [if_pos rfl]
  exact ⟨h.ev, v, rest, h.rel, h.ord, h.left, ht⟩

theorem enqMore_wait {e : Event} {w : Waits} {evb : Nat} (h : St c fin s v rest) (hw : evb = mask w) (hf : Fit (e, w))
    (ho : Ord (v.waiting ++ [(e, w)])) (ht : t = cont c fin (.quiet (v.wait e w)) rest) :
    EM.wlp (enqMore evb e) (Out c fin t) (Bad fin t) s := by
  unfold enqMore
  rw [EM.wlp_bind]
  refine wlp_wait h.rel hw hf ?_ ?_
  · intro hn; rw [hn] at ht; exact bad_of ht
  · intro q' h1 _ h2
    rw [EM.wlp_pure]
    rw [h1, cont_quiet] at ht
    exact St.more ⟨h2, ho, h.left, h.ev⟩ ht

/-- Fetching the next packet after an event. -/
theorem wlp_fetch_todo {Q : Unit → Evd → Prop} {E : Err → Evd → Prop} (hr : Rel c s v)
    (ho : Ord v.waiting) (hl : Left c fin s.pd rest) (hb : s.bound = false)
    (hq : ∀ s', s'.event = s.event → s'.q = s.q → Todo c fin { s' with event := none } (trace c fin v rest) → Q () s') :
    EM.wlp (fetchPacket c) Q E s := by
  refine wlp_fetch_left hl ?_ ?_
  · intro pd p size k ps h1 h2 h4
    refine hq _ rfl rfl (.inl ⟨v, ps, ⟨⟨hr.ip, hr.tm, hr.on, hr.mode, hr.q, hr.fit, hr.hdr⟩, h4, .inl ho, ?_⟩, ?_⟩)
    · intro h; rw [show s.bound = true from h] at hb; cases hb
    · rw [h1, trace_pads hr.hdr.2.1, trace_cons hr.hdr.2.1]
      dsimp only
      rw [hb, mid_false]
      unfold TraceView.fresh
      rw [hr.hdr.1]
  · intro pd k h1
    refine hq _ rfl rfl (.inr (.inl ⟨rfl, rfl, hb, ?_⟩))
    have := trace_pads (c := c) (fin := fin) hr.hdr.2.1 k []
    rw [List.append_nil] at this
    rw [h1, this]; rfl

theorem fetchDone_out (hr : Rel c s v) (ho : Ord v.waiting) (hl : Left c fin s.pd rest)
    (hb : s.bound = false) {p : EvPtr} {e : Event} (he : s.event = some p) (hp : s.ev p = e)
    (ht : t = cont c fin ([e], some v) rest) : EM.wlp (fetchDone c) (Out c fin t) (Bad fin t) s := by
  unfold fetchDone
  rw [EM.wlp_bind]
  refine wlp_fetch_todo hr ho hl hb fun s' h1 h2 h3 => ?_
  rw [EM.wlp_pure]
  unfold Out
  rw [if_neg (by simp)]
  refine ⟨p, (trace c fin v rest).1, by rw [h1, he], ?_, by rw [ht]; exact h3⟩
  rw [ht]
  show e :: _ = _
  rw [← hp]
  congr 1
  cases p <;> simp [Evd.ev, h2]

theorem timed_now (e : Event) : e.timed v.tm.time = v.now e := by
  unfold Event.timed TraceView.now
  cases v.tm.time.haveTsc <;> rfl

theorem setIp_place (ip : Nat) (d : EvData) : d.setIp ip = EvData.place ip d := by cases d <;> rfl

theorem withIp_located (e : Event) : e.withIp v.ip = v.located e := by
  unfold Event.withIp TraceView.located ipOf
  cases v.ip.query <;> simp only [setIp_place]

theorem aloneDone_says {e : Event} (hr : Rel c s v) (ho : Ord v.waiting)
    (hl : Left c fin s.pd rest) (hb : s.bound = false)
    (ht : t = cont c fin (v.says e) rest) : EM.wlp (aloneDone c e) (Out c fin t) (Bad fin t) s := by
  unfold aloneDone alone timeEv updEv
  rw [EM.wlp_bind, EM.wlp_modify, EM.wlp_bind, EM.wlp_bind, EM.wlp_modify, EM.wlp_pure]
  refine fetchDone_out (v := v) (p := .alone) (e := v.now e) ?_ ho hl hb rfl ?_ ht
  · exact ⟨hr.ip, hr.tm, hr.on, hr.mode, standalone_holds (standalone_holds hr.q _) _, hr.fit, hr.hdr⟩
  · show Event.timed _ s.tm.time = _
    rw [hr.tm, timed_now]; rfl

/-- An event in a free slot or the standalone event, and further ones for the same packet. -/
theorem out_more {p : EvPtr} {e : Event} {es : List Event} {o : Option TraceView} (he : s.event = some p) (hp : s.ev p = e)
    (ht : t = cont c fin (e :: es, o) rest) (hc : Cur c fin { s with event := none } v rest)
    (hm : mid c fin v s.bound s.packet rest = (es, o)) : Out c fin t false s := by
  unfold Out
  rw [if_neg (by simp)]
  rw [cont_cons] at ht
  refine ⟨p, (cont c fin (es, o) rest).1, he, by rw [ht, hp], .inl ⟨v, rest, hc, ?_⟩⟩
  dsimp only
  rw [hm, ht]

end Ipt.Events
