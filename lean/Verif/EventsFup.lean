import Verif.EventsCfe

/-! Helper lemmas: the event decoder follows `Spec.trace`.  FUP. -/

set_option linter.unusedSimpArgs false

namespace Ipt.Events

open Ipt Ipt.Spec

variable {c : EvtCfg} {fin : Err} {s : Evd} {v : TraceView} {rest : List Packet} {t : List Event × Bool}

theorem wlp_time {p : EvPtr} {e : Event} {l : List (Event × Nat)} {Q : Bool → Evd → Prop} {E : Err → Evd → Prop}
    (hl : s.q.Holds l) (hf : Free p s.q) (he : s.ev p = e) (htm : s.tm = v.tm)
    (hq : ∀ q', q'.Holds l → Free p q' → Evd.ev { s with q := q' } p = v.now e → Q false { s with q := q' }) :
    EM.wlp (timeEv p) Q E s := by
  unfold timeEv
  rw [EM.wlp_bind]
  refine wlp_updEv_free hl hf fun q' k1 k2 k3 => ?_
  rw [EM.wlp_pure]
  refine hq q' k1 k2 ?_
  rw [k3, he, htm, timed_now]

theorem wlp_ipTime {p : EvPtr} {e : Event} {l : List (Event × Nat)} {Q : Bool → Evd → Prop} {E : Err → Evd → Prop}
    (hl : s.q.Holds l) (hf : Free p s.q) (he : s.ev p = e) (hip : s.ip = v.ip) (htm : s.tm = v.tm)
    (hq : ∀ q', q'.Holds l → Evd.ev { s with q := q' } p = v.here e → Q false { s with q := q' }) :
    EM.wlp (ipTimeEv p) Q E s := by
  unfold ipTimeEv
  rw [EM.wlp_bind]
  refine wlp_updEv_free hl hf fun q' k1 k2 k3 => ?_
  refine wlp_time (v := v) (e := v.located e) k1 k2 ?_ htm ?_
  · rw [k3, he, hip, withIp_located]
  · intro q2 k4 _ k5; exact hq q2 k4 k5

/-! ## The last IP -/

theorem update_idem {l l' : LastIp} {ipc ip : Nat} {r : Res Unit} (h : l.update ipc ip = (l', r)) :
    l'.update ipc ip = (l', r) := by
  unfold LastIp.update at h ⊢
  have k16 : ∀ a b : Nat, (a / 2 ^ 16 * 2 ^ 16 + b % 2 ^ 16) / 2 ^ 16 = a / 2 ^ 16 := by intro a b; omega
  have k32 : ∀ a b : Nat, (a / 2 ^ 32 * 2 ^ 32 + b % 2 ^ 32) / 2 ^ 32 = a / 2 ^ 32 := by intro a b; omega
  have k48 : ∀ a b : Nat, (a / 2 ^ 48 * 2 ^ 48 + b % 2 ^ 48) / 2 ^ 48 = a / 2 ^ 48 := by intro a b; omega
  by_cases h0 : ipc = 0
  · rw [if_pos h0] at h ⊢; cases h; rfl
  by_cases h3 : ipc = 3
  · rw [if_neg h0, if_pos h3] at h ⊢; cases h; rfl
  by_cases h1 : ipc = 1
  · rw [if_neg h0, if_neg h3, if_pos h1] at h ⊢; cases h; simp only [k16]
  by_cases h2 : ipc = 2
  · rw [if_neg h0, if_neg h3, if_neg h1, if_pos h2] at h ⊢; cases h; simp only [k32]
  by_cases h4 : ipc = 4
  · rw [if_neg h0, if_neg h3, if_neg h1, if_neg h2, if_pos h4] at h ⊢; cases h; simp only [k48]
  by_cases h6 : ipc = 6
  · rw [if_neg h0, if_neg h3, if_neg h1, if_neg h2, if_neg h4, if_pos h6] at h ⊢; cases h; rfl
  · rw [if_neg h0, if_neg h3, if_neg h1, if_neg h2, if_neg h4, if_neg h6] at h ⊢; cases h; rfl

/-- The view has the IP of the packet. -/
def At (v : TraceView) (ipc ip : Nat) : Prop := v.ip.update ipc ip = (v.ip, .ok ())

theorem At.goto {ipc ip : Nat} (h : At v ipc ip) : v.goto ipc ip = some v := by
  unfold TraceView.goto; rw [h]

theorem wlp_goto {ipc ip : Nat} {Q : Unit → Evd → Prop} {E : Err → Evd → Prop} (hr : Rel c s v)
    (hE : v.goto ipc ip = none → ∀ e s', E e s')
    (hq : ∀ l, v.goto ipc ip = some { v with ip := l } → At { v with ip := l } ipc ip → Rel c { s with ip := l } { v with ip := l } →
      Q () { s with ip := l }) :
    EM.wlp (updIp ipc ip) Q E s := by
  unfold EM.wlp updIp
  rw [hr.ip]
  unfold TraceView.goto at hE hq
  rcases hx : v.ip.update ipc ip with ⟨l, ⟨⟩ | e | _⟩
  · rw [hx] at hq; exact hq l rfl (update_idem hx) ⟨rfl, hr.tm, hr.on, hr.mode, hr.q, hr.fit, hr.hdr⟩
  · rw [hx] at hE; exact hE rfl _ _
  · trivial

/-! ## FUP -/

/-- An overflow. -/
def isOvf (x : Event × Waits) : Bool := match x.1.data with | .overflow _ => true | _ => false

theorem owns_atFup {w : Waits} (h : w.owns = true) : w.atFup = true := by cases w <;> first | rfl | cases h

theorem any_owns (l : List (Event × Waits)) : ((l.filter fun x => x.2.atFup).any fun x => x.2.owns) = l.any fun x => x.2.owns := by
  induction l with
  | nil => rfl
  | cons x l ih =>
    cases h : x.2.atFup with
    | true => rw [List.filter_cons_of_pos (by exact h), List.any_cons, List.any_cons, ih]
    | false =>
      rw [List.filter_cons_of_neg (by simp [h]), List.any_cons, ih]
      cases h2 : x.2.owns with
      | true => rw [owns_atFup h2] at h; cases h
      | false => rfl

/-- `TraceView.fup`, with the events that FUP completes and the others. -/
def fupOut (v : TraceView) (mine others : List (Event × Waits)) (own : Bool) : Outcome :=
  (mine.flatMap fun x => v.atFup x.1,
   if (own || mine.any fun x => x.2.owns) = true then some { v with on := v.on || mine.any isOvf, waiting := others }
   else match ipOf v.ip with
     | some src => TraceView.wait { v with on := v.on || mine.any isOvf, waiting := others } { data := .asyncBranch src 0 } .tip
     | none => none)

theorem fup_out (b : Bool) : v.fup b = fupOut v (v.waiting.filter fun x => x.2.atFup) (v.waiting.filter fun x => !x.2.atFup) b := rfl

theorem fupOut_cons (x : Event × Waits) (m o w : List (Event × Waits)) (b b' : Bool)
    (hb : (b || (x :: m).any fun x => x.2.owns) = (b' || m.any fun x => x.2.owns)) :
    fupOut v (x :: m) o b = Outcome.after (v.atFup x.1) (fupOut { v with on := v.on || isOvf x, waiting := w } m o b') := by
  have e5 : (v.on || (x :: m).any isOvf) = ((v.on || isOvf x) || m.any isOvf) := by rw [List.any_cons, Bool.or_assoc]
  unfold fupOut Outcome.after
  rw [hb, e5]
  rfl

/-- One of the events that FUP completes. -/
theorem fup_split {l1 l2 : List (Event × Waits)} {x : Event × Waits} (b : Bool) (hv : v.waiting = l1 ++ x :: l2)
    (h1 : ∀ y ∈ l1, y.2.atFup = false) (hx : x.2.atFup = true) :
    v.fup b = Outcome.after (v.atFup x.1) (TraceView.fup { v with on := v.on || isOvf x, waiting := l1 ++ l2 }
      (b || v.waiting.any fun x => x.2.owns)) := by
  have e1 : v.waiting.filter (fun x => x.2.atFup) = x :: (l1 ++ l2).filter fun x => x.2.atFup := by
    rw [hv, filter_split h1 hx, filter_split' h1]
  have e2 : v.waiting.filter (fun x => !x.2.atFup) = (l1 ++ l2).filter fun x => !x.2.atFup := by
    rw [hv]; exact filter_not_split hx
  rw [fup_out, fup_out, e1, e2]
  refine fupOut_cons x _ _ _ b _ ?_
  rw [← e1, any_owns, any_owns, hv]
  simp only [List.any_append, List.any_cons]
  cases b <;> cases x.2.owns <;> cases (l1.any fun x => x.2.owns) <;> cases (l2.any fun x => x.2.owns) <;> rfl

/-- No event for FUP. -/
theorem fup_none (b : Bool) (h : ∀ x ∈ v.waiting, x.2.atFup = false) :
    v.fup b = ([], if b = true then some v else match ipOf v.ip with
      | some src => v.wait { data := .asyncBranch src 0 } .tip
      | none => none) := by
  have e1 : v.waiting.filter (fun x => x.2.atFup) = [] := List.filter_eq_nil_iff.2 (by simpa using h)
  have e2 : v.waiting.filter (fun x => !x.2.atFup) = v.waiting := List.filter_eq_self.2 (by simpa using h)
  rw [fup_out, e1, e2]
  unfold fupOut
  simp only [List.any_nil, Bool.or_false, List.flatMap_nil]

theorem wlp_fupPending {Q : Unit → Evd → Prop} {E : Err → Evd → Prop} (hr : Rel c s v)
    (hq : Q () { s with bound := s.bound || v.waiting.any fun x => x.2.owns }) : EM.wlp fupPending Q E s := by
  unfold EM.wlp fupPending
  rw [pending_holds hr.q]
  have : (lst v.waiting).any (matches_ evbFupBound) = v.waiting.any fun x => x.2.owns := by
    unfold lst
    rw [List.any_map]
    congr 1
    funext x
    exact own_pred x.2
  rw [this]
  cases h : (v.waiting.any fun x => x.2.owns) with
  | true => rw [h] at hq; simpa using hq
  | false => rw [h, Bool.or_false] at hq; exact hq

/-- A state in the middle of a packet. -/
structure Busy (c : EvtCfg) (fin : Err) (s : Evd) (v : TraceView) (rest : List Packet) (p : Packet) : Prop where
  rel : Rel c s v
  left : Left c fin s.pd rest
  ev : s.event = none
  pk : s.packet = p

theorem wlp_publish {i : Nat} {f : Event → EM Bool} {Q : Bool → Evd → Prop} {E : Err → Evd → Prop} {e : Event}
    (he : s.q.get i = e) (hq : EM.wlp (f e) Q E { s with event := some (.slot i) }) : EM.wlp (publish i f) Q E s := by
  unfold publish setEvent
  rw [EM.wlp_bind, EM.wlp_modify, EM.wlp_bind, EM.wlp_get]
  dsimp only
  rw [he]; exact hq

/-- The event `x`, and the remaining events of FUP. -/
theorem fup_event {ipc ip : Nat} {i : Nat} {e : Event} (hr : Rel c s v) (ho : Ord v.waiting)
    (hl : Left c fin s.pd rest) (hp : s.packet = .fup ipc ip) (hat : At v ipc ip) (he : s.event = some (.slot i))
    (hi : s.q.get i = e) (ht : t = cont c fin (Outcome.after [e] (v.fup s.bound)) rest) : Out c fin t false s := by
  refine out_more (p := .slot i) (v := v) (rest := rest) (e := e) (es := (v.fup s.bound).1) (o := (v.fup s.bound).2) he hi ht
    ⟨⟨hr.ip, hr.tm, hr.on, hr.mode, hr.q, hr.fit, hr.hdr⟩, hl, .inl ho, ?_⟩ ?_
  · intro _; show slow s.packet = true ∧ (pgds s.packet = true → _); rw [hp]; exact ⟨rfl, fun h => by cases h⟩
  · rw [hp]; unfold mid; dsimp only; rw [hat.goto]

theorem fup_go {ipc ip : Nat} (n : Nat) : ∀ (s : Evd) (v : TraceView), Busy c fin s v rest (.fup ipc ip) → Ord v.waiting →
    t = cont c fin (mid c fin v s.bound (.fup ipc ip) rest) rest →
    EM.wlp (decodeFup ipc ip n) (Out c fin t) (Bad fin t) s := by
  induction n with
  | zero => intro _ _ _ _ _; exact (EM.wlp_undef _ _ _).2 trivial
  | succ n ih =>
    intro s v h ho ht
    unfold decodeFup
    rw [EM.wlp_bind]
    unfold mid at ht
    dsimp only at ht
    refine wlp_goto h.rel ?_ ?_
    · intro hn e s'
      rw [hn] at ht
      exact bad_of ht
    intro l hl hat hr
    rw [hl] at ht
    dsimp only at ht
    have hw : TraceView.waiting { v with ip := l } = v.waiting := rfl
    rw [← hw] at ho
    generalize ({ v with ip := l } : TraceView) = v1 at hl hat hr ht ho
    clear hl hw
    rw [EM.wlp_bind]
    refine wlp_fupPending hr ?_
    rw [EM.wlp_bind]
    refine wlp_deqs (l := v1.waiting) hr.q fup_pred ?_ ?_
    · intro hn
      dsimp only
      have hno : (v1.waiting.any fun x => x.2.owns) = false := by
        rw [List.any_eq_false]
        intro x hx h2
        exact absurd (hn x hx) (by simp [owns_atFup h2])
      rw [fup_none _ hn] at ht
      unfold fupUnbound
      rw [EM.wlp_bind, EM.wlp_get]
      dsimp only
      rw [hno, Bool.or_false]
      have hst : St c fin { s with ip := l } v1 rest := ⟨hr, ho, h.left, h.ev⟩
      refine EM.wlp_ite ?_ ?_
      · intro hb
        rw [hb, if_pos rfl] at ht
        rw [EM.wlp_pure]
        refine hst.more ?_
        rw [ht, ← cont_quiet]; rfl
      · intro hb
        rw [if_neg hb] at ht
        rw [EM.wlp_bind]
        unfold EM.wlp EM.lift
        have e1 : l = v1.ip := hr.ip
        dsimp only
        rw [← e1] at ht
        unfold ipOf at ht
        cases hx : l.query with
        | ub => trivial
        | err e => rw [hx] at ht; exact bad_of ht
        | ok src =>
          rw [hx] at ht
          refine enqMore_wait (w := .tip) hst rfl rfl ?_ ht
          refine ord_branch ho ?_ rfl rfl
          intro y hy h2
          have := hn y hy
          rw [h2] at this; cases this
    · intro l1 x l2 q' h1 h2 h3 h4 h5 h6
      dsimp only at h5 h6 ⊢
      rw [fup_split _ h1 h2 h3] at ht
      have hf := hr.fit
      rw [h1] at hf
      have ho' := ho
      rw [h1] at ho'
      have ho2 : Ord (l1 ++ l2) := by
        refine ord_erase ho' ?_
        intro h7; rw [h7] at h3; cases h3
      have hx := hf x (by simp)
      have hr2 : Rel c { s with ip := l, q := q' } { v1 with waiting := l1 ++ l2 } := hr.withQ h4 (fit_erase hf)
      have hat2 : At { v1 with waiting := l1 ++ l2 } ipc ip := hat
      refine wlp_publish h5 ?_
      have hT : ∀ (e' : Event), isOvf x = false → v1.atFup x.1 = [e'] → ∀ q2 : Evq Event, q2.Holds (lst (l1 ++ l2)) →
          q2.get s.q.begin = e' →
          Out c fin t false { s with ip := l, bound := s.bound || v1.waiting.any (fun x => x.2.owns), q := q2, event := some (.slot s.q.begin) } := by
        intro e' k0 k1 q2 k2 k3
        rw [k0, Bool.or_false, k1] at ht
        exact fup_event (v := { v1 with waiting := l1 ++ l2 }) ⟨hr2.ip, hr2.tm, hr2.on, hr2.mode, k2, hr2.fit, hr2.hdr⟩ ho2 h.left h.pk hat2
          rfl k3 ht
      have hI : isOvf x = false → v1.atFup x.1 = [v1.here x.1] → EM.wlp (ipTimeEv (.slot s.q.begin)) (Out c fin t) (Bad fin t)
          { s with ip := l, bound := s.bound || v1.waiting.any (fun x => x.2.owns), q := q', event := some (.slot s.q.begin) } := by
        intro k0 k1
        refine wlp_ipTime (v := v1) h4 h6 h5 hr.ip hr.tm ?_
        intro q2 k2 k3
        exact hT _ k0 k1 q2 k2 k3
      have hU : isOvf x = false → v1.atFup x.1 = [v1.now x.1] → x.1.ipSuppressed = true → EM.wlp (do
            let _ ← timeEv (.slot s.q.begin)
            if x.1.ipSuppressed = true then return false else EM.fail .internal) (Out c fin t) (Bad fin t)
          { s with ip := l, bound := s.bound || v1.waiting.any (fun x => x.2.owns), q := q', event := some (.slot s.q.begin) } := by
        intro k0 k1 k4
        rw [EM.wlp_bind]
        refine wlp_time (v := v1) h4 h6 h5 hr.tm ?_
        intro q2 k2 _ k3
        rw [if_pos k4, EM.wlp_pure]
        exact hT _ k0 k1 q2 k2 k3
      obtain ⟨e, w⟩ := x
      unfold fupEvent
      unfold Fit at hx
      unfold isOvf TraceView.atFup at hT hI hU ht
      dsimp only at hT hI hU ht h3 h5 hx ⊢
      cases hd : e.data <;> rw [hd] at hI hU hx ht <;>
        first
        | exact hI rfl rfl
        | (refine hU rfl rfl ?_; revert h3 hx; cases w <;> simp [fitData, Waits.atFup])
        | (exfalso; revert h3 hx; cases w <;> simp [fitData, Waits.atFup] <;> done)
        | skip
      · rw [EM.wlp_bind]
        refine wlp_updEv_free h4 h6 fun q2 k1 k2 k3 => ?_
        rw [EM.wlp_bind, EM.wlp_modify, EM.wlp_pure]
        dsimp only at ht
        rw [Bool.or_true] at ht
        refine fup_event (v := { v1 with on := true, waiting := l1 ++ l2 }) (e := v1.located e)
          ⟨hr2.ip, hr2.tm, rfl, hr2.mode, k1, hr2.fit, hr2.hdr⟩ ho2 h.left h.pk hat rfl ?_ ht
        refine k3.trans ?_
        show Event.withIp (q'.get s.q.begin) l = _
        rw [h5, show l = v1.ip from hr.ip, withIp_located]
      · unfold setEvent
        rw [EM.wlp_bind, EM.wlp_modify]
        dsimp only at ht
        rw [Bool.or_false] at ht
        refine ih _ { v1 with waiting := l1 ++ l2 } ⟨⟨hr2.ip, hr2.tm, hr2.on, hr2.mode, hr2.q, hr2.fit, hr2.hdr⟩, h.left, rfl, h.pk⟩ ho2 ?_
        unfold mid
        dsimp only
        rw [hat2.goto, ht]; rfl

end Ipt.Events
