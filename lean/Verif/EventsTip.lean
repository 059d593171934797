import Verif.EventsFup

/-! Helper lemmas: the event decoder follows `Spec.trace`.  TIP, TIP.PGE, TIP.PGD. -/

set_option linter.unusedSimpArgs false

namespace Ipt.Events

open Ipt Ipt.Spec

variable {c : EvtCfg} {fin : Err} {s : Evd} {v : TraceView} {rest : List Packet} {t : List Event × Bool}

/-! ## The remaining events -/

/-- An event at a TIP packet. -/
def shown (v : TraceView) (e : Event) : List Event := match e.data with | .tick _ => [] | _ => [v.here e]

/-- The events that wait for TIP; `fits` tells which ones are allowed. -/
def restOut (v : TraceView) (fits : EvData → Bool) : Outcome :=
  ((v.settle fits v.forTip).1, if (v.settle fits v.forTip).2 = true then some v.dropTip else none)

/-- Allowed at TIP. -/
def tipFits (d : EvData) : Bool := match d with | .asyncBranch .. => false | _ => true

/-- Allowed at TIP.PGE. -/
def pgeFits (d : EvData) : Bool := match d with | .execMode .. | .iflags .. | .tick _ => true | _ => false

theorem tipRest_eq : v.tipRest = restOut v tipFits := rfl

theorem pgeRest_eq : v.pgeRest = restOut v pgeFits := rfl

theorem settle_waiting (fits : EvData → Bool) (w : List (Event × Waits)) (l : List Event) :
    TraceView.settle { v with waiting := w } fits l = v.settle fits l := by
  induction l with
  | nil => rfl
  | cons e l ih =>
    unfold TraceView.settle
    rw [ih]
    rfl

theorem settle_cons (fits : EvData → Bool) (e : Event) (l : List Event) :
    v.settle fits (e :: l) = if fits e.data = true then (shown v e ++ (v.settle fits l).1, (v.settle fits l).2) else ([], false) := rfl

theorem forTip_split {l1 l2 : List (Event × Waits)} {x : Event × Waits} (hv : v.waiting = l1 ++ x :: l2)
    (h1 : ∀ y ∈ l1, y.2.atTip = false) (hx : x.2.atTip = true) :
    v.forTip = x.1 :: TraceView.forTip { v with waiting := l1 ++ l2 } := by
  unfold TraceView.forTip
  rw [hv, filter_split h1 hx, filter_split' h1]; rfl

theorem dropTip_split {l1 l2 : List (Event × Waits)} {x : Event × Waits} (hv : v.waiting = l1 ++ x :: l2)
    (hx : x.2.atTip = true) : v.dropTip = TraceView.dropTip { v with waiting := l1 ++ l2 } := by
  unfold TraceView.dropTip
  rw [hv, filter_not_split (p := fun z : Event × Waits => z.2.atTip) hx]

theorem forTip_none (h : ∀ x ∈ v.waiting, x.2.atTip = false) : v.forTip = [] := by
  unfold TraceView.forTip
  rw [List.filter_eq_nil_iff.2 (by simpa using h)]; rfl

theorem dropTip_none (h : ∀ x ∈ v.waiting, x.2.atTip = false) : v.dropTip = v := by
  unfold TraceView.dropTip
  rw [List.filter_eq_self.2 (by simpa using h)]

theorem ord_none (h : ∀ x ∈ v.waiting, x.2.atTip = false) : Ord v.waiting := by
  refine .inl fun y hy h2 => ?_
  have := h y hy
  rw [h2] at this; cases this

theorem rest_split {l1 l2 : List (Event × Waits)} {x : Event × Waits} {fits : EvData → Bool} (hv : v.waiting = l1 ++ x :: l2)
    (h1 : ∀ y ∈ l1, y.2.atTip = false) (hx : x.2.atTip = true) :
    restOut v fits = if fits x.1.data = true then
      Outcome.after (shown v x.1) (restOut { v with waiting := l1 ++ l2 } fits) else .bad := by
  unfold restOut Outcome.after
  rw [forTip_split hv h1 hx, dropTip_split hv hx, settle_cons, settle_waiting]
  by_cases hf : fits x.1.data = true
  · rw [if_pos hf, if_pos hf]
    simp only [settle_waiting]
  · rw [if_neg hf, if_neg hf]; rfl

theorem rest_none {fits : EvData → Bool} (h : ∀ x ∈ v.waiting, x.2.atTip = false) : restOut v fits = .quiet (some v) := by
  unfold restOut
  rw [forTip_none h, dropTip_none h]; rfl

/-- An event at a TIP packet, and the remaining events. -/
theorem tip_event {p : EvPtr} {e : Event} {o : Outcome} (hr : Rel c s v) (hl : Left c fin s.pd rest) (hp : tips s.packet = true)
    (hpg : pgds s.packet = true → v.on = false) (hb : s.bound = true) (hm : mid c fin v true s.packet rest = o) (he : s.event = some p)
    (hi : s.ev p = e) (ht : t = cont c fin (Outcome.after [e] o) rest) : Out c fin t false s := by
  refine out_more (p := p) (v := v) (rest := rest) (e := e) (es := o.1) (o := o.2) he hi ht
    ⟨⟨hr.ip, hr.tm, hr.on, hr.mode, hr.q, hr.fit, hr.hdr⟩, hl, .inr ⟨hb, hp⟩, ?_⟩ ?_
  · intro _
    refine ⟨?_, hpg⟩
    show slow s.packet = true
    revert hp
    cases s.packet <;> simp [tips, slow]
  · rw [hb, hm]

theorem tipRest_go {ipc ip : Nat} (n : Nat) : ∀ (s : Evd) (v : TraceView), Busy c fin s v rest (.tip ipc ip) → s.bound = true →
    t = cont c fin (mid c fin v true (.tip ipc ip) rest) rest →
    EM.wlp (decodeTip ipc ip n) (Out c fin t) (Bad fin t) s := by
  induction n with
  | zero => intro _ _ _ _ _; exact (EM.wlp_undef _ _ _).2 trivial
  | succ n ih =>
    intro s v h hb ht
    unfold decodeTip
    rw [EM.wlp_bind, EM.wlp_get]
    unfold mid at ht
    dsimp only at ht
    have hon := h.rel.on
    refine EM.wlp_ite ?_ ?_
    · intro h2
      rw [← hon, h2, if_neg (by simp)] at ht
      exact (EM.wlp_fail _ _ _ _).2 (bad_of ht)
    intro h2
    have h2 : s.enabled = true := by simpa using h2
    rw [← hon, h2, if_pos rfl] at ht
    rw [EM.wlp_bind]
    refine wlp_goto h.rel ?_ ?_
    · intro hn e s'
      rw [hn] at ht
      exact bad_of ht
    intro l hl hat hr
    rw [hl] at ht
    dsimp only at ht
    rw [if_pos rfl, tipRest_eq] at ht
    generalize ({ v with ip := l } : TraceView) = v1 at hl hat hr ht
    clear hl
    rw [if_neg (by rw [hb]; simp), EM.wlp_bind]
    refine wlp_deqs (l := v1.waiting) hr.q tip_pred ?_ ?_
    · intro hn
      rw [rest_none hn, cont_quiet] at ht
      dsimp only
      rw [EM.wlp_pure]
      exact St.more ⟨hr, ord_none hn, h.left, h.ev⟩ ht
    · intro l1 x l2 q' h1 h2' h3 h4 h5 h6
      dsimp only at h5 h6 ⊢
      rw [rest_split h1 h2' h3] at ht
      have hf := hr.fit
      rw [h1] at hf
      have hx := hf x (by simp)
      have hr2 : Rel c { s with ip := l, q := q' } { v1 with waiting := l1 ++ l2 } := hr.withQ h4 (fit_erase hf)
      have hat2 : At { v1 with waiting := l1 ++ l2 } ipc ip := hat
      have hmid : mid c fin { v1 with waiting := l1 ++ l2 } true (.tip ipc ip) rest = restOut { v1 with waiting := l1 ++ l2 } tipFits := by
        unfold mid
        dsimp only
        rw [if_pos (by rw [← hr2.on]; exact h2), hat2.goto]
        rfl
      refine wlp_publish h5 ?_
      have hI : tipFits x.1.data = true → shown v1 x.1 = [v1.here x.1] → EM.wlp (ipTimeEv (.slot s.q.begin)) (Out c fin t) (Bad fin t)
          { s with ip := l, q := q', event := some (.slot s.q.begin) } := by
        intro k0 k1
        rw [if_pos k0, k1] at ht
        refine wlp_ipTime (v := v1) h4 h6 h5 hr.ip hr.tm ?_
        intro q2 k2 k3
        refine tip_event (v := { v1 with waiting := l1 ++ l2 }) ⟨hr2.ip, hr2.tm, hr2.on, hr2.mode, k2, hr2.fit, hr2.hdr⟩ h.left
          (by rw [h.pk]; rfl) (by rw [h.pk]; intro h; cases h) hb (by rw [← hmid]; show mid c fin _ _ s.packet _ = _; rw [h.pk]) rfl k3 ht
      obtain ⟨e, w⟩ := x
      unfold tipEvent
      unfold Fit at hx
      unfold tipFits shown at hI ht
      dsimp only at hI ht h3 h5 hx ⊢
      cases hd : e.data <;> rw [hd] at hI hx ht <;>
        first
        | exact hI rfl rfl
        | exact (EM.wlp_fail _ _ _ _).2 (bad_of ht)
        | (exfalso; revert h3 hx; cases w <;> simp [fitData, Waits.atTip] <;> done)
        | skip
      · unfold setEvent
        rw [EM.wlp_bind, EM.wlp_modify]
        dsimp only at ht
        refine ih _ { v1 with waiting := l1 ++ l2 } ⟨⟨hr2.ip, hr2.tm, hr2.on, hr2.mode, hr2.q, hr2.fit, hr2.hdr⟩, h.left, rfl, h.pk⟩ hb ?_
        rw [hmid, ht]; rfl

theorem pgeRest_go {ipc ip : Nat} (n : Nat) : ∀ (s : Evd) (v : TraceView), Busy c fin s v rest (.tipPge ipc ip) → s.bound = true →
    t = cont c fin (mid c fin v true (.tipPge ipc ip) rest) rest →
    EM.wlp (decodeTipPge ipc ip n) (Out c fin t) (Bad fin t) s := by
  induction n with
  | zero => intro _ _ _ _ _; exact (EM.wlp_undef _ _ _).2 trivial
  | succ n ih =>
    intro s v h hb ht
    unfold decodeTipPge
    rw [EM.wlp_bind]
    unfold mid at ht
    dsimp only at ht
    refine wlp_goto h.rel ?_ ?_
    · intro hn e s'
      rw [hn] at ht
      exact bad_of ht
    intro l hl hat hr
    rw [hl] at ht
    dsimp only at ht
    rw [if_pos rfl, pgeRest_eq] at ht
    generalize ({ v with ip := l } : TraceView) = v1 at hl hat hr ht
    clear hl
    rw [EM.wlp_bind, EM.wlp_get]
    dsimp only
    rw [if_neg (by rw [hb]; simp), EM.wlp_bind]
    refine wlp_deqs (l := v1.waiting) hr.q tip_pred ?_ ?_
    · intro hn
      rw [rest_none hn, cont_quiet] at ht
      dsimp only
      rw [EM.wlp_pure]
      exact St.more ⟨hr, ord_none hn, h.left, h.ev⟩ ht
    · intro l1 x l2 q' h1 h2' h3 h4 h5 h6
      dsimp only at h5 h6 ⊢
      rw [rest_split h1 h2' h3] at ht
      have hf := hr.fit
      rw [h1] at hf
      have hx := hf x (by simp)
      have hr2 : Rel c { s with ip := l, q := q' } { v1 with waiting := l1 ++ l2 } := hr.withQ h4 (fit_erase hf)
      have hat2 : At { v1 with waiting := l1 ++ l2 } ipc ip := hat
      have hmid : mid c fin { v1 with waiting := l1 ++ l2 } true (.tipPge ipc ip) rest = restOut { v1 with waiting := l1 ++ l2 } pgeFits := by
        unfold mid
        dsimp only
        rw [hat2.goto]
        rfl
      refine wlp_publish h5 ?_
      have hI : pgeFits x.1.data = true → shown v1 x.1 = [v1.here x.1] → EM.wlp (ipTimeEv (.slot s.q.begin)) (Out c fin t) (Bad fin t)
          { s with ip := l, q := q', event := some (.slot s.q.begin) } := by
        intro k0 k1
        rw [if_pos k0, k1] at ht
        refine wlp_ipTime (v := v1) h4 h6 h5 hr.ip hr.tm ?_
        intro q2 k2 k3
        refine tip_event (v := { v1 with waiting := l1 ++ l2 }) ⟨hr2.ip, hr2.tm, hr2.on, hr2.mode, k2, hr2.fit, hr2.hdr⟩ h.left
          (by rw [h.pk]; rfl) (by rw [h.pk]; intro h; cases h) hb (by rw [← hmid]; show mid c fin _ _ s.packet _ = _; rw [h.pk]) rfl k3 ht
      obtain ⟨e, w⟩ := x
      unfold tipPgeEvent
      unfold Fit at hx
      unfold pgeFits shown at hI ht
      dsimp only at hI ht h3 h5 hx ⊢
      cases hd : e.data <;> rw [hd] at hI hx ht <;>
        first
        | exact hI rfl rfl
        | exact (EM.wlp_fail _ _ _ _).2 (bad_of ht)
        | (exfalso; revert h3 hx; cases w <;> simp [fitData, Waits.atTip] <;> done)
        | skip
      · unfold setEvent
        rw [EM.wlp_bind, EM.wlp_modify]
        dsimp only at ht
        refine ih _ { v1 with waiting := l1 ++ l2 } ⟨⟨hr2.ip, hr2.tm, hr2.on, hr2.mode, hr2.q, hr2.fit, hr2.hdr⟩, h.left, rfl, h.pk⟩ hb ?_
        rw [hmid, ht]; rfl

/-! ## TIP -/

theorem split_unique {α : Type} {p : α → Bool} {l1 l2 m1 m2 : List α} {x y : α} (h : l1 ++ x :: l2 = m1 ++ y :: m2)
    (h1 : ∀ z ∈ l1, p z = false) (hx : p x = true) (h2 : ∀ z ∈ m1, p z = false) (hy : p y = true) :
    l1 = m1 ∧ x = y ∧ l2 = m2 := by
  rcases List.append_eq_append_iff.1 h with ⟨a, ha, hb⟩ | ⟨a, ha, hb⟩
  · cases a with
    | nil =>
      simp only [List.nil_append, List.cons.injEq] at hb
      exact ⟨by simpa using ha.symm, hb.1, hb.2⟩
    | cons z a =>
      simp only [List.cons_append, List.cons.injEq] at hb
      have := h2 z (by rw [ha]; simp)
      rw [← hb.1, hx] at this; cases this
  · cases a with
    | nil =>
      simp only [List.nil_append, List.cons.injEq] at hb
      exact ⟨by simpa using ha, hb.1.symm, hb.2.symm⟩
    | cons z a =>
      simp only [List.cons_append, List.cons.injEq] at hb
      have := h1 z (by rw [ha]; simp)
      rw [← hb.1, hy] at this; cases this

theorem tipBranch_go {ipc ip : Nat} (h : Busy c fin s v rest (.tip ipc ip)) (ho : Ord v.waiting) (hon : v.on = true)
    (hat : At v ipc ip) (ht : t = cont c fin v.tip rest) : EM.wlp tipBranch (Out c fin t) (Bad fin t) s := by
  unfold tipBranch
  rw [EM.wlp_bind, EM.wlp_modify, EM.wlp_bind, EM.wlp_get]
  unfold TraceView.tip at ht
  have hr := h.rel
  have hmid : ∀ w, mid c fin { v with waiting := w } true (.tip ipc ip) rest = TraceView.tipRest { v with waiting := w } := by
    intro w
    unfold mid
    dsimp only
    have : At { v with waiting := w } ipc ip := hat
    rw [if_pos hon, this.goto]; rfl
  dsimp only
  rcases find_tip hr.q hr.fit (P := Event.isAsyncBranch) (fun x h1 h2 => fit_branch h1 h2) with ⟨h1, h2⟩ | ⟨l1, x, l2, h1, h2, h3, h4⟩
  · have hb := find_branch hr
    rw [h1] at hb
    rw [← hb, if_neg (by simp)] at ht
    rw [h1]
    dsimp only
    unfold alone
    rw [EM.wlp_bind, EM.wlp_modify]
    refine wlp_ipTime (v := v) (l := lst v.waiting) (e := { data := .tip 0 }) (standalone_holds hr.q _) (.inl rfl) rfl hr.ip hr.tm ?_
    intro q2 k2 k3
    exact tip_event (v := v) ⟨hr.ip, hr.tm, hr.on, hr.mode, k2, hr.fit, hr.hdr⟩ h.left
      (by show tips s.packet = true; rw [h.pk]; rfl) (by show pgds s.packet = true → _; rw [h.pk]; intro h; cases h) rfl (by show mid c fin _ _ s.packet _ = _; rw [h.pk]; exact hmid v.waiting) rfl k3 ht
  · have hb := find_branch hr
    rw [h4] at hb
    rw [← hb, if_pos (by simp)] at ht
    rw [h4]
    dsimp only
    unfold tipAsync
    rw [EM.wlp_bind]
    have hfx : x.2 = .tip := fit_branch (hr.fit x (by rw [h1]; simp)) h3
    -- the first event for TIP is the branch
    have hl1 : ∀ y ∈ l1, y.2.atTip = false := by
      rcases ho with ho | ⟨m1, y, m2, k1, k2, k3, k4⟩
      · exact absurd hfx (ho x (by rw [h1]; simp))
      · have : l1 = m1 ∧ x = y ∧ l2 = m2 := by
          refine split_unique (p := fun z : Event × Waits => TraceView.isBranch z.1) (h1.symm.trans k1) ?_ h3 ?_ k2
          · intro z hz; exact h2 z hz
          · intro z hz
            cases hzb : TraceView.isBranch z.1 with
            | false => rfl
            | true =>
              have a1 := fit_branch (hr.fit z (by rw [k1]; simp [hz])) hzb
              have a2 := k4 z hz
              rw [a1] at a2; cases a2
        rw [this.1]; exact k4
    refine wlp_deqs (l := v.waiting) hr.q tip_pred ?_ ?_
    · intro hn
      have := hn x (by rw [h1]; simp)
      rw [hfx] at this; cases this
    intro m1 y m2 q' k1 k2 k3 k4 k5 k6
    obtain ⟨rfl, rfl, rfl⟩ := split_unique (p := fun z : Event × Waits => z.2.atTip) (h1.symm.trans k1) hl1 (by rw [hfx]; rfl) k2 k3
    have hf := hr.fit
    rw [h1] at hf
    dsimp only at k5 k6 ⊢
    cases l1 with
    | nil =>
      have hbg := hr.q.begin
      rw [if_pos (by simp; omega), EM.wlp_bind]
      simp only [EM.wlp_pure, EM.wlp_bind, EM.wlp_get]
      rw [k5, if_pos h3]
      unfold setEvent
      rw [EM.wlp_bind, EM.wlp_modify]
      obtain ⟨e, w⟩ := x
      rw [h1] at ht
      dsimp only [List.nil_append] at ht
      have h3' : TraceView.isBranch e = true := h3
      rw [if_pos h3'] at ht
      refine wlp_ipTime (v := v) k4 k6 k5 hr.ip hr.tm ?_
      intro q2 j2 j3
      exact tip_event (v := { v with waiting := l2 }) ⟨hr.ip, hr.tm, hr.on, hr.mode, j2, fit_erase (l1 := []) hf, hr.hdr⟩ h.left
        (by show tips s.packet = true; rw [h.pk]; rfl) (by show pgds s.packet = true → _; rw [h.pk]; intro h; cases h) rfl (by show mid c fin _ _ s.packet _ = _; rw [h.pk]; exact hmid l2) rfl j3 ht
    | cons z l1 =>
      -- something else is pending before the branch
      have hz : TraceView.isBranch z.1 = false := h2 z (by simp)
      rw [h1] at ht
      obtain ⟨e, w⟩ := z
      dsimp only [List.cons_append] at ht hz
      rw [hz, if_neg (by simp)] at ht
      have hlen := hr.q.len
      rw [lst_length, h1] at hlen
      simp only [List.length_append, List.length_cons] at hlen
      have hbg := hr.q.begin
      have hne : ¬ s.q.begin = (s.q.begin + ((e, w) :: l1).length) % 16 := by
        simp only [List.length_cons]; omega
      rw [if_neg hne, EM.wlp_bind, EM.wlp_modify, EM.wlp_bind, EM.wlp_get]
      obtain ⟨m, y, hm⟩ : ∃ m y, (e, w) :: l1 = m ++ [y] := by
        have : (e, w) :: l1 ≠ [] := by simp
        exact ⟨_, _, (List.dropLast_concat_getLast this).symm⟩
      have hml : m.length = l1.length := by
        have := congrArg List.length hm
        simpa using this.symm
      have hq4 := k4
      rw [hm, List.append_assoc] at hq4
      have hg := get_split (l1 := m) (x := y) (l2 := l2) hq4
      have hbq := hq4.begin
      have hbe : s.q.begin = (q'.begin + 15) % 16 := by
        rcases k6 with k6 | k6
        · cases k6
        · injection k6
      have hj : (s.q.begin + ((e, w) :: l1).length) % 16 = (q'.begin + m.length) % 16 := by
        simp only [List.length_cons]; omega
      have hy : TraceView.isBranch y.1 = false := h2 y (by rw [hm]; simp)
      have hget : Evq.get (Evd.q (Evd.setEv (Evd.setEv { s with bound := true, q := q' } (.slot ((s.q.begin + ((e, w) :: l1).length) % 16))
          (q'.get s.q.begin)) (.slot s.q.begin) (q'.get ((s.q.begin + ((e, w) :: l1).length) % 16)))) s.q.begin = y.1 := by
        rw [hj, hg]
        refine put_get ?_ hbg _
        show (q'.queue.set _ _).length = 16
        rw [List.length_set]; exact hq4.size
      refine EM.wlp_ite ?_ ?_
      · intro hbr
        exfalso
        rw [show Event.isAsyncBranch _ = TraceView.isBranch _ from rfl] at hbr
        dsimp only at hbr
        rw [hget, hy] at hbr
        cases hbr
      · intro _
        exact (EM.wlp_fail _ _ _ _).2 (bad_of ht)

theorem tip_go {ipc ip : Nat} {n : Nat} (h : Busy c fin s v rest (.tip ipc ip)) (ho : s.bound = false → Ord v.waiting)
    (ht : t = cont c fin (mid c fin v s.bound (.tip ipc ip) rest) rest) :
    EM.wlp (decodeTip ipc ip n) (Out c fin t) (Bad fin t) s := by
  cases hb : s.bound with
  | true => rw [hb] at ht; exact tipRest_go n s v h hb ht
  | false =>
    rw [hb] at ht
    cases n with
    | zero => exact (EM.wlp_undef _ _ _).2 trivial
    | succ n =>
      unfold decodeTip
      rw [EM.wlp_bind, EM.wlp_get]
      unfold mid at ht
      dsimp only at ht
      have hon := h.rel.on
      refine EM.wlp_ite ?_ ?_
      · intro h2
        rw [← hon, h2, if_neg (by simp)] at ht
        exact (EM.wlp_fail _ _ _ _).2 (bad_of ht)
      intro h2
      have h2 : s.enabled = true := by simpa using h2
      rw [← hon, h2, if_pos rfl] at ht
      rw [EM.wlp_bind]
      refine wlp_goto h.rel ?_ ?_
      · intro hn e s'
        rw [hn] at ht
        exact bad_of ht
      intro l hl hat hr
      rw [hl] at ht
      dsimp only at ht
      rw [if_neg (by simp)] at ht
      rw [if_pos hb]
      exact tipBranch_go (v := { v with ip := l }) ⟨hr, h.left, h.ev, h.pk⟩ (ho hb) (by rw [← hon] at *; exact h2) hat ht

/-! ## TIP.PGE -/

theorem pge_go {ipc ip : Nat} {n : Nat} (h : Busy c fin s v rest (.tipPge ipc ip))
    (ht : t = cont c fin (mid c fin v s.bound (.tipPge ipc ip) rest) rest) :
    EM.wlp (decodeTipPge ipc ip n) (Out c fin t) (Bad fin t) s := by
  cases hb : s.bound with
  | true => rw [hb] at ht; exact pgeRest_go n s v h hb ht
  | false =>
    rw [hb] at ht
    cases n with
    | zero => exact (EM.wlp_undef _ _ _).2 trivial
    | succ n =>
      unfold decodeTipPge
      unfold mid at ht
      dsimp only at ht
      rw [EM.wlp_bind]
      refine wlp_goto h.rel ?_ ?_
      · intro hn e s'
        rw [hn] at ht
        exact bad_of ht
      intro l hl hat hr
      rw [hl] at ht
      dsimp only at ht
      rw [if_neg (by simp)] at ht
      rw [EM.wlp_bind, EM.wlp_get]
      dsimp only
      rw [if_pos hb]
      unfold tipPgeEnable alone
      rw [EM.wlp_bind, EM.wlp_modify, EM.wlp_bind, EM.wlp_modify]
      refine wlp_ipTime (v := { v with ip := l }) (l := lst v.waiting) (e := { data := .enabled 0 }) (standalone_holds hr.q _) (.inl rfl) rfl hr.ip hr.tm ?_
      intro q2 k2 k3
      have hat2 : At { v with ip := l, on := true } ipc ip := hat
      refine tip_event (v := { v with ip := l, on := true }) ⟨hr.ip, hr.tm, rfl, hr.mode, k2, hr.fit, hr.hdr⟩ h.left
        (by show tips s.packet = true; rw [h.pk]; rfl) (by show pgds s.packet = true → _; rw [h.pk]; intro h; cases h) rfl (o := TraceView.pgeRest { v with ip := l, on := true }) ?_ rfl k3 ht
      show mid c fin _ _ s.packet _ = _
      rw [h.pk]
      unfold mid
      dsimp only
      rw [hat2.goto]; rfl

/-! ## TIP.PGD -/

theorem pgdEvents_waiting (w : List (Event × Waits)) (o : Bool) (l : List Event) : ∀ b,
    TraceView.pgdEvents { v with waiting := w, on := o } b l = v.pgdEvents b l := by
  induction l with
  | nil => intro b; rfl
  | cons e l ih =>
    intro b
    unfold TraceView.pgdEvents
    cases e.data <;> simp only [ih] <;> rfl

theorem pgd_branch {l1 l2 : List (Event × Waits)} {x : Event × Waits} {a a' : Nat} (b : Bool) (hv : v.waiting = l1 ++ x :: l2)
    (h1 : ∀ y ∈ l1, y.2.atTip = false) (hx : x.2.atTip = true) (hd : x.1.data = .asyncBranch a a') :
    v.pgd b = Outcome.after [v.here { x.1 with data := .asyncDisabled a 0 }]
      (TraceView.pgd { v with waiting := l1 ++ l2, on := false } true) := by
  unfold TraceView.pgd
  have := pgdEvents_waiting (v := v) (l1 ++ l2) false (TraceView.forTip { v with waiting := l1 ++ l2 }) true
  rw [forTip_split hv h1 hx, dropTip_split hv hx]
  rw [TraceView.pgdEvents, hd]
  dsimp only
  rw [show TraceView.forTip { v with waiting := l1 ++ l2, on := false } = TraceView.forTip { v with waiting := l1 ++ l2 } from rfl, this]
  rcases v.pgdEvents true (TraceView.forTip { v with waiting := l1 ++ l2 }) with ⟨es, _ | _ | _⟩ <;> rfl

theorem pgd_suppress {l1 l2 : List (Event × Waits)} {x : Event × Waits} (b : Bool) (hv : v.waiting = l1 ++ x :: l2)
    (h1 : ∀ y ∈ l1, y.2.atTip = false) (hx : x.2.atTip = true)
    (hd : ∀ l, v.pgdEvents b (x.1 :: l) = (v.now { x.1 with ipSuppressed := true } :: (v.pgdEvents b l).1, (v.pgdEvents b l).2)) :
    v.pgd b = Outcome.after [v.now { x.1 with ipSuppressed := true }] (TraceView.pgd { v with waiting := l1 ++ l2 } b) := by
  unfold TraceView.pgd
  have := pgdEvents_waiting (v := v) (l1 ++ l2) v.on (TraceView.forTip { v with waiting := l1 ++ l2 }) b
  rw [this, forTip_split hv h1 hx, dropTip_split hv hx, hd]
  rcases v.pgdEvents b (TraceView.forTip { v with waiting := l1 ++ l2 }) with ⟨es, _ | _ | _⟩ <;> rfl

theorem pgd_bad {l1 l2 : List (Event × Waits)} {x : Event × Waits} (b : Bool) (hv : v.waiting = l1 ++ x :: l2)
    (h1 : ∀ y ∈ l1, y.2.atTip = false) (hx : x.2.atTip = true) (hd : ∀ l, v.pgdEvents b (x.1 :: l) = ([], none)) :
    v.pgd b = .bad := by
  unfold TraceView.pgd
  rw [forTip_split hv h1 hx, hd]; rfl

theorem pgd_none (b : Bool) (h : ∀ x ∈ v.waiting, x.2.atTip = false) : v.pgd b =
    if b = true then Outcome.quiet (some { v with on := false }) else ([v.here { data := .disabled 0 }], some { v with on := false }) := by
  unfold TraceView.pgd
  rw [forTip_none h, dropTip_none h]
  cases b <;> rfl

theorem pgd_go {ipc ip : Nat} (h : Busy c fin s v rest (.tipPgd ipc ip))
    (ho : Ord v.waiting ∨ s.bound = true) (hoff : s.bound = true → v.on = false)
    (ht : t = cont c fin (mid c fin v s.bound (.tipPgd ipc ip) rest) rest) :
    EM.wlp (decodeTipPgd c ipc ip) (Out c fin t) (Bad fin t) s := by
  unfold decodeTipPgd
  rw [EM.wlp_bind]
  unfold mid at ht
  dsimp only at ht
  refine wlp_goto h.rel ?_ ?_
  · intro hn e s'
    rw [hn] at ht
    exact bad_of ht
  intro l hl hat hr
  rw [hl] at ht
  dsimp only at ht
  have hw : TraceView.waiting { v with ip := l } = v.waiting := rfl
  have hon : TraceView.on { v with ip := l } = v.on := rfl
  rw [← hw] at ho
  rw [← hon] at hoff
  generalize ({ v with ip := l } : TraceView) = v1 at hl hat hr ht ho hoff
  clear hl hw hon
  rw [EM.wlp_bind]
  refine wlp_deqs (l := v1.waiting) hr.q tip_pred ?_ ?_
  · intro hn
    rw [pgd_none _ hn] at ht
    dsimp only
    unfold tipPgdAlone
    rw [EM.wlp_bind, EM.wlp_get]
    dsimp only
    refine EM.wlp_ite ?_ ?_
    · intro hb
      rw [if_pos hb, cont_quiet] at ht
      rw [EM.wlp_pure]
      refine St.more ⟨hr, ord_none hn, h.left, h.ev⟩ ?_
      rw [ht]
      have := hoff hb
      congr 1
      cases v1
      dsimp only at this
      rw [this]
    · intro hb
      rw [if_neg hb] at ht
      unfold alone
      rw [EM.wlp_bind, EM.wlp_modify, EM.wlp_bind]
      refine wlp_ipTime (v := v1) (l := lst v1.waiting) (e := { data := .disabled 0 }) (standalone_holds hr.q _) (.inl rfl) rfl hr.ip hr.tm ?_
      intro q2 k2 k3
      rw [EM.wlp_bind, EM.wlp_modify]
      refine fetchDone_out (v := { v1 with on := false }) (p := .alone) (e := v1.here { data := .disabled 0 })
        ⟨hr.ip, hr.tm, rfl, hr.mode, k2, hr.fit, hr.hdr⟩ (ord_none hn) h.left (by simpa using hb) rfl ?_ ht
      exact k3
  · intro l1 x l2 q' h1 h2 h3 h4 h5 h6
    dsimp only at h5 h6 ⊢
    have hf := hr.fit
    rw [h1] at hf
    have hx := hf x (by simp)
    have hr2 : Rel c { s with ip := l, q := q' } { v1 with waiting := l1 ++ l2 } := hr.withQ h4 (fit_erase hf)
    have hat2 : At { v1 with waiting := l1 ++ l2 } ipc ip := hat
    refine wlp_publish h5 ?_
    unfold tipPgdEvent
    rw [EM.wlp_bind, EM.wlp_get]
    -- events without IP
    have hS : (s.bound = true ∨ Ord (l1 ++ l2)) →
        (∀ l, v1.pgdEvents s.bound (x.1 :: l) = (v1.now { x.1 with ipSuppressed := true } :: (v1.pgdEvents s.bound l).1, (v1.pgdEvents s.bound l).2)) →
        EM.wlp (do
          updEv (.slot s.q.begin) fun _ e => { e with ipSuppressed := true }
          timeEv (.slot s.q.begin)) (Out c fin t) (Bad fin t) { s with ip := l, q := q', event := some (.slot s.q.begin) } := by
      intro k0 k1
      rw [pgd_suppress _ h1 h2 h3 k1] at ht
      rw [EM.wlp_bind]
      refine wlp_updEv_free h4 h6 fun q2 j1 j2 j3 => ?_
      refine wlp_time (v := v1) (e := { x.1 with ipSuppressed := true }) j1 j2 ?_ hr.tm ?_
      · refine j3.trans ?_
        show ({ q'.get s.q.begin with ipSuppressed := true } : Event) = _
        rw [h5]
      · intro q3 j4 _ j5
        refine out_more (p := .slot s.q.begin) (v := { v1 with waiting := l1 ++ l2 }) (rest := rest) (e := v1.now { x.1 with ipSuppressed := true })
          (es := (TraceView.pgd { v1 with waiting := l1 ++ l2 } s.bound).1) (o := (TraceView.pgd { v1 with waiting := l1 ++ l2 } s.bound).2)
          rfl j5 ht ⟨⟨hr2.ip, hr2.tm, hr2.on, hr2.mode, j4, hr2.fit, hr2.hdr⟩, h.left, ?_, ?_⟩ ?_
        · rcases k0 with k0 | k0
          · exact .inr ⟨k0, by show tips s.packet = true; rw [h.pk]; rfl⟩
          · exact .inl k0
        · intro hb
          refine ⟨by show slow s.packet = true; rw [h.pk]; rfl, fun _ => hoff hb⟩
        · show mid c fin _ _ s.packet _ = _
          rw [h.pk]
          unfold mid
          dsimp only
          rw [hat2.goto]
    obtain ⟨e, w⟩ := x
    unfold Fit at hx
    dsimp only at hS ht h3 h5 hx ⊢
    cases hd : e.data <;> rw [hd] at hx <;>
      first
      | (refine (EM.wlp_fail _ _ _ _).2 (bad_of ?_)
         rw [pgd_bad _ h1 h2 h3 (by intro l; rw [TraceView.pgdEvents, hd])] at ht
         exact ht)
      | skip
    · rename_i a a'
      rw [pgd_branch _ h1 h2 h3 hd] at ht
      dsimp only
      rw [EM.wlp_bind]
      refine wlp_updEv_free h4 h6 fun q2 j1 j2 j3 => ?_
      rw [EM.wlp_bind, EM.wlp_modify]
      refine wlp_ipTime (v := v1) (e := { e with data := .asyncDisabled a 0 }) j1 j2 ?_ hr.ip hr.tm ?_
      · refine j3.trans ?_
        show ({ q'.get s.q.begin with data := .asyncDisabled a 0 } : Event) = _
        rw [h5]
      · intro q3 j4 j5
        have hat3 : At { v1 with waiting := l1 ++ l2, on := false } ipc ip := hat
        refine tip_event (v := { v1 with waiting := l1 ++ l2, on := false }) ⟨hr2.ip, hr2.tm, rfl, hr2.mode, j4, hr2.fit, hr2.hdr⟩ h.left
          (by show tips s.packet = true; rw [h.pk]; rfl) (fun _ => rfl) rfl (o := TraceView.pgd { v1 with waiting := l1 ++ l2, on := false } true)
          ?_ rfl j5 ht
        show mid c fin _ _ s.packet _ = _
        rw [h.pk]
        unfold mid
        dsimp only
        rw [hat3.goto]
    · refine EM.wlp_ite ?_ ?_
      · intro hb
        refine (EM.wlp_fail _ _ _ _).2 (bad_of ?_)
        have hb : s.bound = false := hb
        rw [hb, pgd_bad _ h1 h2 h3 (by intro l; rw [TraceView.pgdEvents, hd]; rfl)] at ht
        exact ht
      · intro hb
        have hb : s.bound = true := by simpa using hb
        refine hS (.inl hb) ?_
        intro l; rw [TraceView.pgdEvents, hd, hb]; rfl
    · refine hS ?_ ?_
      · rcases ho with ho | ho
        · right
          rw [h1] at ho
          refine ord_erase ho ?_
          intro hw
          rw [show w = .tip from hw] at hx
          cases hx
        · exact .inl ho
      · intro l; rw [TraceView.pgdEvents, hd]
    · refine EM.wlp_ite ?_ ?_
      · intro hb
        refine (EM.wlp_fail _ _ _ _).2 (bad_of ?_)
        have hb : s.bound = false := hb
        rw [hb, pgd_bad _ h1 h2 h3 (by intro l; rw [TraceView.pgdEvents, hd]; rfl)] at ht
        exact ht
      · intro hb
        have hb : s.bound = true := by simpa using hb
        refine hS (.inl hb) ?_
        intro l; rw [TraceView.pgdEvents, hd, hb]; rfl

end Ipt.Events
