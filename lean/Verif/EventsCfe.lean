import Verif.EventsPlain2

/-! Helper lemmas: the event decoder follows `Spec.trace`.  CFE, EVD and OVF. -/

set_option linter.unusedSimpArgs false

namespace Ipt.Events

open Ipt Ipt.Spec

variable {c : EvtCfg} {fin : Err} {s : Evd} {v : TraceView} {rest : List Packet} {t : List Event × Bool}

/-! ## CFE -/

theorem cfeFresh_go {ip branch sup : Bool} {d : EvData} (h : Go c fin s v rest) (hs : ip = true → sup = false)
    (f1 : Fit (({ data := d, ipSuppressed := sup } : Event), Waits.ownFup))
    (f2 : Fit (({ data := d, ipSuppressed := sup } : Event), Waits.fup))
    (ht : t = cont c fin (v.control ip branch { data := d, ipSuppressed := sup }) rest) :
    EM.wlp (cfeFresh c ip branch sup d) (Out c fin t) (Bad fin t) s := by
  unfold cfeFresh
  rw [EM.wlp_bind, EM.wlp_get]
  unfold TraceView.control at ht
  rw [← h.rel.on] at ht
  refine EM.wlp_ite ?_ fun h1 => EM.wlp_ite ?_ ?_
  · intro h1
    rw [if_pos h1] at ht
    have := hs h1
    subst this
    exact h.wait (w := .ownFup) rfl f1 (by simp) ht
  · intro h2
    rw [if_neg h1, if_pos h2] at ht
    exact h.wait (w := .fup) rfl f2 (by simp) ht
  · intro h2
    rw [if_neg h1, if_neg h2] at ht
    exact h.says ht

theorem requeue_go {p : EvPtr} {e : Event} {w : Waits} {evb : Nat} (h : Go c fin s v rest) (hp : Free p s.q) (he : s.ev p = e)
    (hw : evb = mask w) (hn : w ≠ .tip) (hf : Fit (e, w)) (ht : t = cont c fin (.quiet (v.wait e w)) rest) :
    EM.wlp (requeueMore p evb) (Out c fin t) (Bad fin t) s := by
  unfold requeueMore
  have := wlp_requeue (s := s) (p := p) (e := e) (w := w) (evb := evb) (l := v.waiting) (Q := fun _ s' => Out c fin t true s')
    (E := Bad fin t) h.rel.q hp he hw ?_ ?_
  · simp only [EM.wlp_bind, EM.wlp_pure] at this ⊢
    exact this
  · intro hl; rw [wait_full hl] at ht; exact bad_of ht
  · intro q' h1 h2
    rw [wait_ok h1, cont_quiet] at ht
    exact St.more ⟨h.rel.withQ h2 (fit_snoc h.rel.fit hf), ord_snoc h.ord hn, h.left, h.ev⟩ ht

theorem cfeQueued_go {p : EvPtr} {e : Event} {ip : Bool} (h : Go c fin s v rest) (hp : Free p s.q) (he : s.ev p = e)
    (f1 : Fit (e, Waits.ownFup)) (f2 : Fit (e, Waits.fup)) (ht : t = cont c fin (v.control ip true e) rest) :
    EM.wlp (cfeQueued c ip p) (Out c fin t) (Bad fin t) s := by
  unfold cfeQueued
  rw [EM.wlp_bind, EM.wlp_get]
  unfold TraceView.control at ht
  rw [← h.rel.on] at ht
  refine EM.wlp_ite ?_ fun h1 => EM.wlp_ite ?_ ?_
  · intro h1
    rw [if_pos h1] at ht
    exact requeue_go h hp he (w := .ownFup) rfl (by simp) f1 ht
  · intro h2
    rw [if_neg h1, if_pos ⟨rfl, h2⟩] at ht
    exact requeue_go h hp he (w := .fup) rfl (by simp) f2 ht
  · intro h2
    rw [if_neg h1, if_neg (fun x => h2 x.2)] at ht
    unfold timeEv setEvent
    rw [EM.wlp_bind, EM.wlp_bind]
    refine wlp_updEv_free h.rel.q hp fun q1 k1 k2 k3 => ?_
    rw [EM.wlp_pure, EM.wlp_bind]
    refine wlp_updEv_free k1 k2 fun q2 k4 k5 k6 => ?_
    rw [EM.wlp_bind, EM.wlp_modify]
    have hr := h.rel.withQ k4 h.rel.fit
    refine fetchDone_out (v := v) (p := p) (e := v.now { e with ipSuppressed := true })
      ⟨hr.ip, hr.tm, hr.on, hr.mode, k4, h.rel.fit, hr.hdr⟩ h.ord h.left h.bd rfl ?_ ht
    have k3' : Evd.ev { s with q := q1 } p = v.now e := by
      rw [k3, he, h.rel.tm, timed_now]
    have k6' : Evd.ev { s with q := q2 } p = { v.now e with ipSuppressed := true } := by
      rw [k6, ← k3']
    have k7 : ∀ (x : Option EvPtr), Evd.ev { s with q := q2, event := x } p = Evd.ev { s with q := q2 } p := by
      intro x; cases p <;> rfl
    rw [k7, k6']; rfl

theorem cfeIntr_go {p : EvPtr} {e : Event} {n : Nat} {ip : Bool} (h : Go c fin s v rest) (hp : Free p s.q) (he : s.ev p = e)
    (ht : t = cont c fin (match e.data with
      | .interrupt _ cr2 a => v.control ip true { e with data := .interrupt n cr2 a } | _ => .bad) rest) :
    EM.wlp (cfeIntr c n ip p) (Out c fin t) (Bad fin t) s := by
  unfold cfeIntr
  rw [EM.wlp_bind, EM.wlp_get, he]
  cases hd : e.data
  case interrupt x y z =>
    rw [hd] at ht
    dsimp only at ht ⊢
    rw [EM.wlp_bind]
    refine wlp_updEv_free h.rel.q hp fun q1 k1 k2 k3 => ?_
    exact cfeQueued_go (v := v) (e := { e with data := .interrupt n y z }) ⟨⟨h.rel.withQ k1 h.rel.fit, h.ord, h.left, h.ev⟩, h.bd⟩ k2 (by rw [k3, he]) rfl rfl ht
  all_goals
    rw [hd] at ht
    exact (EM.wlp_fail _ _ _ _).2 (bad_of ht)

theorem cfeVmexit_go {p : EvPtr} {e : Event} {n : Nat} {i ip : Bool} (h : Go c fin s v rest) (hp : Free p s.q) (he : s.ev p = e)
    (ht : t = cont c fin (match e.data with
      | .vmexit vec r q a => v.control ip true { e with data := .vmexit (if i = true then some n else vec) r q a } | _ => .bad) rest) :
    EM.wlp (cfeVmexit c i n ip p) (Out c fin t) (Bad fin t) s := by
  unfold cfeVmexit
  rw [EM.wlp_bind, EM.wlp_get, he]
  cases hd : e.data
  case vmexit x y z w =>
    rw [hd] at ht
    dsimp only at ht ⊢
    rw [EM.wlp_bind]
    refine wlp_updEv_free h.rel.q hp fun q1 k1 k2 k3 => ?_
    exact cfeQueued_go (v := v) (e := { e with data := .vmexit (if i = true then some n else x) y z w }) ⟨⟨h.rel.withQ k1 h.rel.fit, h.ord, h.left, h.ev⟩, h.bd⟩ k2 (by rw [k3, he]) rfl rfl ht
  all_goals
    rw [hd] at ht
    exact (EM.wlp_fail _ _ _ _).2 (bad_of ht)

/-- What remains of CFE once the event data has been removed from the queue. -/
def cfeRest (v : TraceView) (evd : Option Event) (type vector : Nat) (ip : Bool) : Outcome :=
  if type = 1 then
    match (evd.getD { data := .interrupt 0 none 0 }).data with
    | .interrupt _ cr2 a =>
      v.control ip true { evd.getD { data := .interrupt 0 none 0 } with data := .interrupt vector cr2 a }
    | _ => .bad
  else if type = 8 ∨ type = 9 then
    match (evd.getD { data := .vmexit none none none 0 }).data with
    | .vmexit vec reason qualification a =>
      v.control ip true { evd.getD { data := .vmexit none none none 0 } with
        data := .vmexit (if type = 9 then some vector else vec) reason qualification a }
    | _ => .bad
  else if evd.isSome = true then .bad
  else
    match TraceView.simpleCfe type vector with
    | some (e, branch) => if ip = true ∧ (type = 4 ∨ type = 5) then .bad else v.control ip branch e
    | none => if ip = true then .quiet (v.wait { data := .tick 0 } .ownFup) else .quiet (some v)

theorem wlp_orAlone {i : Option Nat} {e0 : Event} {Q : EvPtr → Evd → Prop} {E : Err → Evd → Prop} {evd : Option Event}
    (hl : s.q.Holds (lst v.waiting))
    (hi : i = none ∧ evd = none ∨ ∃ k e, i = some k ∧ evd = some e ∧ Free (.slot k) s.q ∧ s.q.get k = e)
    (hq : ∀ p q', q'.Holds (lst v.waiting) → Free p q' → Evd.ev { s with q := q' } p = evd.getD e0 → Q p { s with q := q' }) :
    EM.wlp (orAlone i e0) Q E s := by
  unfold orAlone
  rcases hi with ⟨rfl, rfl⟩ | ⟨k, e, rfl, rfl, h1, h2⟩
  · dsimp only
    rw [EM.wlp_bind, EM.wlp_modify, EM.wlp_pure]
    exact hq .alone _ (standalone_holds hl _) (.inl rfl) rfl
  · dsimp only
    rw [EM.wlp_pure]
    exact hq (.slot k) s.q hl h1 h2

theorem cfeRest_go {type n : Nat} {ip : Bool} {i : Option Nat} {evd : Option Event} (h : Go c fin s v rest)
    (hi : i = none ∧ evd = none ∨ ∃ k e, i = some k ∧ evd = some e ∧ Free (.slot k) s.q ∧ s.q.get k = e)
    (ht : t = cont c fin (cfeRest v evd type n ip) rest) :
    EM.wlp (if type = 1 then do
        let p ← orAlone i { data := .interrupt 0 none 0 }
        cfeIntr c n ip p
      else if type = 8 ∨ type = 9 then do
        let p ← orAlone i { data := .vmexit none none none 0 }
        cfeVmexit c (decide (type = 9)) n ip p
      else if type = 0 ∨ type = 0xb ∨ 0xe ≤ type then
        if i.isSome = true then EM.fail .internal
        else if ip = true then enqMore evbFupBound { data := .tick 0 }
        else return true
      else if i.isSome = true then EM.fail .badContext
      else if type = 2 then cfeFresh c ip false false (.iret 0)
      else if type = 3 then cfeFresh c ip true false (.smi 0)
      else if type = 4 then if ip = true then EM.fail .badPacket else cfeFresh c ip true true .rsm
      else if type = 5 then if ip = true then EM.fail .badPacket else cfeFresh c ip true true (.sipi n)
      else if type = 6 then cfeFresh c ip true false (.init 0)
      else if type = 7 then cfeFresh c ip false false (.vmentry 0)
      else if type = 0xa then cfeFresh c ip false false (.shutdown 0)
      else if type = 0xc then cfeFresh c ip true false (.uintr n 0)
      else cfeFresh c ip false false (.uiret 0)) (Out c fin t) (Bad fin t) s := by
  have hsome : i.isSome = evd.isSome := by
    rcases hi with ⟨rfl, rfl⟩ | ⟨k, e, rfl, rfl, _⟩ <;> rfl
  unfold cfeRest at ht
  refine EM.wlp_ite ?_ fun n1 => EM.wlp_ite ?_ fun n2 => ?_
  · intro h1
    rw [if_pos h1] at ht
    rw [EM.wlp_bind]
    refine wlp_orAlone (v := v) h.rel.q hi fun p q' k1 k2 k3 => ?_
    exact cfeIntr_go (v := v) ⟨⟨h.rel.withQ k1 h.rel.fit, h.ord, h.left, h.ev⟩, h.bd⟩ k2 k3 ht
  · intro h1
    rw [if_neg n1, if_pos h1] at ht
    rw [EM.wlp_bind]
    refine wlp_orAlone (v := v) h.rel.q hi fun p q' k1 k2 k3 => ?_
    refine cfeVmexit_go (v := v) ⟨⟨h.rel.withQ k1 h.rel.fit, h.ord, h.left, h.ev⟩, h.bd⟩ k2 k3 ?_
    rw [ht]
    congr 1
    split
    · simp only [decide_eq_true_eq]
    · rfl
  · rw [if_neg n1, if_neg n2, ← hsome] at ht
    refine EM.wlp_ite ?_ fun n3 => ?_
    · intro h1
      refine EM.wlp_ite ?_ fun h2 => ?_
      · intro h2
        rw [if_pos h2] at ht
        exact (EM.wlp_fail _ _ _ _).2 (bad_of ht)
      · rw [if_neg h2] at ht
        have e1 : TraceView.simpleCfe type n = none := by
          unfold TraceView.simpleCfe
          split <;> first | omega | rfl
        rw [e1] at ht
        dsimp only at ht
        refine EM.wlp_ite ?_ fun h3 => ?_
        · intro h3
          rw [if_pos h3] at ht
          exact h.wait (w := .ownFup) rfl rfl (by simp) ht
        · rw [if_neg h3, cont_quiet] at ht
          rw [EM.wlp_pure]
          exact h.toSt.more ht
    · refine EM.wlp_ite ?_ fun h2 => ?_
      · intro h2
        rw [if_pos h2] at ht
        exact (EM.wlp_fail _ _ _ _).2 (bad_of ht)
      · rw [if_neg h2] at ht
        by_cases t2 : type = 2
        · subst t2
          simp only [TraceView.simpleCfe] at ht
          simp only [if_true]
          rw [if_neg (by simp)] at ht
          exact cfeFresh_go h (fun _ => rfl) rfl rfl ht
        rw [if_neg t2]
        by_cases t3 : type = 3
        · subst t3
          simp only [TraceView.simpleCfe] at ht
          simp only [if_true]
          rw [if_neg (by simp)] at ht
          exact cfeFresh_go h (fun _ => rfl) rfl rfl ht
        rw [if_neg t3]
        by_cases t4 : type = 4
        · subst t4
          simp only [TraceView.simpleCfe] at ht
          simp only [if_true]
          refine EM.wlp_ite ?_ fun h3 => ?_
          · intro h3
            rw [if_pos ⟨h3, by simp⟩] at ht
            exact (EM.wlp_fail _ _ _ _).2 (bad_of ht)
          · rw [if_neg (fun x => h3 x.1)] at ht
            exact cfeFresh_go h (fun x => absurd x h3) rfl rfl ht
        rw [if_neg t4]
        by_cases t5 : type = 5
        · subst t5
          simp only [TraceView.simpleCfe] at ht
          simp only [if_true]
          refine EM.wlp_ite ?_ fun h3 => ?_
          · intro h3
            rw [if_pos ⟨h3, by simp⟩] at ht
            exact (EM.wlp_fail _ _ _ _).2 (bad_of ht)
          · rw [if_neg (fun x => h3 x.1)] at ht
            exact cfeFresh_go h (fun x => absurd x h3) rfl rfl ht
        rw [if_neg t5]
        by_cases t6 : type = 6
        · subst t6
          simp only [TraceView.simpleCfe] at ht
          simp only [if_true]
          rw [if_neg (by simp)] at ht
          exact cfeFresh_go h (fun _ => rfl) rfl rfl ht
        rw [if_neg t6]
        by_cases t7 : type = 7
        · subst t7
          simp only [TraceView.simpleCfe] at ht
          simp only [if_true]
          rw [if_neg (by simp)] at ht
          exact cfeFresh_go h (fun _ => rfl) rfl rfl ht
        rw [if_neg t7]
        by_cases ta : type = 10
        · subst ta
          simp only [TraceView.simpleCfe] at ht
          simp only [if_true]
          rw [if_neg (by simp)] at ht
          exact cfeFresh_go h (fun _ => rfl) rfl rfl ht
        rw [if_neg ta]
        by_cases tc : type = 12
        · subst tc
          simp only [TraceView.simpleCfe] at ht
          simp only [if_true]
          rw [if_neg (by simp)] at ht
          exact cfeFresh_go h (fun _ => rfl) rfl rfl ht
        rw [if_neg tc]
        have td : type = 13 := by omega
        subst td
        simp only [TraceView.simpleCfe] at ht
        rw [if_neg (by simp)] at ht
        exact cfeFresh_go h (fun _ => rfl) rfl rfl ht

theorem cfe_go {type n : Nat} {ip : Bool} (h : Go c fin s v rest) (ht : t = cont c fin (v.cfe type n ip) rest) :
    EM.wlp (decodeCfe c type n ip) (Out c fin t) (Bad fin t) s := by
  unfold decodeCfe
  rw [EM.wlp_bind]
  refine wlp_deqs h.rel.q cfe_pred ?_ ?_
  · intro hn
    have e1 : v.waiting.find? TraceView.forCfe = none := by
      rw [List.find?_eq_none]; intro x hx; have := hn x hx; unfold TraceView.forCfe; simp at this ⊢; exact this
    have e2 : v.waiting.eraseP TraceView.forCfe = v.waiting := by
      refine List.eraseP_of_forall_not ?_
      intro x hx; have := hn x hx; unfold TraceView.forCfe; simp at this ⊢; exact this
    refine cfeRest_go (evd := none) h (.inl ⟨rfl, rfl⟩) ?_
    rw [ht]
    unfold TraceView.cfe cfeRest
    rw [e1, e2]
    rfl
  · intro l1 x l2 q' h1 h2 h3 h4 h5 h6
    have hw : x.2 = .cfe := by simpa using h3
    have hf := h.rel.fit
    rw [h1] at hf
    have ho := h.ord
    rw [h1] at ho
    have e1 : v.waiting.find? TraceView.forCfe = some x := by rw [h1]; exact find_split h2 h3
    have e2 : v.waiting.eraseP TraceView.forCfe = l1 ++ l2 := by rw [h1]; exact eraseP_split h2 h3
    refine cfeRest_go (v := { v with waiting := l1 ++ l2 }) (evd := some x.1)
      ⟨⟨h.rel.withQ h4 (fit_erase hf), ord_erase ho (by rw [hw]; simp), h.left, h.ev⟩, h.bd⟩
      (.inr ⟨_, _, rfl, rfl, h6, h5⟩) ?_
    rw [ht]
    unfold TraceView.cfe cfeRest
    rw [e1, e2]
    simp only [Option.map_some, Option.isSome_some, if_true]
    rfl

/-! ## EVD -/

theorem fit_cfe_vmexit {e : Event} (w : Waits) (h : Fit (e, w)) (hw : w = .cfe) (d : EvData)
    (hd : ∃ a b c d', d = .vmexit a b c d') : Fit (({ e with data := d } : Event), w) := by
  subst hw
  obtain ⟨a, b, c, d', rfl⟩ := hd
  rfl

theorem peek_cfe {q : Evq Event} {l : List (Event × Waits)} (hl : q.Holds (lst l)) :
    (q.peek evbCfe = none ∧ l.findIdx? TraceView.forCfe = none) ∨
    ∃ l1 x l2, l = l1 ++ x :: l2 ∧ x.2 = .cfe ∧ l.findIdx? TraceView.forCfe = some l1.length ∧
      q.peek evbCfe = some ((q.begin + l1.length) % 16) := by
  rw [peek_holds hl, firstMatch_lst cfe_pred]
  rcases split_first (fun x : Event × Waits => decide (x.2 = .cfe)) l with hn | ⟨l1, x, l2, rfl, a1, a2⟩
  · left
    have := List.findIdx?_eq_none_iff.2 hn
    exact ⟨by rw [this]; rfl, this⟩
  · right
    refine ⟨l1, x, l2, rfl, by simpa using a2, findIdx_split a1 a2, ?_⟩
    rw [findIdx_split a1 a2]; rfl

theorem evd_go {type n : Nat} (h : Go c fin s v rest) (ht : t = cont c fin (v.evd type n) rest) :
    EM.wlp (decodeEvd type n) (Out c fin t) (Bad fin t) s := by
  unfold decodeEvd
  rw [EM.wlp_bind, EM.wlp_get]
  unfold TraceView.evd at ht
  dsimp only
  rcases peek_cfe h.rel.q with ⟨h1, h2⟩ | ⟨l1, x, l2, h1, h2, h3, h4⟩
  · rw [h1]
    rw [h2] at ht
    dsimp only at ht
    -- a new event
    have hnew : ∀ d : EvData, Fit (({ data := d } : Event), Waits.cfe) →
        t = cont c fin (.quiet (v.wait { data := d } .cfe)) rest →
        EM.wlp (enqSlot evbCfe) (fun i s1 => Out c fin t true
          ((s1.setEv (.slot i) { data := .vmexit none none none 0 }).setEv (.slot i) { data := d })) (Bad fin t) s := by
      intro d hd ht
      refine wlp_enqSlots h.rel.q (by rw [lst_length]; intro hn; rw [wait_full hn] at ht; exact bad_of ht) ?_
      intro q' k1 k2 k3 _ _
      rw [lst_length] at k1
      rw [wait_ok k1, cont_quiet] at ht
      have p1 := put_last_holds k2 (i := (s.q.begin + (lst v.waiting).length) % 16) (by rw [k3]) { data := .vmexit none none none 0 }
      have e1 : lst v.waiting ++ [(({ data := .vmexit none none none 0 } : Event), evbCfe)] =
          lst (v.waiting ++ ({ data := .vmexit none none none 0 }, Waits.cfe) :: []) := by rw [lst_append]; rfl
      rw [e1] at p1
      have p2 := put_split p1 (i := (s.q.begin + (lst v.waiting).length) % 16) (by rw [lst_length]; show _ = (q'.begin + _) % 16; rw [k3])
        { data := d }
      exact St.more ⟨h.rel.withQ p2 (fit_snoc h.rel.fit hd), ord_snoc h.ord (by simp), h.left, h.ev⟩ ht
    rcases type with _ | _ | _ | type
    · rw [if_pos rfl, if_neg (by simp)]
      exact h.wait (w := .cfe) rfl rfl (by simp) ht
    · replace ht : t = cont c fin (.quiet (v.wait { data := .vmexit none none (some n) 0 } .cfe)) rest := ht
      rw [if_neg (by simp), if_pos (by simp)]
      unfold evdVmexit
      simp only [EM.wlp_bind, EM.wlp_pure, EM.wlp_get, updEv, EM.wlp_modify]
      have hl := h.rel.q
      refine EM.wlp_mono (EM.wlp_and (hnew (.vmexit none none (some n) 0) (by rfl) ht) (wlp_enqSlots (evb := evbCfe) (E := Bad fin t)
        (Q := fun i (s1 : Evd) => s1.q.queue.length = 16 ∧ i < 16) hl
        (by rw [lst_length]; intro hn; rw [wait_full hn] at ht; exact bad_of ht)
        (fun q' _ k2 _ _ _ => ⟨k2.size, Nat.mod_lt _ (by omega)⟩))) ?_ (fun _ _ x => x.1)
      rintro i s1 ⟨k1, k2, k3⟩
      have e1 : (s1.setEv (.slot i) { data := .vmexit none none none 0 }).q.get i = { data := .vmexit none none none 0 } :=
        put_get k2 k3 _
      have e2 : (s1.setEv (.slot i) { data := .vmexit none none none 0 }).ev (.slot i) = { data := .vmexit none none none 0 } := e1
      rw [e1]
      dsimp only
      simp only [Option.isSome_none, Bool.false_eq_true, if_false, if_true, EM.wlp_bind, EM.wlp_modify, EM.wlp_pure, e2]
      exact k1
    · replace ht : t = cont c fin (.quiet (v.wait { data := .vmexit none (some n) none 0 } .cfe)) rest := ht
      rw [if_neg (by simp), if_pos (by simp)]
      unfold evdVmexit
      simp only [EM.wlp_bind, EM.wlp_pure, EM.wlp_get, updEv, EM.wlp_modify]
      have hl := h.rel.q
      refine EM.wlp_mono (EM.wlp_and (hnew (.vmexit none (some n) none 0) (by rfl) ht) (wlp_enqSlots (evb := evbCfe) (E := Bad fin t)
        (Q := fun i (s1 : Evd) => s1.q.queue.length = 16 ∧ i < 16) hl
        (by rw [lst_length]; intro hn; rw [wait_full hn] at ht; exact bad_of ht)
        (fun q' _ k2 _ _ _ => ⟨k2.size, Nat.mod_lt _ (by omega)⟩))) ?_ (fun _ _ x => x.1)
      rintro i s1 ⟨k1, k2, k3⟩
      have e1 : (s1.setEv (.slot i) { data := .vmexit none none none 0 }).q.get i = { data := .vmexit none none none 0 } :=
        put_get k2 k3 _
      have e2 : (s1.setEv (.slot i) { data := .vmexit none none none 0 }).ev (.slot i) = { data := .vmexit none none none 0 } := e1
      rw [e1]
      dsimp only
      rw [if_neg (by simp)]
      simp only [Option.isSome_none, Bool.false_eq_true, if_false, if_true, EM.wlp_bind, EM.wlp_modify, EM.wlp_pure, e2]
      exact k1
    · rw [if_neg (by simp), if_neg (by omega), EM.wlp_pure]
      replace ht : t = cont c fin (.quiet (some v)) rest := ht
      rw [cont_quiet] at ht
      exact h.toSt.more ht
  · rw [h4]
    obtain ⟨e, w⟩ := x
    dsimp only at h2
    subst h2
    have e2 : v.waiting[l1.length]? = some (e, .cfe) := by rw [h1]; simp
    rw [h3] at ht
    dsimp only at ht
    rw [e2] at ht
    dsimp only at ht
    have hq := h.rel.q
    rw [h1] at hq
    have hf := h.rel.fit
    rw [h1] at hf
    have ho := h.ord
    rw [h1] at ho
    have hb : TraceView.isBranch e = false := by
      have := hf (e, .cfe) (by simp)
      cases hx : TraceView.isBranch e with
      | false => rfl
      | true => exact absurd (fit_branch this hx) (by simp)
    simp only [h1, set_split] at ht
    have g := get_split hq
    -- changing the event
    have hset : ∀ d : EvData, Fit (({ e with data := d } : Event), Waits.cfe) →
        t = cont c fin (.quiet (some { v with waiting := l1 ++ ({ e with data := d }, .cfe) :: l2 })) rest →
        Out c fin t true (s.setEv (.slot ((s.q.begin + l1.length) % 16)) { e with data := d }) := by
      intro d hd ht
      rw [cont_quiet] at ht
      exact St.more ⟨h.rel.withQ (put_split hq rfl _) (fit_set hf hd), ord_set ho rfl hb, h.left, h.ev⟩ ht
    rcases type with _ | _ | _ | type
    · rw [if_pos rfl, if_pos (by rfl)]
      exact (EM.wlp_fail _ _ _ _).2 (bad_of ht)
    · rw [if_neg (by simp), if_pos (by simp)]
      unfold evdVmexit
      simp only [EM.wlp_bind, EM.wlp_pure, EM.wlp_get, updEv, EM.wlp_modify]
      rw [g]
      cases hd : e.data
      case vmexit a b q d =>
        dsimp only
        simp only [Nat.zero_add, if_true]
        rw [hd] at ht
        cases q with
        | none =>
          simp only [Option.isSome_none, Bool.false_eq_true, if_false, EM.wlp_bind, EM.wlp_modify, EM.wlp_pure]
          rw [show s.ev (.slot ((s.q.begin + l1.length) % 16)) = e from g]
          exact hset _ rfl ht
        | some q =>
          simp only [Option.isSome_some, if_true]
          exact (EM.wlp_fail _ _ _ _).2 (bad_of ht)
      all_goals
        rw [hd] at ht
        exact (EM.wlp_fail _ _ _ _).2 (bad_of ht)
    · rw [if_neg (by simp), if_pos (by simp)]
      unfold evdVmexit
      simp only [EM.wlp_bind, EM.wlp_pure, EM.wlp_get, updEv, EM.wlp_modify]
      rw [g]
      cases hd : e.data
      case vmexit a r q d =>
        dsimp only
        rw [if_neg (by simp)]
        rw [hd] at ht
        cases r with
        | none =>
          simp only [Option.isSome_none, Bool.false_eq_true, if_false, EM.wlp_bind, EM.wlp_modify, EM.wlp_pure]
          rw [show s.ev (.slot ((s.q.begin + l1.length) % 16)) = e from g]
          exact hset _ rfl ht
        | some r =>
          simp only [Option.isSome_some, if_true]
          exact (EM.wlp_fail _ _ _ _).2 (bad_of ht)
      all_goals
        rw [hd] at ht
        exact (EM.wlp_fail _ _ _ _).2 (bad_of ht)
    · rw [if_neg (by simp), if_neg (by omega), EM.wlp_pure]
      have : cont c fin (.quiet (some v)) rest = trace c fin v rest := cont_quiet v rest
      refine h.toSt.more ?_
      rw [ht, ← this]
      rfl

end Ipt.Events
