import Verif.EventsPlain

/-! Helper lemmas: the event decoder follows `Spec.trace`.  Power events, CFE, EVD, TRIG, OVF. -/

set_option linter.unusedSimpArgs false

namespace Ipt.Events

open Ipt Ipt.Spec

variable {c : EvtCfg} {fin : Err} {s : Evd} {v : TraceView} {rest : List Packet} {t : List Event × Bool}

theorem withFup_go {ip : Bool} {d : EvData} (h : Go c fin s v rest) (hf : Fit (({ data := d } : Event), Waits.ownFup))
    (ht : t = cont c fin (v.withFup ip d) rest) :
    EM.wlp (if ip = true then enqMore evbFupBound { data := d } else aloneDone c { data := d, ipSuppressed := true })
      (Out c fin t) (Bad fin t) s := by
  unfold TraceView.withFup at ht
  refine EM.wlp_ite ?_ ?_
  · intro h2
    rw [if_pos h2] at ht
    exact h.wait (w := .ownFup) rfl hf (by simp) ht
  · intro h2
    rw [if_neg h2] at ht
    exact h.says ht

theorem exstop_pred (w : Waits) : decide (mask w &&& evbExstop ≠ 0) = decide (w = .exstop) := by cases w <;> rfl
theorem cfe_pred (w : Waits) : decide (mask w &&& evbCfe ≠ 0) = decide (w = .cfe) := by cases w <;> rfl
theorem psbend_pred (w : Waits) : decide (mask w &&& evbPsbend ≠ 0) = false := by cases w <;> rfl
theorem fup_pred (w : Waits) : decide (mask w &&& (evbFup ||| evbFupBound) ≠ 0) = w.atFup := by cases w <;> rfl
theorem own_pred (w : Waits) : decide (mask w &&& evbFupBound ≠ 0) = w.owns := by cases w <;> rfl
theorem any_pred (w : Waits) : decide (mask w &&& (2 ^ 32 - 1) ≠ 0) = true := by cases w <;> rfl

theorem fit_exstop {e : Event} (h : Fit (e, .exstop)) : ∃ a b, e.data = .mwait a b 0 := by
  unfold Fit at h
  revert h
  cases hd : e.data <;> simp [fitData]

theorem fit_erase {l1 l2 : List (Event × Waits)} {x : Event × Waits} (h : ∀ y ∈ l1 ++ x :: l2, Fit y) : ∀ y ∈ l1 ++ l2, Fit y := by
  intro y hy
  rcases List.mem_append.1 hy with hy | hy
  · exact h y (List.mem_append_left _ hy)
  · exact h y (List.mem_append_right _ (List.mem_cons_of_mem _ hy))

/-- Queueing a copy of the event `*p`. -/
theorem wlp_requeue {p : EvPtr} {e : Event} {w : Waits} {evb : Nat} {l : List (Event × Waits)} {Q : Unit → Evd → Prop}
    {E : Err → Evd → Prop} (hl : s.q.Holds (lst l)) (hp : Free p s.q) (he : s.ev p = e) (hw : evb = mask w)
    (hE : 14 ≤ l.length → E .nomem s)
    (hq : ∀ q', l.length < 14 → q'.Holds (lst (l ++ [(e, w)])) → Q () { s with q := q' }) :
    EM.wlp (do let j ← enqSlot evb; updEv (.slot j) fun s _ => s.ev p) Q E s := by
  subst hw
  rw [EM.wlp_bind]
  have hb := hl.begin
  refine wlp_enqSlots hl (by rw [lst_length]; exact hE) ?_
  intro q' h1 h2 h3 h4 h5
  rw [lst_length] at h1
  unfold updEv
  rw [EM.wlp_modify]
  have e1 : Evd.ev { s with q := q' } p = e := by
    rw [← he]
    rcases hp with rfl | rfl
    · exact h4
    · show q'.get _ = s.q.get _
      unfold Evq.get
      rw [h5 _ (by rw [lst_length]; omega)]
  show Q () (Evd.setEv _ _ (Evd.ev { s with q := q' } p))
  rw [e1]
  refine hq _ h1 ?_
  have := put_last_holds h2 (i := (s.q.begin + (lst l).length) % 16) (by rw [h3]) e
  rw [lst_append]
  exact this

theorem exstopEvent_go {ip : Bool} (h : Go c fin s v rest) (ht : t = cont c fin (v.withFup ip (.exstop 0)) rest) :
    EM.wlp (exstopEvent c ip) (Out c fin t) (Bad fin t) s := by
  unfold exstopEvent
  exact withFup_go h rfl ht

theorem exstop_go {ip : Bool} (h : Go c fin s v rest) (hp : s.packet = .exstop ip) (ht : t = cont c fin (v.exstop ip) rest) :
    EM.wlp (decodeExstop c ip) (Out c fin t) (Bad fin t) s := by
  unfold decodeExstop
  rw [EM.wlp_bind]
  unfold TraceView.exstop at ht
  refine wlp_deqs h.rel.q exstop_pred ?_ ?_
  · intro hn
    dsimp only
    refine exstopEvent_go h ?_
    rw [ht]
    have e1 : v.waiting.find? TraceView.forExstop = none := by
      rw [List.find?_eq_none]; intro x hx; have := hn x hx; unfold TraceView.forExstop; simp at this ⊢; exact this
    have e2 : v.waiting.filter TraceView.forExstop = [] := by
      rw [List.filter_eq_nil_iff]; intro x hx; have := hn x hx; unfold TraceView.forExstop; simp at this ⊢; exact this
    have e3 : v.waiting.filter (fun x => !TraceView.forExstop x) = v.waiting := by
      rw [List.filter_eq_self]; intro x hx; have := hn x hx; unfold TraceView.forExstop; simp at this ⊢; exact this
    cases ip
    · rw [if_neg (by simp), e2, e3]; rfl
    · rw [if_pos rfl, e1]
  · intro l1 x l2 q' h1 h2 h3 h4 h5 h6
    dsimp only
    rw [EM.wlp_bind, EM.wlp_get]
    obtain ⟨e, w⟩ := x
    have hw : w = .exstop := by simpa using h3
    subst hw
    have hf := h.rel.fit
    rw [h1] at hf
    obtain ⟨a, b, hd⟩ := fit_exstop (hf (e, .exstop) (by simp))
    have ho := h.ord
    rw [h1] at ho
    have ho' := ord_erase ho (by simp)
    have hr := h.rel.withQ h4 (fit_erase hf)
    have h2' : ∀ y ∈ l1, TraceView.forExstop y = false := h2
    have h3' : TraceView.forExstop (e, .exstop) = true := rfl
    have ef : v.waiting.find? TraceView.forExstop = some (e, .exstop) := by rw [h1]; exact find_split h2' h3'
    have ee : v.waiting.eraseP TraceView.forExstop = l1 ++ l2 := by rw [h1]; exact eraseP_split h2' h3'
    have el : v.waiting.filter TraceView.forExstop = (e, .exstop) :: (l1 ++ l2).filter TraceView.forExstop := by
      rw [h1, filter_split h2' h3', filter_split' h2']
    have en : v.waiting.filter (fun x => !TraceView.forExstop x) = (l1 ++ l2).filter fun x => !TraceView.forExstop x := by
      rw [h1]; exact filter_not_split h3'
    dsimp only
    rw [h5, hd]
    dsimp only
    refine EM.wlp_ite ?_ ?_
    · rintro rfl
      rw [if_pos rfl, ef, ee] at ht
      dsimp only at ht
      have hf1 : Fit (e, Waits.ownFup) := by unfold Fit; rw [hd]; rfl
      have := wlp_requeue (s := { s with q := q' }) (p := .slot s.q.begin) (e := e) (w := .ownFup) (l := l1 ++ l2)
        (Q := fun _ s' => EM.wlp (exstopEvent c true) (Out c fin t) (Bad fin t) s') (E := Bad fin t) h4 h6 h5 rfl ?_ ?_
      · rw [EM.wlp_bind] at this ⊢
        simp only [EM.wlp_bind]
        exact this
      · intro hn
        rw [wait_full (by exact hn)] at ht
        exact bad_of ht
      · intro q2 k1 k2
        rw [wait_ok (by exact k1)] at ht
        exact exstopEvent_go (v := { v with waiting := l1 ++ l2 ++ [(e, .ownFup)] })
          ⟨⟨h.rel.withQ k2 (fit_snoc (fit_erase hf) hf1), ord_snoc ho' (by simp), h.left, h.ev⟩, h.bd⟩ ht
    · intro hip
      have hip : ip = false := by simpa using hip
      subst hip
      rw [if_neg (by simp), el, en] at ht
      unfold setEvent timeEv
      rw [EM.wlp_bind]
      refine wlp_updEv_free hr.q h6 fun q2 k1 k2 k3 => ?_
      rw [EM.wlp_bind, EM.wlp_modify, EM.wlp_bind]
      refine wlp_updEv_free k1 k2 fun q3 k4 k5 k6 => ?_
      rw [EM.wlp_pure]
      have hrr := h.rel.withQ k4 (fit_erase hf)
      refine out_more (p := .slot s.q.begin) (v := { v with waiting := l1 ++ l2 }) (rest := rest)
        (e := v.now { e with ipSuppressed := true })
        (es := ((l1 ++ l2).filter TraceView.forExstop).map (fun x => v.now { x.1 with ipSuppressed := true }) ++
          (TraceView.withFup { v with waiting := (l1 ++ l2).filter fun x => !TraceView.forExstop x } false (.exstop 0)).1)
        (o := (TraceView.withFup { v with waiting := (l1 ++ l2).filter fun x => !TraceView.forExstop x } false (.exstop 0)).2)
        rfl ?_ ?_ ⟨⟨hrr.ip, hrr.tm, hrr.on, hrr.mode, k4, hrr.fit, hrr.hdr⟩, h.left, .inl ho', ?_⟩ ?_
      · refine k6.trans ?_
        show Event.timed (Evd.ev { s with q := q2 } (.slot s.q.begin)) s.tm.time = _
        have k3' : Evd.ev { s with q := q2 } (.slot s.q.begin) = { e with data := .mwait a b 0, ipSuppressed := true } := by
          refine k3.trans ?_
          show ({ q'.get s.q.begin with data := .mwait a b 0, ipSuppressed := true } : Event) = _
          rw [h5]
        rw [k3', h.rel.tm, timed_now, ← hd]
      · rw [ht]; rfl
      · intro hb; exact absurd (h.bd.symm.trans hb) (by simp)
      · show mid c fin { v with waiting := l1 ++ l2 } s.bound s.packet rest = _
        rw [hp]; rfl

theorem ptw_go {a b : Nat} {ip : Bool} (h : Go c fin s v rest) (ht : t = cont c fin (v.ptw a b ip) rest) :
    EM.wlp (decodePtw c a b ip) (Out c fin t) (Bad fin t) s := by
  unfold decodePtw
  rw [EM.wlp_bind]
  unfold TraceView.ptw at ht
  refine wlp_lift ?_ ?_
  · intro n hn
    unfold ptwSize at hn
    by_cases h0 : b = 0
    · rw [if_pos h0] at hn ht
      cases hn
      exact withFup_go h rfl ht
    · rw [if_neg h0] at hn ht
      by_cases h1 : b = 1
      · rw [if_pos h1] at hn ht
        cases hn
        exact withFup_go h rfl ht
      · rw [if_neg h1] at hn; split at hn <;> cases hn
  · intro e he
    unfold ptwSize at he
    by_cases h0 : b = 0
    · rw [if_pos h0] at he; cases he
    · rw [if_neg h0] at he ht
      by_cases h1 : b = 1
      · rw [if_pos h1] at he; cases he
      · rw [if_neg h1] at ht; exact bad_of ht

theorem trig_go {a : Nat} {n : Option Nat} {ip m : Bool} (h : Go c fin s v rest) (ht : t = cont c fin (v.trig a n ip m) rest) :
    EM.wlp (decodeTrig c a n ip m) (Out c fin t) (Bad fin t) s := by
  unfold decodeTrig
  unfold TraceView.trig at ht
  refine EM.wlp_ite ?_ ?_
  · rintro rfl
    rcases n with _ | _ | n
    · exact (EM.wlp_fail _ _ _ _).2 (bad_of ht)
    · exact h.wait (w := .ownFup) rfl rfl (by simp) ht
    · exact (EM.wlp_fail _ _ _ _).2 (bad_of ht)
  · intro hip
    have hip : ip = false := by simpa using hip
    subst hip
    unfold trigAlone alone
    rw [EM.wlp_bind, EM.wlp_modify, EM.wlp_bind, EM.wlp_get]
    have hr : Rel c { s with q := { s.q with standalone := { data := .trig a 0 m 0 } }, event := some .alone } v :=
      ⟨h.rel.ip, h.rel.tm, h.rel.on, h.rel.mode, standalone_holds h.rel.q _, h.rel.fit, h.rel.hdr⟩
    cases n with
    | none => exact aloneDone_says hr h.ord h.left h.bd ht
    | some n =>
      dsimp only at ht ⊢
      rw [← h.rel.on] at ht
      refine EM.wlp_ite ?_ ?_
      · intro hn
        rw [if_pos hn] at ht
        rw [EM.wlp_fail]; exact bad_of ht
      · intro hn
        rw [if_neg hn] at ht
        exact aloneDone_says hr h.ord h.left h.bd ht

end Ipt.Events
