import Verif.EventsOps

/-! Helper lemmas: the event decoder follows `Spec.trace`.  Packets without FUP and TIP. -/

set_option linter.unusedSimpArgs false

namespace Ipt.Events

open Ipt Ipt.Spec

variable {c : EvtCfg} {fin : Err} {s : Evd} {v : TraceView} {rest : List Packet} {t : List Event × Bool}

/-- A state with a new packet. -/
structure Go (c : EvtCfg) (fin : Err) (s : Evd) (v : TraceView) (rest : List Packet) : Prop extends St c fin s v rest where
  bd : s.bound = false

theorem Go.says {e : Event} (h : Go c fin s v rest) (ht : t = cont c fin (v.says e) rest) :
    EM.wlp (aloneDone c e) (Out c fin t) (Bad fin t) s := aloneDone_says h.rel h.ord h.left h.bd ht

theorem Go.wait {e : Event} {w : Waits} {evb : Nat} (h : Go c fin s v rest) (hw : evb = mask w) (hf : Fit (e, w))
    (ho : w ≠ .tip) (ht : t = cont c fin (.quiet (v.wait e w)) rest) :
    EM.wlp (enqMore evb e) (Out c fin t) (Bad fin t) s := enqMore_wait h.toSt hw hf (ord_snoc h.ord ho) ht

theorem wlp_waitq {e : Event} {w : Waits} {evb : Nat} {l : List (Event × Waits)} {Q : Unit → Evd → Prop} {E : Err → Evd → Prop}
    (hl : s.q.Holds (lst l)) (hw : evb = mask w) (hE : 14 ≤ l.length → E .nomem s)
    (hq : ∀ q', l.length < 14 → q'.Holds (lst (l ++ [(e, w)])) → Q () { s with q := q' }) :
    EM.wlp (enq evb e) Q E s := by
  subst hw
  refine wlp_enqs hl ?_ ?_
  · rw [lst_length]; exact hE
  · intro q' h1 h2 _
    rw [lst_length] at h1
    refine hq q' h1 ?_
    rw [lst_append]; exact h2

/-! ## TNT, timing, MODE -/

theorem tnt_go {bits size : Nat} (h : Go c fin s v rest)
    (ht : t = cont c fin (if v.on = true then v.says { data := .tnt bits size } else .bad) rest) :
    EM.wlp (decodeTnt c bits size) (Out c fin t) (Bad fin t) s := by
  unfold decodeTnt
  rw [EM.wlp_bind, EM.wlp_get]
  have h1 := h.rel.on
  refine EM.wlp_ite ?_ ?_
  · intro h2
    rw [EM.wlp_fail]
    rw [← h1, h2, if_neg (by simp)] at ht
    exact bad_of ht
  · intro h2
    rw [← h1, if_pos (by simpa using h2)] at ht
    exact h.says ht

theorem wlp_clock {tp : TimePkt} {Q : Unit → Evd → Prop} {E : Err → Evd → Prop} (hr : Rel c s v)
    (hE : v.clock c tp = none → ∀ e s', E e s')
    (hq : ∀ tm, v.clock c tp = some { v with tm := tm } → Q () { s with tm := tm }) :
    EM.wlp (applyTm c tp) Q E s := by
  unfold EM.wlp applyTm
  rw [hr.tm]
  unfold TraceView.clock at hE hq
  rcases hx : v.tm.apply c.time tp with ⟨tm, ⟨⟩ | e | _⟩
  · rw [hx] at hq; exact hq tm rfl
  · rw [hx] at hE; exact hE rfl _ _
  · trivial

theorem Rel.withTm {tm : Timing} (h : Rel c s v) : Rel c { s with tm := tm } { v with tm := tm } :=
  ⟨h.ip, rfl, h.on, h.mode, h.q, h.fit, h.hdr⟩

theorem timing_go {tp : TimePkt} (h : Go c fin s v rest) (ht : t = cont c fin (.quiet (v.clock c tp)) rest) :
    EM.wlp (decodeTiming c tp) (Out c fin t) (Bad fin t) s := by
  unfold decodeTiming
  rw [EM.wlp_bind]
  refine wlp_clock h.rel ?_ ?_
  · intro hn e s'; rw [hn] at ht; exact bad_of ht
  · intro tm hn
    rw [EM.wlp_pure]
    rw [hn, cont_quiet] at ht
    exact St.more ⟨h.rel.withTm, h.ord, h.left, h.ev⟩ ht

theorem cbr_go {r : Nat} (h : Go c fin s v rest)
    (ht : t = cont c fin (match v.clock c (.cbr r) with | some v' => v'.says { data := .cbr r } | none => .bad) rest) :
    EM.wlp (decodeCbr c r) (Out c fin t) (Bad fin t) s := by
  unfold decodeCbr
  rw [EM.wlp_bind]
  refine wlp_clock h.rel ?_ ?_
  · intro hn e s'; rw [hn] at ht; exact bad_of ht
  · intro tm hn
    rw [hn] at ht
    exact aloneDone_says h.rel.withTm h.ord h.left h.bd ht

theorem execMode_modeOf (a b : Bool) : execMode a b = modeOf a b := by cases a <;> cases b <;> rfl

theorem modeExec_go {a b i : Bool} (h : Go c fin s v rest) (ht : t = cont c fin (v.modeExec c a b i) rest) :
    EM.wlp (decodeModeExec c a b i) (Out c fin t) (Bad fin t) s := by
  unfold decodeModeExec
  rw [EM.wlp_bind, EM.wlp_get, EM.wlp_bind]
  have hm : v.modeChanged a b = decide (s.modeValid = false ∨ s.csl ≠ a ∨ s.csd ≠ b) := by
    unfold TraceView.modeChanged
    rw [h.rel.mode]
    cases s.modeValid <;> simp
  have hi : v.flagChanged c i = decide (c.enableIflags = true ∧ (s.modeValid = false ∨ s.iflag ≠ i)) := by
    unfold TraceView.flagChanged
    rw [h.rel.mode]
    cases s.modeValid <;> cases c.enableIflags <;> simp
  unfold TraceView.modeExec at ht
  dsimp only at ht
  rw [hm, hi] at ht
  have hfin : ∀ (s' : Evd) (l : List (Event × Waits)), s'.q.Holds (lst l) → (∀ x ∈ l, Fit x) → Ord l → s'.ip = s.ip → s'.tm = s.tm → s'.enabled = s.enabled →
      s'.csl = a → s'.csd = b → (c.enableIflags && s'.iflag) = TraceView.ifBit c i → s'.pd = s.pd → s'.event = s.event → s'.status = s.status →
      t = trace c fin { v with mode := some (a, b, TraceView.ifBit c i), waiting := l } rest →
      Out c fin t true { s' with modeValid := true } := by
    intro s' l h1 h2 h3 h4 h5 h6 h7 h8 h9 h10 h11 h13 h12
    refine St.more (v := { v with mode := some (a, b, TraceView.ifBit c i), waiting := l }) ⟨⟨h4.trans h.rel.ip, h5.trans h.rel.tm, h6.trans h.rel.on, ?_, h1, h2, h.rel.hdr.1, h.rel.hdr.2.1, h13.trans h.rel.hdr.2.2⟩, h3, ?_, h11.trans h.ev⟩ h12
    · dsimp only
      rw [if_pos rfl, h7, h8, h9]
    · show Left c fin s'.pd rest
      rw [h10]; exact h.left
  have f1 : Fit (({ data := .execMode (execMode a b) 0 } : Event), Waits.tipOrFup) := rfl
  have f2 : Fit (({ data := .iflags i 0 } : Event), Waits.tipOrFup) := rfl
  have f3 : Fit (({ data := .tick 0 } : Event), Waits.tipOrFup) := rfl
  have ev := h.rel.mode
  unfold modeExecEvents
  rcases Bool.eq_false_or_eq_true (decide (s.modeValid = false ∨ s.csl ≠ a ∨ s.csd ≠ b)) with hM | hM <;>
  rcases Bool.eq_false_or_eq_true (decide (c.enableIflags = true ∧ (s.modeValid = false ∨ s.iflag ≠ i))) with hI | hI <;>
  rw [hM, hI] <;> rw [hM, hI] at ht
  · -- both
    simp only [Bool.true_eq_false, Bool.false_eq_true, false_and, and_false, and_self, if_true, if_false, EM.wlp_bind, EM.wlp_modify, EM.wlp_pure]
    rw [if_pos rfl, ← execMode_modeOf] at ht
    refine wlp_waitq (w := .tipOrFup) h.rel.q rfl ?_ ?_
    · intro hn; rw [wait_full (by exact hn)] at ht; exact bad_of ht
    · intro q1 k1 h1
      rw [wait_ok (by exact k1)] at ht
      dsimp only [Option.bind] at ht
      rw [if_pos rfl] at ht
      refine wlp_waitq (w := .tipOrFup) (l := v.waiting ++ [({ data := .execMode (execMode a b) 0 }, .tipOrFup)]) h1 rfl ?_ ?_
      · intro hn; rw [wait_full (by exact hn)] at ht; exact bad_of ht
      · intro q2 k2 h2
        rw [wait_ok (by exact k2)] at ht
        dsimp only at ht
        rw [if_neg (by simp), cont_quiet] at ht
        exact hfin { s with q := q2, csl := a, csd := b, iflag := i } _ h2 (fit_snoc (fit_snoc h.rel.fit f1) f2) (ord_snoc (ord_snoc h.ord (by simp)) (by simp)) rfl rfl rfl rfl rfl rfl
          rfl rfl rfl ht
  · -- mode only
    simp only [Bool.true_eq_false, Bool.false_eq_true, false_and, and_false, and_self, if_true, if_false, EM.wlp_bind, EM.wlp_modify, EM.wlp_pure]
    rw [if_pos rfl, ← execMode_modeOf] at ht
    refine wlp_waitq (w := .tipOrFup) h.rel.q rfl ?_ ?_
    · intro hn; rw [wait_full (by exact hn)] at ht; exact bad_of ht
    · intro q1 k1 h1
      rw [wait_ok (by exact k1)] at ht
      dsimp only [Option.bind] at ht
      rw [if_neg (by simp)] at ht
      dsimp only at ht
      rw [if_neg (by simp), cont_quiet] at ht
      refine hfin { s with q := q1, csl := a, csd := b } _ h1 (fit_snoc h.rel.fit f1) (ord_snoc h.ord (by simp)) rfl rfl rfl rfl rfl ?_ rfl rfl rfl ht
      have := decide_eq_false_iff_not.1 hI
      show (c.enableIflags && s.iflag) = TraceView.ifBit c i
      unfold TraceView.ifBit
      cases hc : c.enableIflags with
      | false => rfl
      | true => rw [hc] at this; have : s.iflag = i := by simpa using (not_or.1 (fun x => this ⟨rfl, x⟩)).2
                rw [this]
  · -- flag only
    simp only [Bool.true_eq_false, Bool.false_eq_true, false_and, and_false, and_self, if_true, if_false, EM.wlp_bind, EM.wlp_modify, EM.wlp_pure]
    rw [if_neg (by simp)] at ht
    dsimp only [Option.bind] at ht
    rw [if_pos rfl] at ht
    refine wlp_waitq (w := .tipOrFup) h.rel.q rfl ?_ ?_
    · intro hn; rw [wait_full (by exact hn)] at ht; exact bad_of ht
    · intro q1 k1 h1
      rw [wait_ok (by exact k1)] at ht
      dsimp only at ht
      rw [if_neg (by simp), cont_quiet] at ht
      have hx := decide_eq_false_iff_not.1 hM
      refine hfin { s with q := q1, iflag := i } _ h1 (fit_snoc h.rel.fit f2) (ord_snoc h.ord (by simp)) rfl rfl rfl ?_ ?_ rfl rfl rfl rfl ht
      · show s.csl = a
        simpa using (not_or.1 (not_or.1 hx).2).1
      · show s.csd = b
        simpa using (not_or.1 (not_or.1 hx).2).2
  · -- neither
    simp only [Bool.true_eq_false, Bool.false_eq_true, false_and, and_false, and_self, if_true, if_false, EM.wlp_bind, EM.wlp_modify, EM.wlp_pure]
    rw [if_neg (by simp)] at ht
    dsimp only [Option.bind] at ht
    rw [if_neg (by simp)] at ht
    dsimp only at ht
    rw [if_pos (by simp)] at ht
    refine wlp_waitq (w := .tipOrFup) h.rel.q rfl ?_ ?_
    · intro hn; rw [wait_full (by exact hn)] at ht; exact bad_of ht
    · intro q1 k1 h1
      rw [wait_ok (by exact k1), cont_quiet] at ht
      have hx := decide_eq_false_iff_not.1 hM
      refine hfin { s with q := q1 } _ h1 (fit_snoc h.rel.fit f3) (ord_snoc h.ord (by simp)) rfl rfl rfl ?_ ?_ ?_ rfl rfl rfl ht
      · show s.csl = a
        simpa using (not_or.1 (not_or.1 hx).2).1
      · show s.csd = b
        simpa using (not_or.1 (not_or.1 hx).2).2
      · have := decide_eq_false_iff_not.1 hI
        show (c.enableIflags && s.iflag) = TraceView.ifBit c i
        unfold TraceView.ifBit
        cases hc : c.enableIflags with
        | false => rfl
        | true => rw [hc] at this; have : s.iflag = i := by simpa using (not_or.1 (fun x => this ⟨rfl, x⟩)).2
                  rw [this]

theorem modeTsx_go {a b : Bool} (h : Go c fin s v rest) (ht : t = cont c fin (v.modeTsx a b) rest) :
    EM.wlp (decodeModeTsx c a b) (Out c fin t) (Bad fin t) s := by
  unfold decodeModeTsx
  rw [EM.wlp_bind, EM.wlp_get]
  unfold TraceView.modeTsx at ht
  rw [← h.rel.on] at ht
  refine EM.wlp_ite ?_ ?_
  · intro h2
    rw [if_pos h2] at ht
    cases b
    · exact h.wait (w := .ownFup) rfl rfl (by simp) ht
    · exact h.wait (w := .fup) rfl rfl (by simp) ht
  · intro h2
    rw [if_neg h2] at ht
    exact h.says ht

/-! ## PIP, VMCS -/

theorem tip_pred (w : Waits) : decide (mask w &&& evbTip ≠ 0) = w.atTip := by cases w <;> rfl

/-- Looking for an event that waits for TIP. -/
theorem find_tip {q : Evq Event} {l : List (Event × Waits)} (hl : q.Holds (lst l)) (hf : ∀ x ∈ l, Fit x) {P : Event → Bool}
    (hP : ∀ x, Fit x → P x.1 = true → x.2 = .tip) :
    (q.find evbTip P = none ∧ ∀ x ∈ l, P x.1 = false) ∨
    ∃ l1 x l2, l = l1 ++ x :: l2 ∧ (∀ y ∈ l1, P y.1 = false) ∧ P x.1 = true ∧
      q.find evbTip P = some ((q.begin + l1.length) % 16) := by
  have hm : ∀ x ∈ l, P x.1 = true → matches_ evbTip (x.1, mask x.2) = true := by
    intro x hx hp
    rw [hP x (hf x hx) hp]; simp [matches_, mask, evbTip]
  rcases find_holds hl evbTip P with ⟨j, hj, h1, h2, h3, h4⟩ | ⟨h1, h2⟩
  · rw [lst_length] at hj
    right
    rcases split_first (fun x : Event × Waits => P x.1) l with hn | ⟨l1, x, l2, rfl, a1, a2⟩
    · exfalso
      have := hn l[j] (List.getElem_mem hj)
      have e : ((lst l)[j]'(by rw [lst_length]; exact hj)).1 = l[j].1 := by simp [lst]
      rw [e] at h3; simp [h3] at this
    · refine ⟨l1, x, l2, rfl, a1, a2, ?_⟩
      rw [h1]
      congr 2
      congr 1
      -- j = l1.length
      rcases Nat.lt_trichotomy j l1.length with hlt | heq | hgt
      · exfalso
        have e : ((lst (l1 ++ x :: l2))[j]'(by rw [lst_length]; exact hj)).1 = l1[j].1 := by
          simp only [lst, List.getElem_map]
          rw [List.getElem_append_left hlt]
        rw [e] at h3
        have := a1 l1[j] (List.getElem_mem hlt)
        simp [h3] at this
      · exact heq
      · exfalso
        refine h4 l1.length (by rw [lst_length]; simp) hgt ?_
        have e : (lst (l1 ++ x :: l2))[l1.length]'(by rw [lst_length]; simp) = (x.1, mask x.2) := by
          simp [lst]
        rw [e]
        exact ⟨hm x (by simp) a2, a2⟩
  · left
    refine ⟨h1, fun x hx => ?_⟩
    cases hp : P x.1 with
    | false => rfl
    | true =>
      exfalso
      refine h2 (x.1, mask x.2) ?_ ⟨hm x hx hp, hp⟩
      unfold lst
      exact List.mem_map.2 ⟨x, hx, rfl⟩

theorem branch_eq (e : Event) : e.isAsyncBranch = TraceView.isBranch e := rfl
theorem paging_eq (e : Event) : e.isAsyncPaging = TraceView.isPaging e := rfl

theorem find_branch (hr : Rel c s v) : (s.q.find evbTip Event.isAsyncBranch).isSome = v.branching := by
  unfold TraceView.branching
  rcases find_tip hr.q hr.fit (P := Event.isAsyncBranch) (fun x h1 h2 => fit_branch h1 h2) with ⟨h1, h2⟩ | ⟨l1, x, l2, h1, h2, h3, h4⟩
  · rw [h1]
    symm
    rw [show (none : Option Nat).isSome = false from rfl, List.any_eq_false]
    intro x hx
    rw [← branch_eq, h2 x hx]; simp
  · rw [h4, h1]
    symm
    rw [List.any_eq_true.2]
    · rfl
    · exact ⟨x, by simp, h3⟩

theorem pip_go {a : Nat} {b : Bool} (h : Go c fin s v rest) (ht : t = cont c fin (v.pip a b) rest) :
    EM.wlp (decodePip c a b) (Out c fin t) (Bad fin t) s := by
  unfold decodePip
  rw [EM.wlp_bind, EM.wlp_get]
  unfold TraceView.pip at ht
  rw [find_branch h.rel]
  refine EM.wlp_ite ?_ ?_
  · intro h2
    rw [if_pos h2] at ht
    exact enqMore_wait (w := .tip) h.toSt rfl rfl (ord_tip h.ord h.rel.fit h2) ht
  · intro h2
    rw [if_neg h2] at ht
    exact h.says ht

theorem fit_set {l1 l2 : List (Event × Waits)} {x x' : Event × Waits} (h : ∀ y ∈ l1 ++ x :: l2, Fit y) (hx : Fit x') :
    ∀ y ∈ l1 ++ x' :: l2, Fit y := by
  intro y hy
  rcases List.mem_append.1 hy with hy | hy
  · exact h y (List.mem_append_left _ hy)
  · rcases List.mem_cons.1 hy with rfl | hy
    · exact hx
    · exact h y (List.mem_append_right _ (List.mem_cons_of_mem _ hy))

theorem set_split {α : Type} (l1 l2 : List α) (x x' : α) : (l1 ++ x :: l2).set l1.length x' = l1 ++ x' :: l2 := by
  rw [List.set_append_right _ _ (Nat.le_refl _)]; simp

/-- Writing to the slot of a waiting event. -/
theorem put_split {q : Evq Event} {l1 l2 : List (Event × Waits)} {x : Event × Waits} (hq : q.Holds (lst (l1 ++ x :: l2)))
    {i : Nat} (hi : i = (q.begin + l1.length) % 16) (e : Event) : (q.put i e).Holds (lst (l1 ++ (e, x.2) :: l2)) := by
  have := put_in_holds hq (j := l1.length) (by rw [lst_length]; simp) hi e
  have e1 : (lst (l1 ++ x :: l2))[l1.length]'(by rw [lst_length]; simp) = (x.1, mask x.2) := by simp [lst]
  rw [e1] at this
  have e2 : (lst (l1 ++ x :: l2)).set l1.length (e, mask x.2) = lst (l1 ++ (e, x.2) :: l2) := by
    have := set_split (lst l1) (lst l2) (x.1, mask x.2) (e, mask x.2)
    rw [lst_length] at this
    rw [lst_append, lst_append]
    exact this
  rw [e2] at this
  exact this

theorem get_split {q : Evq Event} {l1 l2 : List (Event × Waits)} {x : Event × Waits} (hq : q.Holds (lst (l1 ++ x :: l2))) :
    q.get ((q.begin + l1.length) % 16) = x.1 := by
  rw [get_in_holds hq (j := l1.length) (by rw [lst_length]; simp)]
  simp [lst]

theorem vmcs_go {a : Nat} (h : Go c fin s v rest) (ht : t = cont c fin (v.vmcs a) rest) :
    EM.wlp (decodeVmcs c a) (Out c fin t) (Bad fin t) s := by
  unfold decodeVmcs
  rw [EM.wlp_bind, EM.wlp_get]
  unfold TraceView.vmcs at ht
  rcases find_tip h.rel.q h.rel.fit (P := Event.isAsyncPaging) (fun x h1 h2 => fit_paging h1 h2) with ⟨h1, h2⟩ | ⟨l1, x, l2, h1, h2, h3, h4⟩
  · rw [h1]
    dsimp only
    rw [List.findIdx?_eq_none_iff.2 (by intro x hx; exact h2 x hx)] at ht
    dsimp only at ht
    rw [find_branch h.rel]
    refine EM.wlp_ite ?_ ?_
    · intro h2
      rw [if_pos h2] at ht
      exact enqMore_wait (w := .tip) h.toSt rfl rfl (ord_tip h.ord h.rel.fit h2) ht
    · intro h2
      rw [if_neg h2] at ht
      exact h.says ht
  · rw [h4]
    dsimp only
    have e1 : v.waiting.findIdx? (fun x => TraceView.isPaging x.1) = some l1.length := by
      rw [h1]; exact findIdx_split h2 h3
    have e2 : v.waiting[l1.length]? = some x := by rw [h1]; simp
    rw [e1] at ht
    dsimp only at ht
    rw [e2] at ht
    obtain ⟨e, w⟩ := x
    dsimp only at ht
    have hq := h.rel.q
    rw [h1] at hq
    have hf := h.rel.fit
    rw [h1] at hf
    have ho := h.ord
    rw [h1] at ho
    rw [h1, set_split] at ht
    have hw : w = .tip := fit_paging (hf (e, w) (by simp)) h3
    subst hw
    have hb : TraceView.isBranch e = false := by
      have : TraceView.isPaging e = true := h3
      unfold TraceView.isPaging at this
      unfold TraceView.isBranch
      cases hd : e.data <;> simp [hd] at this ⊢
    have f1 : Fit (({ e with data := .asyncVmcs a 0 } : Event), Waits.tip) := rfl
    have ho' : Ord (l1 ++ (({ e with data := .asyncVmcs a 0 } : Event), Waits.tip) :: l2) := ord_set ho rfl hb
    have hlen := hq.len
    rw [lst_length] at hlen
    have hbg := hq.begin
    unfold vmcsBeforePaging
    rw [EM.wlp_bind]
    refine wlp_enqSlots hq ?_ ?_
    · rw [lst_length]
      intro hn
      rw [wait_full (by simpa using hn)] at ht
      exact bad_of ht
    · intro q1 k1 k2 k3 _ k4
      rw [lst_length] at k1
      rw [wait_ok (by simpa using k1), cont_quiet] at ht
      rw [EM.wlp_bind]
      unfold updEv
      rw [EM.wlp_modify, EM.wlp_bind, EM.wlp_modify, EM.wlp_pure]
      have hlt : l1.length < (l1 ++ (e, Waits.tip) :: l2).length := by simp
      have g1 : q1.get ((s.q.begin + l1.length) % 16) = e := by
        unfold Evq.get
        rw [k4 _ (by rw [lst_length]; omega)]
        exact get_split hq
      have hput := put_last_holds k2 (i := (s.q.begin + (lst (l1 ++ (e, Waits.tip) :: l2)).length) % 16) (by rw [k3]) e
      have hput' : (q1.put ((s.q.begin + (lst (l1 ++ (e, Waits.tip) :: l2)).length) % 16) e).Holds
          (lst (l1 ++ (e, Waits.tip) :: (l2 ++ [(e, Waits.tip)]))) := by
        have e3 : lst (l1 ++ (e, Waits.tip) :: (l2 ++ [(e, Waits.tip)])) =
            lst (l1 ++ (e, Waits.tip) :: l2) ++ [(e, evbTip)] := by simp [lst, mask]
        rw [e3]; exact hput
      have g2 : (q1.put ((s.q.begin + (lst (l1 ++ (e, Waits.tip) :: l2)).length) % 16) e).get ((s.q.begin + l1.length) % 16) = e := by
        rw [put_get_ne k2.size (by omega) (by rw [lst_length]; omega), g1]
      have hfin := put_split hput' (i := (s.q.begin + l1.length) % 16) (by show _ = (q1.begin + _) % 16; rw [k3])
        { e with data := .asyncVmcs a 0 }
      refine St.more (v := { v with waiting := l1 ++ ({ e with data := .asyncVmcs a 0 }, Waits.tip) :: l2 ++ [(e, Waits.tip)] })
        ⟨⟨h.rel.ip, h.rel.tm, h.rel.on, h.rel.mode, ?_, fit_snoc (fit_set hf f1) (hf (e, .tip) (by simp)), h.rel.hdr⟩, ?_, h.left, h.ev⟩ ht
      · dsimp only [Evd.setEv, Evd.ev]
        rw [g1, g2]
        simpa using hfin
      · rcases ho' with hn | ⟨m1, y, m2, he, hr⟩
        · exact absurd rfl (hn (({ e with data := .asyncVmcs a 0 } : Event), Waits.tip) (by simp))
        · exact .inr ⟨m1, y, m2 ++ [(e, Waits.tip)], by rw [he]; simp, hr⟩

end Ipt.Events
