import Verif.EventsPsb

/-! Helper lemmas: the event decoder follows `Spec.trace`.  `pt_evt_next`. -/

set_option linter.unusedSimpArgs false

namespace Ipt.Events

open Ipt Ipt.Spec

variable {c : EvtCfg} {fin : Err} {s : Evd} {v : TraceView} {rest : List Packet} {t : List Event × Bool} {l : List Event}

theorem settled_eq (hip : s.ip = v.ip) (htm : s.tm = v.tm) (e : Event) (Q : Bool → Evd → Prop) (E : Err → Evd → Prop) {i : Nat}
    {l : List (Event × Nat)} (hl : s.q.Holds l) (hf : Free (.slot i) s.q) (he : s.q.get i = e) (hk : e.data.inHeader = true)
    (hq : ∀ q', q'.Holds l → Evd.ev { s with q := q' } (.slot i) = v.settled e → Q false { s with q := q' }) :
    EM.wlp (psbendEvent i e) Q E s := by
  unfold psbendEvent
  unfold TraceView.settled at hq
  cases hd : e.data <;> rw [hd] at hk hq <;>
    first
    | exact wlp_ipTime (v := v) hl hf he hip htm hq
    | exact wlp_time (v := v) hl hf he htm (fun q' k1 _ k2 => hq q' k1 k2)
    | (exfalso; revert hk; simp [EvData.inHeader]; done)

/-- PSBEND, or OVF at the end of PSB+. -/
theorem wlp_psbend {E : Err → Evd → Prop} {Q : Bool → Evd → Prop} (h : Hd c fin s v l rest) (hev : s.event = none)
    (ht : t = (l.map v.settled ++ (trace c fin v (s.packet :: rest)).1, (trace c fin v (s.packet :: rest)).2))
    (h0 : l = [] → Q true s) (h1 : ∀ s', Out c fin t false s' → Q false s') : EM.wlp decodePsbend Q E s := by
  unfold decodePsbend
  rw [EM.wlp_bind]
  refine wlp_deq h.q ?_ ?_
  · intro hn
    dsimp only
    rw [EM.wlp_pure]
    refine h0 ?_
    cases l with
    | nil => rfl
    | cons e l => simp [firstMatch, List.findIdx?_cons, matches_, evbPsbend] at hn
  · intro j x q' k1 k2 k3 k4 k5
    dsimp only
    cases l with
    | nil => simp [firstMatch] at k1
    | cons e l =>
      have hj : j = 0 := by
        simp [firstMatch, List.findIdx?_cons, matches_, evbPsbend] at k1; exact k1.symm
      subst hj
      simp only [List.map_cons, List.getElem?_cons_zero, Option.some.injEq] at k2
      simp only [List.map_cons, List.eraseIdx_cons_zero] at k3
      subst k2
      refine wlp_publish k4 ?_
      refine settled_eq (s := { s with q := q', event := some (.slot s.q.begin) }) (v := v) h.ip h.tm e _ _ k3 k5 k4 (h.kind e (by simp)) ?_
      intro q2 j1 j2
      refine h1 _ ?_
      unfold Out
      rw [if_neg (by simp)]
      refine ⟨.slot s.q.begin, l.map v.settled ++ (trace c fin v (s.packet :: rest)).1, rfl, ?_, .inr (.inr ⟨v, l, rest, ?_, ?_⟩)⟩
      · rw [ht, j2]; rfl
      · exact ⟨h.ip, h.tm, h.on, h.mode, j1, fun x hx => h.kind x (by simp [hx]), h.wait, h.hdr, h.left, h.pk, h.bound⟩
      · rw [ht]

theorem hd_go (hcb : CbProgress c.pkt) (h : Hd c fin s v l rest) (hev : s.event = none)
    (ht : t = (l.map v.settled ++ (trace c fin v (s.packet :: rest)).1, (trace c fin v (s.packet :: rest)).2)) :
    EM.wlp (decodeOther c) (Out c fin t) (Bad fin t) s := by
  have hr : l = [] → Rel c s v := by
    intro hl
    have := h.q
    rw [hl] at this
    exact ⟨h.ip, h.tm, h.on, h.mode, by rw [h.wait]; exact this, by rw [h.wait]; simp, h.hdr⟩
  rcases h.pk with hp | hp
  · refine EM.wlp_of_eq (m' := decodePsbend) (by unfold decodeOther; rw [hp]) ?_
    refine wlp_psbend h hev ht ?_ (fun _ h => h)
    intro hl
    refine St.more ⟨hr hl, by rw [h.wait]; exact ord_nil, h.left, hev⟩ ?_
    rw [ht, hl, hp, trace_cons h.hdr.2.1]
    unfold TraceView.fresh
    rw [h.hdr.1]
    show (cont c fin (.quiet (some v)) rest) = _
    rw [cont_quiet]
  · refine EM.wlp_of_eq (m' := decodeOvf c) (by unfold decodeOther; rw [hp]) ?_
    unfold decodeOvf orElse
    rw [EM.wlp_bind]
    refine wlp_psbend h hev ht ?_ ?_
    · intro hl
      rw [if_pos rfl]
      refine ovf_go hcb h.tm h.left ?_
      rw [ht, hl, hp, trace_cons h.hdr.2.1]
      unfold TraceView.fresh
      rw [h.hdr.1]
      rfl
    · intro s' hs
      rw [if_neg (by simp), EM.wlp_pure]
      exact hs

theorem slow_cases {p : Packet} (h : slow p = true) :
    (∃ a b, p = .fup a b) ∨ (∃ a b, p = .tip a b) ∨ (∃ a b, p = .tipPge a b) ∨ ∃ a b, p = .tipPgd a b := by
  cases p <;> first | (exfalso; revert h; simp [slow]; done) | skip
  · exact .inl ⟨_, _, rfl⟩
  · exact .inr (.inl ⟨_, _, rfl⟩)
  · exact .inr (.inr (.inl ⟨_, _, rfl⟩))
  · exact .inr (.inr (.inr ⟨_, _, rfl⟩))

theorem plain_go (hcb : CbProgress c.pkt) {p : Packet} (h : Go c fin s v rest) (hp : s.packet = p) (hs : slow p = false)
    (hb : p ≠ .psb) (ht : t = cont c fin (v.plain c fin p rest) rest) :
    EM.wlp (decodeOther c) (Out c fin t) (Bad fin t) s := by
  have hskip : v.plain c fin p rest = .quiet (some v) → EM.wlp (fun s => (s, .ok true)) (Out c fin t) (Bad fin t) s := by
    intro hn
    rw [hn, cont_quiet] at ht
    exact h.toSt.more ht
  cases p <;> first | (exfalso; revert hs; simp [slow]; done) | exact absurd rfl hb | skip
  case pad => exact EM.wlp_of_eq (by unfold decodeOther; rw [hp]) (hskip rfl)
  case invalid =>
    refine EM.wlp_of_eq (by unfold decodeOther; rw [hp]) (?_ : EM.wlp decodeInvalid _ _ _)
    have hst := h.rel.hdr.2.2
    unfold TraceView.plain at ht
    dsimp only at ht
    rcases Bool.eq_false_or_eq_true v.lost with hx | hx
    · rw [hx, if_pos rfl] at ht hst
      refine EM.wlp_of_eq (m' := EM.fail .nosync) (by unfold decodeInvalid; rw [hst]; rfl) ?_
      exact (EM.wlp_fail _ _ _ _).2 (bad_of ht)
    · rw [hx, if_neg (by simp), cont_quiet] at ht
      rw [hx, if_neg (by simp)] at hst
      refine EM.wlp_of_eq (m' := pure true) (by unfold decodeInvalid; rw [hst]; rfl) ?_
      rw [EM.wlp_pure]
      exact h.toSt.more ht
  case unknown => exact EM.wlp_of_eq (by unfold decodeOther; rw [hp]) (hskip rfl)
  case psbend =>
    refine EM.wlp_of_eq (by unfold decodeOther; rw [hp]) (?_ : EM.wlp decodePsbend _ _ _)
    unfold decodePsbend
    rw [EM.wlp_bind]
    refine wlp_deqs h.rel.q psbend_pred ?_ ?_
    · intro _; exact hskip rfl
    · intro _ _ _ _ _ _ h3; cases h3
  case ovf =>
    refine EM.wlp_of_eq (by unfold decodeOther; rw [hp]) (?_ : EM.wlp (decodeOvf c) _ _ _)
    unfold decodeOvf orElse decodePsbend
    rw [EM.wlp_bind, EM.wlp_bind]
    refine wlp_deqs h.rel.q psbend_pred ?_ ?_
    · intro _
      dsimp only
      rw [EM.wlp_pure, if_pos rfl]
      exact ovf_go hcb h.rel.tm h.left ht
    · intro _ _ _ _ _ _ h3; cases h3
  case modeOther a => exact EM.wlp_of_eq (by unfold decodeOther; rw [hp]) (show EM.wlp (fun s => (s, .err .badOpc)) _ _ _ from bad_of (s := s) ht)
  case tnt8 a b => exact EM.wlp_of_eq (by unfold decodeOther; rw [hp]) (tnt_go h ht)
  case tnt64 a b => exact EM.wlp_of_eq (by unfold decodeOther; rw [hp]) (tnt_go h ht)
  case cyc a => exact EM.wlp_of_eq (by unfold decodeOther; rw [hp]) (timing_go h ht)
  case mtc a => exact EM.wlp_of_eq (by unfold decodeOther; rw [hp]) (timing_go h ht)
  case tsc a => exact EM.wlp_of_eq (by unfold decodeOther; rw [hp]) (timing_go h ht)
  case tma a b => exact EM.wlp_of_eq (by unfold decodeOther; rw [hp]) (timing_go h ht)
  case cbr a => exact EM.wlp_of_eq (by unfold decodeOther; rw [hp]) (cbr_go h ht)
  case modeExec a b f => exact EM.wlp_of_eq (by unfold decodeOther; rw [hp]) (modeExec_go h ht)
  case modeTsx a b => exact EM.wlp_of_eq (by unfold decodeOther; rw [hp]) (modeTsx_go h ht)
  case pip a b => exact EM.wlp_of_eq (by unfold decodeOther; rw [hp]) (pip_go h ht)
  case vmcs a => exact EM.wlp_of_eq (by unfold decodeOther; rw [hp]) (vmcs_go h ht)
  case ptw a b d => exact EM.wlp_of_eq (by unfold decodeOther; rw [hp]) (ptw_go h ht)
  case exstop a => exact EM.wlp_of_eq (by unfold decodeOther; rw [hp]) (exstop_go h hp ht)
  case mwait a b => 
    refine EM.wlp_of_eq (m' := decodeMwait a b) (by unfold decodeOther; rw [hp]) ?_
    exact h.wait (w := .exstop) rfl rfl (by simp) ht
  case pwre a b d => exact EM.wlp_of_eq (by unfold decodeOther; rw [hp]) (h.says ht)
  case pwrx a b d e f => exact EM.wlp_of_eq (by unfold decodeOther; rw [hp]) (h.says ht)
  case stop => exact EM.wlp_of_eq (by unfold decodeOther; rw [hp]) (h.says ht)
  case mnt a => exact EM.wlp_of_eq (by unfold decodeOther; rw [hp]) (h.says ht)
  case cfe a b d => exact EM.wlp_of_eq (by unfold decodeOther; rw [hp]) (cfe_go h ht)
  case evd a b => exact EM.wlp_of_eq (by unfold decodeOther; rw [hp]) (evd_go h ht)
  case trig a b d e => exact EM.wlp_of_eq (by unfold decodeOther; rw [hp]) (trig_go h ht)

theorem other_go (hcb : CbProgress c.pkt) (h : Cur c fin s v rest) (hev : s.event = none) (hb : s.packet ≠ .psb)
    (ht : t = cont c fin (mid c fin v s.bound s.packet rest) rest) : EM.wlp (decodeOther c) (Out c fin t) (Bad fin t) s := by
  have hof : s.bound = false → Ord v.waiting := by
    intro h1
    rcases h.ord with h2 | h2
    · exact h2
    · rw [h1] at h2; exact absurd h2.1 (by simp)
  cases hs : slow s.packet with
  | true =>
    rcases slow_cases hs with ⟨a, b, hp⟩ | ⟨a, b, hp⟩ | ⟨a, b, hp⟩ | ⟨a, b, hp⟩ <;>
      have hy : Busy c fin s v rest _ := ⟨h.rel, h.left, hev, hp⟩ <;> rw [hp] at ht
    · refine EM.wlp_of_eq (by unfold decodeOther; rw [hp]) (fup_go evqFuel s v hy ?_ ht)
      rcases h.ord with h2 | h2
      · exact h2
      · rw [hp] at h2; exact absurd h2.2 (by simp [tips])
    · exact EM.wlp_of_eq (by unfold decodeOther; rw [hp]) (tip_go hy hof ht)
    · exact EM.wlp_of_eq (by unfold decodeOther; rw [hp]) (pge_go hy ht)
    · refine EM.wlp_of_eq (by unfold decodeOther; rw [hp]) (pgd_go hy ?_ ?_ ht)
      · rcases h.ord with h2 | h2
        · exact .inl h2
        · exact .inr h2.1
      · intro h1; exact (h.bound h1).2 (by rw [hp]; rfl)
  | false =>
    have hbd : s.bound = false := by
      cases hbb : s.bound with
      | false => rfl
      | true => rw [(h.bound hbb).1] at hs; cases hs
    rw [hbd, mid_false] at ht
    exact plain_go hcb ⟨⟨h.rel, hof hbd, h.left, hev⟩, hbd⟩ rfl hs hb ht

theorem packet_go (hcb : CbProgress c.pkt) (h : Todo c fin s t) (hev : s.event = none) :
    EM.wlp (decodePacket c) (Out c fin t) (Bad fin t) s := by
  rcases h with ⟨v, rest, h, ht⟩ | ⟨h1, h2, h3, ht⟩ | ⟨v, l, rest, h, ht⟩
  · by_cases hp : s.packet = .psb
    · refine EM.wlp_of_eq (m' := do decodePsb c; decodeOther c) (by unfold decodePacket; rw [hp]) ?_
      rw [EM.wlp_bind]
      have hbd : s.bound = false := by
        cases hbb : s.bound with
        | false => rfl
        | true => have := (h.bound hbb).1; rw [hp] at this; cases this
      have ho : Ord v.waiting := by
        rcases h.ord with h2 | h2
        · exact h2
        · rw [hbd] at h2; exact absurd h2.1 (by simp)
      rw [hbd, mid_false, hp] at ht
      refine EM.wlp_mono (decodePsb_go ⟨⟨h.rel, ho, h.left, hev⟩, hbd⟩ ht) ?_ (fun _ _ h => h)
      rintro _ s' ⟨v', l, rest', k1, k2, k3⟩
      exact hd_go hcb k1 k2 k3
    · refine EM.wlp_of_eq (m' := decodeOther c) ?_ (other_go hcb h hev hp ht)
      unfold decodePacket
      split
      · exact absurd (by assumption) hp
      · rfl
  · refine EM.wlp_of_eq (m' := decodeInvalid) (by unfold decodePacket; rw [h1]; dsimp only; unfold decodeOther; rw [h1]) ?_
    unfold EM.wlp decodeInvalid
    rw [h2]
    exact ⟨by rw [ht], fun _ => rfl⟩
  · refine EM.wlp_of_eq (m' := decodeOther c) ?_ (hd_go hcb h hev ht)
    unfold decodePacket
    rcases h.pk with hp | hp <;> rw [hp]

theorem fetch_go (hcb : CbProgress c.pkt) (n : Nat) : ∀ s : Evd, Todo c fin s t → s.event = none →
    EM.wlp (fetchEventLoop c n) (fun _ => Out c fin t false) (Bad fin t) s := by
  induction n with
  | zero => intro _ _ _; exact (EM.wlp_undef _ _ _).2 trivial
  | succ n ih =>
    intro s h hev
    unfold fetchEventLoop
    rw [EM.wlp_bind]
    refine EM.wlp_mono (packet_go hcb h hev) ?_ (fun _ _ h => h)
    intro b s' ho
    cases b with
    | false => rw [if_neg (by simp), EM.wlp_pure]; exact ho
    | true =>
      unfold Out at ho
      rw [if_pos rfl] at ho ⊢
      obtain ⟨k1, v, rest, k2, k3, k4, k5⟩ := ho
      rw [EM.wlp_bind, EM.wlp_get, if_neg (by rw [k1]; simp), EM.wlp_bind, EM.wlp_modify, EM.wlp_bind]
      refine wlp_fetch_todo (s := { s' with bound := false }) (v := v) (rest := rest)
        ⟨k2.ip, k2.tm, k2.on, k2.mode, k2.q, k2.fit, k2.hdr⟩ k3 k4 rfl ?_
      intro s2 j1 _ j3
      have hn : s2.event = none := by rw [j1]; exact k1
      refine ih s2 ?_ hn
      rw [k5]
      have : ({ s2 with event := none } : Evd) = s2 := by cases s2; dsimp only at hn; rw [hn]
      rw [this] at j3
      exact j3

theorem next_go (hcb : CbProgress c.pkt) (h : Todo c fin s t) (hev : s.event = none) :
    EM.wlp (evtNext c) (fun e s' => ∃ es, t.1 = e :: es ∧ Todo c fin s' (es, t.2) ∧ s'.event = none) (Bad fin t) s := by
  unfold evtNext
  rw [EM.wlp_bind]
  refine EM.wlp_mono (fetch_go hcb c.fuel s h hev) ?_ (fun _ _ h => h)
  intro _ s' ho
  unfold Out at ho
  rw [if_neg (by simp)] at ho
  obtain ⟨p, es, k1, k2, k3⟩ := ho
  rw [EM.wlp_bind, EM.wlp_get, EM.wlp_bind, EM.wlp_modify, k1]
  dsimp only
  rw [EM.wlp_pure]
  exact ⟨es, k2, k3, rfl⟩

end Ipt.Events
