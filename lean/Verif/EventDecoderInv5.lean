import Verif.EventDecoderInv4

/-! Helper lemmas: PSB, OVF, and the invariant of the event decoder for whole calls. -/

set_option linter.unusedSimpArgs false

namespace Ipt

open Spec

variable {c : EvtCfg} {t : Bool} {s : Evd} {l : List (Event × Nat)}

/-- An error other than an internal one. -/
def En (e : Err) (_ : Evd) : Prop := e ≠ .internal

theorem firstMatch_cons_bind {x : Event × Nat} (h : x.2 = 1) : firstMatch evbPsbend (x :: l) = some 0 := by
  unfold firstMatch
  rw [List.findIdx?_cons]
  have : matches_ evbPsbend x = true := by
    rw [show x = (x.1, 1) from by rw [← h], matches_mk]; decide
  rw [this]; rfl

theorem typ_no_psbend (h : ∀ x ∈ l, Typ x) : firstMatch evbPsbend l = none := by
  unfold firstMatch
  rw [List.findIdx?_eq_none_iff]
  intro x hx
  exact (h x hx).not_psbend

/-! ## PSBEND -/

theorem Hdr.startNil (h : Hdr c t s []) (he : s.event = none) : Start c t s [] := by
  refine ⟨⟨h.holds, by simp, fun _ => ordL_nil, fun hen => ?_, h.st, h.tm, h.pk, fun hb => ?_⟩, ordL_nil, he, h.bd⟩
  · rcases h.en hen with h1 | ⟨x, h1, _⟩
    · exact h1
    · simp at h1
  · rw [h.bd] at hb; cases hb

theorem decodePsbend_inv (h : Norm c t s l ∨ Hdr c t s l) (he : s.event = none)
    (hp : s.packet = .psbend ∨ s.packet = .ovf) :
    EM.wlp decodePsbend (fun b s' => if b = true then s' = s ∧ Start c t s l else Post c t false s') Ex s := by
  unfold decodePsbend
  rw [EM.wlp_bind]
  rcases h with h | h
  · have hst : Start c t s l := h.start he (by rcases hp with hp | hp <;> rw [hp] <;> rfl)
      (by rcases hp with hp | hp <;> rw [hp] <;> rfl)
    have hn := typ_no_psbend h.typ
    refine wlp_deq h.holds (fun _ => ?_) fun j x q' h1 => ?_
    · dsimp only; rw [EM.wlp_pure]; exact ⟨rfl, hst⟩
    · rw [hn] at h1; cases h1
  · cases l with
    | nil =>
      refine wlp_deq h.holds (fun _ => ?_) fun j x q' h1 => ?_
      · dsimp only; rw [EM.wlp_pure]; exact ⟨rfl, h.startNil he⟩
      · cases h1
    | cons x l =>
      refine wlp_deq h.holds (fun h1 => ?_) fun j y q' h1 h2 h3 h4 h5 => ?_
      · rw [firstMatch_cons_bind (h.bind x (by simp))] at h1; cases h1
      · rw [firstMatch_cons_bind (h.bind x (by simp)), Option.some.injEq] at h1
        subst h1
        simp only [List.getElem?_cons_zero, Option.some.injEq] at h2
        subst h2
        simp only [List.eraseIdx_cons_zero] at h3
        dsimp only
        refine wlp_publish (s := { s with q := q' }) ?_
        dsimp only
        rw [h4]
        have hev : Evd.ev { s with q := q', event := some (.slot s.q.begin) } (.slot s.q.begin) = x.1 := h4
        have mk : ∀ t', (s.enabled = true → t' = true) → Hdr c t' { s with q := q', event := some (.slot s.q.begin) } l := by
          intro t' ht'
          refine ⟨h3, h.pack, h.pk, fun y hy => h.bind y (by simp [hy]), fun hen => .inl (ht' hen), ?_, ?_, h.st, h.tm, h.bd⟩
          · intro y hy
            exact .inr (.inr (h.tail y (List.mem_of_mem_head? hy)))
          · intro y hy
            exact h.tail y (List.mem_of_mem_tail hy)
        have plain : x.1.data.isStatus = true → x.1.data.plain = true ∧ (s.enabled = true → t = true) := by
          intro hs
          refine ⟨(by cases hd : x.1.data <;> rw [hd] at hs <;> first | rfl | cases hs), fun hen => ?_⟩
          rcases h.en hen with h6 | ⟨y, h6, h7⟩
          · exact h6
          · simp only [List.head?_cons, Option.some.injEq] at h6
            subst h6
            cases hd : x.1.data <;> rw [hd] at hs h7 <;> first | exact (Bool.false_ne_true hs).elim | exact (Bool.false_ne_true h7).elim
        have conv : ∀ (m : EM Bool) s', EM.wlp m (fun b s' => Post c t b s' ∧ b = false) Ex s' →
            EM.wlp m (fun b s'' => if b = true then s'' = s ∧ Start c t s (x :: l) else Post c t false s'') Ex s' := by
          intro m s' hm
          refine EM.wlp_mono hm ?_ (fun _ _ h => h)
          rintro b s'' ⟨hp, rfl⟩
          rw [if_neg (by simp)]; exact hp
        have ipT : x.1.data.isStatus = true → EM.wlp (ipTimeEv (.slot s.q.begin))
            (fun b s' => Post c t b s' ∧ b = false) Ex { s with q := q', event := some (.slot s.q.begin) } := by
          intro hs
          refine wlp_ipTimeEv (.inr (mk t (plain hs).2)) h5 fun q'' b1 _ b3 => ⟨?_, rfl⟩
          exact post_plain (s := { s with q := q'', event := some (.slot s.q.begin) }) rfl
            (by rw [b3, hev]; exact (withIp_plain (x := s.ip)).trans (plain hs).1) b1
        have tT : x.1.data.isStatus = true → EM.wlp (timeEv (.slot s.q.begin))
            (fun b s' => Post c t b s' ∧ b = false) Ex { s with q := q', event := some (.slot s.q.begin) } := by
          intro hs
          refine wlp_timeEv (.inr (mk t (plain hs).2)) h5 fun q'' b1 _ b3 => ⟨?_, rfl⟩
          exact post_plain (s := { s with q := q'', event := some (.slot s.q.begin) }) rfl
            (by rw [b3, hev]; exact (plain hs).1) b1
        unfold psbendEvent
        cases hd : x.1.data with
        | enabled a =>
          refine conv _ _ ?_
          refine wlp_ipTimeEv (.inr (mk true fun _ => rfl)) h5 fun q'' b1 _ b3 => ⟨?_, rfl⟩
          have e1 : (Evd.ev { s with q := q'', event := some (.slot s.q.begin) } (.slot s.q.begin)).data.isEnabled = true := by
            rw [b3, hev]
            unfold Event.timed Event.withIp
            cases s.ip.query <;> dsimp only <;> rw [hd] <;> rfl
          unfold Post
          rw [if_neg (by simp)]
          refine ⟨.slot s.q.begin, rfl, ?_, l, ?_⟩
          · intro hb
            unfold isBranch at hb
            revert e1 hb
            generalize (Evd.ev { s with q := q'', event := some (.slot s.q.begin) } (.slot s.q.begin)).data = d
            cases d <;> intro e1 hb <;> first | exact (Bool.false_ne_true hb).elim | exact (Bool.false_ne_true e1).elim
          · have : ∀ b, tracing t (Evd.ev { s with q := q'', event := some (.slot s.q.begin) } (.slot s.q.begin)) b = true := by
              intro b
              unfold tracing
              revert e1
              generalize Evd.ev { s with q := q'', event := some (.slot s.q.begin) } (.slot s.q.begin) = e
              cases e.data <;> intro e1 <;> first | rfl | cases e1
            unfold upd
            dsimp only at this ⊢
            rw [this]
            exact b1
        | disabled a =>
          refine conv _ _ ?_
          have hen : s.enabled = false := by
            rcases h.head x rfl with h6 | h6 | h6
            · rw [hd] at h6; cases h6
            · exact h6.2
            · rw [hd] at h6; cases h6
          refine wlp_timeEv (.inr (mk false fun h6 => by rw [hen] at h6; cases h6)) h5 fun q'' b1 _ b3 => ⟨?_, rfl⟩
          have e1 : (Evd.ev { s with q := q'', event := some (.slot s.q.begin) } (.slot s.q.begin)).data = .disabled a := by
            rw [b3, hev]; exact hd
          unfold Post
          rw [if_neg (by simp)]
          refine ⟨.slot s.q.begin, rfl, ?_, l, ?_⟩
          · intro hb
            unfold isBranch at hb
            rw [e1] at hb; cases hb
          · have : ∀ b, tracing t (Evd.ev { s with q := q'', event := some (.slot s.q.begin) } (.slot s.q.begin)) b = false := by
              intro b
              unfold tracing
              rw [e1]
            unfold upd
            dsimp only at this ⊢
            rw [this]
            exact b1
        | execMode a b => exact conv _ _ (ipT (by rw [hd]; rfl))
        | iflags a b => exact conv _ _ (ipT (by rw [hd]; rfl))
        | tsx a b d => exact conv _ _ (ipT (by rw [hd]; rfl))
        | asyncPaging a b d => exact conv _ _ (ipT (by rw [hd]; rfl))
        | asyncVmcs a b => exact conv _ _ (ipT (by rw [hd]; rfl))
        | cbr a => exact conv _ _ (tT (by rw [hd]; rfl))
        | mnt a => exact conv _ _ (tT (by rw [hd]; rfl))
        | _ => exact (EM.wlp_fail _ _ _ _).2 (Ex.of (by simp))

/-! ## PSB -/

theorem headerFup_err : ∀ (n : Nat) (d : PktDec) (e : Err), headerFupLoop c n d = .err e → e ≠ .internal := by
  intro n
  induction n with
  | zero => intro d e h; cases h
  | succ n ih =>
    intro d e h
    unfold headerFupLoop at h
    revert h
    rcases hx : pktDecNext c.pkt d with ⟨d', ⟨p, size⟩ | e' | _⟩
    · dsimp only
      cases p <;> intro h <;> first
        | exact ih _ _ h
        | (injection h with h; rw [← h]; simp)
        | cases h
    · intro h
      dsimp only at h
      injection h with h
      rw [← h]; exact next_no_internal hx
    · intro h; cases h

theorem bdm70_err : ∀ (n : Nat) (d : PktDec) (e : Err), bdm70Loop c n d = .err e → e ≠ .internal := by
  intro n
  induction n with
  | zero => intro d e h; cases h
  | succ n ih =>
    intro d e h
    unfold bdm70Loop at h
    revert h
    rcases hx : pktDecNext c.pkt d with ⟨d', ⟨p, size⟩ | e' | _⟩
    · dsimp only
      cases p <;> intro h <;> first
        | exact ih _ _ h
        | cases h
    · have := next_no_internal hx
      cases e' <;> intro h <;> dsimp only at h <;> first
        | (cases h; done)
        | (injection h with h; rw [← h]; exact this)
    · intro h; cases h

theorem findOvf_err : ∀ (n : Nat) (d : PktDec) (o : Nat) (e : Err), findOvfFup c n d o = .err e → e ≠ .internal := by
  intro n
  induction n with
  | zero => intro d o e h; cases h
  | succ n ih =>
    intro d o e h
    unfold findOvfFup at h
    revert h
    rcases hx : pktDecNext c.pkt d with ⟨d', ⟨p, size⟩ | e' | _⟩
    · dsimp only
      intro h
      split at h
      · injection h with h; rw [← h]; simp
      · split at h
        · cases h
        · revert h
          cases p <;> intro h <;> first
            | exact ih _ _ _ h
            | (injection h with h; rw [← h]; simp)
            | cases h
    · intro h
      dsimp only at h
      injection h with h
      rw [← h]; exact next_no_internal hx
    · intro h; cases h

/-- The state inside PSB+; `i` is the slot of the first event. -/
structure PsbSt (s : Evd) (i : Nat) : Prop where
  q : ∃ h tail, s.q.Holds ((h, 1) :: tail) ∧ ∀ x ∈ tail, x.2 = 1 ∧ x.1.data.isStatus = true
  i : i = s.q.begin
  st : s.status ≠ some .internal
  tm : s.tm.Ok
  bd : s.bound = false
  ev : s.event = none

theorem enq_psb {i : Nat} {e : Event} {Q : Unit → Evd → Prop} (h : PsbSt s i) (hd : e.data.isStatus = true)
    (hq : ∀ q', PsbSt { s with q := q' } i → Q () { s with q := q' }) : EM.wlp (enq evbPsbend e) Q En s := by
  obtain ⟨x, tail, h1, h2⟩ := h.q
  refine wlp_enq' (fun _ _ h => h) h1 fun q' a1 a2 => hq q' ⟨⟨x, tail ++ [(e, 1)], by simpa [evbPsbend] using a1, ?_⟩, ?_, h.st, h.tm, h.bd, h.ev⟩
  · intro y hy
    rcases List.mem_append.1 hy with hy | hy
    · exact h2 y hy
    · rw [List.mem_singleton.1 hy]; exact ⟨rfl, hd⟩
  · rw [h.i]; exact a2.symm

theorem tm_psb {i : Nat} {p : TimePkt} {Q : Unit → Evd → Prop} (hc : c.time.Sane) (h : PsbSt s i) (hp : p.InRange)
    (hq : ∀ x, PsbSt { s with tm := x } i → Q () { s with tm := x }) : EM.wlp (applyTm c p) Q En s :=
  wlp_applyTm hc h.tm hp fun x hx => hq x ⟨h.q, h.i, h.st, hx, h.bd, h.ev⟩

/-- What a packet inside PSB+ leads to. -/
def PsbPost (c : EvtCfg) (t : Bool) (i : Nat) (b : Bool) (s : Evd) : Prop :=
  if b = true then s.event = none ∧ ∃ l, Hdr c t s l else PsbSt s i

theorem headerFup_inv {i ipc ip : Nat} (h : PsbSt s i) :
    EM.wlp (do headerFup c ipc ip; return false) (PsbPost c t i) En s := by
  rw [EM.wlp_bind]
  unfold headerFup
  rw [EM.wlp_bind]
  have en : ∀ b, PsbSt { s with enabled := b } i := fun b => ⟨h.q, h.i, h.st, h.tm, h.bd, h.ev⟩
  have key : ∀ hit : Bool, EM.wlp (if ipc = 0 ∨ hit = true then EM.modify fun s => { s with enabled := false }
      else do
        EM.modify fun s => { s with enabled := true }
        updIp ipc ip) (fun _ s' => EM.wlp (pure false) (PsbPost c t i) En s') En s := by
    intro hit
    split
    · rw [EM.wlp_modify, EM.wlp_pure]; exact en false
    · rw [EM.wlp_bind, EM.wlp_modify]
      refine wlp_updIp' (fun _ _ h => h) fun x _ => ?_
      rw [EM.wlp_pure]
      exact (⟨h.q, h.i, h.st, h.tm, h.bd, h.ev⟩ : PsbSt { s with enabled := true, ip := x } i)
  unfold EM.wlp checkBdm70
  by_cases hb : c.pkt.errata.bdm70 = true
  · rw [if_pos hb]
    cases hx : bdm70Loop c c.fuel s.pd with
    | ok a => exact key a
    | err e => exact bdm70_err _ _ _ hx
    | ub => trivial
  · rw [if_neg hb]; exact key false

theorem checkModeExec_inv {i : Nat} {a b f : Bool} {Q : Unit → Evd → Prop} (h : PsbSt s i)
    (hq : ∀ m x y z, PsbSt { s with modeValid := m, iflag := x, csd := y, csl := z } i →
      Q () { s with modeValid := m, iflag := x, csd := y, csl := z }) : EM.wlp (checkModeExec c a b f) Q En s := by
  have h' : ∀ m x y z, PsbSt { s with modeValid := m, iflag := x, csd := y, csl := z } i :=
    fun m x y z => ⟨h.q, h.i, h.st, h.tm, h.bd, h.ev⟩
  unfold EM.wlp checkModeExec
  by_cases hm : s.modeValid = true
  · rw [if_pos hm]
    by_cases h1 : c.enableIflags = true ∧ s.iflag ≠ f
    · rw [if_pos h1]; simp [En]
    · rw [if_neg h1]
      by_cases h2 : s.csd ≠ b
      · rw [if_pos h2]; simp [En]
      · rw [if_neg h2]
        by_cases h3 : s.csl ≠ a
        · rw [if_pos h3]; simp [En]
        · rw [if_neg h3]; exact hq s.modeValid s.iflag s.csd s.csl (h' _ _ _ _)
  · rw [if_neg hm]; exact hq true f b a (h' _ _ _ _)

theorem psbEnd_inv {i : Nat} {e : Event} (h : PsbSt s i) (hp : s.packet = .psbend ∨ s.packet = .ovf) (hk : PktOk c s.packet)
    (hd : (s.enabled = true ∧ e.data.isEnabled = true) ∨ (s.enabled = false ∧ e.data.isDisabled = true)) :
    (s.setEv (.slot i) e).event = none ∧ ∃ l, Hdr c t (s.setEv (.slot i) e) l := by
  obtain ⟨x, tail, h1, h2⟩ := h.q
  refine ⟨h.ev, (e, 1) :: tail, ?_⟩
  have b1 := put_in_holds h1 (j := 0) (by simp) (i := i) (by rw [h.i]; have := h1.begin; omega) e
  refine ⟨b1, hp, hk, ?_, ?_, ?_, fun y hy => (h2 y hy).2, h.st, h.tm, h.bd⟩
  · intro y hy
    rcases List.mem_cons.1 hy with rfl | hy
    · rfl
    · exact (h2 y hy).1
  · intro hen
    rcases hd with hd | hd
    · exact .inr ⟨(e, 1), rfl, hd.2⟩
    · have hen : s.enabled = true := hen
      rw [hd.1] at hen; cases hen
  · intro y hy
    simp only [List.head?_cons, Option.some.injEq] at hy
    subst hy
    rcases hd with hd | hd
    · exact .inl hd.2
    · exact .inr (.inl ⟨hd.2, hd.1⟩)

theorem psbDropHead_inv {i : Nat} (h : PsbSt s i) (hp : s.packet = .psbend ∨ s.packet = .ovf) (hk : PktOk c s.packet)
    (hen : s.enabled = false) : EM.wlp (do psbDropHead i; return true) (PsbPost c t i) En s := by
  rw [EM.wlp_bind]
  unfold psbDropHead
  rw [EM.wlp_bind]
  obtain ⟨x, tail, h1, h2⟩ := h.q
  refine wlp_deq h1 (fun hn => ?_) fun j y q' a1 a2 a3 a4 a5 => ?_
  · rw [firstMatch_cons_bind rfl] at hn; cases hn
  · rw [firstMatch_cons_bind rfl, Option.some.injEq] at a1
    subst a1
    dsimp only
    rw [if_pos h.i.symm, EM.wlp_pure, EM.wlp_pure]
    simp only [List.eraseIdx_cons_zero] at a3
    refine ⟨h.ev, tail, a3, hp, hk, fun y hy => (h2 y hy).1, ?_, ?_, ?_, h.st, h.tm, h.bd⟩
    · intro he
      have he : s.enabled = true := he
      rw [hen] at he; cases he
    · intro y hy; exact .inr (.inr (h2 y (List.mem_of_mem_head? hy)).2)
    · intro y hy; exact (h2 y (List.mem_of_mem_tail hy)).2

theorem psbPacket_inv {i : Nat} (hc : c.time.Sane) (h : PsbSt s i) (hk : PktOk c s.packet) :
    EM.wlp (psbPacket c i) (PsbPost c t i) En s := by
  have hr := hk.range
  have more : PsbPost c t i false s := h
  cases hp : s.packet with
  | fup ipc ip => exact EM.wlp_of_eq (by unfold psbPacket; rw [hp]) (headerFup_inv (t := t) h)
  | modeExec a b f =>
    refine EM.wlp_of_eq (m' := do headerModeExec c a b f; return false) (by unfold psbPacket; rw [hp]) ?_
    rw [EM.wlp_bind]
    unfold headerModeExec
    rw [EM.wlp_bind]
    refine checkModeExec_inv h fun m x y z h' => ?_
    rw [EM.wlp_bind]
    refine enq_psb h' rfl fun q' h'' => ?_
    split
    · refine enq_psb h'' rfl fun q' h'' => ?_
      rw [EM.wlp_pure]; exact h''
    · rw [EM.wlp_pure, EM.wlp_pure]; exact h''
  | modeTsx a b =>
    refine EM.wlp_of_eq (m' := do
      enq evbPsbend { data := .tsx a b 0, statusUpdate := true }; return false) (by unfold psbPacket; rw [hp]) ?_
    rw [EM.wlp_bind]
    refine enq_psb h rfl fun q' h'' => ?_
    rw [EM.wlp_pure]; exact h''
  | modeOther x => exact EM.wlp_of_eq (m' := pure false) (by unfold psbPacket; rw [hp]; rfl) ((EM.wlp_pure _ _ _ _).2 more)
  | pad => exact EM.wlp_of_eq (m' := pure false) (by unfold psbPacket; rw [hp]; rfl) ((EM.wlp_pure _ _ _ _).2 more)
  | pip a b =>
    refine EM.wlp_of_eq (m' := do
      enq evbPsbend { data := .asyncPaging a b 0, statusUpdate := true }; return false) (by unfold psbPacket; rw [hp]) ?_
    rw [EM.wlp_bind]
    refine enq_psb h rfl fun q' h'' => ?_
    rw [EM.wlp_pure]; exact h''
  | vmcs a =>
    refine EM.wlp_of_eq (m' := do
      enq evbPsbend { data := .asyncVmcs a 0, statusUpdate := true }; return false) (by unfold psbPacket; rw [hp]) ?_
    rw [EM.wlp_bind]
    refine enq_psb h rfl fun q' h'' => ?_
    rw [EM.wlp_pure]; exact h''
  | mnt a =>
    refine EM.wlp_of_eq (m' := do enq evbPsbend { data := .mnt a }; return false) (by unfold psbPacket; rw [hp]) ?_
    rw [EM.wlp_bind]
    refine enq_psb h rfl fun q' h'' => ?_
    rw [EM.wlp_pure]; exact h''
  | tsc v =>
    rw [hp] at hr
    refine EM.wlp_of_eq (m' := do applyTm c (.hTsc v); return false) (by unfold psbPacket; rw [hp]) ?_
    rw [EM.wlp_bind]
    refine tm_psb hc h (by rcases hr with hr | hr | hr <;> first | exact hr | cases hr) fun x h'' => ?_
    rw [EM.wlp_pure]; exact h''
  | cbr v =>
    rw [hp] at hr
    refine EM.wlp_of_eq (m' := do
      applyTm c (.hCbr v); enq evbPsbend { data := .cbr v, statusUpdate := true }; return false)
      (by unfold psbPacket; rw [hp]) ?_
    rw [EM.wlp_bind]
    refine tm_psb hc h (by rcases hr with hr | hr | hr <;> first | exact hr | cases hr) fun x h'' => ?_
    rw [EM.wlp_bind]
    refine enq_psb h'' rfl fun q' h'' => ?_
    rw [EM.wlp_pure]; exact h''
  | tma a b =>
    rw [hp] at hr
    refine EM.wlp_of_eq (m' := do applyTm c (.tma a b); return false) (by unfold psbPacket; rw [hp]) ?_
    rw [EM.wlp_bind]
    refine tm_psb hc h (by rcases hr with hr | hr | hr <;> first | exact hr | cases hr) fun x h'' => ?_
    rw [EM.wlp_pure]; exact h''
  | mtc v =>
    rw [hp] at hr
    refine EM.wlp_of_eq (m' := do applyTm c (.mtc v); return false) (by unfold psbPacket; rw [hp]) ?_
    rw [EM.wlp_bind]
    refine tm_psb hc h (by rcases hr with hr | hr | hr <;> first | exact hr | cases hr) fun x h'' => ?_
    rw [EM.wlp_pure]; exact h''
  | cyc v =>
    rw [hp] at hr
    refine EM.wlp_of_eq (m' := do applyTm c (.cyc v); return false) (by unfold psbPacket; rw [hp]) ?_
    rw [EM.wlp_bind]
    refine tm_psb hc h (by
      rcases hr with hr | hr | hr
      · cases hr
      · cases hr
      · exact Nat.lt_trans (show v < 2 ^ 61 from hr) (by decide)) fun x h'' => ?_
    rw [EM.wlp_pure]; exact h''
  | psbend =>
    cases hen : s.enabled with
    | true =>
      refine EM.wlp_of_eq (m' := do
        updEv (.slot i) fun _ e => { e with data := .enabled 0 }; return true)
        (by unfold psbPacket; rw [hp]; dsimp only; rw [if_pos hen]) ?_
      unfold updEv
      rw [EM.wlp_bind, EM.wlp_modify, EM.wlp_pure]
      exact psbEnd_inv h (.inl hp) hk (.inl ⟨hen, rfl⟩)
    | false =>
      refine EM.wlp_of_eq (m' := do
        updEv (.slot i) fun _ e => { e with data := .disabled 0, ipSuppressed := true }; return true)
        (by unfold psbPacket; rw [hp]; dsimp only; rw [if_neg (by rw [hen]; simp)]) ?_
      unfold updEv
      rw [EM.wlp_bind, EM.wlp_modify, EM.wlp_pure]
      exact psbEnd_inv h (.inl hp) hk (.inr ⟨hen, rfl⟩)
  | ovf =>
    cases hen : s.enabled with
    | true =>
      refine EM.wlp_of_eq (m' := do
        updEv (.slot i) fun _ e => { e with data := .enabled 0 }; return true)
        (by unfold psbPacket; rw [hp]; dsimp only; rw [if_pos hen]) ?_
      unfold updEv
      rw [EM.wlp_bind, EM.wlp_modify, EM.wlp_pure]
      exact psbEnd_inv h (.inr hp) hk (.inl ⟨hen, rfl⟩)
    | false =>
      exact EM.wlp_of_eq (m' := do psbDropHead i; return true)
        (by unfold psbPacket; rw [hp]; dsimp only; rw [if_neg (by rw [hen]; simp)])
        (psbDropHead_inv h (.inr hp) hk hen)
  | invalid =>
    cases hst : s.status with
    | none =>
      exact EM.wlp_of_eq (m' := pure false) (by unfold psbPacket; rw [hp]; dsimp only; rw [hst]; rfl)
        ((EM.wlp_pure _ _ _ _).2 more)
    | some e =>
      refine EM.wlp_of_eq (m' := EM.fail e) (by unfold psbPacket; rw [hp]; dsimp only; rw [hst]; rfl)
        ((EM.wlp_fail _ _ _ _).2 ?_)
      have := h.st
      rw [hst] at this
      simpa [En] using this
  | _ =>
    exact EM.wlp_of_eq (m' := EM.fail .badContext) (by unfold psbPacket; rw [hp]; rfl)
      ((EM.wlp_fail _ _ _ _).2 (by simp [En]))

theorem psbLoop_inv {i : Nat} (hc : c.time.Sane) : ∀ (n : Nat) (s : Evd), PsbSt s i →
    EM.wlp (psbLoop c i n) (fun _ s' => s'.event = none ∧ ∃ l, Hdr c t s' l) En s := by
  intro n
  induction n with
  | zero => intro s _; exact (EM.wlp_undef _ _ _).2 trivial
  | succ n ih =>
    intro s h
    unfold psbLoop
    rw [EM.wlp_bind]
    refine wlp_fetch h.st fun pd p size st a1 a2 _ => ?_
    rw [EM.wlp_bind]
    have h' : PsbSt { s with pd := pd, packet := p, size := size, status := st } i := ⟨h.q, h.i, a2, h.tm, h.bd, h.ev⟩
    refine EM.wlp_mono (psbPacket_inv (t := t) hc h' a1) ?_ (fun _ _ h => h)
    intro b s' hb
    cases b with
    | true => rw [if_pos rfl, EM.wlp_pure]; exact hb
    | false => rw [if_neg (by simp)]; exact ih s' hb

theorem decodePsb_inv {t' : Bool} (hc : c.time.Sane) (h : Start c t s l) :
    EM.wlp (decodePsb c) (fun _ s' => s'.event = none ∧ ∃ l, Hdr c t' s' l) En s := by
  unfold decodePsb
  rw [EM.wlp_bind]
  unfold psbPending
  unfold EM.wlp
  dsimp only
  rw [pending_holds h.holds]
  cases hl : l with
  | cons x l' =>
    subst hl
    have : (x :: l').any (matches_ (2 ^ 32 - 1)) = true := by
      rw [List.any_cons, (h.typ x (by simp)).any]; rfl
    rw [this]; simp [En]
  | nil =>
    subst hl
    refine (?_ : EM.wlp _ _ _ _)
    rw [EM.wlp_bind, EM.wlp_modify, EM.wlp_bind]
    refine wlp_enqSlot' (s := { s with ip := {}, enabled := false }) (fun _ _ h => h) h.holds fun q' _ a2 a3 _ _ => ?_
    unfold updEv
    rw [EM.wlp_bind, EM.wlp_modify]
    have hb := h.holds.begin
    refine psbLoop_inv hc _ _ ⟨⟨{ statusUpdate := true }, [], ?_, by simp⟩, ?_, h.st, h.tm, h.unbound, h.none⟩
    · exact put_last_holds (l := []) a2 (by rw [a3]) _
    · show _ = q'.begin
      rw [a3]
      simp only [List.length_nil, Nat.add_zero]
      omega

end Ipt
