import Verif.EventDecoderInv2

/-! Helper lemmas: the packets preserve the invariant of the event decoder (continued). -/

set_option linter.unusedSimpArgs false

namespace Ipt

open Spec

variable {c : EvtCfg} {t : Bool} {s : Evd} {l : List (Event × Nat)}

/-! ## TIP -/

theorem asyncBranch_of {e : Event} (h : e.isAsyncBranch = true) : ∃ a b, e.data = .asyncBranch a b := by
  unfold Event.isAsyncBranch at h
  revert h
  cases e.data <;> simp

/-- The entry the dequeued event is stored to in case of an asynchronous branch. -/
theorem typ_swap {x y : Event × Nat} (hy : Typ y) (h1 : y.1.isAsyncBranch = true)
    (h2 : matches_ evbTip y = true ∨ x.1.isAsyncBranch = true) : Typ (x.1, y.2) := by
  obtain ⟨a, b, hd⟩ := asyncBranch_of h1
  have hx : x.1.isAsyncBranch = true → FupOk x.1 := by
    intro h
    obtain ⟨a, b, hd⟩ := asyncBranch_of h
    refine fupOk_of ?_ ?_ <;> rw [hd] <;> rfl
  cases hy with
  | tip e => exact .tip _
  | fup e he =>
    rcases h2 with h2 | h2
    · rw [matches_mk] at h2; exact absurd h2 (by decide)
    · exact .fup _ (hx h2)
  | fupBound e he =>
    rcases h2 with h2 | h2
    · rw [matches_mk] at h2; exact absurd h2 (by decide)
    · exact .fupBound _ (hx h2)
  | mode e he => dsimp only at hd; rw [hd] at he; cases he
  | exstop e a b i he => dsimp only at hd; rw [hd] at he; cases he
  | cfe e => exact .cfe _

theorem isTip_tip {a b : Nat} (h : s.packet = .tip a b) : s.packet.isTip = true := by rw [h]; rfl

theorem Ex.tip {e : Err} {a b : Nat} (h : s.packet = .tip a b) : Ex e s := fun _ => .inl ⟨a, b, h⟩

theorem tipAsync_inv {a b j : Nat} (h : Norm c t s l) (hp : s.packet = .tip a b) (hb : s.bound = true)
    (hf : s.q.find evbTip Event.isAsyncBranch = some j) : EM.wlp (tipAsync j) (Post c t) Ex s := by
  unfold tipAsync
  rw [EM.wlp_bind]
  have hd : Draining s := ⟨hb, isTip_tip hp⟩
  have hbl := h.holds.begin
  have hlen := h.holds.len
  refine wlp_deq h.holds (fun _ => (EM.wlp_fail _ _ _ _).2 (Ex.tip hp)) fun j0 x q' h1 h2 h3 h4 h5 => ?_
  have fin : ∀ q'' l'', q''.Holds l'' → (∀ y ∈ l'', Typ y) → Free (.slot s.q.begin) q'' → EM.wlp (do
      let s_1 ← EM.get
      if (s_1.q.get s.q.begin).isAsyncBranch = true then do
        setEvent (some (.slot s.q.begin))
        ipTimeEv (.slot s.q.begin)
      else EM.fail .internal) (Post c t) Ex { s with q := q'' } := by
    intro q'' l'' a1 a2 a3
    rw [EM.wlp_bind, EM.wlp_get]
    split
    · rename_i ha
      obtain ⟨u, v, hd'⟩ := asyncBranch_of ha
      unfold setEvent
      rw [EM.wlp_bind, EM.wlp_modify]
      refine ipTimeEv_plain (s := { s with q := q'', event := some (.slot s.q.begin) }) (l := l'') rfl ?_
        (.inl ((h.withQ a1 a2 fun hn => absurd hd hn).event _)) a3
      show (q''.get s.q.begin).data.plain = true
      rw [hd']; rfl
    · exact (EM.wlp_fail _ _ _ _).2 (Ex.tip hp)
  dsimp only
  split
  · exact fin q' _ h3 (typ_erase h.typ) h5
  · rename_i hij
    rw [EM.wlp_bind, EM.wlp_modify]
    obtain ⟨hj0, hm0, hbef⟩ := firstMatch_some_iff h1
    have hx : x = l[j0] := by rw [List.getElem?_eq_getElem hj0, Option.some.injEq] at h2; exact h2.symm
    rcases find_holds h.holds evbTip Event.isAsyncBranch with ⟨jj, hjj, e1, e2, e3, e4⟩ | ⟨e1, _⟩
    · rw [hf, Option.some.injEq] at e1
      have hjj0 : jj ≠ 0 := by rintro rfl; apply hij; rw [e1]; omega
      have hbeg : (s.q.begin + 1) % 16 = q'.begin := by
        rcases h5 with h5 | h5
        · cases h5
        · injection h5 with h5; have := h3.begin; omega
      have hle : j0 ≤ jj := by
        by_cases hlt : jj < j0
        · have := hbef jj hlt; rw [e2] at this; cases this
        · omega
      have hlen' : (l.eraseIdx j0).length = l.length - 1 := List.length_eraseIdx_of_lt hj0
      have hk : jj - 1 < (l.eraseIdx j0).length := by omega
      have hje : j = (q'.begin + (jj - 1)) % 16 := by omega
      -- the entry at the stale position
      have hg : q'.get j = ((l.eraseIdx j0)[jj - 1]).1 := by rw [hje]; exact get_in_holds h3 hk
      have b1 := put_in_holds h3 hk hje x.1
      have b2 := put_free_holds b1 (i := s.q.begin) (by
        rcases h5 with h5 | h5
        · cases h5
        · injection h5) (q'.get j)
      rw [← h4] at b1 b2
      -- the check
      have hget : ((q'.put j (q'.get s.q.begin)).put s.q.begin (q'.get j)).get s.q.begin = q'.get j :=
        put_get b1.size hbl _
      by_cases ha : (q'.get j).isAsyncBranch = true
      · refine fin _ _ b2 ?_ ?_
        · intro y hy
          rcases List.mem_or_eq_of_mem_set hy with hy | rfl
          · exact typ_erase h.typ y hy
          · rw [h4]
            refine typ_swap (typ_erase h.typ _ (List.getElem_mem hk)) (by rw [← hg]; exact ha) ?_
            by_cases heq : j0 = jj
            · right; rw [hx]; subst heq; exact e3
            · left
              have : (l.eraseIdx j0)[jj - 1] = l[jj] := by
                rw [List.getElem_eraseIdx_of_ge hk (by omega)]
                congr 1; omega
              rw [this]; exact e2
        · rcases h5 with h5 | h5
          · cases h5
          · exact .inr h5
      · rw [EM.wlp_bind, EM.wlp_get]
        have : (((q'.put j (q'.get s.q.begin)).put s.q.begin (q'.get j)).get s.q.begin).isAsyncBranch = false := by
          rw [hget]; simpa using ha
        split
        · rename_i hne
          have hne : (((q'.put j (q'.get s.q.begin)).put s.q.begin (q'.get j)).get s.q.begin).isAsyncBranch = true := hne
          rw [this] at hne; cases hne
        · exact (EM.wlp_fail _ _ _ _).2 (Ex.tip hp)
    · rw [hf] at e1; cases e1

theorem tipBranch_inv {a b : Nat} (h : Norm c t s l) (hp : s.packet = .tip a b) (ht : t = true) :
    EM.wlp tipBranch (Post c t) Ex s := by
  unfold tipBranch
  rw [EM.wlp_bind, EM.wlp_modify, EM.wlp_bind, EM.wlp_get]
  have hd : Draining { s with bound := true } := ⟨rfl, isTip_tip hp⟩
  have h' : Norm c t { s with bound := true } l := h.boundSet true (fun hn => absurd hd hn) fun _ => .inl (isTip_tip hp)
  dsimp only
  cases hf : s.q.find evbTip Event.isAsyncBranch with
  | some j => exact tipAsync_inv h' hp rfl hf
  | none =>
    dsimp only
    rw [EM.wlp_bind]
    refine wlp_alone h'.holds fun q' a1 a2 => ?_
    refine wlp_ipTimeEv (t' := t) (l := l) (.inl ((h'.withQ a1 h.typ fun hn => absurd hd hn).event _)) (.inl rfl)
      fun q'' b1 _ b3 => ?_
    have hx : ∀ s' : Evd, tracing t ((Event.withIp (Evd.ev { s with bound := true, q := q', event := some .alone } .alone)
        s.ip).timed s.tm.time) (noIp c s'.packet) = t := by
      intro s'
      have : Evd.ev { s with bound := true, q := q', event := some .alone } .alone = { data := .tip 0 } := a2
      rw [this]
      unfold Event.withIp Event.timed
      cases s.ip.query <;> rfl
    unfold Post
    rw [if_neg (by simp)]
    refine ⟨.alone, rfl, fun _ => ht, l, ?_⟩
    have : upd c t (Evd.ev { s with bound := true, q := q'', event := some .alone } .alone)
        { s with bound := true, q := q'', event := some .alone } = t := by
      unfold upd; rw [b3]; exact hx _
    rw [this]
    exact b1

theorem decodeTip_inv {ipc ip : Nat} : ∀ (n : Nat) (s : Evd) (l : List (Event × Nat)), Norm c t s l → s.event = none →
    s.packet = .tip ipc ip → EM.wlp (decodeTip ipc ip n) (Post c t) Ex s := by
  intro n
  induction n with
  | zero => intro s l _ _ _; exact (EM.wlp_undef _ _ _).2 trivial
  | succ n ih =>
    intro s l h he hp
    unfold decodeTip
    rw [EM.wlp_bind, EM.wlp_get]
    split
    · exact (EM.wlp_fail _ _ _ _).2 (Ex.of (by simp))
    · rename_i hen
      have ht : t = true := h.en (by simpa using hen)
      rw [EM.wlp_bind]
      refine wlp_updIp fun x _ => ?_
      have h' : Norm c t { s with ip := x } l := h.ip x
      split
      · exact tipBranch_inv h' hp ht
      · rename_i hb
        have hd : Draining { s with ip := x } := ⟨by simpa using hb, isTip_tip hp⟩
        rw [EM.wlp_bind]
        refine wlp_deq h'.holds (fun h1 => ?_) fun j y q' h1 h2 h3 h4 h5 => ?_
        · dsimp only
          rw [EM.wlp_pure]
          exact post_true h' (ordL_none h1) he
        · dsimp only
          have h6 := (h'.withQ h3 (typ_erase h.typ) fun hn => absurd hd hn).event (some (.slot s.q.begin))
          refine wlp_publish (s := { s with ip := x, q := q' }) ?_
          dsimp only
          rw [show q'.get s.q.begin = y.1 from h4]
          have hev : Evd.ev { s with ip := x, q := q', event := some (.slot s.q.begin) } (.slot s.q.begin) = y.1 := h4
          unfold tipEvent
          cases hd' : y.1.data with
          | asyncBranch a b => exact (EM.wlp_fail _ _ _ _).2 (Ex.tip hp)
          | tick =>
            dsimp only
            unfold setEvent
            rw [EM.wlp_bind, EM.wlp_modify]
            exact ih _ _ (h6.event none) rfl hp
          | _ =>
            first
              | exact ipTimeEv_plain rfl (by rw [hev, hd']; rfl) (.inl h6) h5
              | exact (EM.wlp_fail _ _ _ _).2 (Ex.of (by simp))

theorem decodeTipPge_inv {ipc ip : Nat} : ∀ (n : Nat) (s : Evd) (l : List (Event × Nat)), Norm c t s l → s.event = none →
    s.packet = .tipPge ipc ip → EM.wlp (decodeTipPge ipc ip n) (Post c t) Ex s := by
  intro n
  induction n with
  | zero => intro s l _ _ _; exact (EM.wlp_undef _ _ _).2 trivial
  | succ n ih =>
    intro s l h he hp
    unfold decodeTipPge
    rw [EM.wlp_bind]
    refine wlp_updIp fun x _ => ?_
    have h' : Norm c t { s with ip := x } l := h.ip x
    rw [EM.wlp_bind, EM.wlp_get]
    have htip : s.packet.isTip = true := by rw [hp]; rfl
    split
    · unfold tipPgeEnable
      rw [EM.wlp_bind]
      refine wlp_alone h'.holds fun q' a1 a2 => ?_
      rw [EM.wlp_bind, EM.wlp_modify]
      have hd : Draining { s with ip := x, q := q', event := some .alone, enabled := true, bound := true } := ⟨rfl, htip⟩
      have h6 : Norm c true { s with ip := x, q := q', event := some .alone, enabled := true, bound := true } l :=
        ⟨a1, h.typ, fun hn => absurd hd hn, fun _ => rfl, h.st, h.tm, h.pk, fun _ => .inl htip⟩
      refine wlp_ipTimeEv (.inl h6) (.inl rfl) fun q'' b1 _ b3 => ?_
      have h7 : Norm c true { s with ip := x, q := q'', event := some .alone, enabled := true, bound := true } l :=
        h6.withQ (Inv.holds b1) h.typ fun hn => absurd hd hn
      have : Evd.ev { s with ip := x, q := q', event := some .alone, enabled := true, bound := true } .alone =
        { data := .enabled 0 } := a2
      rw [this] at b3
      refine post_norm rfl ?_ h7 ?_
      · rw [b3]
        intro hb
        unfold isBranch Event.timed Event.withIp at hb
        cases hq : x.query <;> rw [hq] at hb <;> cases hb
      · intro _
        unfold upd
        rw [b3]
        unfold tracing Event.timed Event.withIp
        cases x.query <;> rfl
    · rename_i hb
      have hd : Draining { s with ip := x } := ⟨by simpa using hb, htip⟩
      rw [EM.wlp_bind]
      refine wlp_deq h'.holds (fun h1 => ?_) fun j y q' h1 h2 h3 h4 h5 => ?_
      · dsimp only
        rw [EM.wlp_pure]
        exact post_true h' (ordL_none h1) he
      · dsimp only
        have h6 := (h'.withQ h3 (typ_erase h.typ) fun hn => absurd hd hn).event (some (.slot s.q.begin))
        refine wlp_publish (s := { s with ip := x, q := q' }) ?_
        dsimp only
        rw [show q'.get s.q.begin = y.1 from h4]
        have hev : Evd.ev { s with ip := x, q := q', event := some (.slot s.q.begin) } (.slot s.q.begin) = y.1 := h4
        unfold tipPgeEvent
        cases hd' : y.1.data with
        | tick =>
          dsimp only
          unfold setEvent
          rw [EM.wlp_bind, EM.wlp_modify]
          exact ih _ _ (h6.event none) rfl hp
        | _ =>
          first
            | exact ipTimeEv_plain rfl (by rw [hev, hd']; rfl) (.inl h6) h5
            | exact (EM.wlp_fail _ _ _ _).2 (Ex.of (by simp))

theorem decodeTipPgd_inv {ipc ip : Nat} (h : Norm c t s l) (he : s.event = none) (hp : s.packet = .tipPgd ipc ip) :
    EM.wlp (decodeTipPgd c ipc ip) (Post c t) Ex s := by
  have htip : s.packet.isTip = true := by rw [hp]; rfl
  unfold decodeTipPgd
  rw [EM.wlp_bind]
  refine wlp_updIp fun x _ => ?_
  have h' : Norm c t { s with ip := x } l := h.ip x
  rw [EM.wlp_bind]
  refine wlp_deq h'.holds (fun h1 => ?_) fun j y q' h1 h2 h3 h4 h5 => ?_
  · dsimp only
    unfold tipPgdAlone
    rw [EM.wlp_bind, EM.wlp_get]
    split
    · rw [EM.wlp_pure]; exact post_true h' (ordL_none h1) he
    · rename_i hb
      rw [EM.wlp_bind]
      refine wlp_alone h'.holds fun q' a1 a2 => ?_
      rw [EM.wlp_bind]
      refine wlp_ipTimeEv (t' := t) (l := l) (.inl ((h'.withQ a1 h.typ h'.ord).event _)) (.inl rfl) fun q'' b1 _ b3 => ?_
      rw [EM.wlp_bind, EM.wlp_modify]
      have : Evd.ev { s with ip := x, q := q', event := some .alone } .alone = { data := .disabled 0 } := a2
      rw [this] at b3
      have hb1 := Inv.holds b1
      have h6 : Norm c t { s with ip := x, q := q'', event := some .alone, enabled := false } l :=
        ⟨hb1, h.typ, fun _ => ordL_none h1, fun hf => (by cases hf), h.st, h.tm, h.pk, h.bd⟩
      refine fetchDone_inv (s := { s with ip := x, q := q'', event := some .alone, enabled := false }) h6 (ordL_none h1)
        (by simpa using hb) rfl ?_ (fun _ hf => (by cases hf))
      show isBranch (Evd.ev { s with ip := x, q := q'', event := some .alone } .alone) = true → _
      rw [b3]
      intro hb
      unfold isBranch Event.timed Event.withIp at hb
      cases hq : x.query <;> rw [hq] at hb <;> cases hb
  · dsimp only
    refine wlp_publish (s := { s with ip := x, q := q' }) ?_
    dsimp only
    rw [show q'.get s.q.begin = y.1 from h4]
    have hev : Evd.ev { s with ip := x, q := q', event := some (.slot s.q.begin) } (.slot s.q.begin) = y.1 := h4
    unfold tipPgdEvent
    rw [EM.wlp_bind, EM.wlp_get]
    dsimp only
    have sup : kind y ≠ 1 ∨ s.bound = true → y.1.data.plain = true → EM.wlp (do
        updEv (.slot s.q.begin) fun _ e => { e with ipSuppressed := true }
        timeEv (.slot s.q.begin)) (Post c t) Ex { s with ip := x, q := q', event := some (.slot s.q.begin) } := by
      intro hk hpl
      have ho : ¬ Draining { s with ip := x } → OrdL (l.eraseIdx j) := by
        intro hn
        rcases hk with hk | hk
        · exact ordL_erase (h'.ord hn) h2 hk
        · exact absurd ⟨hk, htip⟩ hn
      have h6 := (h'.withQ h3 (typ_erase h.typ) ho).event (some (.slot s.q.begin))
      rw [EM.wlp_bind]
      refine wlp_updEv_free h3 h5 fun q'' b1 b2 b3 => ?_
      rw [hev] at b3
      exact timeEv_plain (s := { s with ip := x, q := q'', event := some (.slot s.q.begin) }) rfl (by rw [b3]; exact hpl)
        (.inl (h6.withQ b1 h6.typ h6.ord)) b2
    have hm := deq_matches h1 h2
    cases hd' : y.1.data with
    | asyncBranch a b =>
      dsimp only
      rw [EM.wlp_bind]
      refine wlp_updEv_free h3 h5 fun q'' b1 b2 b3 => ?_
      rw [hev] at b3
      rw [EM.wlp_bind, EM.wlp_modify]
      have hd : Draining { s with ip := x, q := q'', event := some (.slot s.q.begin), enabled := false, bound := true } :=
        ⟨rfl, htip⟩
      have h6 : Norm c t { s with ip := x, q := q'', event := some (.slot s.q.begin), enabled := false, bound := true }
          (l.eraseIdx j) :=
        ⟨b1, typ_erase h.typ, fun hn => absurd hd hn, fun hf => (by cases hf), h.st, h.tm, h.pk, fun _ => .inl htip⟩
      refine wlp_ipTimeEv (.inl h6) b2 fun q3 d1 _ d3 => ?_
      have e1 : Evd.ev { s with ip := x, q := q'', event := some (.slot s.q.begin), enabled := false, bound := true }
        (.slot s.q.begin) = ⟨.asyncDisabled a 0, y.1.ipSuppressed, y.1.statusUpdate, y.1.hasTsc, y.1.tsc, y.1.lostMtc,
          y.1.lostCyc⟩ := b3
      rw [e1] at d3
      refine post_norm (s := { s with ip := x, q := q3, event := some (.slot s.q.begin), enabled := false, bound := true })
        rfl ?_ (h6.withQ (Inv.holds d1) h6.typ h6.ord) (fun hf => (by cases hf))
      rw [d3]
      intro hb
      unfold isBranch Event.timed Event.withIp at hb
      cases hq : x.query <;> rw [hq] at hb <;> cases hb
    | asyncPaging a b i =>
      dsimp only
      split
      · rename_i hb
        have hn : ¬ Draining { s with ip := x } := by
          rintro ⟨hb', _⟩
          have hb : s.bound = false := hb
          have hb' : s.bound = true := hb'
          rw [hb] at hb'; cases hb'
        refine absurd ?_ (ordL_first (h'.ord hn) h1 h2)
        unfold kind; rw [if_pos hm, hd']
      · rename_i hb
        exact sup (.inr (by simpa using hb)) (by rw [hd']; rfl)
    | asyncVmcs a i =>
      dsimp only
      split
      · rename_i hb
        have hn : ¬ Draining { s with ip := x } := by
          rintro ⟨hb', _⟩
          have hb : s.bound = false := hb
          have hb' : s.bound = true := hb'
          rw [hb] at hb'; cases hb'
        refine absurd ?_ (ordL_first (h'.ord hn) h1 h2)
        unfold kind; rw [if_pos hm, hd']
      · rename_i hb
        exact sup (.inr (by simpa using hb)) (by rw [hd']; rfl)
    | execMode a i =>
      exact sup (.inl (by unfold kind; rw [if_pos hm, hd']; simp)) (by rw [hd']; rfl)
    | _ => exact (EM.wlp_fail _ _ _ _).2 (Ex.of (by simp))

end Ipt
