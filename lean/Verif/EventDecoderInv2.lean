import Verif.EventDecoderInv

/-! Helper lemmas: the packets preserve the invariant of the event decoder. -/

set_option linter.unusedSimpArgs false

namespace Ipt

open Spec

variable {c : EvtCfg} {t : Bool} {s : Evd} {l : List (Event × Nat)}

theorem Norm.tmSet (h : Norm c t s l) {x : Timing} (hx : x.Ok) : Norm c t { s with tm := x } l :=
  ⟨h.holds, h.typ, h.ord, h.en, h.st, hx, h.pk, h.bd⟩

/-- A state in which a packet other than FUP and TIP is decoded. -/
structure Start (c : EvtCfg) (t : Bool) (s : Evd) (l : List (Event × Nat)) : Prop extends Norm c t s l where
  o : OrdL l
  none : s.event = none
  unbound : s.bound = false

theorem Norm.start (h : Norm c t s l) (he : s.event = none) (h1 : s.packet.isTip = false) (h2 : s.packet.isFup = false) :
    Start c t s l := by
  have hb : s.bound = false := by
    cases hb : s.bound with
    | false => rfl
    | true => have := h.bd hb; rw [h1, h2] at this; simp at this
  exact ⟨h, h.ord (by rintro ⟨h3, _⟩; rw [hb] at h3; cases h3), he, hb⟩

namespace Start

theorem more (h : Start c t s l) : Post c t true s := post_true h.toNorm h.o h.none

theorem enq (h : Start c t s l) {evb : Nat} {e : Event} (hx : Typ (e, evb)) (hk : kind (e, evb) = 2 → ∃ y ∈ l, kind y = 1) :
    EM.wlp (enqMore evb e) (Post c t) Ex s := enqMore_inv h.toNorm h.o h.none hx hk

theorem alone {E : Err → Evd → Prop} (h : Start c t s l) {e : Event} (hd : e.data.plain = true) :
    EM.wlp (aloneDone c e) (Post c t) E s := aloneDone_plain h.toNorm h.o h.unbound hd

theorem withQ (h : Start c t s l) {l' : List (Event × Nat)} {q' : Evq Event} (h1 : q'.Holds l')
    (h2 : ∀ x ∈ l', Typ x) (h3 : OrdL l') : Start c t { s with q := q' } l' :=
  ⟨h.toNorm.withQ h1 h2 fun _ => h3, h3, h.none, h.unbound⟩

theorem tmSet (h : Start c t s l) {x : Timing} (hx : x.Ok) : Start c t { s with tm := x } l :=
  ⟨h.toNorm.tmSet hx, h.o, h.none, h.unbound⟩

end Start

theorem kind_fup (e : Event) : kind (e, 4) = 0 := by unfold kind; rw [matches_mk, if_neg (by decide)]
theorem kind_fupBound (e : Event) : kind (e, 8) = 0 := by unfold kind; rw [matches_mk, if_neg (by decide)]
theorem kind_exstop (e : Event) : kind (e, 16) = 0 := by unfold kind; rw [matches_mk, if_neg (by decide)]
theorem kind_cfe (e : Event) : kind (e, 32) = 0 := by unfold kind; rw [matches_mk, if_neg (by decide)]

theorem fupOk_of {e : Event} (h1 : e.data.isRsmSipi = false) (h2 : e.data.isOverflow = false) : FupOk e := by
  unfold FupOk; rw [h1, h2]; simp

theorem Start.fup (h : Start c t s l) {e : Event} (he : FupOk e) : EM.wlp (enqMore evbFup e) (Post c t) Ex s :=
  h.enq (.fup _ he) (by intro hk; rw [show kind (e, evbFup) = 0 from kind_fup e] at hk; cases hk)

theorem Start.fupBound (h : Start c t s l) {e : Event} (he : FupOk e) : EM.wlp (enqMore evbFupBound e) (Post c t) Ex s :=
  h.enq (.fupBound _ he) (by intro hk; rw [show kind (e, evbFupBound) = 0 from kind_fupBound e] at hk; cases hk)

theorem decodeTnt_inv {bits size : Nat} (h : Start c t s l) : EM.wlp (decodeTnt c bits size) (Post c t) Ex s := by
  unfold decodeTnt
  rw [EM.wlp_bind, EM.wlp_get]
  split
  · rw [EM.wlp_fail]; exact Ex.of (by simp)
  · rename_i he
    have ht : t = true := h.en (by simpa using he)
    exact aloneDone_inv h.toNorm h.o h.unbound (fun _ => ht) (fun _ _ => ht)

theorem wlp_applyTm {p : TimePkt} {Q : Unit → Evd → Prop} (hc : c.time.Sane) (h : s.tm.Ok) (hp : p.InRange)
    (hq : ∀ x : Timing, x.Ok → Q () { s with tm := x }) : EM.wlp (applyTm c p) Q (fun e _ => e ≠ .internal) s := by
  have h1 := timing_ok hc h hp
  unfold EM.wlp applyTm
  revert h1
  rcases s.tm.apply c.time p with ⟨x, a | e | _⟩
  · intro h1; exact hq x h1.1
  · intro h1
    have := h1.2
    simpa using this
  · intro _; trivial

theorem decodeTiming_inv {p : TimePkt} (hc : c.time.Sane) (h : Start c t s l) (hp : p.InRange) :
    EM.wlp (decodeTiming c p) (Post c t) Ex s := by
  unfold decodeTiming
  rw [EM.wlp_bind]
  refine EM.wlp_mono (wlp_applyTm hc h.tm hp (Q := fun _ s' => ∃ x : Timing, x.Ok ∧ s' = { s with tm := x })
    fun x hx => ⟨x, hx, rfl⟩) ?_ (fun _ _ h => Ex.of h)
  rintro _ _ ⟨x, hx, rfl⟩
  rw [EM.wlp_pure]
  exact (h.tmSet hx).more

theorem decodeCbr_inv {r : Nat} (hc : c.time.Sane) (h : Start c t s l) (hp : r < 256) :
    EM.wlp (decodeCbr c r) (Post c t) Ex s := by
  unfold decodeCbr
  rw [EM.wlp_bind]
  refine EM.wlp_mono (wlp_applyTm hc h.tm (p := .cbr r) hp (Q := fun _ s' => ∃ x : Timing, x.Ok ∧ s' = { s with tm := x })
    fun x hx => ⟨x, hx, rfl⟩) ?_ (fun _ _ h => Ex.of h)
  rintro _ _ ⟨x, hx, rfl⟩
  exact (h.tmSet hx).alone rfl

theorem wlp_enq_start {evb : Nat} {e : Event} {Q : Unit → Evd → Prop} (h : Start c t s l) (hx : Typ (e, evb))
    (hk : kind (e, evb) ≠ 2) (hq : ∀ q' l', Start c t { s with q := q' } l' → Q () { s with q := q' }) :
    EM.wlp (enq evb e) Q Ex s := by
  refine wlp_enq h.holds fun q' h1 => hq q' _ (h.withQ h1 ?_ (ordL_snoc h.o fun h2 => absurd h2 hk))
  intro x hm
  rcases List.mem_append.1 hm with hm | hm
  · exact h.typ x hm
  · rw [List.mem_singleton.1 hm]; exact hx

theorem kind_mode {e : Event} (h : e.data.isMode = true) : kind (e, 10) = 0 := by
  unfold kind
  cases hd : e.data <;> simp_all [EvData.isMode]

theorem decodeModeExec_inv {a b i : Bool} (h : Start c t s l) : EM.wlp (decodeModeExec c a b i) (Post c t) Ex s := by
  unfold decodeModeExec
  rw [EM.wlp_bind, EM.wlp_get, EM.wlp_bind]
  have step : ∀ (s : Evd) (l : List (Event × Nat)) (e : Event), Start c t s l → e.data.isMode = true →
      ∀ Q : Unit → Evd → Prop, (∀ q' l', Start c t { s with q := q' } l' → Q () { s with q := q' }) →
      EM.wlp (enq (evbTip ||| evbFupBound) e) Q Ex s := by
    intro s l e h he Q hQ
    exact wlp_enq_start h (.mode e he) (by show kind (e, 10) ≠ 2; rw [kind_mode he]; simp) hQ
  have fin : ∀ (s : Evd) (l : List (Event × Nat)), Start c t s l →
      EM.wlp (do EM.modify fun s => { s with modeValid := true }
                 return true) (Post c t) Ex s := by
    intro s l h
    rw [EM.wlp_bind, EM.wlp_modify, EM.wlp_pure]
    exact Start.more (s := { s with modeValid := true }) (l := l)
      ⟨⟨h.holds, h.typ, h.ord, h.en, h.st, h.tm, h.pk, h.bd⟩, h.o, h.none, h.unbound⟩
  have p1 : ∀ (s : Evd) (l : List (Event × Nat)) (x y : Bool), Start c t s l → Start c t { s with csl := x, csd := y } l :=
    fun s l x y h => ⟨⟨h.holds, h.typ, h.ord, h.en, h.st, h.tm, h.pk, h.bd⟩, h.o, h.none, h.unbound⟩
  have p2 : ∀ (s : Evd) (l : List (Event × Nat)) (x : Bool), Start c t s l → Start c t { s with iflag := x } l :=
    fun s l x h => ⟨⟨h.holds, h.typ, h.ord, h.en, h.st, h.tm, h.pk, h.bd⟩, h.o, h.none, h.unbound⟩
  generalize decide (s.modeValid = false ∨ s.csl ≠ a ∨ s.csd ≠ b) = m
  generalize decide (c.enableIflags = true ∧ (s.modeValid = false ∨ s.iflag ≠ i)) = f
  unfold modeExecEvents
  cases m <;> cases f
  · exact step s l { data := .tick 0 } h rfl _ fun q' l' h' => fin _ _ h'
  · simp only [Bool.false_eq_true, if_false, if_true, and_false]
    rw [EM.wlp_bind]
    refine step s l _ h rfl _ fun q' l' h' => ?_
    rw [EM.wlp_bind, EM.wlp_modify]
    exact fin _ _ (p2 _ _ i h')
  · simp only [Bool.false_eq_true, if_false, if_true, false_and]
    rw [EM.wlp_bind]
    refine step s l _ h rfl _ fun q' l' h' => ?_
    rw [EM.wlp_bind, EM.wlp_modify]
    exact fin _ _ (p1 _ _ a b h')
  · simp only [Bool.false_eq_true, if_false, if_true, false_and]
    rw [EM.wlp_bind]
    refine step s l _ h rfl _ fun q' l' h' => ?_
    rw [EM.wlp_bind, EM.wlp_modify, EM.wlp_bind]
    refine step _ _ _ (p1 _ _ a b h') rfl _ fun q' l' h' => ?_
    rw [EM.wlp_bind, EM.wlp_modify]
    exact fin _ _ (p2 _ _ i h')

theorem decodeModeTsx_inv {a b : Bool} (h : Start c t s l) : EM.wlp (decodeModeTsx c a b) (Post c t) Ex s := by
  unfold decodeModeTsx
  rw [EM.wlp_bind, EM.wlp_get]
  split
  · split
    · exact h.fup (fupOk_of rfl rfl)
    · exact h.fupBound (fupOk_of rfl rfl)
  · exact h.alone rfl

theorem find_async {q : Evq Event} (hl : q.Holds l) (h : (q.find evbTip Event.isAsyncBranch).isSome = true) :
    ∃ y ∈ l, kind y = 1 := by
  rcases find_holds hl evbTip Event.isAsyncBranch with ⟨j, hj, _, h2, h3, _⟩ | ⟨h1, _⟩
  · refine ⟨l[j], by simp, ?_⟩
    unfold kind
    rw [if_pos h2]
    unfold Event.isAsyncBranch at h3
    revert h3
    cases (l[j]).1.data <;> simp
  · rw [h1] at h; cases h

theorem decodePip_inv {cr3 : Nat} {nr : Bool} (h : Start c t s l) : EM.wlp (decodePip c cr3 nr) (Post c t) Ex s := by
  unfold decodePip
  rw [EM.wlp_bind, EM.wlp_get]
  split
  · rename_i hf
    exact h.enq (.tip _) fun _ => find_async h.holds hf
  · exact h.alone rfl

theorem decodeVmcs_inv {base : Nat} (h : Start c t s l) : EM.wlp (decodeVmcs c base) (Post c t) Ex s := by
  unfold decodeVmcs
  rw [EM.wlp_bind, EM.wlp_get]
  rcases find_holds h.holds evbTip Event.isAsyncPaging with ⟨j, hj, h1, h2, h3, _⟩ | ⟨h1, _⟩
  · rw [h1]
    dsimp only
    unfold vmcsBeforePaging
    rw [EM.wlp_bind]
    refine wlp_enqSlot h.holds fun q' a1 a2 a3 a4 a5 => ?_
    unfold updEv
    rw [EM.wlp_bind, EM.wlp_modify, EM.wlp_bind, EM.wlp_modify, EM.wlp_pure]
    have hb := h.holds.begin
    have hget : q'.get ((s.q.begin + j) % 16) = (l[j]).1 := by
      rw [← get_in_holds h.holds hj]
      unfold Evq.get; rw [a5 _ (by omega)]
    have b1 : (q'.put ((s.q.begin + l.length) % 16) (l[j]).1).Holds (l ++ [((l[j]).1, evbTip)]) :=
      put_last_holds a2 (by rw [a3]) _
    have hj' : j < (l ++ [((l[j]).1, evbTip)]).length := by simp; omega
    have hk2 : kind l[j] = 2 := by
      unfold kind
      rw [if_pos h2]
      unfold Event.isAsyncPaging at h3
      revert h3
      cases (l[j]).1.data <;> simp
    have hx2 : (l[j]).2 = 2 := by
      have := h.typ l[j] (by simp)
      generalize l[j] = x at this h2 h3
      cases this with
      | tip e => rfl
      | mode e he =>
        unfold Event.isAsyncPaging at h3
        cases hd : e.data <;> simp_all [EvData.isMode]
      | fup e he => rw [matches_mk] at h2; exact absurd h2 (by decide)
      | fupBound e he => rw [matches_mk] at h2; exact absurd h2 (by decide)
      | exstop e => rw [matches_mk] at h2; exact absurd h2 (by decide)
      | cfe e => rw [matches_mk] at h2; exact absurd h2 (by decide)
    have o1 : OrdL (l ++ [((l[j]).1, evbTip)]) := by
      refine ordL_snoc h.o fun _ => ?_
      rcases ord_first (j := j) h.o (by rw [List.getElem?_map, List.getElem?_eq_getElem hj, Option.map_some, hk2]) with hc | ⟨i, hi, h5⟩
      · cases hc
      · rw [List.getElem?_map, List.getElem?_eq_getElem (by omega)] at h5
        simp only [Option.map_some, Option.some.injEq] at h5
        exact ⟨l[i]'(by omega), by simp, h5⟩
    have t1 : ∀ x ∈ l ++ [((l[j]).1, evbTip)], Typ x := by
      intro x hm
      rcases List.mem_append.1 hm with hm | hm
      · exact h.typ x hm
      · rw [List.mem_singleton.1 hm]; exact .tip _
    have hlj : (l ++ [((l[j]).1, evbTip)])[j] = l[j] := by rw [List.getElem_append_left hj]
    have b2 := put_in_holds b1 hj' (i := (s.q.begin + j) % 16) (by show _ = (q'.begin + j) % 16; rw [a3])
      { (l[j]).1 with data := .asyncVmcs base 0 }
    rw [hlj, hx2] at b2
    have hne : (s.q.begin + j) % 16 ≠ (s.q.begin + l.length) % 16 := by omega
    have hget2 : (q'.put ((s.q.begin + l.length) % 16) (l[j]).1).get ((s.q.begin + j) % 16) = (l[j]).1 := by
      rw [put_get_ne a2.size (by omega) (Ne.symm hne), hget]
    refine Start.more (s := { s with q := _ }) (h.withQ (l' := (l ++ [((l[j]).1, evbTip)]).set j
      (⟨.asyncVmcs base 0, (l[j]).1.ipSuppressed, (l[j]).1.statusUpdate, (l[j]).1.hasTsc, (l[j]).1.tsc, (l[j]).1.lostMtc,
        (l[j]).1.lostCyc⟩, 2)) ?_ ?_ ?_)
    · simp only [Evd.ev, Evd.setEv, hget, hget2]
      exact b2
    · intro x hm
      rcases List.mem_or_eq_of_mem_set hm with hm | rfl
      · exact t1 x hm
      · exact .tip _
    · refine ordL_set o1 hj' ?_
      rw [hlj, hk2]; unfold kind; rw [matches_mk, if_pos (by decide)]
  · rw [h1]
    dsimp only
    split
    · rename_i hf
      exact h.enq (.tip _) fun _ => find_async h.holds hf
    · exact h.alone rfl

theorem exstopEvent_inv {ip : Bool} (h : Start c t s l) : EM.wlp (exstopEvent c ip) (Post c t) Ex s := by
  unfold exstopEvent
  split
  · exact h.fupBound (fupOk_of rfl rfl)
  · exact h.alone rfl

theorem typ_erase {j : Nat} (h : ∀ x ∈ l, Typ x) : ∀ x ∈ l.eraseIdx j, Typ x :=
  fun x hx => h x (List.mem_of_mem_eraseIdx hx)

theorem mem_of_get {x : Event × Nat} {j : Nat} (h : l[j]? = some x) : x ∈ l := List.mem_of_getElem? h

theorem deq_matches {evb j : Nat} {x : Event × Nat} (h1 : firstMatch evb l = some j) (h2 : l[j]? = some x) :
    matches_ evb x = true := by
  obtain ⟨hj, h3, _⟩ := firstMatch_some_iff h1
  rw [List.getElem?_eq_getElem hj, Option.some.injEq] at h2
  rw [← h2]; exact h3

theorem typ_snoc {x : Event × Nat} (h : ∀ x ∈ l, Typ x) (hx : Typ x) : ∀ y ∈ l ++ [x], Typ y := by
  intro y hm
  rcases List.mem_append.1 hm with hm | hm
  · exact h y hm
  · rw [List.mem_singleton.1 hm]; exact hx

theorem decodeExstop_inv {ip : Bool} (h : Start c t s l) : EM.wlp (decodeExstop c ip) (Post c t) Ex s := by
  unfold decodeExstop
  rw [EM.wlp_bind]
  refine wlp_deq h.holds (fun _ => exstopEvent_inv h) fun j x q' h1 h2 h3 h4 h5 => ?_
  obtain ⟨⟨a, b, i, hd⟩, hk⟩ := (h.typ x (mem_of_get h2)).at_exstop (deq_matches h1 h2)
  have h' := h.withQ h3 (typ_erase h.typ) (ordL_erase h.o h2 hk)
  dsimp only
  rw [EM.wlp_bind, EM.wlp_get]
  dsimp only
  rw [h4, hd]
  dsimp only
  split
  · rw [EM.wlp_bind]
    refine wlp_enqSlot (s := { s with q := q' }) h3 fun q'' a1 a2 a3 a4 a5 => ?_
    unfold updEv
    rw [EM.wlp_bind, EM.wlp_modify]
    dsimp only at a5 a3 ⊢
    have hg : q''.get s.q.begin = x.1 := by
      rw [← h4]
      unfold Evq.get
      rw [a5]
      rcases h5 with h5 | h5
      · cases h5
      · injection h5 with h5
        have := h3.begin
        omega
    have hx : FupOk x.1 := by refine fupOk_of ?_ ?_ <;> rw [hd] <;> rfl
    have hh := h'.withQ (q' := q''.put _ x.1) (put_last_holds a2 (by rw [a3]) _) (typ_snoc h'.typ (.fupBound _ hx))
        (ordL_snoc h'.o (by intro hk; rw [show kind (x.1, evbFupBound) = 0 from kind_fupBound x.1] at hk; cases hk))
    have := exstopEvent_inv (ip := ip) hh
    rw [← hg] at this
    exact this
  · rw [EM.wlp_bind]
    refine wlp_updEv_free (s := { s with q := q' }) h3 h5 fun q'' b1 b2 b3 => ?_
    unfold setEvent
    rw [EM.wlp_bind, EM.wlp_modify]
    have hd' : (Evd.ev { s with q := q'', event := some (.slot s.q.begin) } (.slot s.q.begin)).data.plain = true := by
      have : Evd.ev { s with q := q'', event := some (.slot s.q.begin) } (.slot s.q.begin) =
        Evd.ev { s with q := q'' } (.slot s.q.begin) := rfl
      rw [this, b3]; rfl
    exact timeEv_plain (s := { s with q := q'', event := some (.slot s.q.begin) }) rfl hd'
      (.inl ((h'.toNorm.withQ b1 h'.typ fun _ => h'.o).event _)) b2

theorem decodeMwait_inv {a b : Nat} (h : Start c t s l) : EM.wlp (decodeMwait a b) (Post c t) Ex s :=
  h.enq (.exstop _ a b 0 rfl) (by
    intro hk; rw [show kind (_, evbExstop) = 0 from kind_exstop _] at hk; cases hk)

theorem decodePtw_inv {pl plc : Nat} {ip : Bool} (h : Start c t s l) (hp : plc = 0 ∨ plc = 1) :
    EM.wlp (decodePtw c pl plc ip) (Post c t) Ex s := by
  unfold decodePtw
  rw [EM.wlp_bind]
  rcases hp with rfl | rfl
  all_goals
    unfold EM.wlp EM.lift ptwSize
    dsimp only
    refine (?_ : EM.wlp _ (Post c t) Ex s)
    split
    · exact h.fupBound (fupOk_of rfl rfl)
    · exact h.alone rfl

/-! ## FUP -/

theorem Norm.boundSet (h : Norm c t s l) (b : Bool) (h1 : ¬ Draining { s with bound := b } → OrdL l)
    (h2 : b = true → s.packet.isTip = true ∨ s.packet.isFup = true) : Norm c t { s with bound := b } l :=
  ⟨h.holds, h.typ, h1, h.en, h.st, h.tm, h.pk, h2⟩

theorem wlp_publish {i : Nat} {f : Event → EM Bool} {Q : Bool → Evd → Prop} {E : Err → Evd → Prop}
    (h : EM.wlp (f (s.q.get i)) Q E { s with event := some (.slot i) }) : EM.wlp (publish i f) Q E s := by
  unfold publish setEvent
  rw [EM.wlp_bind, EM.wlp_modify, EM.wlp_bind, EM.wlp_get]
  exact h

theorem not_draining_fup (h : s.packet.isFup = true) : ¬ Draining s := by
  rintro ⟨_, h2⟩
  cases hp : s.packet <;> rw [hp] at h h2 <;> first | (exfalso; cases h; done) | (cases h2)

theorem wlp_lift {α : Type} {r : Res α} {Q : α → Evd → Prop} {E : Err → Evd → Prop} (h1 : ∀ a, r = .ok a → Q a s)
    (h2 : ∀ e, r = .err e → E e s) : EM.wlp (EM.lift r) Q E s := by
  unfold EM.wlp EM.lift
  cases r with
  | ok a => exact h1 a rfl
  | err e => exact h2 e rfl
  | ub => trivial

theorem query_no_internal {x : LastIp} {e : Err} (h : x.query = .err e) : e ≠ .internal := by
  unfold LastIp.query at h
  split at h
  · injection h with h; rw [← h]; simp
  · split at h
    · injection h with h; rw [← h]; simp
    · cases h

theorem post_norm {p : EvPtr} {t' : Bool} (he : s.event = some p) (hb : isBranch (s.ev p) = true → t = true)
    (hn : Norm c t' s l) (hu : s.enabled = true → upd c t (s.ev p) s = true) : Post c t false s := by
  unfold Post
  rw [if_neg (by simp)]
  exact ⟨p, he, hb, l, .inl ⟨hn.holds, hn.typ, hn.ord, hu, hn.st, hn.tm, hn.pk, hn.bd⟩⟩

theorem decodeFup_inv {ipc ip : Nat} : ∀ (n : Nat) (s : Evd) (l : List (Event × Nat)), Norm c t s l → s.event = none →
    s.packet = .fup ipc ip → EM.wlp (decodeFup ipc ip n) (Post c t) Ex s := by
  intro n
  induction n with
  | zero => intro s l _ _ _; exact (EM.wlp_undef _ _ _).2 trivial
  | succ n ih =>
    intro s l h he hp
    unfold decodeFup
    rw [EM.wlp_bind]
    refine wlp_updIp fun x hx => ?_
    rw [EM.wlp_bind]
    have hf : s.packet.isFup = true := by rw [hp]; rfl
    have key : ∀ b, EM.wlp (do
        match ← deq (evbFup ||| evbFupBound) with
        | none => fupUnbound
        | some i => publish i (fupEvent i (decodeFup ipc ip n))) (Post c t) Ex { s with ip := x, bound := b } := by
      intro b
      have h' : Norm c t { s with ip := x, bound := b } l :=
        (h.ip x).boundSet b (fun _ => h.ord (not_draining_fup hf)) fun _ => .inr hf
      have ho : OrdL l := h.ord (not_draining_fup hf)
      rw [EM.wlp_bind]
      refine wlp_deq (s := { s with ip := x, bound := b }) h'.holds (fun _ => ?_) fun j y q' h1 h2 h3 h4 h5 => ?_
      · dsimp only
        unfold fupUnbound
        rw [EM.wlp_bind, EM.wlp_get]
        split
        · rw [EM.wlp_pure]; exact post_true h' ho he
        · rw [EM.wlp_bind]
          refine wlp_lift (fun a _ => ?_) (fun e h => Ex.of (query_no_internal h))
          exact enqMore_inv h' ho he (.tip _) (by
            intro hk; unfold kind at hk; rw [matches_mk, if_pos (by decide)] at hk; cases hk)
      · dsimp only
        obtain ⟨hy, hk⟩ := (h.typ y (mem_of_get h2)).at_fup (deq_matches h1 h2)
        have ho' := ordL_erase ho h2 hk
        have h6 := (h'.withQ h3 (typ_erase h.typ) fun _ => ho').event (some (.slot s.q.begin))
        refine wlp_publish (s := { s with ip := x, bound := b, q := q' }) ?_
        dsimp only
        rw [show q'.get s.q.begin = y.1 from h4]
        have hev : Evd.ev { s with ip := x, bound := b, q := q', event := some (.slot s.q.begin) } (.slot s.q.begin) = y.1 := h4
        have fin : y.1.data.plain = true → EM.wlp (ipTimeEv (.slot s.q.begin)) (Post c t) Ex
            { s with ip := x, bound := b, q := q', event := some (.slot s.q.begin) } := fun hd =>
          ipTimeEv_plain rfl (by rw [hev]; exact hd) (.inl h6) h5
        have finT : y.1.data.plain = true → y.1.ipSuppressed = true → EM.wlp (do
            let _ ← timeEv (.slot s.q.begin)
            if y.1.ipSuppressed = true then return false else EM.fail .internal) (Post c t) Ex
            { s with ip := x, bound := b, q := q', event := some (.slot s.q.begin) } := by
          intro hd hs
          rw [EM.wlp_bind, if_pos hs]
          refine wlp_timeEv (.inl h6) h5 fun q'' a1 a2 a3 => ?_
          rw [EM.wlp_pure]
          exact post_plain (by exact rfl) (by rw [a3, hev]; exact hd) a1
        unfold fupEvent
        cases hd : y.1.data with
        | overflow a =>
          dsimp only
          rw [EM.wlp_bind]
          refine wlp_updEv_free h6.holds h5 fun q'' a1 a2 a3 => ?_
          rw [EM.wlp_bind, EM.wlp_modify, EM.wlp_pure]
          rw [hev] at a3
          have e1 : Evd.ev { s with ip := x, bound := b, q := q'', event := some (.slot s.q.begin), enabled := true }
            (.slot s.q.begin) = y.1.withIp x := a3
          refine post_norm (s := { s with ip := x, bound := b, q := q'', event := some (.slot s.q.begin), enabled := true })
            (t' := true) (l := l.eraseIdx j) rfl ?_ ⟨a1, h6.typ, fun _ => ho', fun _ => rfl, h6.st, h6.tm, h6.pk, h6.bd⟩ ?_
          · rw [e1]
            intro hb
            unfold isBranch Event.withIp at hb
            cases hq : x.query <;> rw [hq] at hb <;> dsimp only at hb <;> rw [hd] at hb <;> cases hb
          · intro _
            rw [e1]
            unfold upd tracing Event.withIp noIp
            dsimp only
            rw [hp]
            by_cases hi : ipc = 0
            · subst hi
              cases x.query <;> simp [EvData.setIp, hd]
            · obtain ⟨v, hv⟩ := hx hi
              rw [hv]
              have := hy.2 (by rw [hd]; rfl)
              simp [EvData.setIp, hd, this]
        | tick =>
          dsimp only
          unfold setEvent
          rw [EM.wlp_bind, EM.wlp_modify]
          exact ih _ _ (h6.event none) rfl hp
        | rsm =>
          exact finT (by rw [hd]; rfl) (hy.1 (by rw [hd]; rfl))
        | sipi v =>
          exact finT (by rw [hd]; rfl) (hy.1 (by rw [hd]; rfl))
        | _ =>
          first
            | exact fin (by rw [hd]; rfl)
            | exact (EM.wlp_fail _ _ _ _).2 (Ex.of (by simp))
    unfold EM.wlp fupPending
    dsimp only
    rw [pending_holds h.holds]
    cases l.any (matches_ evbFupBound) with
    | true => exact key true
    | false => exact key s.bound

end Ipt
