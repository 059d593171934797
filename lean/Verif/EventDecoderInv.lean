import Verif.EventDecoderSafe
import Verif.TimingInv
import Verif.PacketErr

/-! Helper lemmas: the invariant of the event decoder between successful calls. -/

set_option linter.unusedSimpArgs false

namespace Ipt

/-! ## Pending events -/

/-- What an entry that binds to TIP means for asynchronous branches: 1 for the branch itself, 2 for the
events that accompany it. -/
def kind (x : Event × Nat) : Nat :=
  if matches_ evbTip x = true then
    match x.1.data with
    | .asyncBranch .. => 1
    | .asyncPaging .. | .asyncVmcs .. => 2
    | _ => 0
  else 0

/-- Every 2 is preceded by a 1. -/
def Ord : Bool → List Nat → Prop
  | _, [] => True
  | b, k :: l => (k = 2 → b = true) ∧ Ord (b || k == 1) l

theorem Ord.mono : ∀ {l : List Nat} {b b' : Bool}, (b = true → b' = true) → Ord b l → Ord b' l := by
  intro l
  induction l with
  | nil => intro _ _ _ _; trivial
  | cons k l ih =>
    intro b b' h ho
    refine ⟨fun hk => h (ho.1 hk), ih ?_ ho.2⟩
    simp only [Bool.or_eq_true]
    rintro (h1 | h1)
    · exact .inl (h h1)
    · exact .inr h1

theorem ord_snoc : ∀ {l : List Nat} {b : Bool} {k : Nat}, Ord b l → (k = 2 → b = true ∨ 1 ∈ l) → Ord b (l ++ [k]) := by
  intro l
  induction l with
  | nil => intro b k _ h; exact ⟨fun hk => by simpa using h hk, trivial⟩
  | cons a l ih =>
    intro b k ho h
    refine ⟨ho.1, ih ho.2 fun hk => ?_⟩
    rcases h hk with h | h
    · left; simp [h]
    · rcases List.mem_cons.1 h with h | h
      · left; simp [← h]
      · right; exact h

theorem ord_erase : ∀ {l : List Nat} {b : Bool} {j : Nat}, Ord b l → l[j]? ≠ some 1 → Ord b (l.eraseIdx j) := by
  intro l
  induction l with
  | nil => intro b j _ _; trivial
  | cons a l ih =>
    intro b j ho h
    cases j with
    | zero =>
      simp only [List.getElem?_cons_zero, ne_eq, Option.some.injEq] at h
      refine ho.2.mono ?_
      intro hb
      simpa [h] using hb
    | succ j => exact ⟨ho.1, ih ho.2 (by simpa using h)⟩

theorem ord_first : ∀ {l : List Nat} {b : Bool} {j : Nat}, Ord b l → l[j]? = some 2 → b = true ∨ ∃ i, i < j ∧ l[i]? = some 1 := by
  intro l
  induction l with
  | nil => intro b j _ h; simp at h
  | cons a l ih =>
    intro b j ho h
    cases j with
    | zero => left; exact ho.1 (by simpa using h)
    | succ j =>
      rcases ih ho.2 (by simpa using h) with h1 | ⟨i, hi, h1⟩
      · simp only [Bool.or_eq_true, beq_iff_eq] at h1
        rcases h1 with h1 | h1
        · exact .inl h1
        · exact .inr ⟨0, by omega, by simp [h1]⟩
      · exact .inr ⟨i + 1, by omega, by simpa using h1⟩

theorem ord_zero : ∀ {l : List Nat} {b : Bool}, (∀ k ∈ l, k ≠ 2) → Ord b l := by
  intro l
  induction l with
  | nil => intro _ _; trivial
  | cons a l ih =>
    intro b h
    exact ⟨fun hk => absurd hk (h a (by simp)), ih fun k hk => h k (by simp [hk])⟩

/-- Asynchronous paging and VMCS events that wait for TIP follow an asynchronous branch event. -/
def OrdL (l : List (Event × Nat)) : Prop := Ord false (l.map kind)

theorem ordL_nil : OrdL [] := trivial

theorem ordL_snoc {l : List (Event × Nat)} {x : Event × Nat} (h : OrdL l) (hx : kind x = 2 → ∃ y ∈ l, kind y = 1) :
    OrdL (l ++ [x]) := by
  unfold OrdL at *
  rw [List.map_append]
  refine ord_snoc h fun hk => .inr ?_
  obtain ⟨y, hy, hk⟩ := hx hk
  exact List.mem_map.2 ⟨y, hy, hk⟩

theorem map_eraseIdx_eq {α β : Type} (f : α → β) : ∀ (l : List α) (j : Nat),
    (l.eraseIdx j).map f = (l.map f).eraseIdx j := by
  intro l
  induction l with
  | nil => intro j; rfl
  | cons a l ih =>
    intro j
    cases j with
    | zero => rfl
    | succ j => simp [ih]

theorem ordL_erase {l : List (Event × Nat)} {x : Event × Nat} {j : Nat} (h : OrdL l) (hj : l[j]? = some x)
    (hx : kind x ≠ 1) : OrdL (l.eraseIdx j) := by
  unfold OrdL at *
  have h2 := ord_erase (j := j) h (by simp [hj, hx])
  rwa [map_eraseIdx_eq]

theorem ordL_set {l : List (Event × Nat)} {x : Event × Nat} {j : Nat} (h : OrdL l) (hj : j < l.length)
    (hx : kind x = kind l[j]) : OrdL (l.set j x) := by
  unfold OrdL at *
  rw [List.map_set, hx]
  have : (List.map kind l).set j (kind l[j]) = List.map kind l := by
    apply List.ext_getElem (by simp)
    intro i h1 h2
    rw [List.getElem_set]
    split
    · rename_i hij; subst hij; simp
    · rfl
  rw [this]; exact h

/-- Events that have no IP. -/
def EvData.isRsmSipi : EvData → Bool
  | .rsm | .sipi _ => true
  | _ => false

/-- `ev->type == ptev_overflow` -/
def EvData.isOverflow : EvData → Bool
  | .overflow _ => true
  | _ => false

/-- The events waiting for a FUP. -/
def FupOk (e : Event) : Prop :=
  (e.data.isRsmSipi = true → e.ipSuppressed = true) ∧ (e.data.isOverflow = true → e.ipSuppressed = false)

/-- The events of MODE.EXEC, which wait for a TIP or FUP. -/
def EvData.isMode : EvData → Bool
  | .execMode .. | .iflags .. | .tick .. => true
  | _ => false

/-- The pending events and their bindings. -/
inductive Typ : Event × Nat → Prop
  | tip (e : Event) : Typ (e, 2)
  | fup (e : Event) (h : FupOk e) : Typ (e, 4)
  | fupBound (e : Event) (h : FupOk e) : Typ (e, 8)
  | mode (e : Event) (h : e.data.isMode = true) : Typ (e, 10)
  | exstop (e : Event) (a b ip : Nat) (h : e.data = .mwait a b ip) : Typ (e, 16)
  | cfe (e : Event) : Typ (e, 32)

theorem matches_mk (evb : Nat) (e : Event) (n : Nat) : matches_ evb (e, n) = decide (n &&& evb ≠ 0) := rfl

theorem Typ.not_psbend {x : Event × Nat} (h : Typ x) : matches_ evbPsbend x = false := by
  cases h <;> (rw [matches_mk]; decide)

theorem Typ.any {x : Event × Nat} (h : Typ x) : matches_ (2 ^ 32 - 1) x = true := by
  cases h <;> (rw [matches_mk]; decide)

theorem Typ.at_fup {x : Event × Nat} (h : Typ x) (hm : matches_ (evbFup ||| evbFupBound) x = true) :
    FupOk x.1 ∧ kind x ≠ 1 := by
  cases h with
  | fup e h => exact ⟨h, by simp [kind, matches_, evbTip]⟩
  | fupBound e h => exact ⟨h, by simp [kind, matches_, evbTip]⟩
  | mode e h =>
    unfold FupOk kind
    cases hd : e.data <;> simp_all [EvData.isMode, EvData.isRsmSipi, EvData.isOverflow]
  | tip e => rw [matches_mk] at hm; exact absurd hm (by decide)
  | exstop => rw [matches_mk] at hm; exact absurd hm (by decide)
  | cfe => rw [matches_mk] at hm; exact absurd hm (by decide)

theorem Typ.at_exstop {x : Event × Nat} (h : Typ x) (hm : matches_ evbExstop x = true) :
    (∃ a b ip, x.1.data = .mwait a b ip) ∧ kind x ≠ 1 := by
  cases h with
  | exstop e a b ip h => exact ⟨⟨a, b, ip, h⟩, by simp [kind, matches_, evbTip]⟩
  | fup e h => rw [matches_mk] at hm; exact absurd hm (by decide)
  | fupBound e h => rw [matches_mk] at hm; exact absurd hm (by decide)
  | mode e h => rw [matches_mk] at hm; exact absurd hm (by decide)
  | tip e => rw [matches_mk] at hm; exact absurd hm (by decide)
  | cfe => rw [matches_mk] at hm; exact absurd hm (by decide)

theorem Typ.at_cfe {x : Event × Nat} (h : Typ x) (hm : matches_ evbCfe x = true) : x.2 = 32 ∧ kind x ≠ 1 := by
  cases h with
  | cfe e => exact ⟨rfl, by simp [kind, matches_, evbTip]⟩
  | exstop e a b ip h => rw [matches_mk] at hm; exact absurd hm (by decide)
  | fup e h => rw [matches_mk] at hm; exact absurd hm (by decide)
  | fupBound e h => rw [matches_mk] at hm; exact absurd hm (by decide)
  | mode e h => rw [matches_mk] at hm; exact absurd hm (by decide)
  | tip e => rw [matches_mk] at hm; exact absurd hm (by decide)

theorem firstMatch_some_iff {evb : Nat} {l : List (Event × Nat)} {j : Nat} (h : firstMatch evb l = some j) :
    ∃ hj : j < l.length, matches_ evb l[j] = true ∧ ∀ i (hi : i < j), matches_ evb (l[i]'(by omega)) = false := by
  unfold firstMatch at h
  rw [List.findIdx?_eq_some_iff_getElem] at h
  obtain ⟨hj, h1, h2⟩ := h
  exact ⟨hj, h1, fun i hi => by simpa using h2 i hi⟩

theorem firstMatch_none_iff {evb : Nat} {l : List (Event × Nat)} (h : firstMatch evb l = none) :
    ∀ x ∈ l, matches_ evb x = false := by
  unfold firstMatch at h
  rw [List.findIdx?_eq_none_iff] at h
  exact h

theorem kind_tip {x : Event × Nat} (h : kind x ≠ 0) : matches_ evbTip x = true := by
  unfold kind at h
  split at h
  · assumption
  · exact absurd rfl h

/-- Without entries for TIP there is nothing to order. -/
theorem ordL_none {l : List (Event × Nat)} (h : firstMatch evbTip l = none) : OrdL l := by
  refine ord_zero fun k hk => ?_
  obtain ⟨x, hx, rfl⟩ := List.mem_map.1 hk
  intro h2
  have := kind_tip (x := x) (by omega)
  rw [firstMatch_none_iff h x hx] at this
  cases this

/-- The first entry for TIP is not an event that accompanies a branch. -/
theorem ordL_first {l : List (Event × Nat)} {x : Event × Nat} {j : Nat} (h : OrdL l) (hm : firstMatch evbTip l = some j)
    (hj : l[j]? = some x) : kind x ≠ 2 := by
  intro h2
  obtain ⟨hjl, h3, h4⟩ := firstMatch_some_iff hm
  rcases ord_first (j := j) h (by simp [hj, h2]) with hc | ⟨i, hi, h5⟩
  · cases hc
  · rw [List.getElem?_map, List.getElem?_eq_getElem (by omega)] at h5
    simp only [Option.map_some, Option.some.injEq] at h5
    have := kind_tip (x := l[i]'(by omega)) (by omega)
    rw [h4 i hi] at this
    cases this

/-! ## States -/

/-- TIP, TIP.PGE or TIP.PGD. -/
def Packet.isTip : Packet → Bool
  | .tip .. | .tipPge .. | .tipPgd .. => true
  | _ => false

/-- FUP. -/
def Packet.isFup : Packet → Bool
  | .fup .. => true
  | _ => false

/-- The decoder is delivering the events that wait for a TIP. -/
def Draining (s : Evd) : Prop := s.bound = true ∧ s.packet.isTip = true

/-- The packet was delivered by the packet decoder, or is the marker for errors. -/
def PktOk (c : EvtCfg) (p : Packet) : Prop := p = .invalid ∨ ∃ d d' n, pktDecNext c.pkt d = (d', .ok (p, n))

open Spec in
theorem PktOk.range {c : EvtCfg} {p : Packet} (h : PktOk c p) : p = .unknown ∨ p = .invalid ∨ Representable p := by
  rcases h with rfl | ⟨d, d', n, h⟩
  · exact .inr (.inl rfl)
  · exact next_range h

/-- The invariant outside PSB+.  `t`: according to the events so far, tracing is enabled. -/
structure Norm (c : EvtCfg) (t : Bool) (s : Evd) (l : List (Event × Nat)) : Prop where
  holds : s.q.Holds l
  typ : ∀ x ∈ l, Typ x
  ord : ¬ Draining s → OrdL l
  en : s.enabled = true → t = true
  st : s.status ≠ some .internal
  tm : s.tm.Ok
  pk : PktOk c s.packet
  bd : s.bound = true → s.packet.isTip = true ∨ s.packet.isFup = true

/-- `ev->type == ptev_enabled` -/
def EvData.isEnabled : EvData → Bool
  | .enabled _ => true
  | _ => false

/-- `ev->type == ptev_disabled` -/
def EvData.isDisabled : EvData → Bool
  | .disabled _ => true
  | _ => false

/-- The status events of PSB+ other than the first one. -/
def EvData.isStatus : EvData → Bool
  | .execMode .. | .iflags .. | .tsx .. | .asyncPaging .. | .asyncVmcs .. | .cbr .. | .mnt .. => true
  | _ => false

/-- The invariant while delivering the events of PSB+. -/
structure Hdr (c : EvtCfg) (t : Bool) (s : Evd) (l : List (Event × Nat)) : Prop where
  holds : s.q.Holds l
  pack : s.packet = .psbend ∨ s.packet = .ovf
  pk : PktOk c s.packet
  bind : ∀ x ∈ l, x.2 = 1
  en : s.enabled = true → t = true ∨ ∃ x, l.head? = some x ∧ x.1.data.isEnabled = true
  head : ∀ x, l.head? = some x → x.1.data.isEnabled = true ∨ (x.1.data.isDisabled = true ∧ s.enabled = false) ∨
    x.1.data.isStatus = true
  tail : ∀ x ∈ l.tail, x.1.data.isStatus = true
  st : s.status ≠ some .internal
  tm : s.tm.Ok
  bd : s.bound = false

/-- The invariant between calls, apart from `event`. -/
def Inv (c : EvtCfg) (t : Bool) (s : Evd) : Prop := ∃ l, Norm c t s l ∨ Hdr c t s l

namespace Spec

/-- Tracing-enabled state according to the events: after `e`, if it was `t` before.  An overflow event
without IP says that tracing is disabled; `noIp` stands for the exceptions. -/
def tracing (t : Bool) (e : Event) (noIp : Bool) : Bool :=
  match e.data with
  | .enabled _ => true
  | .disabled _ | .asyncDisabled .. => false
  | .overflow _ => !e.ipSuppressed || noIp
  | _ => t

/-- A branch outcome or target. -/
def isBranch (e : Event) : Bool :=
  match e.data with
  | .tnt .. | .tip .. => true
  | _ => false

/-- Some packet at some position of the trace is a FUP or a TIP with suppressed IP. -/
def SuppressedIp (c : EvtCfg) : Prop :=
  ∃ pos ip n pos', pktNext c.pkt (some pos) = .ok (.fup 0 ip, n, pos') ∨ pktNext c.pkt (some pos) = .ok (.tip 0 ip, n, pos')

open Classical in
/-- The exceptions for overflow events: the event was delivered at a FUP with suppressed IP, or the SKD010
work-around is enabled and the trace contains FUP or TIP packets with suppressed IP. -/
noncomputable def noIp (c : EvtCfg) (p : Packet) : Bool :=
  c.pkt.errata.skd010 && decide (SuppressedIp c) || match p with
    | .fup 0 _ => true
    | _ => false

end Spec

open Spec

/-- The tracing state after an event delivered in state `s`. -/
noncomputable def upd (c : EvtCfg) (t : Bool) (e : Event) (s : Evd) : Bool := tracing t e (noIp c s.packet)

/-- A decode function asked for more packets or delivered an event. -/
def Post (c : EvtCfg) (t : Bool) (b : Bool) (s : Evd) : Prop :=
  if b = true then ∃ l, Norm c t s l ∧ OrdL l ∧ s.event = none
  else ∃ p, s.event = some p ∧ (isBranch (s.ev p) = true → t = true) ∧ Inv c (upd c t (s.ev p) s) s

/-- Reserved types of CFE packets. -/
def unknownCfe (type : Nat) : Prop := type = 0 ∨ type = 0xb ∨ 0xe ≤ type

/-- Internal errors occur only in two packets. -/
def Ex (e : Err) (s : Evd) : Prop :=
  e = .internal → (∃ a b, s.packet = .tip a b) ∨ (∃ t v i, s.packet = .cfe t v i ∧ unknownCfe t)

theorem Ex.of {e : Err} {s : Evd} (h : e ≠ .internal) : Ex e s := fun h2 => absurd h2 h

/-! ## Basic operations -/

/-- A slot that is not pending, or the standalone event. -/
def Free (p : EvPtr) (q : Evq Event) : Prop := p = .alone ∨ p = .slot ((q.begin + 15) % 16)

theorem wlp_updEv_free {p : EvPtr} {f : Evd → Event → Event} {s : Evd} {l : List (Event × Nat)}
    {Q : Unit → Evd → Prop} {E : Err → Evd → Prop} (hl : s.q.Holds l) (hp : Free p s.q)
    (hq : ∀ q', q'.Holds l → Free p q' → Evd.ev { s with q := q' } p = f s (s.ev p) → Q () { s with q := q' }) :
    EM.wlp (updEv p f) Q E s := by
  unfold updEv
  rw [EM.wlp_modify]
  rcases hp with rfl | rfl
  · exact hq { s.q with standalone := f s (s.ev .alone) } (standalone_holds hl _) (.inl rfl) rfl
  · exact hq (s.q.put ((s.q.begin + 15) % 16) (f s (s.ev (.slot ((s.q.begin + 15) % 16)))))
      (put_free_holds hl rfl _) (.inr rfl) (put_get hl.size (by omega) _)

theorem wlp_enqSlot' {evb : Nat} {s : Evd} {l : List (Event × Nat)} {Q : Nat → Evd → Prop} {E : Err → Evd → Prop}
    (hE : ∀ e s, e ≠ .internal → E e s) (hl : s.q.Holds l)
    (hq : ∀ q', l.length < 14 → q'.Holds (l ++ [(default, evb)]) → q'.begin = s.q.begin →
      q'.standalone = s.q.standalone → (∀ j, j ≠ (s.q.begin + l.length) % 16 → q'.entry j = s.q.entry j) →
      Q ((s.q.begin + l.length) % 16) { s with q := q' }) : EM.wlp (enqSlot evb) Q E s := by
  unfold EM.wlp enqSlot
  have hlen := hl.len
  by_cases h : l.length < 14
  · obtain ⟨q', h1, h2, h3, h4, h5⟩ := (enqueue_holds hl evb).1 h
    rw [h1]
    dsimp only
    rw [hl.end_]
    refine hq q' h h2 h3 h5 ?_
    rw [← hl.end_]; exact h4
  · rw [(enqueue_holds hl evb).2 (by omega)]
    exact hE _ _ (by simp)

theorem wlp_enqSlot {evb : Nat} {s : Evd} {l : List (Event × Nat)} {Q : Nat → Evd → Prop}
    (hl : s.q.Holds l)
    (hq : ∀ q', l.length < 14 → q'.Holds (l ++ [(default, evb)]) → q'.begin = s.q.begin →
      q'.standalone = s.q.standalone → (∀ j, j ≠ (s.q.begin + l.length) % 16 → q'.entry j = s.q.entry j) →
      Q ((s.q.begin + l.length) % 16) { s with q := q' }) : EM.wlp (enqSlot evb) Q Ex s :=
  wlp_enqSlot' (fun _ _ h => Ex.of h) hl hq

theorem wlp_enq' {evb : Nat} {e : Event} {s : Evd} {l : List (Event × Nat)} {Q : Unit → Evd → Prop} {E : Err → Evd → Prop}
    (hE : ∀ e s, e ≠ .internal → E e s) (hl : s.q.Holds l)
    (hq : ∀ q', q'.Holds (l ++ [(e, evb)]) → q'.begin = s.q.begin → Q () { s with q := q' }) :
    EM.wlp (enq evb e) Q E s := by
  unfold enq
  rw [EM.wlp_bind]
  refine wlp_enqSlot' hE hl fun q' _ h1 h2 _ _ => ?_
  unfold updEv
  rw [EM.wlp_modify]
  exact hq (q'.put _ e) (put_last_holds h1 (by rw [h2]) e) h2

theorem wlp_enq {evb : Nat} {e : Event} {s : Evd} {l : List (Event × Nat)} {Q : Unit → Evd → Prop}
    (hl : s.q.Holds l) (hq : ∀ q', q'.Holds (l ++ [(e, evb)]) → Q () { s with q := q' }) :
    EM.wlp (enq evb e) Q Ex s := wlp_enq' (fun _ _ h => Ex.of h) hl fun q' h _ => hq q' h

theorem wlp_deq {evb : Nat} {s : Evd} {l : List (Event × Nat)} {Q : Option Nat → Evd → Prop} {E : Err → Evd → Prop}
    (hl : s.q.Holds l) (h0 : firstMatch evb l = none → Q none s)
    (h1 : ∀ j x q', firstMatch evb l = some j → l[j]? = some x → q'.Holds (l.eraseIdx j) →
      q'.get s.q.begin = x.1 → Free (.slot s.q.begin) q' → Q (some s.q.begin) { s with q := q' }) :
    EM.wlp (deq evb) Q E s := by
  unfold EM.wlp
  have hb := hl.begin
  rcases deq_cases hl evb with ⟨h2, h3⟩ | ⟨j, e, q', h2, h3, h4, h5, h6, h7, h8⟩
  · rw [h3]; exact h0 h2
  · rw [h4]
    exact h1 j e q' h2 h3 h5 h6 (.inr (by rw [h7]; congr 1; omega))

theorem wlp_updIp' {ipc ip : Nat} {s : Evd} {Q : Unit → Evd → Prop} {E : Err → Evd → Prop}
    (hE : ∀ e s, e ≠ .internal → E e s)
    (hq : ∀ x, (ipc ≠ 0 → ∃ v, x.query = .ok v) → Q () { s with ip := x }) : EM.wlp (updIp ipc ip) Q E s := by
  unfold EM.wlp updIp
  unfold LastIp.update
  repeat' split
  all_goals rename_i h
  all_goals repeat' split at h
  all_goals injection h with h1 h2
  all_goals subst h1
  all_goals first
    | exact hq _ (fun _ => ⟨_, rfl⟩)
    | exact hq _ (fun hn => absurd ‹ipc = 0› hn)
    | trivial
    | (cases h2; exact hE _ _ (by simp))
    | cases h2

theorem wlp_updIp {ipc ip : Nat} {s : Evd} {Q : Unit → Evd → Prop}
    (hq : ∀ x, (ipc ≠ 0 → ∃ v, x.query = .ok v) → Q () { s with ip := x }) : EM.wlp (updIp ipc ip) Q Ex s :=
  wlp_updIp' (fun _ _ h => Ex.of h) hq

theorem wlp_fetch {c : EvtCfg} {s : Evd} {Q : Unit → Evd → Prop} {E : Err → Evd → Prop}
    (hs : s.status ≠ some .internal)
    (hq : ∀ pd p size st, PktOk c p → st ≠ some .internal → p ≠ .pad →
      Q () { s with pd := pd, packet := p, size := size, status := st }) :
    EM.wlp (fetchPacket c) Q E s := by
  have key : ∀ n pd0 p0 sz0, EM.wlp (fetchLoop c n) Q E { s with pd := pd0, packet := p0, size := sz0 } := by
    intro n
    induction n with
    | zero => intro _ _ _; exact (EM.wlp_undef _ _ _).2 trivial
    | succ n ih =>
      intro pd0 p0 sz0
      unfold EM.wlp fetchLoop
      dsimp only
      rcases hx : pktDecNext c.pkt pd0 with ⟨pd, ⟨p, size⟩ | e | _⟩
      · dsimp only
        by_cases hp : p = .pad
        · rw [if_pos hp]; exact ih pd p size
        · rw [if_neg hp]; exact hq pd p size s.status (.inr ⟨_, _, _, hx⟩) hs hp
      · dsimp only
        exact hq pd0 .invalid 0 (some e) (.inl rfl) (by have := next_no_internal hx; simpa using this) (by simp)
      · trivial
  exact key c.fuel s.pd s.packet s.size

/-! ## Delivering events -/

variable {c : EvtCfg} {t : Bool} {s : Evd} {l : List (Event × Nat)}

/-- The invariant after an update of the queue. -/
theorem Norm.withQ (h : Norm c t s l) {l' : List (Event × Nat)} {q' : Evq Event} (h1 : q'.Holds l')
    (h2 : ∀ x ∈ l', Typ x) (h3 : ¬ Draining s → OrdL l') : Norm c t { s with q := q' } l' :=
  ⟨h1, h2, h3, h.en, h.st, h.tm, h.pk, h.bd⟩

theorem Norm.ip (h : Norm c t s l) (x : LastIp) : Norm c t { s with ip := x } l :=
  ⟨h.holds, h.typ, h.ord, h.en, h.st, h.tm, h.pk, h.bd⟩

theorem Norm.event (h : Norm c t s l) (x : Option EvPtr) : Norm c t { s with event := x } l :=
  ⟨h.holds, h.typ, h.ord, h.en, h.st, h.tm, h.pk, h.bd⟩

theorem Hdr.withQ (h : Hdr c t s l) {q' : Evq Event} (h1 : q'.Holds l) : Hdr c t { s with q := q' } l :=
  ⟨h1, h.pack, h.pk, h.bind, h.en, h.head, h.tail, h.st, h.tm, h.bd⟩

theorem Inv.withQ (h : Norm c t s l ∨ Hdr c t s l) {q' : Evq Event} (h1 : q'.Holds l) :
    Norm c t { s with q := q' } l ∨ Hdr c t { s with q := q' } l := by
  rcases h with h | h
  · exact .inl (h.withQ h1 h.typ h.ord)
  · exact .inr (h.withQ h1)

theorem Inv.holds (h : Norm c t s l ∨ Hdr c t s l) : s.q.Holds l := by
  rcases h with h | h <;> exact h.holds

theorem timed_data (e : Event) (x : Time) : (e.timed x).data = e.data ∧ (e.timed x).ipSuppressed = e.ipSuppressed :=
  ⟨rfl, rfl⟩

theorem tracing_congr {t : Bool} {e e' : Event} {b : Bool} (h1 : e.data = e'.data) (h2 : e.ipSuppressed = e'.ipSuppressed) :
    tracing t e b = tracing t e' b := by
  unfold tracing; rw [h1, h2]

theorem isBranch_congr {e e' : Event} (h1 : e.data = e'.data) : isBranch e = isBranch e' := by
  unfold isBranch; rw [h1]

/-- Deliver the current event with the current time. -/
theorem wlp_timeEv {p : EvPtr} {t' : Bool} {Q : Bool → Evd → Prop} {E : Err → Evd → Prop}
    (hn : Norm c t' s l ∨ Hdr c t' s l) (hp : Free p s.q)
    (hq : ∀ q', (Norm c t' { s with q := q' } l ∨ Hdr c t' { s with q := q' } l) → Free p q' →
      Evd.ev { s with q := q' } p = (s.ev p).timed s.tm.time → Q false { s with q := q' }) :
    EM.wlp (timeEv p) Q E s := by
  unfold timeEv
  rw [EM.wlp_bind]
  refine wlp_updEv_free (Inv.holds hn) hp fun q' h1 h2 h3 => ?_
  rw [EM.wlp_pure]
  exact hq q' (Inv.withQ hn h1) h2 h3

theorem wlp_ipTimeEv {p : EvPtr} {t' : Bool} {Q : Bool → Evd → Prop} {E : Err → Evd → Prop}
    (hn : Norm c t' s l ∨ Hdr c t' s l) (hp : Free p s.q)
    (hq : ∀ q', (Norm c t' { s with q := q' } l ∨ Hdr c t' { s with q := q' } l) → Free p q' →
      Evd.ev { s with q := q' } p = ((s.ev p).withIp s.ip).timed s.tm.time → Q false { s with q := q' }) :
    EM.wlp (ipTimeEv p) Q E s := by
  unfold ipTimeEv
  rw [EM.wlp_bind]
  refine wlp_updEv_free (Inv.holds hn) hp fun q' h1 h2 h3 => ?_
  refine wlp_timeEv (s := { s with q := q' }) (Inv.withQ hn h1) h2 fun q'' h4 h5 h6 => ?_
  exact hq q'' h4 h5 (by rw [h6, h3])

/-- Events that do not tell the tracing state. -/
def EvData.plain : EvData → Bool
  | .enabled _ | .disabled _ | .asyncDisabled .. | .overflow _ | .tnt .. | .tip .. => false
  | _ => true

theorem tracing_plain {e : Event} (h : e.data.plain = true) (b : Bool) : tracing t e b = t := by
  unfold tracing
  split
  all_goals first
    | rfl
    | (rename_i hd; rw [hd] at h; cases h)

theorem isBranch_plain {e : Event} (h : e.data.plain = true) : isBranch e = false := by
  unfold isBranch
  split
  all_goals first
    | rfl
    | (rename_i hd; rw [hd] at h; cases h)

theorem setIp_plain {d : EvData} {ip : Nat} : (d.setIp ip).plain = d.plain := by cases d <;> rfl

theorem withIp_plain {e : Event} {x : LastIp} : (e.withIp x).data.plain = e.data.plain := by
  unfold Event.withIp
  split <;> exact setIp_plain

/-- The result for an event that does not tell the tracing state. -/
theorem post_plain {p : EvPtr} (he : s.event = some p) (hd : (s.ev p).data.plain = true)
    (hn : Norm c t s l ∨ Hdr c t s l) : Post c t false s := by
  unfold Post
  rw [if_neg (by simp)]
  refine ⟨p, he, ?_, ?_⟩
  · rw [isBranch_plain hd]; intro h; cases h
  · unfold upd; rw [tracing_plain hd]; exact ⟨l, hn⟩

theorem timeEv_plain {p : EvPtr} {E : Err → Evd → Prop} (he : s.event = some p) (hd : (s.ev p).data.plain = true)
    (hn : Norm c t s l ∨ Hdr c t s l) (hp : Free p s.q) : EM.wlp (timeEv p) (Post c t) E s :=
  wlp_timeEv hn hp fun _ h1 _ h3 => post_plain (by exact he) (by rw [h3]; exact hd) h1

theorem ipTimeEv_plain {p : EvPtr} {E : Err → Evd → Prop} (he : s.event = some p) (hd : (s.ev p).data.plain = true)
    (hn : Norm c t s l ∨ Hdr c t s l) (hp : Free p s.q) : EM.wlp (ipTimeEv p) (Post c t) E s :=
  wlp_ipTimeEv hn hp fun _ h1 _ h3 => post_plain (by exact he)
    (by rw [h3]; exact (withIp_plain (x := s.ip)).trans hd) h1

theorem wlp_alone {e : Event} {Q : Unit → Evd → Prop} {E : Err → Evd → Prop} (hl : s.q.Holds l)
    (hq : ∀ q', q'.Holds l → q'.standalone = e → Q () { s with q := q', event := some .alone }) :
    EM.wlp (alone e) Q E s := by
  unfold alone
  rw [EM.wlp_modify]
  exact hq { s.q with standalone := e } (standalone_holds hl e) rfl

theorem post_true (h : Norm c t s l) (ho : OrdL l) (he : s.event = none) : Post c t true s := by
  unfold Post; rw [if_pos rfl]; exact ⟨l, h, ho, he⟩

/-- The result of fetching the next packet after delivering an event. -/
theorem fetchDone_inv {p : EvPtr} {t' : Bool} {E : Err → Evd → Prop} (hn : Norm c t' s l) (ho : OrdL l) (hb : s.bound = false)
    (he : s.event = some p) (h1 : isBranch (s.ev p) = true → t = true)
    (h2 : ∀ q, s.enabled = true → tracing t (s.ev p) (noIp c q) = true) :
    EM.wlp (fetchDone c) (Post c t) E s := by
  unfold fetchDone
  rw [EM.wlp_bind]
  refine wlp_fetch hn.st fun pd p' size st a1 a2 a3 => ?_
  rw [EM.wlp_pure]
  unfold Post
  rw [if_neg (by simp)]
  refine ⟨p, he, h1, l, .inl ⟨hn.holds, hn.typ, fun _ => ho, h2 _, a2, hn.tm, a1, ?_⟩⟩
  intro hb'
  have : s.bound = true := hb'
  rw [hb] at this; cases this

theorem aloneDone_inv {e : Event} {E : Err → Evd → Prop} (hn : Norm c t s l) (ho : OrdL l) (hb : s.bound = false)
    (h1 : isBranch e = true → t = true) (h2 : ∀ q, s.enabled = true → tracing t e (noIp c q) = true) :
    EM.wlp (aloneDone c e) (Post c t) E s := by
  unfold aloneDone
  rw [EM.wlp_bind]
  refine wlp_alone hn.holds fun q' a1 a2 => ?_
  rw [EM.wlp_bind]
  have hn' : Norm c t { s with q := q', event := some .alone } l := (hn.withQ a1 hn.typ hn.ord).event _
  refine wlp_timeEv (.inl hn') (.inl rfl) fun q'' a3 _ a5 => ?_
  have hn'' : Norm c t { s with q := q'', event := some .alone } l :=
    (hn'.withQ (Inv.holds a3) hn.typ hn.ord)
  refine fetchDone_inv hn'' ho hb rfl ?_ ?_
  · have : isBranch (Evd.ev { s with q := q'', event := some .alone } .alone) = isBranch e := by
      refine isBranch_congr ?_
      rw [a5]; show (Event.timed q'.standalone _).data = _; rw [a2]; rfl
    rw [this]; exact h1
  · intro q
    have : tracing t (Evd.ev { s with q := q'', event := some .alone } .alone) (noIp c q) = tracing t e (noIp c q) := by
      refine tracing_congr ?_ ?_
      · rw [a5]; show (Event.timed q'.standalone _).data = _; rw [a2]; rfl
      · rw [a5]; show (Event.timed q'.standalone _).ipSuppressed = _; rw [a2]; rfl
    rw [this]; exact h2 q

theorem aloneDone_plain {e : Event} {E : Err → Evd → Prop} (hn : Norm c t s l) (ho : OrdL l) (hb : s.bound = false)
    (hd : e.data.plain = true) : EM.wlp (aloneDone c e) (Post c t) E s :=
  aloneDone_inv hn ho hb (by rw [isBranch_plain hd]; intro h; cases h)
    (by intro b; rw [tracing_plain hd]; exact hn.en)

theorem enqMore_inv {evb : Nat} {e : Event} (hn : Norm c t s l) (ho : OrdL l) (he : s.event = none)
    (hx : Typ (e, evb)) (hk : kind (e, evb) = 2 → ∃ y ∈ l, kind y = 1) :
    EM.wlp (enqMore evb e) (Post c t) Ex s := by
  unfold enqMore
  rw [EM.wlp_bind]
  refine wlp_enq hn.holds fun q' h1 => ?_
  rw [EM.wlp_pure]
  have ho' := ordL_snoc ho hk
  refine post_true (hn.withQ h1 ?_ fun _ => ho') ho' he
  intro x hm
  rcases List.mem_append.1 hm with hm | hm
  · exact hn.typ x hm
  · rw [List.mem_singleton.1 hm]; exact hx

end Ipt
