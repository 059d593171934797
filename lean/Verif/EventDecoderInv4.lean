import Verif.EventDecoderInv3

/-! Helper lemmas: the packets preserve the invariant of the event decoder (CFE, EVD, TRIG, PSB, OVF). -/

set_option linter.unusedSimpArgs false

namespace Ipt

open Spec

variable {c : EvtCfg} {t : Bool} {s : Evd} {l : List (Event × Nat)}

/-! ## CFE, EVD, TRIG -/

theorem cfeFresh_inv {ip follows suppressed : Bool} {d : EvData} (h : Start c t s l) (hp : d.plain = true)
    (h1 : d.isRsmSipi = true → ip = false ∧ suppressed = true) (h2 : d.isOverflow = false) :
    EM.wlp (cfeFresh c ip follows suppressed d) (Post c t) Ex s := by
  unfold cfeFresh
  rw [EM.wlp_bind, EM.wlp_get]
  split
  · rename_i hi
    refine h.fupBound ⟨fun hr => ?_, fun ho => ?_⟩
    · rw [(h1 hr).1] at hi; cases hi
    · rw [h2] at ho
  · split
    · refine h.fup ⟨fun hr => (h1 hr).2, fun ho => ?_⟩
      rw [h2] at ho; cases ho
    · exact h.alone hp

theorem requeueMore_inv {p : EvPtr} {evb : Nat} (h : Start c t s l) (hp : Free p s.q) (hx : Typ (s.ev p, evb))
    (hk : kind (s.ev p, evb) = 0) : EM.wlp (requeueMore p evb) (Post c t) Ex s := by
  unfold requeueMore
  rw [EM.wlp_bind]
  refine wlp_enqSlot h.holds fun q' a1 a2 a3 a4 a5 => ?_
  unfold updEv
  rw [EM.wlp_bind, EM.wlp_modify, EM.wlp_pure]
  have he : Evd.ev { s with q := q' } p = s.ev p := by
    rcases hp with rfl | rfl
    · exact a4
    · show q'.get _ = s.q.get _
      unfold Evq.get
      have := h.holds.begin
      rw [a5 _ (by omega)]
  have hh := (h.withQ (q' := q'.put _ (s.ev p)) (put_last_holds a2 (by rw [a3]) _) (typ_snoc h.typ hx)
    (ordL_snoc h.o (by intro hk'; omega))).more
  dsimp only
  rw [he]
  exact hh

theorem cfeQueued_inv {p : EvPtr} {ip : Bool} (h : Start c t s l) (hp : Free p s.q) (hd : (s.ev p).data.plain = true)
    (h1 : (s.ev p).data.isRsmSipi = false) : EM.wlp (cfeQueued c ip p) (Post c t) Ex s := by
  have h2 : (s.ev p).data.isOverflow = false := by
    cases hx : (s.ev p).data <;> rw [hx] at hd <;> first | rfl | cases hd
  unfold cfeQueued
  rw [EM.wlp_bind, EM.wlp_get]
  split
  · exact requeueMore_inv h hp (.fupBound _ (fupOk_of h1 h2)) (kind_fupBound _)
  · split
    · exact requeueMore_inv h hp (.fup _ (fupOk_of h1 h2)) (kind_fup _)
    · rename_i hen
      rw [EM.wlp_bind]
      refine wlp_timeEv (.inl h.toNorm) hp fun q' a1 a2 a3 => ?_
      have ha1 := Inv.holds a1
      rw [EM.wlp_bind]
      refine wlp_updEv_free (s := { s with q := q' }) ha1 a2 fun q'' b1 b2 b3 => ?_
      unfold setEvent
      rw [EM.wlp_bind, EM.wlp_modify]
      refine fetchDone_inv (s := { s with q := q'', event := some p }) (t' := t) (l := l)
        ((h.toNorm.withQ b1 h.typ fun _ => h.o).event _) h.o h.unbound rfl ?_ (fun _ he => absurd he hen)
      have : (Evd.ev { s with q := q'', event := some p } p).data = (s.ev p).data := by
        show (Evd.ev { s with q := q'' } p).data = _
        rw [b3, a3]; rfl
      rw [isBranch_congr (e' := s.ev p) this, isBranch_plain hd]
      intro hf; cases hf

theorem orAlone_inv {i : Option Nat} {e : Event} {Q : EvPtr → Evd → Prop} {E : Err → Evd → Prop} (h : Start c t s l)
    (h1 : ∀ j, i = some j → Free (.slot j) s.q ∧ Q (.slot j) s)
    (h2 : ∀ q', Start c t { s with q := q' } l → q'.standalone = e → Q .alone { s with q := q' }) :
    EM.wlp (orAlone i e) Q E s := by
  unfold orAlone
  cases i with
  | some j => exact (EM.wlp_pure _ _ _ _).2 (h1 j rfl).2
  | none =>
    dsimp only
    rw [EM.wlp_bind, EM.wlp_modify, EM.wlp_pure]
    exact h2 { s.q with standalone := e } (h.withQ (standalone_holds h.holds e) h.typ h.o) rfl

theorem cfeIntr_inv {v : Nat} {p : EvPtr} {ip : Bool} (h : Start c t s l) (hp : Free p s.q) :
    EM.wlp (cfeIntr c v ip p) (Post c t) Ex s := by
  unfold cfeIntr
  rw [EM.wlp_bind, EM.wlp_get]
  cases hd : (s.ev p).data with
  | interrupt a b i =>
    dsimp only
    rw [EM.wlp_bind]
    refine wlp_updEv_free h.holds hp fun q' a1 a2 a3 => ?_
    exact cfeQueued_inv (s := { s with q := q' }) (h.withQ a1 h.typ h.o) a2 (by rw [a3]; rfl) (by rw [a3]; rfl)
  | _ => exact (EM.wlp_fail _ _ _ _).2 (Ex.of (by simp))

theorem cfeVmexit_inv {v : Nat} {p : EvPtr} {intr ip : Bool} (h : Start c t s l) (hp : Free p s.q) :
    EM.wlp (cfeVmexit c intr v ip p) (Post c t) Ex s := by
  unfold cfeVmexit
  rw [EM.wlp_bind, EM.wlp_get]
  cases hd : (s.ev p).data with
  | vmexit a b d i =>
    dsimp only
    rw [EM.wlp_bind]
    refine wlp_updEv_free h.holds hp fun q' a1 a2 a3 => ?_
    exact cfeQueued_inv (s := { s with q := q' }) (h.withQ a1 h.typ h.o) a2 (by rw [a3]; rfl) (by rw [a3]; rfl)
  | _ => exact (EM.wlp_fail _ _ _ _).2 (Ex.of (by simp))

theorem decodeCfe_inv {type v : Nat} {ip : Bool} (h : Start c t s l) (hp : s.packet = .cfe type v ip) :
    EM.wlp (decodeCfe c type v ip) (Post c t) Ex s := by
  unfold decodeCfe
  rw [EM.wlp_bind]
  have key : ∀ (ev : Option Nat) (q' : Evq Event) (l' : List (Event × Nat)), Start c t { s with q := q' } l' →
      (∀ j, ev = some j → Free (.slot j) q') → EM.wlp (if type = 1 then do
          let p ← orAlone ev { data := .interrupt 0 none 0 }
          cfeIntr c v ip p
        else if type = 8 ∨ type = 9 then do
          let p ← orAlone ev { data := .vmexit none none none 0 }
          cfeVmexit c (decide (type = 9)) v ip p
        else if type = 0 ∨ type = 0xb ∨ 0xe ≤ type then
          if ev.isSome = true then EM.fail .internal
          else if ip = true then enqMore evbFupBound { data := .tick 0 }
          else return true
        else if ev.isSome = true then EM.fail .badContext
        else if type = 2 then cfeFresh c ip false false (.iret 0)
        else if type = 3 then cfeFresh c ip true false (.smi 0)
        else if type = 4 then if ip = true then EM.fail .badPacket else cfeFresh c ip true true .rsm
        else if type = 5 then if ip = true then EM.fail .badPacket else cfeFresh c ip true true (.sipi v)
        else if type = 6 then cfeFresh c ip true false (.init 0)
        else if type = 7 then cfeFresh c ip false false (.vmentry 0)
        else if type = 0xa then cfeFresh c ip false false (.shutdown 0)
        else if type = 0xc then cfeFresh c ip true false (.uintr v 0)
        else cfeFresh c ip false false (.uiret 0)) (Post c t) Ex { s with q := q' } := by
    intro ev q' l' h' hev
    have fresh : ∀ {follows suppressed : Bool} {d : EvData}, d.plain = true → d.isRsmSipi = false → d.isOverflow = false →
        EM.wlp (cfeFresh c ip follows suppressed d) (Post c t) Ex { s with q := q' } :=
      fun a b d => cfeFresh_inv h' a (by rw [b]; intro hf; cases hf) d
    refine EM.wlp_ite (fun h1 => ?_) fun h1 => EM.wlp_ite (fun h2 => ?_) fun h2 => EM.wlp_ite (fun h3 => ?_) fun h3 =>
      EM.wlp_ite (fun h4 => ?_) fun h4 => EM.wlp_ite (fun _ => fresh rfl rfl rfl) fun _ =>
      EM.wlp_ite (fun _ => fresh rfl rfl rfl) fun _ => EM.wlp_ite (fun _ => ?_) fun _ => EM.wlp_ite (fun _ => ?_) fun _ =>
      EM.wlp_ite (fun _ => fresh rfl rfl rfl) fun _ => EM.wlp_ite (fun _ => fresh rfl rfl rfl) fun _ =>
      EM.wlp_ite (fun _ => fresh rfl rfl rfl) fun _ => EM.wlp_ite (fun _ => fresh rfl rfl rfl) fun _ => fresh rfl rfl rfl
    · rw [EM.wlp_bind]
      exact orAlone_inv h' (fun j hj => ⟨hev j hj, cfeIntr_inv h' (hev j hj)⟩) fun q'' h'' _ => cfeIntr_inv h'' (.inl rfl)
    · rw [EM.wlp_bind]
      exact orAlone_inv h' (fun j hj => ⟨hev j hj, cfeVmexit_inv h' (hev j hj)⟩) fun q'' h'' _ =>
        cfeVmexit_inv h'' (.inl rfl)
    · refine EM.wlp_ite (fun _ => (EM.wlp_fail _ _ _ _).2 fun _ => .inr ⟨type, v, ip, hp, h3⟩) fun _ =>
        EM.wlp_ite (fun _ => h'.fupBound (fupOk_of rfl rfl)) fun _ => (EM.wlp_pure _ _ _ _).2 h'.more
    · exact (EM.wlp_fail _ _ _ _).2 (Ex.of (by simp))
    · refine EM.wlp_ite (fun _ => (EM.wlp_fail _ _ _ _).2 (Ex.of (by simp))) fun hi => ?_
      exact cfeFresh_inv h' rfl (fun _ => ⟨by simpa using hi, rfl⟩) rfl
    · refine EM.wlp_ite (fun _ => (EM.wlp_fail _ _ _ _).2 (Ex.of (by simp))) fun hi => ?_
      exact cfeFresh_inv h' rfl (fun _ => ⟨by simpa using hi, rfl⟩) rfl
  refine wlp_deq h.holds (fun _ => key none s.q l h (fun j hj => by cases hj)) fun j x q' h1 h2 h3 h4 h5 => ?_
  have hk := ((h.typ x (mem_of_get h2)).at_cfe (deq_matches h1 h2)).2
  exact key (some s.q.begin) q' _ (h.withQ h3 (typ_erase h.typ) (ordL_erase h.o h2 hk)) fun j hj => by
    injection hj with hj; rw [← hj]; exact h5

/-- Update a pending entry for CFE. -/
theorem Start.setCfe (h : Start c t s l) {j : Nat} (hj : j < l.length) (hb : (l[j]).2 = 32) (e : Event) :
    Start c t { s with q := s.q.put ((s.q.begin + j) % 16) e } (l.set j (e, 32)) := by
  have b := put_in_holds h.holds hj rfl e
  rw [hb] at b
  refine h.withQ b ?_ ?_
  · intro x hm
    rcases List.mem_or_eq_of_mem_set hm with hm | rfl
    · exact h.typ x hm
    · exact .cfe _
  · refine ordL_set h.o hj ?_
    rw [kind_cfe]
    have : l[j] = ((l[j]).1, 32) := by rw [← hb]
    rw [this, kind_cfe]

theorem decodeEvd_inv {type pl : Nat} (h : Start c t s l) : EM.wlp (decodeEvd type pl) (Post c t) Ex s := by
  unfold decodeEvd
  rw [EM.wlp_bind, EM.wlp_get]
  dsimp only
  split
  · split
    · exact (EM.wlp_fail _ _ _ _).2 (Ex.of (by simp))
    · exact h.enq (.cfe _) (by intro hk; rw [show kind (_, evbCfe) = 0 from kind_cfe _] at hk; cases hk)
  · split
    · rw [EM.wlp_bind]
      have key : ∀ (s : Evd) (l : List (Event × Nat)) (j : Nat) (hj : j < l.length), Start c t s l → (l[j]).2 = 32 →
          EM.wlp (do
            let s_1 ← EM.get
            match (s_1.q.get ((s.q.begin + j) % 16)).data with
            | .vmexit v r q a =>
              if type = 1 then
                if q.isSome = true then EM.fail .badContext
                else do
                  updEv (.slot ((s.q.begin + j) % 16)) fun _ e => { e with data := .vmexit v r (some pl) a }
                  return true
              else
                if r.isSome = true then EM.fail .badContext
                else do
                  updEv (.slot ((s.q.begin + j) % 16)) fun _ e => { e with data := .vmexit v (some pl) q a }
                  return true
            | _ => EM.fail .badContext) (Post c t) Ex s := by
        intro s l j hj h hb
        rw [EM.wlp_bind, EM.wlp_get]
        have up : ∀ f : Evd → Event → Event, EM.wlp (do
            updEv (.slot ((s.q.begin + j) % 16)) f
            return true) (Post c t) Ex s := by
          intro f
          unfold updEv
          rw [EM.wlp_bind, EM.wlp_modify, EM.wlp_pure]
          exact (h.setCfe hj hb _).more
        split
        · split
          · split
            · exact (EM.wlp_fail _ _ _ _).2 (Ex.of (by simp))
            · exact up _
          · split
            · exact (EM.wlp_fail _ _ _ _).2 (Ex.of (by simp))
            · exact up _
        · exact (EM.wlp_fail _ _ _ _).2 (Ex.of (by simp))
      unfold evdVmexit
      rw [peek_holds h.holds]
      cases hm : firstMatch evbCfe l with
      | some j =>
        obtain ⟨hj, h1, _⟩ := firstMatch_some_iff hm
        exact (EM.wlp_pure _ _ _ _).2 (key s l j hj h ((h.typ _ (List.getElem_mem hj)).at_cfe h1).1)
      | none =>
        simp only [Option.map_none]
        rw [EM.wlp_bind]
        refine wlp_enqSlot h.holds fun q' a1 a2 a3 a4 a5 => ?_
        unfold updEv
        rw [EM.wlp_bind, EM.wlp_modify, EM.wlp_pure]
        have h' := h.withQ (q' := q'.put ((s.q.begin + l.length) % 16) { data := .vmexit none none none 0 })
          (put_last_holds a2 (by rw [a3]) _) (typ_snoc h.typ (.cfe _))
          (ordL_snoc h.o (by intro hk; rw [show kind (_, evbCfe) = 0 from kind_cfe _] at hk; cases hk))
        have := key _ _ l.length (by simp) h' (by simp [evbCfe])
        have hb : Evq.begin (Evd.q { s with q := q'.put ((s.q.begin + l.length) % 16) { data := .vmexit none none none 0 } })
          = s.q.begin := a3
        rw [hb] at this
        exact this
    · exact (EM.wlp_pure _ _ _ _).2 h.more

theorem decodeTrig_inv {trbv : Nat} {icnt : Option Nat} {ip mult : Bool} (h : Start c t s l) :
    EM.wlp (decodeTrig c trbv icnt ip mult) (Post c t) Ex s := by
  unfold decodeTrig
  split
  · split
    · exact h.fupBound (fupOk_of rfl rfl)
    · exact (EM.wlp_fail _ _ _ _).2 (Ex.of (by simp))
  · unfold trigAlone
    rw [EM.wlp_bind]
    refine wlp_alone h.holds fun q' a1 a2 => ?_
    rw [EM.wlp_bind, EM.wlp_get]
    have h' : Norm c t { s with q := q', event := some .alone } l := (h.toNorm.withQ a1 h.typ fun _ => h.o).event _
    split
    · split
      · exact (EM.wlp_fail _ _ _ _).2 (Ex.of (by simp))
      · exact aloneDone_plain h' h.o h.unbound rfl
    · exact aloneDone_plain h' h.o h.unbound rfl

theorem decodeInvalid_inv (h : Start c t s l) : EM.wlp decodeInvalid (Post c t) Ex s := by
  unfold EM.wlp decodeInvalid
  cases hs : s.status with
  | none => exact h.more
  | some e =>
    refine Ex.of ?_
    have := h.st
    rw [hs] at this
    simpa using this

end Ipt
