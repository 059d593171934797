import Mathlib.Data.List.Induction
import Verif.QueryLemmas
import Verif.Spec.Query

/-! Helper lemmas: the invariant of the query decoder. -/

set_option linter.unusedSimpArgs false

namespace Ipt

open Spec

variable {c : EvtCfg} {d : Evd} {s : Qdec} {es : List Event} {bits : List Bool}

theorem Spec.Usable.sane (h : Usable c) : c.Sane := ⟨by have := h.mtcFreq; omega, h.cb, h.len⟩

theorem Spec.Usable.time (h : Usable c) : c.time.Sane := ⟨h.mtcFreq, h.ebx⟩

/-! ## Sequences of events -/

theorem evtFinal_snoc (d : Evd) (n : Nat) :
    evtFinal c (nexts (n + 1)) d = (EvtCall.next.run c (evtFinal c (nexts n) d)).1 := by
  induction n generalizing d with
  | zero => rfl
  | succ n ih =>
    rw [nexts, List.replicate_succ, evtFinal, ← nexts, ih]
    rw [nexts, nexts, List.replicate_succ, evtFinal]

theorem evtResults_snoc (d : Evd) (n : Nat) :
    evtResults c (nexts (n + 1)) d = evtResults c (nexts n) d ++ [(EvtCall.next.run c (evtFinal c (nexts n) d)).2] := by
  induction n generalizing d with
  | zero => rfl
  | succ n ih =>
    rw [nexts, List.replicate_succ, evtResults, ← nexts, ih]
    rw [nexts, nexts, List.replicate_succ, evtResults, evtFinal]
    rfl

theorem evtResults_length (d : Evd) (l : List EvtCall) : (evtResults c l d).length = l.length := by
  induction l generalizing d with
  | nil => rfl
  | cons o l ih => simp [evtResults, ih]

theorem next_run {s s' : Evd} {e : Event} (h : evtNext c s = (s', .ok e)) : EvtCall.next.run c s = (s', .ok (some e)) := by
  unfold EvtCall.run; dsimp only; rw [h]; rfl

theorem next_run_err {s s' : Evd} {x : Err} (h : evtNext c s = (s', .err x)) : EvtCall.next.run c s = (s', .err x) := by
  unfold EvtCall.run; dsimp only; rw [h]; rfl

theorem delivers_nil (d : Evd) : Delivers c d [] := rfl

theorem Spec.Delivers.snoc {s' : Evd} {e : Event} (h : Delivers c d es)
    (hn : evtNext c (evtFinal c (nexts es.length) d) = (s', .ok e)) : Delivers c d (es ++ [e]) := by
  unfold Delivers at *
  rw [List.length_append, List.length_singleton, evtResults_snoc, h, next_run hn]
  simp

theorem Spec.Delivers.fails {s' : Evd} {x : Err} (h : Delivers c d es)
    (hn : evtNext c (evtFinal c (nexts es.length) d) = (s', .err x)) : Fails c d es x := by
  unfold Delivers Fails at *
  rw [evtResults_snoc, h, next_run_err hn]

theorem Spec.Fails.delivers {x : Err} (h : Fails c d es x) : Delivers c d es := by
  unfold Delivers Fails at *
  rw [evtResults_snoc] at h
  exact (List.append_inj' h rfl).1

theorem Spec.Fails.next {x : Err} (h : Fails c d es x) :
    ∃ s', evtNext c (evtFinal c (nexts es.length) d) = (s', .err x) := by
  unfold Fails at h
  rw [evtResults_snoc] at h
  have := (List.append_inj' h rfl).2
  simp only [List.cons.injEq, and_true] at this
  exact ⟨_, run_next_err (s' := (EvtCall.next.run c (evtFinal c (nexts es.length) d)).1) (by rw [← this])⟩

theorem nexts_add (m n : Nat) : nexts (m + n) = nexts m ++ nexts n := by
  unfold nexts; rw [List.replicate_append_replicate]

theorem evtResults_append (l1 l2 : List EvtCall) (d : Evd) :
    evtResults c (l1 ++ l2) d = evtResults c l1 d ++ evtResults c l2 (evtFinal c l1 d) := by
  induction l1 generalizing d with
  | nil => rfl
  | cons o l1 ih => simp [evtResults, evtFinal, ih]

/-- Of two sequences of delivered events, the shorter one is a prefix of the longer one. -/
theorem Spec.Delivers.prefix {es fs : List Event} (h1 : Delivers c d es) (h2 : Delivers c d fs) (h : es.length ≤ fs.length) :
    es <+: fs := by
  unfold Delivers at *
  obtain ⟨n, hn⟩ := Nat.exists_eq_add_of_le h
  rw [hn, nexts_add, evtResults_append, h1] at h2
  have h3 : es.map (fun e => Res.ok (some e)) <+: fs.map (fun e => Res.ok (some e)) := ⟨_, h2⟩
  rw [List.prefix_iff_eq_take] at h3 ⊢
  rw [List.length_map, ← List.map_take] at h3
  exact (List.map_inj_right (by simp)).1 h3

/-- The next event of a longer sequence. -/
theorem Spec.Delivers.next {es fs : List Event} (h1 : Delivers c d es) (h2 : Delivers c d fs) (h : es.length < fs.length) :
    ∃ e r s', fs = es ++ e :: r ∧ evtNext c (evtFinal c (nexts es.length) d) = (s', .ok e) := by
  obtain ⟨r, hr⟩ := h1.prefix h2 (by omega)
  cases r with
  | nil => rw [← hr] at h; simp at h
  | cons e r =>
    refine ⟨e, r, (EvtCall.next.run c (evtFinal c (nexts es.length) d)).1, hr.symm, run_next ?_⟩
    unfold Delivers at *
    rw [← hr, List.length_append, nexts_add, evtResults_append, h1, List.map_append] at h2
    have := List.append_cancel_left h2
    rw [List.length_cons, Nat.add_comm, nexts_add, evtResults_append] at this
    simp only [nexts, List.replicate_one, evtResults, List.map_cons, List.singleton_append, List.cons.injEq] at this
    rw [← this.1]; rfl

/-! ## The invariant -/

/-- The event decoder `d` delivered `es` to the query decoder `s`, then one more event or error that the query decoder
has not handed out.  `bits` are in the TNT cache. -/
structure QInv (c : EvtCfg) (d : Evd) (s : Qdec) (es : List Event) (bits : List Bool) : Prop where
  del : Delivers c d es
  cur : (∃ e, s.status = none ∧ s.event = .ok e ∧ evtNext c (evtFinal c (nexts es.length) d) = (s.ev, .ok e)) ∨
    (∃ x, s.status = some x ∧ s.event = .bad ∧ evtNext c (evtFinal c (nexts es.length) d) = (s.ev, .err x))
  tnt : s.tnt.Holds bits
  inv : ∃ t, Inv c t (evtFinal c (nexts es.length) d) ∧ (evtFinal c (nexts es.length) d).event = none

/-- The current event. -/
def QOk (c : EvtCfg) (d : Evd) (s : Qdec) (es : List Event) (e : Event) : Prop :=
  s.status = none ∧ s.event = .ok e ∧ evtNext c (evtFinal c (nexts es.length) d) = (s.ev, .ok e)

/-- The current error. -/
def QErr (c : EvtCfg) (d : Evd) (s : Qdec) (es : List Event) (x : Err) : Prop :=
  s.status = some x ∧ s.event = .bad ∧ evtNext c (evtFinal c (nexts es.length) d) = (s.ev, .err x)

theorem isEmpty_holds {t : TntCache} (h : t.Holds bits) : t.isEmpty = decide (bits = []) := by
  unfold TntCache.isEmpty
  rw [h.index]
  cases bits with
  | nil => rfl
  | cons b bits =>
    have : 2 ^ (b :: bits).length.pred ≠ 0 := Nat.pos_iff_ne_zero.1 (Nat.two_pow_pos _)
    simp

theorem inv_wf {s : Evd} {t : Bool} (h : Inv c t s) : WF c (mu c.pkt s.pd) s := by
  obtain ⟨l, h | h⟩ := h
  · exact ⟨⟨l, h.holds⟩, Nat.le_refl _⟩
  · exact ⟨⟨l, h.holds⟩, Nat.le_refl _⟩

/-- One more event. -/
theorem QInv.step (hu : Usable c) {e : Event} (h : QInv c d s es bits) (hc : QOk c d s es e) :
    Fine True e.data ∧ Delivers c d (es ++ [e]) ∧ evtFinal c (nexts (es ++ [e]).length) d = s.ev ∧
    ∃ t, Inv c t s.ev ∧ s.ev.event = none := by
  obtain ⟨t, h1, h2⟩ := h.inv
  have h3 := EM.wlp_ok (evtNext_inv hu.time h1 h2) hc.2.2
  refine ⟨EM.wlp_ok (evtNext_tnt hu.time h1 h2) hc.2.2, h.del.snoc hc.2.2, ?_, _, h3.2⟩
  rw [List.length_append, List.length_singleton, evtFinal_snoc, next_run hc.2.2]

/-- `pt_qry_fetch_event` -/
theorem QInv.fetch (hu : Usable c) {e : Event} (h : QInv c d s es bits) (hc : QOk c d s es e) (s1 : Qdec) (bits1 : List Bool)
    (h1 : s1.ev = s.ev) (h2 : s1.status = none) (h3 : s1.tnt.Holds bits1) :
    ∃ s', qryFetch c s1 = (s', .ok ()) ∧ QInv c d s' (es ++ [e]) bits1 ∧ s'.tnt = s1.tnt ∧ s'.lastTime = s1.lastTime := by
  obtain ⟨h4, h5, h6, t, h7, h8⟩ := h.step hu hc
  have h9 := (evtNext_pres hu.sane s.ev (inv_wf h7)).1
  unfold qryFetch
  rw [h1]
  rcases hx : evtNext c s.ev with ⟨ev, e' | x | _⟩
  · exact ⟨_, rfl, ⟨h5, .inl ⟨e', h2, rfl, by rw [h6]; exact hx⟩, h3, t, by rw [h6]; exact ⟨h7, h8⟩⟩, rfl, rfl⟩
  · exact ⟨_, rfl, ⟨h5, .inr ⟨x, rfl, rfl, by rw [h6]; exact hx⟩, h3, t, by rw [h6]; exact ⟨h7, h8⟩⟩, rfl, rfl⟩
  · rw [hx] at h9; exact absurd rfl h9

theorem QInv.flags (h : QInv c d s es bits) : ∃ f, s.flags = .ok f := by
  unfold Qdec.flags
  split
  · split
    · exact ⟨_, rfl⟩
    · rcases h.cur with ⟨e, _, h1, _⟩ | ⟨x, _, h1, _⟩
      · rw [h1]; unfold QEv.pending; dsimp only; split
        · exact ⟨_, rfl⟩
        · rename_i heq; split at heq <;> cases heq
        · rename_i heq; split at heq <;> cases heq
      · rw [h1]; exact ⟨_, rfl⟩
  · exact ⟨_, rfl⟩

theorem QInv.withFlags (h : QInv c d s es bits) {α : Type} (a : α) : ∃ f, withFlags s a = (s, .ok (a, f)) := by
  obtain ⟨f, hf⟩ := h.flags
  unfold Ipt.withFlags
  rw [hf]; exact ⟨f, rfl⟩

theorem QInv.time (h : QInv c d s es bits) (t : Time) : QInv c d { s with lastTime := t } es bits :=
  ⟨h.del, h.cur, h.tnt, h.inv⟩

theorem QInv.status {x : Err} (h : QInv c d s es bits) (hx : s.status = some x) : QErr c d s es x := by
  rcases h.cur with ⟨e, h1, _⟩ | ⟨y, h1, h2⟩
  · rw [hx] at h1; cases h1
  · rw [hx] at h1; cases h1; exact ⟨hx, h2⟩

/-- A TNT event holds at least one outcome. -/
theorem fine_tnt {e : Event} {p n : Nat} (h : Fine True e.data) (he : e.data = .tnt p n) :
    1 ≤ n ∧ n ≤ 47 ∧ ∃ b r, tntBits p n = b :: r := by
  rw [he] at h
  obtain ⟨h1, h2, _⟩ := h trivial
  refine ⟨h1, h2, ?_⟩
  cases n with
  | zero => omega
  | succ n => exact ⟨_, _, rfl⟩

theorem items_ne {e : Event} (h : Fine True e.data) : items e ≠ [] := by
  unfold items
  split
  · rename_i he
    obtain ⟨_, _, b, r, hb⟩ := fine_tnt h he
    rw [hb]; simp
  · simp
  · simp


theorem QInv.cases (h : QInv c d s es bits) : (∃ e, QOk c d s es e) ∨ (∃ x, QErr c d s es x) := h.cur

/-! ## The queries -/

theorem cond_step (hu : Usable c) (h : QInv c d s es bits) :
    (∃ b bs s' f, bits = b :: bs ∧ condBranch c s = (s', .ok (b, f)) ∧ QInv c d s' es bs) ∨
    (bits = [] ∧ ∃ x, QErr c d s es x ∧ condBranch c s = ({ s with lastTime := s.ev.tm.time }, .err x)) ∨
    (bits = [] ∧ ∃ e, QOk c d s es e ∧
      ((∃ p n b bs s' f, e.data = .tnt p n ∧ tntBits p n = b :: bs ∧ condBranch c s = (s', .ok (b, f)) ∧
          QInv c d s' (es ++ [e]) bs) ∨
       ((∀ p n, e.data ≠ .tnt p n) ∧ condBranch c s = ({ s with lastTime := s.ev.tm.time }, .err .badQuery)))) := by
  have hq := tntQuery_holds h.tnt
  unfold condBranch
  cases bits with
  | cons b bs =>
    obtain ⟨t, h1, h2⟩ := hq
    rw [h1]
    have hi : QInv c d { s with tnt := t } es bs := ⟨h.del, h.cur, h2, h.inv⟩
    obtain ⟨f, hf⟩ := hi.withFlags b
    exact .inl ⟨b, bs, _, f, rfl, hf, hi⟩
  | nil =>
    right
    rw [hq]
    dsimp only
    rcases h.cases with ⟨e, he⟩ | ⟨x, hx⟩
    · right
      refine ⟨rfl, e, he, ?_⟩
      by_cases ht : ∃ p n, e.data = .tnt p n
      · left
        obtain ⟨p, n, ht⟩ := ht
        obtain ⟨h1, h2, b, r, hb⟩ := fine_tnt (h.step hu he).1 ht
        obtain ⟨t, h3, h4⟩ := (tntAdd_holds h.tnt p n (by omega)).1 (by simp; omega)
        rw [List.nil_append, hb] at h4
        obtain ⟨s', h5, h6, h7⟩ := h.fetch hu he { s with lastTime := s.ev.tm.time, tnt := t } _ rfl he.1 h4
        obtain ⟨t', h8, h9⟩ := tntQuery_holds h6.tnt
        have hi : QInv c d { s' with tnt := t' } (es ++ [e]) r := ⟨h6.del, h6.cur, h9, h6.inv⟩
        obtain ⟨f, hf⟩ := hi.withFlags b
        refine ⟨p, n, b, r, _, f, ht, hb, ?_, hi⟩
        have hc : cacheTnt c { s with lastTime := s.ev.tm.time } = (s', .ok ()) := by
          unfold cacheTnt
          dsimp only
          rw [he.1]
          dsimp only
          split
          · rename_i hh; rw [he.2.1] at hh; simp at hh
          · rename_i hh; rw [he.2.1] at hh; simp at hh
          · rename_i e1 hh
            rw [he.2.1] at hh
            cases hh
            rw [ht]
            dsimp only
            rw [h3]
            dsimp only
            rw [← he.1]
            exact h5
        rw [hc]
        dsimp only
        rw [h8]
        exact hf
      · right
        refine ⟨fun p n hh => ht ⟨p, n, hh⟩, ?_⟩
        have : cacheTnt c { s with lastTime := s.ev.tm.time } = ({ s with lastTime := s.ev.tm.time }, .ok ()) := by
          unfold cacheTnt
          dsimp only
          rw [he.1, he.2.1]
          dsimp only
          split
          · rename_i hh; exact absurd ⟨_, _, hh⟩ ht
          · rw [← he.1, ← he.2.1]
        rw [this]
        dsimp only
        rw [hq]
        dsimp only
        rw [he.1]
    · left
      refine ⟨rfl, x, hx, ?_⟩
      unfold cacheTnt
      dsimp only
      rw [hx.1]

theorem event_step (hu : Usable c) (h : QInv c d s es bits) :
    (bits ≠ [] ∧ qryEvent c s = (s, .err .badQuery)) ∨
    (bits = [] ∧ ∃ x, QErr c d s es x ∧ qryEvent c s = (s, .err x)) ∨
    (bits = [] ∧ ∃ e, QOk c d s es e ∧
      ((items e = [.event e] ∧ ∃ s' f, qryEvent c s = (s', .ok (e, f)) ∧ QInv c d s' (es ++ [e]) []) ∨
       (items e ≠ [.event e] ∧ qryEvent c s = (s, .err .badQuery)))) := by
  unfold qryEvent
  rw [isEmpty_holds h.tnt]
  by_cases hb : bits = []
  · right
    subst hb
    rw [if_neg (by simp)]
    rcases h.cases with ⟨e, he⟩ | ⟨x, hx⟩
    · right
      refine ⟨rfl, e, he, ?_⟩
      have hp : s.event.pending = .ok (decide (items e = [.event e])) := by
        rw [he.2.1]
        unfold QEv.pending items
        dsimp only
        rcases hd : e.data <;> simp only [reduceCtorEq, List.cons.injEq, and_true, decide_false, decide_true]
        rename_i p n
        obtain ⟨_, _, b, r, hb⟩ := fine_tnt (h.step hu he).1 hd
        congr 1
        simp [hb]
      rw [he.1, hp]
      by_cases hi : items e = [.event e]
      · left
        obtain ⟨s', h5, h6, h7⟩ := h.fetch hu he { s with lastTime := s.ev.tm.time } _ rfl he.1 h.tnt
        obtain ⟨f, hf⟩ := h6.withFlags e
        refine ⟨hi, s', f, ?_, h6⟩
        rw [decide_eq_true hi]
        dsimp only
        rw [he.2.1]
        dsimp only
        rw [← he.2.1, ← he.1, h5]
        exact hf
      · right
        exact ⟨hi, by rw [decide_eq_false hi]⟩
    · exact .inl ⟨rfl, x, hx, by rw [hx.1]⟩
  · exact .inl ⟨hb, by rw [if_pos (by simp [hb])]⟩

theorem take_step (hu : Usable c) {e : Event} {ip : Nat} (h : QInv c d s es bits) (he : QOk c d s es e)
    (_hd : e.data = .tip ip) :
    ∃ s' f, takeTip c e.ipSuppressed ip s = (s', .ok (if e.ipSuppressed = true then none else some ip, f)) ∧
      QInv c d s' (es ++ [e]) bits := by
  obtain ⟨s', h5, h6, h7⟩ := h.fetch hu he { s with lastTime := s.ev.tm.time } _ rfl he.1 h.tnt
  obtain ⟨f, hf⟩ := h6.flags
  unfold takeTip
  rw [h5]
  dsimp only
  rw [hf]
  exact ⟨s', _, rfl, h6⟩

theorem tip_of {e : Event} (he : QOk c d s es e) (h : ∀ ip, e.data ≠ .tip ip) : s.event.tip = .ok none := by
  rw [he.2.1]; unfold QEv.tip; dsimp only; split
  · rename_i hh; exact absurd hh (h _)
  · rfl

/-- `pt_qry_indirect_branch` with a TNT event. -/
theorem indirect_tnt (hu : Usable c) {e : Event} {p n : Nat} (h : QInv c d s es bits) (he : QOk c d s es e)
    (hd : e.data = .tnt p n) :
    (64 < bits.length + n ∧ indirectBranch c s = (s, .err .overflow)) ∨
    (∃ s1, QInv c d s1 (es ++ [e]) (bits ++ tntBits p n) ∧
      ((∃ x, QErr c d s1 (es ++ [e]) x ∧ indirectBranch c s = (s1, .err x)) ∨
       (∃ e', QOk c d s1 (es ++ [e]) e' ∧
         ((∃ ip s' f, e'.data = .tip ip ∧
            indirectBranch c s = (s', .ok (if e'.ipSuppressed = true then none else some ip, f)) ∧
            QInv c d s' (es ++ [e] ++ [e']) (bits ++ tntBits p n)) ∨
          ((∀ ip, e'.data ≠ .tip ip) ∧ indirectBranch c s = (s1, .err .badQuery)))))) := by
  obtain ⟨h1, h2, b, r, hb⟩ := fine_tnt (h.step hu he).1 hd
  have hnt : s.event.tip = .ok none := tip_of he (by rw [hd]; simp)
  have ha := tntAdd_holds h.tnt p n (by omega)
  have hc : cacheTnt c s = (match s.tnt.add p n with
        | (t, .ok ()) => qryFetch c { s with tnt := t }
        | (t, .err e) => ({ s with tnt := t }, .err e)
        | (t, .ub) => ({ s with tnt := t }, .ub)) := by
    unfold cacheTnt
    rw [he.1]
    dsimp only
    split
    · rename_i hh; rw [he.2.1] at hh; simp at hh
    · rename_i hh; rw [he.2.1] at hh; simp at hh
    · rename_i e1 hh
      have : e1 = e := by rw [he.2.1] at hh; cases hh; rfl
      rw [this, hd]
      rcases hx : s.tnt.add p n with ⟨t, _ | _ | _⟩ <;> simp only [hx, he.1]
  by_cases hl : bits.length + n ≤ 64
  · right
    obtain ⟨t, h3, h4⟩ := ha.1 hl
    obtain ⟨s1, h5, h6, h7⟩ := h.fetch hu he { s with tnt := t } _ rfl he.1 h4
    refine ⟨s1, h6, ?_⟩
    rw [h3] at hc
    dsimp only at hc
    rw [h5] at hc
    rcases h6.cases with ⟨e', he'⟩ | ⟨x, hx⟩
    · right
      refine ⟨e', he', ?_⟩
      by_cases ht : ∃ ip, e'.data = .tip ip
      · left
        obtain ⟨ip, ht⟩ := ht
        obtain ⟨s', f, h8, h9⟩ := take_step hu h6 he' ht
        refine ⟨ip, s', f, ht, ?_, h9⟩
        have ht1 : s1.event.tip = .ok (some (e'.ipSuppressed, ip)) := by
          rw [he'.2.1]; unfold QEv.tip; dsimp only; rw [ht]
        unfold indirectBranch
        rw [he.1, hnt, hc]
        dsimp only
        rw [ht1]
        exact h8
      · right
        refine ⟨fun ip hh => ht ⟨ip, hh⟩, ?_⟩
        unfold indirectBranch
        rw [he.1, hnt, hc]
        dsimp only
        rw [tip_of he' (fun ip hh => ht ⟨ip, hh⟩)]
        dsimp only
        rw [he'.1]
    · left
      refine ⟨x, hx, ?_⟩
      have ht1 : s1.event.tip = .ok none := by rw [hx.2.1]; rfl
      unfold indirectBranch
      rw [he.1, hnt, hc]
      dsimp only
      rw [ht1]
      dsimp only
      rw [hx.1]
  · left
    refine ⟨by omega, ?_⟩
    have h3 := ha.2 (by omega)
    rw [h3] at hc
    unfold indirectBranch
    rw [he.1, hnt, hc]

theorem indirect_step (hu : Usable c) (h : QInv c d s es bits) :
    (∃ x, QErr c d s es x ∧ indirectBranch c s = (s, .err x)) ∨
    (∃ e, QOk c d s es e ∧
      ((∃ ip s' f, e.data = .tip ip ∧ indirectBranch c s = (s', .ok (if e.ipSuppressed = true then none else some ip, f)) ∧
          QInv c d s' (es ++ [e]) bits) ∨
       (∃ p n, e.data = .tnt p n) ∨
       (items e = [.event e] ∧ indirectBranch c s = (s, .err .badQuery)))) := by
  rcases h.cases with ⟨e, he⟩ | ⟨x, hx⟩
  · right
    refine ⟨e, he, ?_⟩
    by_cases ht : ∃ ip, e.data = .tip ip
    · left
      obtain ⟨ip, ht⟩ := ht
      obtain ⟨s', f, h8, h9⟩ := take_step hu h he ht
      refine ⟨ip, s', f, ht, ?_, h9⟩
      have ht1 : s.event.tip = .ok (some (e.ipSuppressed, ip)) := by
        rw [he.2.1]; unfold QEv.tip; dsimp only; rw [ht]
      unfold indirectBranch
      rw [he.1, ht1]
      exact h8
    · right
      by_cases hn : ∃ p n, e.data = .tnt p n
      · exact .inl hn
      · right
        refine ⟨?_, ?_⟩
        · unfold items
          split
          · rename_i hh; exact absurd ⟨_, _, hh⟩ hn
          · rename_i hh; exact absurd ⟨_, hh⟩ ht
          · rfl
        · have hnt : s.event.tip = .ok none := tip_of he (fun ip hh => ht ⟨ip, hh⟩)
          have hc : cacheTnt c s = (s, .ok ()) := by
            unfold cacheTnt
            rw [he.1, he.2.1]
            dsimp only
            split
            · rename_i hh; exact absurd ⟨_, _, hh⟩ hn
            · rfl
          unfold indirectBranch
          rw [he.1, hnt, hc]
          dsimp only
          rw [hnt]
          dsimp only
          rw [he.1]
  · left
    refine ⟨x, hx, ?_⟩
    unfold indirectBranch
    rw [hx.1]


/-! ## One query -/

/-- The items handed out by a query. -/
def out (c : EvtCfg) (q : Query) (s : Qdec) : List Item := (itemOf (q.run c s).2).toList

/-- The user may ask for an indirect branch. -/
def MayAsk (c : EvtCfg) (d : Evd) (s : Qdec) (es : List Event) (bits : List Bool) : Prop :=
  bits = [] ∧ ∀ e, QOk c d s es e → ∀ p n, e.data ≠ .tnt p n

theorem items_tnt {e : Event} {p n : Nat} (h : e.data = .tnt p n) : items e = (tntBits p n).map .bit := by
  unfold items; rw [h]

theorem items_tip {e : Event} {ip : Nat} (h : e.data = .tip ip) :
    items e = [.target (if e.ipSuppressed = true then none else some ip)] := by
  unfold items; rw [h]

theorem isBit_bit (b : Bool) : (Item.bit b).isBit = true := rfl
theorem isBit_target (ip : Option Nat) : (Item.target ip).isBit = false := rfl
theorem isBit_event (e : Event) : (Item.event e).isBit = false := rfl

theorem filter_bits (l : List Bool) : (l.map Item.bit).filter Item.isBit = l.map Item.bit := by
  induction l with
  | nil => rfl
  | cons b l ih => simp only [List.map_cons, List.filter_cons, isBit_bit, ih]; rfl

theorem filter_nobits (l : List Bool) : (l.map Item.bit).filter (fun x => !x.isBit) = [] := by
  induction l with
  | nil => rfl
  | cons b l ih => simp only [List.map_cons, List.filter_cons, isBit_bit, ih]; rfl

theorem run_cond (c : EvtCfg) (s : Qdec) : Query.cond.run c s =
    ((condBranch c s).1, (condBranch c s).2.bind fun (b, f) => .ok (.bit b, f)) := rfl

theorem run_indirect (c : EvtCfg) (s : Qdec) : Query.indirect.run c s =
    ((indirectBranch c s).1, (indirectBranch c s).2.bind fun (b, f) => .ok (.target b, f)) := rfl

theorem run_event (c : EvtCfg) (s : Qdec) : Query.event.run c s =
    ((qryEvent c s).1, (qryEvent c s).2.bind fun (b, f) => .ok (.event b, f)) := rfl

/-- What a query does to what was read from the event decoder. -/
structure Acc (c : EvtCfg) (d : Evd) (q : Query) (s : Qdec) (es : List Event) (bits : List Bool) (es' : List Event)
    (bits' : List Bool) : Prop where
  inv : QInv c d (q.run c s).1 (es ++ es') bits'
  tot : (q.run c s).2 ≠ .ub
  bit : (out c q s).filter Item.isBit ++ bits'.map .bit = bits.map .bit ++ (es'.flatMap items).filter Item.isBit
  other : (out c q s).filter (fun x => !x.isBit) = (es'.flatMap items).filter (fun x => !x.isBit)
  ord : (q = .indirect → MayAsk c d s es bits) → out c q s ++ bits'.map .bit = bits.map .bit ++ es'.flatMap items
  ev : ∀ e, out c q s = [.event e] → bits = [] ∧ es' = [e]

theorem acc_refused {q : Query} {x : Err} {s' : Qdec} (hq : q.run c s = (s', .err x)) (h : QInv c d s' es bits) :
    Acc c d q s es bits [] bits := by
  have ho : out c q s = [] := by unfold out; rw [hq]; rfl
  exact ⟨by rw [hq, List.append_nil]; exact h, by rw [hq]; simp, by simp [ho], by simp [ho], by simp [ho], by simp [ho]⟩

theorem run_acc (hu : Usable c) (h : QInv c d s es bits) (q : Query) : ∃ es' bits', Acc c d q s es bits es' bits' := by
  cases q with
  | cond =>
    rcases cond_step hu h with ⟨b, bs, s', f, h1, h2, h3⟩ | ⟨h1, x, h2, h3⟩ | ⟨h1, e, h2, h3⟩
    · have hr : Query.cond.run c s = (s', .ok (.bit b, f)) := by rw [run_cond, h2]; rfl
      have ho : out c .cond s = [.bit b] := by unfold out; rw [hr]; rfl
      refine ⟨[], bs, ⟨by rw [hr, List.append_nil]; exact h3, by rw [hr]; simp, ?_, ?_, ?_, ?_⟩⟩
      · rw [ho, h1, List.flatMap_nil, List.filter_nil, List.append_nil]; rfl
      · simp [ho, isBit_bit, isBit_target, isBit_event, filter_bits, filter_nobits]
      · simp [ho, h1]
      · simp [ho]
    · have hr : Query.cond.run c s = ({ s with lastTime := s.ev.tm.time }, .err x) := by rw [run_cond, h3]; rfl
      exact ⟨[], bits, acc_refused hr (h.time _)⟩
    · rcases h3 with ⟨p, n, b, bs, s', f, h3, h4, h5, h6⟩ | ⟨h3, h4⟩
      · have hr : Query.cond.run c s = (s', .ok (.bit b, f)) := by rw [run_cond, h5]; rfl
        have ho : out c .cond s = [.bit b] := by unfold out; rw [hr]; rfl
        refine ⟨[e], bs, ⟨by rw [hr]; exact h6, by rw [hr]; simp, ?_, ?_, ?_, ?_⟩⟩
        · rw [ho, h1, List.flatMap_singleton, items_tnt h3, h4, filter_bits]; rfl
        · simp [ho, isBit_bit, isBit_target, isBit_event, filter_bits, filter_nobits, items_tnt h3, h4]
        · simp [ho, h1, items_tnt h3, h4]
        · simp [ho]
      · have hr : Query.cond.run c s = ({ s with lastTime := s.ev.tm.time }, .err .badQuery) := by rw [run_cond, h4]; rfl
        exact ⟨[], bits, acc_refused hr (h.time _)⟩
  | event =>
    rcases event_step hu h with ⟨h1, h2⟩ | ⟨h1, x, h2, h3⟩ | ⟨h1, e, h2, h3⟩
    · have hr : Query.event.run c s = (s, .err .badQuery) := by rw [run_event, h2]; rfl
      exact ⟨[], bits, acc_refused hr h⟩
    · have hr : Query.event.run c s = (s, .err x) := by rw [run_event, h3]; rfl
      exact ⟨[], bits, acc_refused hr h⟩
    · rcases h3 with ⟨h3, s', f, h4, h5⟩ | ⟨h3, h4⟩
      · have hr : Query.event.run c s = (s', .ok (.event e, f)) := by rw [run_event, h4]; rfl
        have ho : out c .event s = [.event e] := by unfold out; rw [hr]; rfl
        refine ⟨[e], [], ⟨by rw [hr]; exact h5, by rw [hr]; simp, ?_, ?_, ?_, ?_⟩⟩
        · simp [ho, h1, isBit_bit, isBit_target, isBit_event, filter_bits, filter_nobits, h3]
        · simp [ho, isBit_bit, isBit_target, isBit_event, filter_bits, filter_nobits, h3]
        · simp [ho, h1, h3]
        · intro e' he'; rw [ho] at he'; simp at he'; exact ⟨h1, by rw [he']⟩
      · have hr : Query.event.run c s = (s, .err .badQuery) := by rw [run_event, h4]; rfl
        exact ⟨[], bits, acc_refused hr h⟩
  | indirect =>
    rcases indirect_step hu h with ⟨x, h1, h2⟩ | ⟨e, h1, ⟨ip, s', f, h2, h3, h4⟩ | ⟨p, n, h2⟩ | ⟨h2, h3⟩⟩
    · have hr : Query.indirect.run c s = (s, .err x) := by rw [run_indirect, h2]; rfl
      exact ⟨[], bits, acc_refused hr h⟩
    · have hr : Query.indirect.run c s = (s', .ok (.target (if e.ipSuppressed = true then none else some ip), f)) := by
        rw [run_indirect, h3]; rfl
      have ho : out c .indirect s = [.target (if e.ipSuppressed = true then none else some ip)] := by
        unfold out; rw [hr]; rfl
      refine ⟨[e], bits, ⟨by rw [hr]; exact h4, by rw [hr]; simp, ?_, ?_, ?_, ?_⟩⟩
      · simp [ho, isBit_bit, isBit_target, isBit_event, filter_bits, filter_nobits, items_tip h2]
      · simp [ho, isBit_bit, isBit_target, isBit_event, filter_bits, filter_nobits, items_tip h2]
      · intro hm
        simp [ho, items_tip h2, (hm rfl).1]
      · simp [ho]
    · rcases indirect_tnt hu h h1 h2 with ⟨h3, h4⟩ | ⟨s1, h3, ⟨x, h4, h5⟩ | ⟨e', h4, ⟨ip, s', f, h5, h6, h7⟩ | ⟨h5, h6⟩⟩⟩
      · have hr : Query.indirect.run c s = (s, .err .overflow) := by rw [run_indirect, h4]; rfl
        exact ⟨[], bits, acc_refused hr h⟩
      · have hr : Query.indirect.run c s = (s1, .err x) := by rw [run_indirect, h5]; rfl
        have ho : out c .indirect s = [] := by unfold out; rw [hr]; rfl
        refine ⟨[e], _, ⟨by rw [hr]; exact h3, by rw [hr]; simp, ?_, ?_, ?_, ?_⟩⟩
        · simp [ho, items_tnt h2, filter_bits]
        · simp [ho, items_tnt h2, isBit_bit, isBit_target, isBit_event, filter_bits, filter_nobits]
        · simp [ho, items_tnt h2]
        · simp [ho]
      · have hr : Query.indirect.run c s = (s', .ok (.target (if e'.ipSuppressed = true then none else some ip), f)) := by
          rw [run_indirect, h6]; rfl
        have ho : out c .indirect s = [.target (if e'.ipSuppressed = true then none else some ip)] := by
          unfold out; rw [hr]; rfl
        refine ⟨[e, e'], _, ⟨by rw [hr]; simpa using h7, by rw [hr]; simp, ?_, ?_, ?_, ?_⟩⟩
        · simp [ho, isBit_bit, isBit_target, isBit_event, filter_bits, filter_nobits, items_tip h5, items_tnt h2, filter_bits]
        · simp [ho, isBit_bit, isBit_target, isBit_event, filter_bits, filter_nobits, items_tip h5, items_tnt h2]
        · intro hm
          exact absurd h2 ((hm rfl).2 e h1 p n)
        · simp [ho]
      · have hr : Query.indirect.run c s = (s1, .err .badQuery) := by rw [run_indirect, h6]; rfl
        have ho : out c .indirect s = [] := by unfold out; rw [hr]; rfl
        refine ⟨[e], _, ⟨by rw [hr]; exact h3, by rw [hr]; simp, ?_, ?_, ?_, ?_⟩⟩
        · simp [ho, items_tnt h2, filter_bits]
        · simp [ho, items_tnt h2, isBit_bit, isBit_target, isBit_event, filter_bits, filter_nobits]
        · simp [ho, items_tnt h2]
        · simp [ho]
    · have hr : Query.indirect.run c s = (s, .err .badQuery) := by rw [run_indirect, h3]; rfl
      exact ⟨[], bits, acc_refused hr h⟩

/-! ## Sequences of queries -/

theorem answers_append (p r : List Query) (s : Qdec) :
    answers c (p ++ r) s = answers c p s ++ answers c r (afterQueries c p s) := by
  induction p generalizing s with
  | nil => rfl
  | cons q p ih => simp [answers, afterQueries, ih]

theorem afterQueries_append (p r : List Query) (s : Qdec) :
    afterQueries c (p ++ r) s = afterQueries c r (afterQueries c p s) := by
  induction p generalizing s with
  | nil => rfl
  | cons q p ih => simp [afterQueries, ih]

theorem handed_append (p r : List Query) (s : Qdec) :
    handed c (p ++ r) s = handed c p s ++ handed c r (afterQueries c p s) := by
  simp [handed, answers_append]

theorem handed_one (q : Query) (s : Qdec) : handed c [q] s = out c q s := by
  unfold handed out answers answers
  cases h : itemOf (q.run c s).2 <;> simp [h]

theorem handed_snoc (p : List Query) (q : Query) (s : Qdec) :
    handed c (p ++ [q]) s = handed c p s ++ out c q (afterQueries c p s) := by
  rw [handed_append, handed_one]

/-- Nothing is lost. -/
theorem seq_acc (hu : Usable c) (h : QInv c d s [] []) (qs : List Query) : ∃ es bits,
    QInv c d (afterQueries c qs s) es bits ∧
    (handed c qs s).filter Item.isBit ++ bits.map .bit = (es.flatMap items).filter Item.isBit ∧
    (handed c qs s).filter (fun x => !x.isBit) = (es.flatMap items).filter (fun x => !x.isBit) := by
  induction qs using List.reverseRecOn with
  | nil => exact ⟨[], [], h, rfl, rfl⟩
  | append_singleton qs q ih =>
    obtain ⟨es, bits, h1, h2, h3⟩ := ih
    obtain ⟨es', bits', ha⟩ := run_acc hu h1 q
    refine ⟨es ++ es', bits', ?_, ?_, ?_⟩
    · rw [afterQueries_append]; exact ha.inv
    · rw [handed_snoc, List.filter_append, List.append_assoc, ha.bit, ← List.append_assoc, h2, List.flatMap_append,
        List.filter_append]
    · rw [handed_snoc, List.filter_append, ha.other, h3, List.flatMap_append, List.filter_append]

theorem Spec.Orderly.init {qs r : List Query} (h : Orderly c d s (qs ++ r)) : Orderly c d s qs := by
  intro p r' hp
  exact h p (r' ++ r) (by rw [hp]; simp)

theorem mayAsk (hu : Usable c) {qs : List Query} (h : Orderly c d s (qs ++ [.indirect]))
    (h1 : QInv c d (afterQueries c qs s) es bits) (h2 : handed c qs s ++ bits.map .bit = es.flatMap items) :
    MayAsk c d (afterQueries c qs s) es bits := by
  have ho := h qs [] rfl
  constructor
  · cases bits with
    | nil => rfl
    | cons b bs =>
      refine absurd ?_ (ho es b h1.del)
      rw [← h2]
      exact ⟨bs.map .bit, by simp⟩
  · intro e he p n hd
    obtain ⟨h3, h4, _⟩ := h1.step hu he
    obtain ⟨_, _, b, r, hb⟩ := fine_tnt h3 hd
    cases bits with
    | nil =>
      refine absurd ?_ (ho (es ++ [e]) b h4)
      rw [List.flatMap_append, ← h2]
      refine ⟨r.map .bit, ?_⟩
      simp [items_tnt hd, hb]
    | cons b bs =>
      refine absurd ?_ (ho es b h1.del)
      rw [← h2]
      exact ⟨bs.map .bit, by simp⟩

/-- Orderly users get everything in order. -/
theorem seq_ord (hu : Usable c) (h : QInv c d s [] []) (qs : List Query) (ho : Orderly c d s qs) : ∃ es bits,
    QInv c d (afterQueries c qs s) es bits ∧ handed c qs s ++ bits.map .bit = es.flatMap items := by
  induction qs using List.reverseRecOn with
  | nil => exact ⟨[], [], h, rfl⟩
  | append_singleton qs q ih =>
    obtain ⟨es, bits, h1, h2⟩ := ih ho.init
    obtain ⟨es', bits', ha⟩ := run_acc hu h1 q
    refine ⟨es ++ es', bits', ?_, ?_⟩
    · rw [afterQueries_append]; exact ha.inv
    · rw [handed_snoc, List.append_assoc, ha.ord ?_, ← List.append_assoc, h2, List.flatMap_append]
      intro hq
      subst hq
      exact mayAsk hu ho h1 h2


/-! ## Synchronization -/

theorem ahead_inv {o : EvtCall} {d0 : Evd} (hu : Usable c) (h : o.run c d0 = (d, .ok none)) (ha : Ahead c d s) :
    QInv c d s [] [] := by
  have hs := run_sync hu.time h
  obtain ⟨h1, h2⟩ := ha
  refine ⟨rfl, ?_, by rw [h1]; exact ⟨by simp, rfl, rfl, by decide⟩, false, hs.inv, hs.1⟩
  show _ ∨ _
  rw [show evtFinal c (nexts ([] : List Event).length) d = d from rfl]
  rcases hx : evtNext c d with ⟨ev, e | x | _⟩
  · rw [hx] at h2; obtain ⟨h2, h3, h4⟩ := h2
    exact .inl ⟨e, h4, h3, by rw [h2]⟩
  · rw [hx] at h2; obtain ⟨h2, h3, h4⟩ := h2
    exact .inr ⟨x, h4, h3, by rw [h2]⟩
  · rw [hx] at h2; exact h2.elim

theorem sync_inv (hu : Usable c) (h : Synchronized c d s) : QInv c d s [] [] := by
  obtain ⟨s0, o, f, ip, h1, ⟨d0, h2, h3⟩, h4⟩ := h
  exact ahead_inv hu h2 h4

theorem qryStart_ahead {f : Flags} {ip : Option Nat} {s0 : Qdec} (h0 : s0.tnt = {})
    (h : qryStart c s0 = (s, .ok (f, ip))) : Ahead c s0.ev s := by
  unfold qryStart qryFetch at h
  unfold Ahead
  revert h
  rcases startLoop c s0.ev.pd.pos evqFuel s0.ev with ip' | e | _
  · dsimp only
    rcases evtNext c s0.ev with ⟨ev, e | x | _⟩
    · dsimp only
      intro h
      split at h <;> cases h
      exact ⟨h0, rfl, rfl, rfl⟩
    · dsimp only
      intro h
      split at h <;> cases h
      exact ⟨h0, rfl, rfl, rfl⟩
    · intro h; cases h
  · intro h; cases h
  · intro h; cases h

theorem onEvt_ahead {f : Flags} {ip : Option Nat} {m : EM Unit} {s0 : Qdec} (h0 : s0.tnt = {})
    (h : onEvt m (qryStart c) s0 = (s, .ok (f, ip))) : ∃ d, m s0.ev = (d, .ok ()) ∧ Ahead c d s := by
  unfold onEvt at h
  revert h
  rcases m s0.ev with ⟨d, _ | e | _⟩
  · dsimp only
    intro h
    exact ⟨d, rfl, qryStart_ahead (s0 := { s0 with ev := d }) h0 h⟩
  · intro h; cases h
  · intro h; cases h

theorem backInner_ahead {sync : Nat} : ∀ (n : Nat) (s0 : Qdec) (s : Qdec) (k : Nat), s0.tnt = {} →
    qrySyncBackInner c sync n s0 = (s, .ok k) → s.tnt = {} ∧ ∃ d0, evtSyncBackward c d0 = (s.ev, .ok ()) := by
  intro n
  induction n with
  | zero => intro _ _ _ _ h; cases h
  | succ n ih =>
    intro s0 s k h0 h
    unfold qrySyncBackInner onEvt at h
    revert h
    rcases hx : evtSyncBackward c s0.ev with ⟨d, _ | e | _⟩
    · dsimp only
      split
      · intro h
        exact ih { s0 with ev := d } s k h0 h
      · intro h
        cases h
        exact ⟨h0, _, hx⟩
    · intro h; cases h
    · intro h; cases h

theorem backLoop_ahead {start : Nat} {f : Flags} {ip : Option Nat} : ∀ (n : Nat) (sync : Nat) (ip0 : Option Nat) (s0 : Qdec),
    qrySyncBackLoop c start n sync ip0 s0 = (s, .ok (f, ip)) →
    ∃ d0 d, evtSyncBackward c d0 = (d, .ok ()) ∧ Ahead c d s := by
  intro n
  induction n with
  | zero => intro _ _ _ h; cases h
  | succ n ih =>
    intro sync ip0 s0 h
    unfold qrySyncBackLoop at h
    revert h
    rcases hx : qrySyncBackInner c sync c.fuel (qryReset s0) with ⟨s1, k | e | _⟩
    · obtain ⟨h1, d0, h2⟩ := backInner_ahead _ _ _ _ rfl hx
      dsimp only
      rcases hy : qryStart c s1 with ⟨s2, ⟨f', ip'⟩ | e | _⟩
      · dsimp only
        split
        · intro h
          cases h
          exact ⟨d0, s1.ev, h2, qryStart_ahead h1 hy⟩
        · exact ih _ _ _
      · cases e <;> first | exact ih _ _ _ | (intro h; cases h)
      · intro h; cases h
    · intro h; cases h
    · intro h; cases h

theorem synchronized_ex {o : SyncCall} {f : Flags} {ip : Option Nat} {s0 : Qdec} (h : o.run c s0 = (s, .ok (f, ip))) :
    ∃ d, Synchronized c d s := by
  cases o with
  | forward =>
    obtain ⟨d, h1, h2⟩ := onEvt_ahead (s0 := qryReset s0) rfl h
    have h1 : evtSyncForward c s0.ev = (d, .ok ()) := h1
    exact ⟨d, s0, .forward, f, ip, h, ⟨s0.ev, by simp [SyncCall.evt, EvtCall.run, h1, Res.bind], fun _ => rfl⟩, h2⟩
  | set off =>
    obtain ⟨d, h1, h2⟩ := onEvt_ahead (s0 := qryReset s0) rfl h
    have h1 : evtSyncSet c off s0.ev = (d, .ok ()) := h1
    exact ⟨d, s0, .set off, f, ip, h, ⟨s0.ev, by simp [SyncCall.evt, EvtCall.run, h1, Res.bind], fun _ => rfl⟩, h2⟩
  | backward =>
    obtain ⟨d0, d, h1, h2⟩ := backLoop_ahead _ _ _ _ h
    exact ⟨d, s0, .backward, f, ip, h, ⟨d0, by simp [SyncCall.evt, EvtCall.run, h1, Res.bind], fun h => absurd rfl h⟩, h2⟩

/-! ## Errors -/

/-- All events are fine. -/
theorem delivers_fine (hu : Usable c) : ∀ (es : List Event), QInv c d s [] [] → Delivers c d es → ∀ e ∈ es, Fine True e.data := by
  intro es h
  suffices ∀ es, Delivers c d es → (∃ t, Inv c t (evtFinal c (nexts es.length) d) ∧ (evtFinal c (nexts es.length) d).event = none) ∧
      ∀ e ∈ es, Fine True e.data from fun hd => (this es hd).2
  intro es
  induction es using List.reverseRecOn with
  | nil => intro _; exact ⟨h.inv, by simp⟩
  | append_singleton es e ih =>
    intro hd
    have h1 : Delivers c d es := by
      unfold Delivers at hd ⊢
      rw [List.length_append, nexts_add, evtResults_append, List.map_append] at hd
      exact (List.append_inj hd (by rw [evtResults_length]; simp [nexts])).1
    obtain ⟨⟨t, h2, h3⟩, h4⟩ := ih h1
    obtain ⟨e', r, s', h5, h6⟩ := h1.next hd (by simp)
    have h5 := List.append_cancel_left h5
    simp only [List.cons.injEq] at h5
    rw [← h5.1] at h6
    have h7 := EM.wlp_ok (evtNext_inv hu.time h2 h3) h6
    refine ⟨⟨upd c t e s', ?_⟩, ?_⟩
    · rw [List.length_append, List.length_singleton, evtFinal_snoc, next_run h6]
      exact h7.2
    · intro e'' he
      rcases List.mem_append.1 he with he | he
      · exact h4 _ he
      · rw [List.mem_singleton.1 he]; exact EM.wlp_ok (evtNext_tnt hu.time h2 h3) h6

theorem flatMap_nil {es : List Event} (h : ∀ e ∈ es, Fine True e.data) (h0 : es.flatMap items = []) : es = [] := by
  cases es with
  | nil => rfl
  | cons e es =>
    simp only [List.flatMap_cons, List.append_eq_nil_iff] at h0
    exact absurd h0.1 (items_ne (h e (by simp)))

/-- No event is delivered after the first error. -/
theorem Spec.Fails.longest {x : Err} {fs : List Event} (h : Fails c d es x) (hf : Delivers c d fs) : fs <+: es := by
  by_cases hl : fs.length ≤ es.length
  · exact hf.prefix h.delivers hl
  · obtain ⟨e, r, s', h1, h2⟩ := h.delivers.next hf (by omega)
    obtain ⟨s'', h3⟩ := h.next
    rw [h2] at h3
    cases h3

/-- The error is next if everything before it was handed out. -/
theorem err_now (hu : Usable c) {x : Err} {d' : Qdec} {es' : List Event} (hs : QInv c d s [] []) (h : Fails c d es x)
    (hi : QInv c d d' es' bits) (hl : (es.flatMap items).length + bits.length = (es'.flatMap items).length) :
    es' = es ∧ bits = [] ∧ QErr c d d' es x := by
  obtain ⟨r, hr⟩ := h.longest hi.del
  rw [← hr] at hl
  simp only [List.flatMap_append, List.length_append] at hl
  have hb : bits = [] := List.length_eq_zero_iff.1 (by omega)
  have h0 : r.flatMap items = [] := List.length_eq_zero_iff.1 (by omega)
  have hr0 : r = [] := flatMap_nil (fun e he => delivers_fine hu es hs h.delivers e (by rw [← hr]; simp [he])) h0
  have he : es' = es := by rw [← hr, hr0]; simp
  refine ⟨he, hb, ?_⟩
  obtain ⟨s'', h3⟩ := h.next
  rcases hi.cases with ⟨e, h4⟩ | ⟨y, h4⟩
  · rw [he] at h4
    rw [h4.2.2] at h3; cases h3
  · rw [he] at h4
    have := h4.2.2
    rw [h3] at this
    cases this
    exact h4

theorem err_run (hu : Usable c) {x : Err} (h : QInv c d s es []) (hx : QErr c d s es x) (q : Query) :
    ∃ t, q.run c s = ({ s with lastTime := t }, .err x) := by
  have no : ∀ e, ¬ QOk c d s es e := fun e he => by have := he.1; rw [hx.1] at this; cases this
  have eq : ∀ y, QErr c d s es y → y = x := fun y hy => by have := hy.1; rw [hx.1] at this; cases this; rfl
  cases q with
  | cond =>
    rcases cond_step hu h with ⟨b, bs, s', f, h1, h2, h3⟩ | ⟨h1, y, h2, h3⟩ | ⟨h1, e, h2, h3⟩
    · cases h1
    · rw [run_cond, h3, eq y h2]; exact ⟨_, rfl⟩
    · exact absurd h2 (no e)
  | event =>
    rcases event_step hu h with ⟨h1, h2⟩ | ⟨h1, y, h2, h3⟩ | ⟨h1, e, h2, h3⟩
    · exact absurd rfl h1
    · rw [run_event, h3, eq y h2]; exact ⟨s.lastTime, rfl⟩
    · exact absurd h2 (no e)
  | indirect =>
    rcases indirect_step hu h with ⟨y, h1, h2⟩ | ⟨e, h1, _⟩
    · rw [run_indirect, h2, eq y h1]; exact ⟨s.lastTime, rfl⟩
    · exact absurd h1 (no e)

theorem err_forever (hu : Usable c) {x : Err} : ∀ (qs : List Query) (s : Qdec), QInv c d s es [] → QErr c d s es x →
    ∀ r ∈ answers c qs s, r = .err x := by
  intro qs
  induction qs with
  | nil => intro _ _ _ r hr; cases hr
  | cons q qs ih =>
    intro s h hx r hr
    obtain ⟨t, ht⟩ := err_run hu h hx q
    simp only [answers, ht, List.mem_cons] at hr
    rcases hr with hr | hr
    · exact hr
    · exact ih _ (h.time t) hx r hr

/-! ## The answers do not depend on the time -/

/-- Equal up to the time of the last query. -/
def SameT (s s' : Qdec) : Prop := ∃ t, s' = { s with lastTime := t }

theorem withFlags_time {α : Type} (a : α) (t : Time) :
    withFlags { s with lastTime := t } a = ({ (withFlags s a).1 with lastTime := t }, (withFlags s a).2) := by
  unfold withFlags
  rw [show ({ s with lastTime := t } : Qdec).flags = s.flags from rfl]
  rcases s.flags with f | e | _ <;> rfl

theorem qryFetch_time (t : Time) :
    qryFetch c { s with lastTime := t } = ({ (qryFetch c s).1 with lastTime := t }, (qryFetch c s).2) := by
  unfold qryFetch
  dsimp only
  rcases evtNext c s.ev with ⟨ev, e | x | _⟩ <;> rfl


theorem cacheTnt_time (t : Time) :
    cacheTnt c { s with lastTime := t } = ({ (cacheTnt c s).1 with lastTime := t }, (cacheTnt c s).2) := by
  obtain ⟨ev, tnt, lt, event, status⟩ := s
  unfold cacheTnt
  dsimp only
  cases status with
  | some e => rfl
  | none =>
    cases event with
    | uninit => rfl
    | bad => rfl
    | ok e =>
      dsimp only
      cases e.data <;> try rfl
      rename_i p n
      dsimp only
      rcases tnt.add p n with ⟨t', _ | _ | _⟩
      · exact qryFetch_time (s := { ev := ev, tnt := t', lastTime := lt, event := .ok e, status := none }) t
      · rfl
      · rfl

theorem condBranch_time (t : Time) :
    ∃ t', condBranch c { s with lastTime := t } = ({ (condBranch c s).1 with lastTime := t' }, (condBranch c s).2) := by
  unfold condBranch
  dsimp only
  rcases s.tnt.query with ⟨t', b | e | _⟩
  · exact ⟨t, withFlags_time (s := { s with tnt := t' }) b t⟩
  · cases e
    case badQuery => exact ⟨_, rfl⟩
    all_goals exact ⟨t, rfl⟩
  · exact ⟨t, rfl⟩

theorem takeTip_time (sup : Bool) (ip : Nat) (t : Time) : takeTip c sup ip { s with lastTime := t } = takeTip c sup ip s := rfl

theorem indirectBranch_time (t : Time) : ∃ t', indirectBranch c { s with lastTime := t } =
    ({ (indirectBranch c s).1 with lastTime := t' }, (indirectBranch c s).2) := by
  have hc := cacheTnt_time (c := c) (s := s) t
  obtain ⟨ev, tnt, lt, event, status⟩ := s
  unfold indirectBranch
  dsimp only at hc ⊢
  rw [hc]
  cases status with
  | some e => exact ⟨t, rfl⟩
  | none =>
    dsimp only
    rcases event.tip with (_ | ⟨sup, ip⟩) | e | _
    · dsimp only
      rcases cacheTnt c _ with ⟨⟨ev1, tnt1, lt1, event1, status1⟩, _ | e | _⟩
      · dsimp only
        rcases event1.tip with (_ | ⟨sup, ip⟩) | e | _
        · dsimp only
          cases status1 <;> exact ⟨t, rfl⟩
        · exact ⟨_, rfl⟩
        · exact ⟨t, rfl⟩
        · exact ⟨t, rfl⟩
      · exact ⟨t, rfl⟩
      · exact ⟨t, rfl⟩
    · exact ⟨_, rfl⟩
    · exact ⟨t, rfl⟩
    · exact ⟨t, rfl⟩

theorem qryEvent_time (t : Time) :
    ∃ t', qryEvent c { s with lastTime := t } = ({ (qryEvent c s).1 with lastTime := t' }, (qryEvent c s).2) := by
  obtain ⟨ev, tnt, lt, event, status⟩ := s
  unfold qryEvent
  dsimp only
  split
  · exact ⟨t, rfl⟩
  · cases status with
    | some e => exact ⟨t, rfl⟩
    | none =>
      dsimp only
      rcases event.pending with (_ | _) | e | _
      · exact ⟨t, rfl⟩
      · dsimp only
        cases event <;> first | exact ⟨t, rfl⟩ | exact ⟨_, rfl⟩
      · exact ⟨t, rfl⟩
      · exact ⟨t, rfl⟩

theorem run_time (q : Query) (t : Time) :
    ∃ t', q.run c { s with lastTime := t } = ({ (q.run c s).1 with lastTime := t' }, (q.run c s).2) := by
  cases q with
  | cond => obtain ⟨t', h⟩ := condBranch_time (c := c) (s := s) t; exact ⟨t', by rw [run_cond, run_cond, h]⟩
  | indirect => obtain ⟨t', h⟩ := indirectBranch_time (c := c) (s := s) t; exact ⟨t', by rw [run_indirect, run_indirect, h]⟩
  | event => obtain ⟨t', h⟩ := qryEvent_time (c := c) (s := s) t; exact ⟨t', by rw [run_event, run_event, h]⟩

theorem answers_time : ∀ (qs : List Query) (s : Qdec) (t : Time), answers c qs { s with lastTime := t } = answers c qs s := by
  intro qs
  induction qs with
  | nil => intro _ _; rfl
  | cons q qs ih =>
    intro s t
    obtain ⟨t', h⟩ := run_time (c := c) (s := s) q t
    simp only [answers, h, ih]

end Ipt
