import Verif.QueryInv
import Verif.Props.EventInv

/-!
# The query decoder hands out the events of the event decoder

See `Verif/Spec/Query.lean` for the vocabulary.  `d` is the event decoder after the synchronization, `s` the query
decoder after the synchronization, `qs` the queries made since then: any number of queries in any order.
-/

set_option linter.unusedSimpArgs false

namespace Ipt.Props

open Ipt Spec

variable {c : EvtCfg} {d : Evd} {s : Qdec}

/-- After every successful synchronization of the query decoder there is an event decoder that was synchronized in the
same way. -/
theorem C37_synchronized (c : EvtCfg) (o : SyncCall) (s0 s : Qdec) (f : Flags) (ip : Option Nat)
    (h : o.run c s0 = (s, .ok (f, ip))) : ∃ d, Synchronized c d s := synchronized_ex h

/-- Forward synchronization and synchronization to an offset work on the query decoder's own event decoder. -/
theorem C37_synchronized_own (c : EvtCfg) (o : SyncCall) (s0 s : Qdec) (f : Flags) (ip : Option Nat)
    (h : o.run c s0 = (s, .ok (f, ip))) (ho : o ≠ .backward) :
    ∃ d, o.evt.run c s0.ev = (d, .ok none) ∧ Synchronized c d s := by
  cases o with
  | backward => exact absurd rfl ho
  | forward =>
    obtain ⟨d, h1, h2⟩ := onEvt_ahead (s0 := qryReset s0) rfl h
    have h1 : evtSyncForward c s0.ev = (d, .ok ()) := h1
    have h3 : SyncCall.forward.evt.run c s0.ev = (d, .ok none) := by simp [SyncCall.evt, EvtCall.run, h1, Res.bind]
    exact ⟨d, h3, s0, .forward, f, ip, h, ⟨s0.ev, h3, fun _ => rfl⟩, h2⟩
  | set off =>
    obtain ⟨d, h1, h2⟩ := onEvt_ahead (s0 := qryReset s0) rfl h
    have h1 : evtSyncSet c off s0.ev = (d, .ok ()) := h1
    have h3 : (SyncCall.set off).evt.run c s0.ev = (d, .ok none) := by simp [SyncCall.evt, EvtCall.run, h1, Res.bind]
    exact ⟨d, h3, s0, .set off, f, ip, h, ⟨s0.ev, h3, fun _ => rfl⟩, h2⟩

/-- C37, for all users: nothing is lost, duplicated or invented.  Whatever was asked, there is a sequence `es` of events
that the event decoder delivers, such that the branch outcomes handed out, followed by some outcomes that are still in
the query decoder, are exactly the branch outcomes in `es`, in order, and the targets and events handed out are exactly
those in `es`, in order. -/
theorem C37_nothing_lost (hu : Usable c) (hs : Synchronized c d s) (qs : List Query) :
    ∃ (es : List Event) (rest : List Bool), Delivers c d es ∧
      (handed c qs s).filter Item.isBit ++ rest.map Item.bit = (es.flatMap items).filter Item.isBit ∧
      (handed c qs s).filter (fun x => !x.isBit) = (es.flatMap items).filter (fun x => !x.isBit) := by
  obtain ⟨es, bits, h1, h2, h3⟩ := seq_acc hu (sync_inv hu hs) qs
  exact ⟨es, bits, h1.del, h2, h3⟩

/-- C37, for all users: an event is handed out only after all branch outcomes, targets and events before it. -/
theorem C37_events_wait (hu : Usable c) (hs : Synchronized c d s) (qs : List Query) (e : Event) (f : Flags)
    (h : (Query.event.run c (afterQueries c qs s)).2 = .ok (.event e, f)) :
    ∃ es, Delivers c d (es ++ [e]) ∧
      (handed c qs s).filter Item.isBit = (es.flatMap items).filter Item.isBit ∧
      (handed c qs s).filter (fun x => !x.isBit) = (es.flatMap items).filter (fun x => !x.isBit) := by
  obtain ⟨es, bits, h1, h2, h3⟩ := seq_acc hu (sync_inv hu hs) qs
  obtain ⟨es', bits', ha⟩ := run_acc hu h1 .event
  obtain ⟨hb, he⟩ := ha.ev e (by unfold out; rw [h]; rfl)
  have h4 := ha.inv.del
  rw [he] at h4
  rw [hb] at h2
  exact ⟨es, h4, by simpa using h2, h3⟩

/-- C37: users that do not ask for the target of an indirect branch when the next item is the outcome of a conditional
branch get exactly the items of the event decoder, in trace order, one at a time.  The hypothesis `Orderly` is needed,
see `C37_indirect_reorders`. -/
theorem C37_in_order_partial (hu : Usable c) (hs : Synchronized c d s) (qs : List Query) (ho : Orderly c d s qs) :
    ∃ (es : List Event) (rest : List Bool), Delivers c d es ∧ handed c qs s ++ rest.map Item.bit = es.flatMap items := by
  obtain ⟨es, bits, h1, h2⟩ := seq_ord hu (sync_inv hu hs) qs ho
  exact ⟨es, bits, h1.del, h2⟩

/-- The next item. -/
theorem next_item (hu : Usable c) {s' : Qdec} {es fs : List Event} {bits : List Bool} {hd : List Item} {x : Item}
    (hs : QInv c d s [] []) (h : QInv c d s' es bits) (h1 : hd ++ bits.map .bit = es.flatMap items)
    (hf : Delivers c d fs) (hx : (hd ++ [x]) <+: fs.flatMap items) :
    (∃ b bs, bits = b :: bs ∧ x = .bit b) ∨ (bits = [] ∧ ∃ e r, QOk c d s' es e ∧ items e = x :: r) := by
  have hpre : ∀ {a b : List Event}, a <+: b → a.flatMap items <+: b.flatMap items := by
    rintro a b ⟨r, rfl⟩; exact ⟨r.flatMap items, by simp⟩
  cases bits with
  | cons b bs =>
    left
    refine ⟨b, bs, rfl, ?_⟩
    have h2 : (hd ++ [.bit b]) <+: es.flatMap items := ⟨bs.map .bit, by rw [← h1]; simp⟩
    have h3 : hd ++ [Item.bit b] = hd ++ [x] := by
      rcases Nat.le_total es.length fs.length with hl | hl
      · exact List.prefix_of_prefix_length_le (h2.trans (hpre (h.del.prefix hf hl))) hx (by simp) |>.eq_of_length (by simp)
      · exact List.prefix_of_prefix_length_le h2 (hx.trans (hpre (hf.prefix h.del hl))) (by simp) |>.eq_of_length (by simp)
    have := List.append_cancel_left h3
    simp at this
    exact this.symm
  | nil =>
    right
    refine ⟨rfl, ?_⟩
    have h1 : hd = es.flatMap items := by simpa using h1
    have hl : es.length < fs.length := by
      by_contra hn
      have h2 := (hpre (hf.prefix h.del (by omega))).length_le
      have h3 := hx.length_le
      rw [← h1] at h2
      rw [List.length_append, List.length_singleton] at h3
      omega
    obtain ⟨e, r, s'', h2, h3⟩ := h.del.next hf hl
    have hfine := delivers_fine hu fs hs hf e (by rw [h2]; simp)
    have hok : QOk c d s' es e := by
      rcases h.cases with ⟨e', he⟩ | ⟨y, hy⟩
      · have := he.2.2
        rw [h3] at this
        cases this
        exact he
      · have := hy.2.2
        rw [h3] at this
        cases this
    obtain ⟨y, l, hy⟩ : ∃ y l, items e = y :: l := by
      cases hi : items e with
      | nil => exact absurd hi (items_ne hfine)
      | cons y l => exact ⟨y, l, rfl⟩
    refine ⟨e, l, hok, ?_⟩
    obtain ⟨t, ht⟩ := hx
    rw [h2, h1] at ht
    simp only [List.flatMap_append, List.flatMap_cons, List.append_assoc, hy] at ht
    have ht := List.append_cancel_left ht
    simp at ht
    rw [hy, ht.1]

/-- C37: progress.  If the event decoder delivers an item next, then asking for an item of this kind hands it out. -/
theorem C37_granted (hu : Usable c) (hs : Synchronized c d s) (qs : List Query) (ho : Orderly c d s qs)
    (es : List Event) (x : Item) (he : Delivers c d es) (hx : (handed c qs s ++ [x]) <+: es.flatMap items) :
    ∃ f, (x.query.run c (afterQueries c qs s)).2 = .ok (x, f) := by
  have h0 := sync_inv hu hs
  obtain ⟨es', bits, h1, h2⟩ := seq_ord hu h0 qs ho
  rcases next_item hu h0 h1 h2 he hx with ⟨b, bs, h3, h4⟩ | ⟨h3, e, r, h4, h5⟩
  · subst h4
    rcases cond_step hu h1 with ⟨b', bs', s', f, h5, h6, _⟩ | ⟨h5, _⟩ | ⟨h5, _⟩
    · rw [h3] at h5; cases h5
      exact ⟨f, by simp only [Item.query, run_cond, h6]; rfl⟩
    · rw [h3] at h5; cases h5
    · rw [h3] at h5; cases h5
  · have hok : ∀ e', QOk c d (afterQueries c qs s) es' e' → e' = e := by
      intro e' h; have := h.2.1; rw [h4.2.1] at this; cases this; rfl
    have herr : ∀ x, ¬ QErr c d (afterQueries c qs s) es' x := by
      intro y hy; have := hy.1; rw [h4.1] at this; cases this
    cases x with
    | bit b =>
      rcases cond_step hu h1 with ⟨b', bs', s', f, h6, _⟩ | ⟨_, y, hy, _⟩ | ⟨_, e', h6, h7⟩
      · rw [h3] at h6; cases h6
      · exact absurd hy (herr y)
      · cases hok e' h6
        rcases h7 with ⟨p, n, b', bs', s', f, h7, h8, h9, _⟩ | ⟨h7, _⟩
        · rw [items_tnt h7, h8] at h5
          simp only [List.map_cons, List.cons.injEq, Item.bit.injEq] at h5
          rw [h5.1] at h9
          exact ⟨f, by simp only [Item.query, run_cond, h9]; rfl⟩
        · unfold items at h5
          split at h5
          · rename_i hd; exact absurd hd (h7 _ _)
          · cases h5
          · cases h5
    | target ip =>
      rcases indirect_step hu h1 with ⟨y, hy, _⟩ | ⟨e', h6, ⟨ip', s', f, h7, h8, _⟩ | ⟨p, n, h7⟩ | ⟨h7, _⟩⟩
      · exact absurd hy (herr y)
      · cases hok e' h6
        rw [items_tip h7] at h5
        simp only [List.cons.injEq, Item.target.injEq] at h5
        rw [h5.1] at h8
        exact ⟨f, by simp only [Item.query, run_indirect, h8]; rfl⟩
      · cases hok e' h6
        rw [items_tnt h7] at h5
        cases hb : tntBits p n with
        | nil => rw [hb] at h5; cases h5
        | cons b l => rw [hb] at h5; cases h5
      · cases hok e' h6
        rw [h7] at h5; cases h5
    | event e1 =>
      rcases event_step hu h1 with ⟨h6, _⟩ | ⟨_, y, hy, _⟩ | ⟨_, e', h6, ⟨h7, s', f, h8, _⟩ | ⟨h7, _⟩⟩
      · exact absurd h3 h6
      · exact absurd hy (herr y)
      · cases hok e' h6
        rw [h7] at h5; cases h5
        exact ⟨f, by simp only [Item.query, run_event, h8]; rfl⟩
      · cases hok e' h6
        refine absurd ?_ h7
        unfold items at h5 ⊢
        split at h5
        · rename_i p n _
          cases hb : tntBits p n with
          | nil => rw [hb] at h5; cases h5
          | cons b l => rw [hb] at h5; cases h5
        · cases h5
        · rfl

/-- C37: asking for anything else is refused with -pte_bad_query. -/
theorem C37_refused (hu : Usable c) (hs : Synchronized c d s) (qs : List Query) (q : Query)
    (ho : Orderly c d s (qs ++ [q])) (es : List Event) (x : Item) (he : Delivers c d es)
    (hx : (handed c qs s ++ [x]) <+: es.flatMap items) (hq : q ≠ x.query) :
    (q.run c (afterQueries c qs s)).2 = .err .badQuery := by
  have h0 := sync_inv hu hs
  obtain ⟨es', bits, h1, h2⟩ := seq_ord hu h0 qs ho.init
  rcases next_item hu h0 h1 h2 he hx with ⟨b, bs, h3, h4⟩ | ⟨h3, e, r, h4, h5⟩
  · subst h4
    cases q with
    | cond => exact absurd rfl hq
    | indirect =>
      have := (mayAsk hu ho h1 h2).1
      rw [h3] at this; cases this
    | event =>
      rcases event_step hu h1 with ⟨_, h6⟩ | ⟨h5, _⟩ | ⟨h5, _⟩
      · rw [run_event, h6]; rfl
      · rw [h3] at h5; cases h5
      · rw [h3] at h5; cases h5
  · have hok : ∀ e', QOk c d (afterQueries c qs s) es' e' → e' = e := by
      intro e' h; have := h.2.1; rw [h4.2.1] at this; cases this; rfl
    have herr : ∀ x, ¬ QErr c d (afterQueries c qs s) es' x := by
      intro y hy; have := hy.1; rw [h4.1] at this; cases this
    cases q with
    | cond =>
      rcases cond_step hu h1 with ⟨b', bs', s', f, h6, _⟩ | ⟨_, y, hy, _⟩ | ⟨_, e', h6, h7⟩
      · rw [h3] at h6; cases h6
      · exact absurd hy (herr y)
      · cases hok e' h6
        rcases h7 with ⟨p, n, b', bs', s', f, h7, h8, h9, _⟩ | ⟨h7, h8⟩
        · rw [items_tnt h7, h8] at h5
          simp only [List.map_cons, List.cons.injEq] at h5
          exact absurd (by rw [← h5.1]; rfl) hq
        · rw [run_cond, h8]; rfl
    | indirect =>
      rcases indirect_step hu h1 with ⟨y, hy, _⟩ | ⟨e', h6, ⟨ip', s', f, h7, h8, _⟩ | ⟨p, n, h7⟩ | ⟨h7, h8⟩⟩
      · exact absurd hy (herr y)
      · cases hok e' h6
        rw [items_tip h7] at h5
        simp only [List.cons.injEq] at h5
        exact absurd (by rw [← h5.1]; rfl) hq
      · exact absurd h7 ((mayAsk hu ho h1 h2).2 _ h6 p n)
      · rw [run_indirect, h8]; rfl
    | event =>
      rcases event_step hu h1 with ⟨h6, _⟩ | ⟨_, y, hy, _⟩ | ⟨_, e', h6, ⟨h7, s', f, h8, _⟩ | ⟨h7, h8⟩⟩
      · exact absurd h3 h6
      · exact absurd hy (herr y)
      · cases hok e' h6
        rw [h7] at h5
        simp only [List.cons.injEq] at h5
        exact absurd (by rw [← h5.1]; rfl) hq
      · rw [run_event, h8]; rfl

/-- C38: a decode error is reported when everything before it was handed out, and from then on by every query, until
the decoder is synchronized again.  For all users. -/
theorem C38_reported_and_sticky (hu : Usable c) (hs : Synchronized c d s) (qs : List Query) (es : List Event) (x : Err)
    (hf : Fails c d es x) (hl : (handed c qs s).length = (es.flatMap items).length) (qs' : List Query) :
    ∀ r ∈ answers c qs' (afterQueries c qs s), r = .err x := by
  have h0 := sync_inv hu hs
  obtain ⟨es', bits, h1, h2, h3⟩ := seq_acc hu h0 qs
  have hcount : ∀ l : List Item, (l.filter Item.isBit).length + (l.filter (fun x => !x.isBit)).length = l.length := by
    intro l
    induction l with
    | nil => rfl
    | cons x l ih => cases hx : x.isBit <;> simp [List.filter_cons, hx] at ih ⊢ <;> omega
  have h4 := congrArg List.length h2
  have h5 := congrArg List.length h3
  have h6 := hcount (handed c qs s)
  have h7 := hcount (es'.flatMap items)
  rw [List.length_append, List.length_map] at h4
  obtain ⟨h8, h9, h10⟩ := err_now hu h0 hf h1 (by omega)
  subst h8 h9
  exact err_forever hu qs' _ h1 h10

/-- C38: `pt_qry_cond_branch` and `pt_qry_event` report an error other than -pte_bad_query only when everything before
the error was handed out, and it is the error of the event decoder.  For all users.  Missing: `pt_qry_indirect_branch`,
see `C38_indirect_reports_early`. -/
theorem C38_deferred_partial (hu : Usable c) (hs : Synchronized c d s) (qs : List Query) (q : Query)
    (hq : q ≠ .indirect) (x : Err) (h : (q.run c (afterQueries c qs s)).2 = .err x) (hx : x ≠ .badQuery) :
    ∃ es, Fails c d es x ∧
      (handed c qs s).filter Item.isBit = (es.flatMap items).filter Item.isBit ∧
      (handed c qs s).filter (fun x => !x.isBit) = (es.flatMap items).filter (fun x => !x.isBit) := by
  have h0 := sync_inv hu hs
  obtain ⟨es, bits, h1, h2, h3⟩ := seq_acc hu h0 qs
  suffices bits = [] ∧ QErr c d (afterQueries c qs s) es x by
    obtain ⟨hb, he⟩ := this
    subst hb
    exact ⟨es, h1.del.fails he.2.2, by simpa using h2, h3⟩
  cases q with
  | indirect => exact absurd rfl hq
  | cond =>
    rcases cond_step hu h1 with ⟨b, bs, s', f, h4, h5, _⟩ | ⟨h4, y, h5, h6⟩ | ⟨h4, e, h5, ⟨p, n, b, bs, s', f, _, _, h6, _⟩ | ⟨_, h6⟩⟩
    · rw [run_cond, h5] at h; cases h
    · rw [run_cond, h6] at h; cases h; exact ⟨h4, h5⟩
    · rw [run_cond, h6] at h; cases h
    · rw [run_cond, h6] at h; cases h; exact absurd rfl hx
  | event =>
    rcases event_step hu h1 with ⟨h4, h5⟩ | ⟨h4, y, h5, h6⟩ | ⟨h4, e, h5, ⟨_, s', f, h6, _⟩ | ⟨_, h6⟩⟩
    · rw [run_event, h5] at h; cases h; exact absurd rfl hx
    · rw [run_event, h6] at h; cases h; exact ⟨h4, h5⟩
    · rw [run_event, h6] at h; cases h
    · rw [run_event, h6] at h; cases h; exact absurd rfl hx

/-- C38: the same for all three queries, for orderly users. -/
theorem C38_deferred_orderly (hu : Usable c) (hs : Synchronized c d s) (qs : List Query) (q : Query)
    (ho : Orderly c d s (qs ++ [q])) (x : Err) (h : (q.run c (afterQueries c qs s)).2 = .err x) (hx : x ≠ .badQuery) :
    ∃ es, Fails c d es x ∧ handed c qs s = es.flatMap items := by
  have h0 := sync_inv hu hs
  obtain ⟨es, bits, h1, h2⟩ := seq_ord hu h0 qs ho.init
  suffices bits = [] ∧ QErr c d (afterQueries c qs s) es x by
    obtain ⟨hb, he⟩ := this
    subst hb
    exact ⟨es, h1.del.fails he.2.2, by simpa using h2⟩
  cases q with
  | cond =>
    rcases cond_step hu h1 with ⟨b, bs, s', f, h4, h5, _⟩ | ⟨h4, y, h5, h6⟩ | ⟨h4, e, h5, ⟨p, n, b, bs, s', f, _, _, h6, _⟩ | ⟨_, h6⟩⟩
    · rw [run_cond, h5] at h; cases h
    · rw [run_cond, h6] at h; cases h; exact ⟨h4, h5⟩
    · rw [run_cond, h6] at h; cases h
    · rw [run_cond, h6] at h; cases h; exact absurd rfl hx
  | event =>
    rcases event_step hu h1 with ⟨h4, h5⟩ | ⟨h4, y, h5, h6⟩ | ⟨h4, e, h5, ⟨_, s', f, h6, _⟩ | ⟨_, h6⟩⟩
    · rw [run_event, h5] at h; cases h; exact absurd rfl hx
    · rw [run_event, h6] at h; cases h; exact ⟨h4, h5⟩
    · rw [run_event, h6] at h; cases h
    · rw [run_event, h6] at h; cases h; exact absurd rfl hx
  | indirect =>
    have hm := mayAsk hu ho h1 h2
    refine ⟨hm.1, ?_⟩
    rcases indirect_step hu h1 with ⟨y, hy, h6⟩ | ⟨e', h6, ⟨ip', s', f, h7, h8, _⟩ | ⟨p, n, h7⟩ | ⟨h7, h8⟩⟩
    · rw [run_indirect, h6] at h; cases h; exact hy
    · rw [run_indirect, h8] at h; cases h
    · exact absurd h7 (hm.2 _ h6 p n)
    · rw [run_indirect, h8] at h; cases h; exact absurd rfl hx

/-- C44: a refused or failed `pt_qry_cond_branch` or `pt_qry_event` changes none of the later answers, and the decoder
stays at the same place in the trace.  For all users.  Missing: `pt_qry_indirect_branch` for users that are not orderly,
see `C44_indirect_changes`, and the time, see `C44_cond_changes_time`. -/
theorem C44_refused_changes_nothing_partial (hu : Usable c) (hs : Synchronized c d s) (qs : List Query) (q : Query)
    (hq : q = .indirect → Orderly c d s (qs ++ [q])) (x : Err) (h : (q.run c (afterQueries c qs s)).2 = .err x) :
    (∀ qs', answers c qs' (q.run c (afterQueries c qs s)).1 = answers c qs' (afterQueries c qs s)) ∧
    (q.run c (afterQueries c qs s)).1.ev = (afterQueries c qs s).ev ∧
    (q ≠ .cond → (q.run c (afterQueries c qs s)).1 = afterQueries c qs s) := by
  have h0 := sync_inv hu hs
  cases q with
  | cond =>
    obtain ⟨es, bits, h1, _⟩ := seq_acc hu h0 qs
    have ht : (Query.cond.run c (afterQueries c qs s)).1 =
        { afterQueries c qs s with lastTime := (afterQueries c qs s).ev.tm.time } := by
      rcases cond_step hu h1 with ⟨b, bs, s', f, h4, h5, _⟩ | ⟨h4, y, h5, h6⟩ | ⟨h4, e, h5, ⟨p, n, b, bs, s', f, _, _, h6, _⟩ | ⟨_, h6⟩⟩
      · rw [run_cond, h5] at h; cases h
      · rw [run_cond, h6]
      · rw [run_cond, h6] at h; cases h
      · rw [run_cond, h6]
    rw [ht]
    exact ⟨fun qs' => answers_time _ _ _, rfl, fun h => absurd rfl h⟩
  | event =>
    obtain ⟨es, bits, h1, _⟩ := seq_acc hu h0 qs
    have ht : (Query.event.run c (afterQueries c qs s)).1 = afterQueries c qs s := by
      rcases event_step hu h1 with ⟨h4, h5⟩ | ⟨h4, y, h5, h6⟩ | ⟨h4, e, h5, ⟨_, s', f, h6, _⟩ | ⟨_, h6⟩⟩
      · rw [run_event, h5]
      · rw [run_event, h6]
      · rw [run_event, h6] at h; cases h
      · rw [run_event, h6]
    rw [ht]
    exact ⟨fun _ => rfl, rfl, fun _ => rfl⟩
  | indirect =>
    obtain ⟨es, bits, h1, h2⟩ := seq_ord hu h0 qs (hq rfl).init
    have hm := mayAsk hu (hq rfl) h1 h2
    have ht : (Query.indirect.run c (afterQueries c qs s)).1 = afterQueries c qs s := by
      rcases indirect_step hu h1 with ⟨y, hy, h6⟩ | ⟨e', h6, ⟨ip', s', f, h7, h8, _⟩ | ⟨p, n, h7⟩ | ⟨h7, h8⟩⟩
      · rw [run_indirect, h6]
      · rw [run_indirect, h8] at h; cases h
      · exact absurd h7 (hm.2 _ h6 p n)
      · rw [run_indirect, h8]
    rw [ht]
    exact ⟨fun _ => rfl, rfl, fun _ => rfl⟩

/-! ## Examples and counterexamples -/

/-- The query decoder after `pt_qry_sync_forward`. -/
def started (c : EvtCfg) : Qdec := (qrySyncForward c {}).1

/-- The event decoder after `pt_evt_sync_forward`. -/
def startedEvt (c : EvtCfg) : Evd := (evtSyncForward c evtInit).1

theorem started_ok (c : EvtCfg) (h : (match (qrySyncForward c {}).2 with | .ok _ => true | _ => false) = true) :
    Synchronized c (startedEvt c) (started c) := by
  obtain ⟨f, ip, h⟩ : ∃ f ip, (qrySyncForward c {}).2 = .ok (f, ip) := by
    revert h
    rcases (qrySyncForward c {}).2 with ⟨f, ip⟩ | e | _
    · exact fun _ => ⟨f, ip, rfl⟩
    · intro h; cases h
    · intro h; cases h
  obtain ⟨d, h1, h2⟩ := C37_synchronized_own c .forward {} (started c) f ip (by
    show qrySyncForward c {} = _
    rw [← h]; rfl) (by simp)
  have : d = startedEvt c := by
    have h1 : EvtCall.syncForward.run c evtInit = _ := h1
    unfold EvtCall.run at h1
    dsimp only at h1
    have := congrArg Prod.fst h1
    exact this.symm
  rw [← this]; exact h2

theorem cfgOf_usable {l : List UInt8} (h : l.length < 2 ^ 30) : Usable (cfgOf l) := by
  refine ⟨show 0 < 16 by decide, show 0 < 2 ^ 32 by decide, fun f hf => ?_, ?_⟩
  · have hf : (none : Option (Nat → Int)) = some f := hf
    cases hf
  show (tracePrefix ++ l).length + 1 < _
  rw [List.length_append]
  have : tracePrefix.length = 25 := rfl
  omega

/-- To ask for an indirect branch is orderly if the next item is not a branch outcome. -/
theorem orderly_of {es0 : List Event} {x : Item} {qs : List Query}
    (ho : Orderly c d s qs) (h0 : Delivers c d es0) (hx : (handed c qs s ++ [x]) <+: es0.flatMap items)
    (hb : x.isBit = false) : Orderly c d s (qs ++ [.indirect]) := by
  intro p r hp
  rcases List.eq_nil_or_concat r with hr | ⟨r', y, hr⟩
  · subst hr
    have hp' : qs = p := (List.append_inj' hp rfl).1
    subst hp'
    intro es b he hh
    have hpre : ∀ {a b : List Event}, a <+: b → a.flatMap items <+: b.flatMap items := by
      rintro a b ⟨r, rfl⟩; exact ⟨r.flatMap items, by simp⟩
    have h3 : handed c qs s ++ [Item.bit b] = handed c qs s ++ [x] := by
      rcases Nat.le_total es.length es0.length with hl | hl
      · exact List.prefix_of_prefix_length_le (hh.trans (hpre (he.prefix h0 hl))) hx (by simp) |>.eq_of_length (by simp)
      · exact List.prefix_of_prefix_length_le hh (hx.trans (hpre (h0.prefix he hl))) (by simp) |>.eq_of_length (by simp)
    have := List.append_cancel_left h3
    simp only [List.cons.injEq, and_true] at this
    rw [← this] at hb
    cases hb
  · subst hr
    have : qs = p ++ .indirect :: r' := by
      have : qs ++ [.indirect] = (p ++ .indirect :: r') ++ [y] := by rw [hp]; simp
      exact (List.append_inj' this rfl).1
    exact ho p r' this

/-- TNT with outcome taken; TIP 0x8020; OVF; FUP 0x201; an invalid packet. -/
def qryTrace : List UInt8 := [6, 0x2d, 0x20, 0x80, 2, 0xf3, 0x3d, 1, 2, 5]

/-- The events in `qryTrace`. -/
def qryEvents : List Event :=
  [{ data := .enabled 0x7001, statusUpdate := true }, { data := .tnt 1 1 }, { data := .tip 0x8020 }, { data := .overflow 0x201 }]

theorem qryTrace_delivers : Delivers (cfgOf qryTrace) (startedEvt (cfgOf qryTrace)) qryEvents := by
  unfold Delivers; decide +kernel

/-- The hypotheses of the theorems are met: an orderly user, about to ask for the target of the indirect branch. -/
example : Usable (cfgOf qryTrace) ∧ Synchronized (cfgOf qryTrace) (startedEvt (cfgOf qryTrace)) (started (cfgOf qryTrace)) ∧
    Orderly (cfgOf qryTrace) (startedEvt (cfgOf qryTrace)) (started (cfgOf qryTrace)) ([.event, .cond] ++ [.indirect]) ∧
    Delivers (cfgOf qryTrace) (startedEvt (cfgOf qryTrace)) qryEvents ∧
    (handed (cfgOf qryTrace) [.event, .cond] (started (cfgOf qryTrace)) ++ [.target (some 0x8020)]) <+:
      qryEvents.flatMap items := by
  have hu : Usable (cfgOf qryTrace) := cfgOf_usable (by decide)
  have hs := started_ok (cfgOf qryTrace) (by decide +kernel)
  have hh : (handed (cfgOf qryTrace) [.event, .cond] (started (cfgOf qryTrace)) ++ [.target (some 0x8020)]) <+:
      qryEvents.flatMap items := by decide +kernel
  refine ⟨hu, hs, orderly_of ?_ qryTrace_delivers hh rfl, qryTrace_delivers, hh⟩
  intro p r h
  rcases p with _ | ⟨a, _ | ⟨b, p⟩⟩ <;> simp at h

/-- The answers to the queries on `qryTrace`: the last error is reported again and again. -/
example : (answers (cfgOf qryTrace) [.event, .cond, .indirect, .event, .event, .cond, .indirect] (started (cfgOf qryTrace))).map
      (fun r => r.bind fun x => .ok x.1) =
    [.ok (.event { data := .enabled 0x7001, statusUpdate := true }), .ok (.bit true), .ok (.target (some 0x8020)),
      .ok (.event { data := .overflow 0x201 }), .err .badOpc, .err .badOpc, .err .badOpc] := by decide +kernel

/-- The hypotheses of `C38_reported_and_sticky`. -/
example : Fails (cfgOf qryTrace) (startedEvt (cfgOf qryTrace)) qryEvents .badOpc ∧
    (handed (cfgOf qryTrace) [.event, .cond, .indirect, .event] (started (cfgOf qryTrace))).length =
      (qryEvents.flatMap items).length := by
  unfold Fails; decide +kernel

/-- C37 does not hold for all users: after the event, the user asks for an indirect branch although the trace continues
with a TNT packet.  The query decoder hands out the target of the next TIP packet and then the earlier branch outcome. -/
theorem C37_indirect_reorders : ∃ c d s es, Usable c ∧ Synchronized c d s ∧ Delivers c d es ∧
    es.flatMap items = [.event { data := .enabled 0x7001, statusUpdate := true }, .bit true, .target (some 0x8020)] ∧
    handed c [.event, .indirect, .cond] s =
      [.event { data := .enabled 0x7001, statusUpdate := true }, .target (some 0x8020), .bit true] :=
  ⟨cfgOf qryTrace, _, _, qryEvents.take 3, cfgOf_usable (by decide), started_ok _ (by decide +kernel),
    by unfold Delivers; decide +kernel, by decide +kernel, by decide +kernel⟩

/-- C38 does not hold for `pt_qry_indirect_branch`: it reports an error before an earlier branch outcome.  TNT; an invalid
packet. -/
theorem C38_indirect_reports_early : ∃ c d s es, Usable c ∧ Synchronized c d s ∧ Fails c d es .badOpc ∧
    es.flatMap items = [.event { data := .enabled 0x7001, statusUpdate := true }, .bit true] ∧
    (answers c [.event, .indirect, .cond] s).map (fun r => r.bind fun x => .ok x.1) =
      [.ok (.event { data := .enabled 0x7001, statusUpdate := true }), .err .badOpc, .ok (.bit true)] :=
  ⟨cfgOf [6, 5], startedEvt _, _, [{ data := .enabled 0x7001, statusUpdate := true }, { data := .tnt 1 1 }],
    cfgOf_usable (by decide), started_ok _ (by decide +kernel),
    by unfold Fails; decide +kernel, by decide +kernel, by decide +kernel⟩

/-- C44 does not hold for `pt_qry_indirect_branch`: the user asks twice, the first time it is refused, the second time it
is granted.  TNT; TNT; TIP. -/
theorem C44_indirect_changes : ∃ c d s, Usable c ∧ Synchronized c d s ∧
    (answers c [.event, .indirect, .indirect] s).map (fun r => r.bind fun x => .ok x.1) =
      [.ok (.event { data := .enabled 0x7001, statusUpdate := true }), .err .badQuery, .ok (.target (some 0x8020))] :=
  ⟨cfgOf [6, 6, 0x2d, 0x20, 0x80], startedEvt _, _,
    cfgOf_usable (by decide), started_ok _ (by decide +kernel), by decide +kernel⟩

/-- C44 does not hold for the time: a refused `pt_qry_cond_branch` changes the result of `pt_qry_time`.  TSC 5; TIP. -/
theorem C44_cond_changes_time : ∃ c d s, Usable c ∧ Synchronized c d s ∧
    (Query.cond.run c (afterQueries c [.event] s)).2 = .err .badQuery ∧
    (afterQueries c [.event] s).time = .err .noTime ∧
    (Query.cond.run c (afterQueries c [.event] s)).1.time = .ok (5, 0, 0) :=
  ⟨cfgOf [0x19, 5, 0, 0, 0, 0, 0, 0, 0x2d, 0x20, 0x80], startedEvt _, _,
    cfgOf_usable (by decide), started_ok _ (by decide +kernel), by decide +kernel, by decide +kernel, by decide +kernel⟩

end Ipt.Props
