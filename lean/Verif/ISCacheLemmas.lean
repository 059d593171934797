import Verif.ISCache

/-! Helper lemmas about the image section cache model. -/

namespace Ipt

set_option linter.unusedSimpArgs false
set_option linter.unusedVariables false

/-- The invariant of the entry array: equal ranges share one section, no duplicate entries, the array
fits its capacity, which fits 16 bits. -/
structure IscInv (rng : Nat → Range) (c : Isc) : Prop where
  uniq : ∀ e ∈ c.entries, ∀ e' ∈ c.entries, rng e.sec = rng e'.sec → e.sec = e'.sec
  nodup : c.entries.Nodup
  cap : c.entries.length ≤ c.capacity
  cap8 : c.capacity % 8 = 0 ∧ c.capacity < 2 ^ 16

/-- The number of entries for a section. -/
def cnt (l : List IEntry) (t : Nat) : Nat := (l.filter fun e => decide (e.sec = t)).length

theorem cnt_append (l l' : List IEntry) (t : Nat) : cnt (l ++ l') t = cnt l t + cnt l' t := by
  simp [cnt]

theorem cnt_single (e : IEntry) (t : Nat) : cnt [e] t = if e.sec = t then 1 else 0 := by
  unfold cnt; by_cases h : e.sec = t <;> simp [h]

theorem cnt_cons (e : IEntry) (l : List IEntry) (t : Nat) :
    cnt (e :: l) t = (if e.sec = t then 1 else 0) + cnt l t := by
  have := cnt_append [e] l t; rw [cnt_single] at this; simpa using this

theorem cnt_le (l : List IEntry) (t : Nat) : cnt l t ≤ l.length := List.length_filter_le _ _

/-- The second phase of the search: a section `t` has been found at index `j0`. -/
theorem findLoop_some (rng : Nat → Range) (r : Range) (laddr : Nat) (l : List IEntry) (i t j0 : Nat) :
    (findLoop rng r laddr l i (some t) (some j0) = some j0 ∧ ∀ e ∈ l, e.sec = t → e.laddr ≠ laddr) ∨
    (∃ k e, findLoop rng r laddr l i (some t) (some j0) = some (i + k) ∧ l[k]? = some e ∧ e.sec = t ∧ e.laddr = laddr) := by
  induction l generalizing i with
  | nil => left; simp [findLoop]
  | cons e l ih =>
    unfold findLoop
    by_cases h : some t = some e.sec
    · rw [if_pos h]
      have ht : t = e.sec := Option.some.inj h
      by_cases hl : laddr = e.laddr
      · rw [if_pos hl]; right; exact ⟨0, e, by simp, by simp, ht.symm, hl.symm⟩
      · rw [if_neg hl]
        rcases ih (i + 1) with ⟨h1, h2⟩ | ⟨k, e', h1, h2, h3⟩
        · left; refine ⟨h1, ?_⟩
          intro x hx; rcases List.mem_cons.mp hx with rfl | hx
          · intro _ hh; exact hl hh.symm
          · exact h2 x hx
        · right; exact ⟨k + 1, e', by rw [h1]; congr 1; omega, by simpa using h2, h3⟩
    · rw [if_neg h]
      simp only [Option.isSome_some, if_true]
      rcases ih (i + 1) with ⟨h1, h2⟩ | ⟨k, e', h1, h2, h3⟩
      · left; refine ⟨h1, ?_⟩
        intro x hx; rcases List.mem_cons.mp hx with rfl | hx
        · intro hs; exact absurd (by rw [hs]) h
        · exact h2 x hx
      · right; exact ⟨k + 1, e', by rw [h1]; congr 1; omega, by simpa using h2, h3⟩

theorem findLoop_none (rng : Nat → Range) (r : Range) (laddr : Nat) (l : List IEntry) (i : Nat)
    (hu : ∀ e ∈ l, ∀ e' ∈ l, rng e.sec = rng e'.sec → e.sec = e'.sec) :
    (findLoop rng r laddr l i none none = none ∧ ∀ e ∈ l, rng e.sec ≠ r) ∨
    (∃ k e, findLoop rng r laddr l i none none = some (i + k) ∧ l[k]? = some e ∧ rng e.sec = r ∧
      (e.laddr = laddr ∨ ∀ e' ∈ l, rng e'.sec = r → e'.laddr ≠ laddr)) := by
  induction l generalizing i with
  | nil => left; simp [findLoop]
  | cons e l ih =>
    unfold findLoop
    rw [if_neg (by simp)]
    simp only [Option.isSome_none, Bool.false_eq_true, if_false]
    by_cases hr : rng e.sec ≠ r
    · rw [if_pos hr]
      rcases ih (i + 1) (fun a ha b hb => hu a (List.mem_cons_of_mem _ ha) b (List.mem_cons_of_mem _ hb)) with
        ⟨h1, h2⟩ | ⟨k, e', h1, h2, h3, h4⟩
      · left; refine ⟨h1, ?_⟩
        intro x hx; rcases List.mem_cons.mp hx with rfl | hx
        · exact hr
        · exact h2 x hx
      · right; refine ⟨k + 1, e', by rw [h1]; congr 1; omega, by simpa using h2, h3, ?_⟩
        rcases h4 with h4 | h4
        · exact .inl h4
        · right; intro x hx; rcases List.mem_cons.mp hx with rfl | hx
          · intro hh; exact absurd hh hr
          · exact h4 x hx
    · rw [if_neg hr]
      have hr' : rng e.sec = r := Classical.not_not.mp hr
      by_cases hl : laddr = e.laddr
      · rw [if_pos hl]; right; exact ⟨0, e, by simp, by simp, hr', .inl hl.symm⟩
      · rw [if_neg hl]
        right
        rcases findLoop_some rng r laddr l (i + 1) e.sec i with ⟨h1, h2⟩ | ⟨k, e', h1, h2, h3, h4⟩
        · refine ⟨0, e, by rw [h1]; simp, by simp, hr', .inr ?_⟩
          intro x hx; rcases List.mem_cons.mp hx with rfl | hx
          · intro _ hh; exact hl hh.symm
          · intro hh
            exact h2 x hx (hu x (List.mem_cons_of_mem _ hx) e (List.mem_cons_self ..) (hh.trans hr'.symm))
        · exact ⟨k + 1, e', by rw [h1]; congr 1; omega, by simpa using h2, by rw [h3, hr'], .inl h4⟩

theorem findSection_spec (rng : Nat → Range) (c : Isc) (hi : IscInv rng c) (r : Range) (laddr : Nat) :
    (findSection rng c r laddr = none ∧ ∀ e ∈ c.entries, rng e.sec ≠ r) ∨
    (∃ k e, findSection rng c r laddr = some k ∧ c.entries[k]? = some e ∧ rng e.sec = r ∧
      (e.laddr = laddr ∨ ∀ e' ∈ c.entries, rng e'.sec = r → e'.laddr ≠ laddr)) := by
  rcases findLoop_none rng r laddr c.entries 0 hi.uniq with h | ⟨k, e, h1, h2⟩
  · exact .inl h
  · right; exact ⟨k, e, by unfold findSection; rw [h1]; congr 1; omega, h2⟩

/-- The insertion step. -/
def insertIsc (c : Isc) (sec laddr : Nat) (ok : Bool) : Isc × AddTurn :=
  match (if c.capacity ≤ c.entries.length then
      if c.capacity < c.entries.length then (c, .err .internal)
      else
        match iscExpand c ok with
        | (c, .ok ()) => if c.capacity ≤ c.entries.length then (c, .err .internal) else (c, .ok ())
        | r => r
    else (c, (.ok () : Res Unit))) with
  | (c, .ok ()) => ({ c with entries := c.entries ++ [⟨sec, laddr⟩] }, AddTurn.inserted c.entries.length)
  | (c, .err e) => (c, .fail e)
  | (c, .ub) => (c, .fail .internal)

theorem insert_spec (c : Isc) (sec laddr : Nat) (ok : Bool) (h8 : c.capacity % 8 = 0 ∧ c.capacity < 2 ^ 16)
    (hcap : c.entries.length ≤ c.capacity) :
    ((insertIsc c sec laddr ok) = (c, .fail .nomem)) ∨
    (∃ cap, (insertIsc c sec laddr ok) =
      ({ c with entries := c.entries ++ [⟨sec, laddr⟩], capacity := cap }, .inserted c.entries.length) ∧
      c.entries.length < cap ∧ cap % 8 = 0 ∧ cap < 2 ^ 16) := by
  unfold insertIsc
  by_cases h1 : c.capacity ≤ c.entries.length
  · rw [if_pos h1, if_neg (by omega)]
    unfold iscExpand
    simp only
    by_cases h2 : (c.capacity + 8) % 2 ^ 16 < c.capacity
    · rw [if_pos h2]; left; rfl
    · rw [if_neg h2]
      cases ok with
      | false => left; rfl
      | true =>
        rw [if_neg (by simp)]
        simp only
        rw [if_neg (by omega)]
        right
        exact ⟨(c.capacity + 8) % 2 ^ 16, rfl, by omega, by omega, by omega⟩
  · rw [if_neg h1]; right; exact ⟨c.capacity, rfl, by omega, h8.1, h8.2⟩

/-- What one turn of the add loop does. -/
theorem addLocked_spec (rng : Nat → Range) (c : Isc) (hi : IscInv rng c) (sec laddr : Nat) (ok : Bool) :
    (∃ k e, addLocked rng c sec laddr ok = (c, .found k) ∧ c.entries[k]? = some e ∧ e = ⟨sec, laddr⟩) ∨
    (∃ cap, addLocked rng c sec laddr ok =
        ({ c with entries := c.entries ++ [⟨sec, laddr⟩], capacity := cap }, .inserted c.entries.length) ∧
      c.entries.length < cap ∧ cap % 8 = 0 ∧ cap < 2 ^ 16 ∧
      (∀ e ∈ c.entries, rng e.sec = rng sec → e.sec = sec ∧ e.laddr ≠ laddr)) ∨
    (∃ e, e ∈ c.entries ∧ e.sec ≠ sec ∧ rng e.sec = rng sec ∧
      (e.laddr = laddr ∨ ∀ e' ∈ c.entries, rng e'.sec = rng sec → e'.laddr ≠ laddr) ∧
      c.uc e.sec < 65535 ∧
      addLocked rng c sec laddr ok = ({ c with uc := cInc c.uc e.sec }, .swap e.sec)) ∨
    (addLocked rng c sec laddr ok = (c, .fail .nomem) ∧
      (∀ e ∈ c.entries, rng e.sec = rng sec → e.sec = sec ∧ e.laddr ≠ laddr)) ∨
    (∃ e, e ∈ c.entries ∧ e.sec ≠ sec ∧ 65535 ≤ c.uc e.sec ∧ addLocked rng c sec laddr ok = (c, .fail .overflow)) := by
  have heq : addLocked rng c sec laddr ok =
      match findSection rng c (rng sec) laddr with
      | none => insertIsc c sec laddr ok
      | some i =>
        match c.entries[i]? with
        | none => (c, .fail .internal)
        | some e =>
          if e.sec = sec then
            if e.laddr = laddr then (c, .found i) else insertIsc c sec laddr ok
          else
            if 65535 < c.uc e.sec + 1 then (c, .fail .overflow)
            else ({ c with uc := cInc c.uc e.sec }, .swap e.sec) := rfl
  rw [heq]
  have hins := insert_spec c sec laddr ok hi.cap8 hi.cap
  rcases findSection_spec rng c hi (rng sec) laddr with ⟨h1, h2⟩ | ⟨k, e, h1, h2, h3, h4⟩
  · rw [h1]
    simp only
    have hno : ∀ e ∈ c.entries, rng e.sec = rng sec → e.sec = sec ∧ e.laddr ≠ laddr :=
      fun e he hr => absurd hr (h2 e he)
    rcases hins with h | ⟨cap, h, hc⟩
    · right; right; right; left; exact ⟨h, hno⟩
    · right; left; exact ⟨cap, h, hc.1, hc.2.1, hc.2.2, hno⟩
  · rw [h1]
    simp only [h2]
    have hmem : e ∈ c.entries := List.mem_of_getElem? h2
    by_cases hs : e.sec = sec
    · rw [if_pos hs]
      by_cases hl : e.laddr = laddr
      · rw [if_pos hl]; left; exact ⟨k, e, rfl, h2, by cases e; simp only at hs hl; rw [hs, hl]⟩
      · rw [if_neg hl]
        have hno : ∀ e' ∈ c.entries, rng e'.sec = rng sec → e'.sec = sec ∧ e'.laddr ≠ laddr := by
          intro e' he' hr
          refine ⟨?_, ?_⟩
          · rw [hi.uniq e' he' e hmem (hr.trans h3.symm), hs]
          · rcases h4 with h4 | h4
            · exact absurd h4 hl
            · exact h4 e' he' hr
        rcases hins with h | ⟨cap, h, hc⟩
        · right; right; right; left; exact ⟨h, hno⟩
        · right; left; exact ⟨cap, h, hc.1, hc.2.1, hc.2.2, hno⟩
    · rw [if_neg hs]
      by_cases hu : 65535 < c.uc e.sec + 1
      · rw [if_pos hu]; right; right; right; right; exact ⟨e, hmem, hs, by omega, rfl⟩
      · rw [if_neg hu]; right; right; left; exact ⟨e, hmem, hs, h3, h4, by omega, rfl⟩

theorem inv_insert {rng : Nat → Range} {c : Isc} (hi : IscInv rng c) {sec laddr cap : Nat}
    (h1 : c.entries.length < cap) (h2 : cap % 8 = 0) (h3 : cap < 2 ^ 16)
    (hno : ∀ e ∈ c.entries, rng e.sec = rng sec → e.sec = sec ∧ e.laddr ≠ laddr) :
    IscInv rng { c with entries := c.entries ++ [⟨sec, laddr⟩], capacity := cap } := by
  refine ⟨?_, ?_, ?_, h2, h3⟩
  · intro a ha b hb hr
    simp only [List.mem_append, List.mem_singleton] at ha hb
    rcases ha with ha | ha <;> rcases hb with hb | hb
    · exact hi.uniq a ha b hb hr
    · subst hb; exact (hno a ha hr).1
    · subst ha; exact ((hno b hb hr.symm).1).symm
    · rw [ha, hb]
  · simp only
    rw [List.nodup_append]
    refine ⟨hi.nodup, by simp, ?_⟩
    intro a ha b hb
    simp only [List.mem_singleton] at hb
    subst hb
    intro he
    subst he
    exact (hno _ ha rfl).2 rfl
  · simp; omega

/-- The invariant only depends on the entries and the capacity. -/
theorem inv_counts {rng : Nat → Range} {c : Isc} (hi : IscInv rng c) (uc ac : Nat → Nat) :
    IscInv rng { c with uc := uc, ac := ac } := ⟨hi.uniq, hi.nodup, hi.cap, hi.cap8⟩

theorem inv_locked {rng : Nat → Range} {c : Isc} (hi : IscInv rng c) (sec laddr : Nat) (ok : Bool) :
    IscInv rng (addLocked rng c sec laddr ok).1 ∧ c.entries <+: (addLocked rng c sec laddr ok).1.entries := by
  rcases addLocked_spec rng c hi sec laddr ok with ⟨k, e, h, _⟩ | ⟨cap, h, h1, h2, h3, h4⟩ | ⟨e, _, _, _, _, _, h⟩ |
    ⟨h, _⟩ | ⟨_, _, _, _, h⟩
  · rw [h]; exact ⟨hi, List.prefix_refl _⟩
  · rw [h]; exact ⟨inv_insert hi h1 h2 h3 h4, List.prefix_append _ _⟩
  · rw [h]; exact ⟨inv_counts hi _ _, List.prefix_refl _⟩
  · rw [h]; exact ⟨hi, List.prefix_refl _⟩
  · rw [h]; exact ⟨hi, List.prefix_refl _⟩

theorem nodup_idx {l : List IEntry} (h : l.Nodup) {i j : Nat} {e : IEntry} (h1 : l[i]? = some e)
    (h2 : l[j]? = some e) : i = j := by
  have hi := (List.getElem?_eq_some_iff.mp h1)
  have hj := (List.getElem?_eq_some_iff.mp h2)
  obtain ⟨hi, hi'⟩ := hi
  obtain ⟨hj, hj'⟩ := hj
  exact (List.getElem_inj h).mp (hi'.trans hj'.symm)

/-- What the whole add loop does, run without interference by a thread that holds a reference and an
attachment to `sec`: it never runs out of fuel. `uc` and `ac` count these. -/
theorem addLoopIsc_spec (rng : Nat → Range) (ok : Bool) (n : Nat) (c : Isc) (hi : IscInv rng c) (sec laddr : Nat)
    (hn : 2 ≤ n ∨ (1 ≤ n ∧ ∃ e ∈ c.entries, e.sec = sec)) (hu : 1 ≤ c.uc sec) (ha : 1 ≤ c.ac sec)
    (c' : Isc) (res : Res Nat) (hr : addLoopIsc rng ok n c sec laddr = (c', res)) :
    IscInv rng c' ∧ c.entries <+: c'.entries ∧ res.safe ∧
    (∀ k, res = .ok k → ∃ e, 1 ≤ k ∧ c'.entries[k - 1]? = some e ∧ rng e.sec = rng sec ∧ e.laddr = laddr) ∧
    (∀ t, c'.uc t + cnt c.entries t + (if t = sec then 1 else 0) = c.uc t + cnt c'.entries t) ∧
    (∀ t, c'.ac t + cnt c.entries t + (if t = sec then 1 else 0) = c.ac t + cnt c'.entries t) ∧
    (∀ i e, c.entries[i]? = some e → rng e.sec = rng sec → e.laddr = laddr → c.uc e.sec < 65535 →
      res = .ok (i + 1) ∧ c'.entries = c.entries) ∧
    (∀ e ∈ c'.entries, e ∈ c.entries ∨ rng e.sec = rng sec) := by
  induction n generalizing c sec with
  | zero => rcases hn with hn | ⟨hn, _⟩ <;> omega
  | succ n ih =>
    have hdec : ∀ (f : Nat → Nat) (t : Nat), 1 ≤ f sec → cDec f sec t + (if t = sec then 1 else 0) = f t := by
      intro f t hf
      unfold cDec
      by_cases h : t = sec
      · subst h; simp only [if_true]; omega
      · simp [h]
    unfold addLoopIsc at hr
    rcases addLocked_spec rng c hi sec laddr ok with ⟨k, e, h, hk, he⟩ | ⟨cap, h, h1, h2, h3, h4⟩ |
      ⟨e, hm, hne, hrng, hla, huc, h⟩ | ⟨h, hno⟩ | ⟨e, hm, hne, huc, h⟩
    · rw [h] at hr
      simp only [Prod.mk.injEq] at hr
      obtain ⟨rfl, rfl⟩ := hr
      subst he
      refine ⟨inv_counts hi _ _, List.prefix_refl _, Res.safe_ok _, ?_, ?_, ?_, ?_, fun e he => .inl he⟩
      · intro k' hk'
        cases hk'
        exact ⟨_, by omega, by simpa using hk, rfl, rfl⟩
      · intro t; have := hdec c.uc t hu; simp only; omega
      · intro t; have := hdec c.ac t ha; simp only; omega
      · intro i e' hi' hrr hll _
        have hmem : e' ∈ c.entries := List.mem_of_getElem? hi'
        have : e' = ⟨sec, laddr⟩ := by
          have := hi.uniq e' hmem ⟨sec, laddr⟩ (List.mem_of_getElem? hk) hrr
          cases e'; simp only at this hll; rw [this, hll]
        subst this
        rw [nodup_idx hi.nodup hi' hk]
        exact ⟨rfl, rfl⟩
    · rw [h] at hr
      simp only [Prod.mk.injEq] at hr
      obtain ⟨rfl, rfl⟩ := hr
      refine ⟨inv_insert hi h1 h2 h3 h4, List.prefix_append _ _, Res.safe_ok _, ?_, ?_, ?_, ?_, fun e he => by
        simp only [List.mem_append, List.mem_singleton] at he
        rcases he with he | he
        · exact .inl he
        · rw [he]; exact .inr rfl⟩
      · intro k' hk'
        cases hk'
        exact ⟨⟨sec, laddr⟩, by omega, by simp, rfl, rfl⟩
      · intro t; simp only [cnt_append, cnt_single]
        by_cases ht : t = sec
        · subst ht; simp; omega
        · have : ¬ sec = t := fun e => ht e.symm
          simp [ht, this]
      · intro t; simp only [cnt_append, cnt_single]
        by_cases ht : t = sec
        · subst ht; simp; omega
        · have : ¬ sec = t := fun e => ht e.symm
          simp [ht, this]
      · intro i e' hi' hrr hll _
        exact absurd hll (h4 e' (List.mem_of_getElem? hi') hrr).2
    · rw [h] at hr
      simp only at hr
      have hn' : 1 ≤ n := by
        rcases hn with hn | ⟨hn, x, hx, hxs⟩
        · omega
        · exfalso
          have := hi.uniq e hm x hx (by rw [hrng, hxs])
          exact hne (this.trans hxs)
      have hucs : (cDec (cInc c.uc e.sec) sec) e.sec = c.uc e.sec + 1 := by
        simp [cDec, cInc, hne]
      have hacs : (cInc (cDec c.ac sec) e.sec) e.sec = c.ac e.sec + 1 := by
        simp [cDec, cInc, hne]
      have := ih { c with uc := cDec (cInc c.uc e.sec) sec, ac := cInc (cDec c.ac sec) e.sec }
        (inv_counts hi _ _) e.sec (.inr ⟨hn', e, hm, rfl⟩) (by simp only; rw [hucs]; omega)
        (by simp only; rw [hacs]; omega) hr
      obtain ⟨g1, g2, g3, g4, g5, g6, g7, g8⟩ := this
      refine ⟨g1, g2, g3, ?_, ?_, ?_, ?_, fun x hx => (g8 x hx).imp id (fun h => h.trans hrng)⟩
      · intro k hk; obtain ⟨x, a, b, d, f⟩ := g4 k hk; exact ⟨x, a, b, d.trans hrng, f⟩
      · intro t
        have := g5 t
        simp only at this
        have h1 : cDec (cInc c.uc e.sec) sec t + (if t = sec then 1 else 0) = c.uc t + (if t = e.sec then 1 else 0) := by
          unfold cDec cInc
          by_cases ht : t = sec
          · subst ht
            have : ¬ t = e.sec := fun x => hne x.symm
            simp only [if_true, if_neg this]; omega
          · by_cases ht' : t = e.sec
            · subst ht'; simp [hne]
            · simp [ht, ht']
        omega
      · intro t
        have := g6 t
        simp only at this
        have h1 : cInc (cDec c.ac sec) e.sec t + (if t = sec then 1 else 0) = c.ac t + (if t = e.sec then 1 else 0) := by
          unfold cDec cInc
          by_cases ht : t = sec
          · subst ht
            have : ¬ t = e.sec := fun x => hne x.symm
            simp only [if_true, if_neg this]; omega
          · by_cases ht' : t = e.sec
            · subst ht'; simp [hne]
            · simp [ht, ht']
        omega
      · intro i x hx hxr hxl hxu
        have hxs : x.sec = e.sec := hi.uniq x (List.mem_of_getElem? hx) e hm (hxr.trans hrng.symm)
        -- the recursive call finds the entry at once
        have hex : e.laddr = laddr ∨ ∃ y ∈ c.entries, y.sec = e.sec ∧ y.laddr = laddr :=
          .inr ⟨x, List.mem_of_getElem? hx, hxs, hxl⟩
        clear g4 g5 g6 g7 g8
        unfold addLoopIsc at hr
        cases n with
        | zero => omega
        | succ n =>
          simp only at hr
          have hx' : x = ⟨e.sec, laddr⟩ := by cases x; simp only at hxs hxl; rw [hxs, hxl]
          rcases addLocked_spec rng { c with uc := cDec (cInc c.uc e.sec) sec, ac := cInc (cDec c.ac sec) e.sec }
            (inv_counts hi _ _) e.sec laddr ok with ⟨k, e', h, hk, he⟩ | ⟨cap, h, h1, h2, h3, h4⟩ |
            ⟨e', hm', hne', hrng', hla', huc', h⟩ | ⟨h, hno⟩ | ⟨e', hm', hne', huc', h⟩
          · rw [h] at hr
            simp only [Prod.mk.injEq] at hr
            obtain ⟨rfl, rfl⟩ := hr
            refine ⟨?_, rfl⟩
            subst he
            simp only at hk
            rw [hx'] at hx
            rw [nodup_idx hi.nodup hx hk]
          · exact absurd hxl (h4 x (List.mem_of_getElem? hx) (by rw [hxs])).2
          · exact absurd (hi.uniq e' hm' e hm hrng') hne'
          · exact absurd hxl (hno x (List.mem_of_getElem? hx) (by rw [hxs])).2
          · exfalso
            -- the failing section would have to differ from `e.sec` although it has the same range
            rcases findSection_spec rng { c with uc := cDec (cInc c.uc e.sec) sec, ac := cInc (cDec c.ac sec) e.sec }
              (inv_counts hi _ _) (rng e.sec) laddr with ⟨q1, q2⟩ | ⟨k, y, q1, q2, q3, q4⟩
            · exact q2 e hm rfl
            · have hys : y.sec = e.sec := hi.uniq y (List.mem_of_getElem? q2) e hm q3
              unfold addLocked at h
              simp only [q1] at h
              simp only at q2
              rw [q2] at h
              simp only [hys, if_true] at h
              have hyl : y.laddr = laddr := by
                rcases q4 with q4 | q4
                · exact q4
                · exact absurd hxl (q4 x (List.mem_of_getElem? hx) (by rw [hxs]))
              simp [hyl] at h
    · rw [h] at hr
      simp only [Prod.mk.injEq] at hr
      obtain ⟨rfl, rfl⟩ := hr
      refine ⟨inv_counts hi _ _, List.prefix_refl _, Res.safe_err _, by simp, ?_, ?_, ?_, fun e he => .inl he⟩
      · intro t; have := hdec c.uc t hu; simp only; omega
      · intro t; have := hdec c.ac t ha; simp only; omega
      · intro i e' hi' hrr hll _
        exact absurd hll (hno e' (List.mem_of_getElem? hi') hrr).2
    · rw [h] at hr
      simp only [Prod.mk.injEq] at hr
      obtain ⟨rfl, rfl⟩ := hr
      refine ⟨inv_counts hi _ _, List.prefix_refl _, Res.safe_err _, by simp, ?_, ?_, ?_, fun e he => .inl he⟩
      · intro t; have := hdec c.uc t hu; simp only; omega
      · intro t; have := hdec c.ac t ha; simp only; omega
      · intro i e' hi' hrr hll huc'
        exfalso
        rcases findSection_spec rng c hi (rng sec) laddr with ⟨q1, q2⟩ | ⟨k, y, q1, q2, q3, q4⟩
        · exact q2 e' (List.mem_of_getElem? hi') hrr
        · have hys : y.sec = e'.sec :=
            hi.uniq y (List.mem_of_getElem? q2) e' (List.mem_of_getElem? hi') (q3.trans hrr.symm)
          unfold addLocked at h
          simp only [q1, q2] at h
          by_cases hsec : y.sec = sec
          · rw [if_pos hsec] at h
            have hyl : y.laddr = laddr := by
              rcases q4 with q4 | q4
              · exact q4
              · exact absurd hll (q4 e' (List.mem_of_getElem? hi') hrr)
            simp [hyl] at h
          · rw [if_neg hsec, if_neg (by rw [hys]; omega)] at h
            simp at h

end Ipt
