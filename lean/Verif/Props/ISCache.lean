import Verif.ISCacheLemmas

/-!
# C29: image section identifiers; C30: the limit on mapped memory
-/

namespace Ipt.Props

open Ipt

set_option linter.unusedSimpArgs false
set_option linter.unusedVariables false

/-! ## C29, arbitrary interleavings

Threads share the cache.  Every critical section of the cache that touches the entry array is one
atomic step: a turn of the add loop (search and, if nothing is found, insertion, in the same
critical section), and clearing.  Reference counts change at any time (`counts`). -/

inductive IscAtom
  | turn (sec laddr : Nat) (ok : Bool)
  | clear
  | counts (uc ac : Nat → Nat)

def IscAtom.step (rng : Nat → Range) (c : Isc) : IscAtom → Isc
  | .turn s a ok => (addLocked rng c s a ok).1
  | .clear => iscClear c
  | .counts uc ac => { c with uc := uc, ac := ac }

/-- The cache after a schedule, starting from a new cache. -/
def iscSched (rng : Nat → Range) (l : List IscAtom) : Isc :=
  l.foldl (IscAtom.step rng) { uc := fun _ => 0, ac := fun _ => 0 }

theorem inv_new (rng : Nat → Range) (uc ac : Nat → Nat) : IscInv rng { uc := uc, ac := ac } := by
  refine ⟨by simp, by simp, by simp, by simp, by simp⟩

theorem atom_inv {rng : Nat → Range} {c : Isc} (h : IscInv rng c) (a : IscAtom) : IscInv rng (a.step rng c) := by
  cases a with
  | turn s a ok => exact (inv_locked h s a ok).1
  | clear => exact inv_new rng _ _
  | counts uc ac => exact inv_counts h uc ac

theorem sched_inv' {rng : Nat → Range} (l : List IscAtom) {c : Isc} (h : IscInv rng c) :
    IscInv rng (l.foldl (IscAtom.step rng) c) := by
  induction l generalizing c with
  | nil => exact h
  | cons a l ih => exact ih (atom_inv h a)

theorem sched_prefix {rng : Nat → Range} (l : List IscAtom) {c : Isc} (h : IscInv rng c)
    (hl : ∀ a ∈ l, a ≠ .clear) : c.entries <+: (l.foldl (IscAtom.step rng) c).entries := by
  induction l generalizing c with
  | nil => exact List.prefix_refl _
  | cons a l ih =>
    have h1 : c.entries <+: (a.step rng c).entries := by
      cases a with
      | turn s a ok => exact (inv_locked h s a ok).2
      | clear => exact absurd rfl (hl _ (List.mem_cons_self ..))
      | counts uc ac => exact List.prefix_refl _
    exact h1.trans (ih (atom_inv h a) fun a ha => hl a (List.mem_cons_of_mem _ ha))

/-- C29, for every interleaving of any number of threads: section identifier `i + 1` denotes entry `i`.
* An identifier keeps denoting the same section and load address for as long as the cache is not
  cleared.
* Two different identifiers never denote the same file range at the same address.
* A completed add reports the identifier of an entry for that section and address; a swap continues
  with a cached section of the same file range.
* Identifiers fit 16 bits. -/
theorem C29_isids_stable (rng : Nat → Range) (pre post : List IscAtom) (hpost : ∀ a ∈ post, a ≠ .clear) :
    (∀ (i : Nat) (e : IEntry), (iscSched rng pre).entries[i]? = some e → (iscSched rng (pre ++ post)).entries[i]? = some e) ∧
    (∀ (i j : Nat) (e e' : IEntry), (iscSched rng pre).entries[i]? = some e → (iscSched rng pre).entries[j]? = some e' →
      rng e.sec = rng e'.sec → e.laddr = e'.laddr → i = j) ∧
    (∀ s a ok k, (addLocked rng (iscSched rng pre) s a ok).2 = .found k ∨
        (addLocked rng (iscSched rng pre) s a ok).2 = .inserted k →
      (addLocked rng (iscSched rng pre) s a ok).1.entries[k]? = some ⟨s, a⟩) ∧
    (∀ s a ok s', (addLocked rng (iscSched rng pre) s a ok).2 = .swap s' →
      rng s' = rng s ∧ ∃ e ∈ (iscSched rng pre).entries, e.sec = s') ∧
    (iscSched rng pre).entries.length ≤ 65535 := by
  have hi : IscInv rng (iscSched rng pre) := sched_inv' pre (inv_new rng _ _)
  refine ⟨?_, ?_, ?_, ?_, ?_⟩
  · intro i e he
    have hp : (iscSched rng pre).entries <+: (iscSched rng (pre ++ post)).entries := by
      unfold iscSched at *
      rw [List.foldl_append]
      exact sched_prefix post hi hpost
    obtain ⟨t, ht⟩ := hp
    rw [← ht]
    obtain ⟨hlt, _⟩ := List.getElem?_eq_some_iff.mp he
    rw [List.getElem?_append_left hlt]
    exact he
  · intro i j e e' h1 h2 hr hl
    have hs := hi.uniq e (List.mem_of_getElem? h1) e' (List.mem_of_getElem? h2) hr
    have : e = e' := by cases e; cases e'; simp only at hs hl; rw [hs, hl]
    subst this
    exact nodup_idx hi.nodup h1 h2
  · intro s a ok k hk
    rcases addLocked_spec rng _ hi s a ok with ⟨k', e, h, h1, h2⟩ | ⟨cap, h, _⟩ | ⟨e, _, _, _, _, _, h⟩ | ⟨h, _⟩ |
      ⟨e, _, _, _, h⟩
    · rw [h] at hk ⊢; simp at hk; subst hk; subst h2; exact h1
    · rw [h] at hk ⊢; simp at hk; subst hk; simp
    · rw [h] at hk; simp at hk
    · rw [h] at hk; simp at hk
    · rw [h] at hk; simp at hk
  · intro s a ok s' hk
    rcases addLocked_spec rng _ hi s a ok with ⟨k', e, h, h1, h2⟩ | ⟨cap, h, _⟩ | ⟨e, hm, _, hr, _, _, h⟩ | ⟨h, _⟩ |
      ⟨e, _, _, _, h⟩
    · rw [h] at hk; simp at hk
    · rw [h] at hk; simp at hk
    · rw [h] at hk; simp at hk; subst hk; exact ⟨hr, e, hm, rfl⟩
    · rw [h] at hk; simp at hk
    · rw [h] at hk; simp at hk
  · have := hi.cap; have := hi.cap8.2; omega

/-- C29: looking up an identifier yields the entry it denotes; every other identifier is refused with
`-pte_bad_image` (`-pte_internal` above 65536). -/
theorem C29_lookup (rng : Nat → Range) (pre : List IscAtom) (isid : Int) (c : Isc) (hc : c = iscSched rng pre) :
    (∀ e, 0 < isid → c.entries[isid.toNat - 1]? = some e → c.uc e.sec < 65535 → (iscLookup c isid).2 = .ok e) ∧
    (∀ e, (iscLookup c isid).2 = .ok e → 0 < isid ∧ c.entries[isid.toNat - 1]? = some e) ∧
    (isid ≤ 0 ∨ c.entries.length < isid.toNat ∧ isid ≤ 65536 → (iscLookup c isid).2 = .err .badImage) := by
  have hi : IscInv rng c := hc ▸ sched_inv' pre (inv_new rng _ _)
  have hlen : c.entries.length ≤ 65535 := by have := hi.cap; have := hi.cap8.2; omega
  have hidx : (isid - 1).toNat = isid.toNat - 1 := by omega
  unfold iscLookup
  rw [hidx]
  refine ⟨?_, ?_, ?_⟩
  · intro e hpos he hu
    obtain ⟨hlt, _⟩ := List.getElem?_eq_some_iff.mp he
    rw [if_neg (by omega), if_neg (by omega), he]
    simp only
    rw [if_neg (by omega)]
  · intro e h
    by_cases h1 : isid ≤ 0
    · rw [if_pos h1] at h; simp at h
    · rw [if_neg h1] at h
      by_cases h2 : 65535 < isid - 1
      · rw [if_pos h2] at h; simp at h
      · rw [if_neg h2] at h
        cases hx : c.entries[isid.toNat - 1]? with
        | none => rw [hx] at h; simp at h
        | some x =>
          rw [hx] at h
          simp only at h
          by_cases h3 : 65535 < c.uc x.sec + 1
          · rw [if_pos h3] at h; simp at h
          · rw [if_neg h3] at h; simp at h; subst h; exact ⟨by omega, rfl⟩
  · intro h
    by_cases h1 : isid ≤ 0
    · rw [if_pos h1]
    · rw [if_neg h1]
      rcases h with h | ⟨h, h'⟩
      · omega
      · rw [if_neg (by omega)]
        have : c.entries[isid.toNat - 1]? = none := by
          rw [List.getElem?_eq_none_iff]; omega
        rw [this]

theorem isid_find_lemma (rng : Nat → Range) (r : Range) (laddr : Nat) (l : List IEntry) (i : Nat) :
    (findIsid rng r laddr l i = 0 ∧ ∀ e ∈ l, ¬ (rng e.sec = r ∧ e.laddr = laddr)) ∨
    (∃ k e, findIsid rng r laddr l i = i + k + 1 ∧ l[k]? = some e ∧ rng e.sec = r ∧ e.laddr = laddr) := by
  induction l generalizing i with
  | nil => left; simp [findIsid]
  | cons e l ih =>
    unfold findIsid
    by_cases hm : rng e.sec = r ∧ e.laddr = laddr
    · right
      refine ⟨0, e, ?_, by simp, hm.1, hm.2⟩
      simp [hm.1, hm.2]
    · have hskip : (if e.laddr ≠ laddr then findIsid rng r laddr l (i + 1)
          else if (rng e.sec).offset ≠ r.offset then findIsid rng r laddr l (i + 1)
          else if (rng e.sec).size ≠ r.size then findIsid rng r laddr l (i + 1)
          else if (rng e.sec).file ≠ r.file then findIsid rng r laddr l (i + 1)
          else i + 1) = findIsid rng r laddr l (i + 1) := by
        by_cases h1 : e.laddr ≠ laddr
        · rw [if_pos h1]
        · rw [if_neg h1]
          by_cases h2 : (rng e.sec).offset ≠ r.offset
          · rw [if_pos h2]
          · rw [if_neg h2]
            by_cases h3 : (rng e.sec).size ≠ r.size
            · rw [if_pos h3]
            · rw [if_neg h3]
              by_cases h4 : (rng e.sec).file ≠ r.file
              · rw [if_pos h4]
              · exfalso; apply hm
                refine ⟨?_, Classical.not_not.mp h1⟩
                have a := Classical.not_not.mp h2
                have b := Classical.not_not.mp h3
                have d := Classical.not_not.mp h4
                cases hr : rng e.sec
                rw [hr] at a b d
                cases r
                simp only at a b d
                rw [a, b, d]
      rw [hskip]
      rcases ih (i + 1) with ⟨h1, h2⟩ | ⟨k, x, h1, h2, h3⟩
      · left; refine ⟨h1, ?_⟩
        intro x hx; rcases List.mem_cons.mp hx with rfl | hx
        · exact hm
        · exact h2 x hx
      · right; exact ⟨k + 1, x, by rw [h1]; omega, by simpa using h2, h3⟩

/-- C29: `pt_iscache_find` reports the identifier of the entry for the file range and address, and zero
if there is none. -/
theorem C29_find (rng : Nat → Range) (pre : List IscAtom) (r : Range) (laddr : Nat) (c : Isc)
    (hc : c = iscSched rng pre) :
    (∀ i e, c.entries[i]? = some e → rng e.sec = r → e.laddr = laddr → findIsid rng r laddr c.entries 0 = i + 1) ∧
    ((∀ e ∈ c.entries, ¬ (rng e.sec = r ∧ e.laddr = laddr)) → findIsid rng r laddr c.entries 0 = 0) := by
  have hi : IscInv rng c := hc ▸ sched_inv' pre (inv_new rng _ _)
  rcases isid_find_lemma rng r laddr c.entries 0 with ⟨h1, h2⟩ | ⟨k, x, h1, h2, h3, h4⟩
  · refine ⟨?_, fun _ => h1⟩
    intro i e he hr hl
    exact absurd ⟨hr, hl⟩ (h2 e (List.mem_of_getElem? he))
  · refine ⟨?_, ?_⟩
    · intro i e he hr hl
      have hs := hi.uniq e (List.mem_of_getElem? he) x (List.mem_of_getElem? h2) (hr.trans h3.symm)
      have : e = x := by cases e; cases x; simp only at hs hl h4; rw [hs, hl, h4]
      subst this
      rw [h1, nodup_idx hi.nodup he h2]; omega
    · intro h; exact absurd ⟨h3, h4⟩ (h x (List.mem_of_getElem? h2))

/-! ## C29, sequential histories with reference counts -/

/-- Public operations.  `addFile` carries the requested range, the outcome of creating a new section and
whether `realloc` works; `lookup` hands a reference to the caller, `put` gives one back. -/
inductive IscOp
  | addFile (r : Range) (mk : Res Nat) (laddr : Nat) (ok : Bool)
  | lookup (isid : Int)
  | put (sec : Nat)
  | clear

/-- The state and the references handed out to the user. -/
structure IscUser where
  c : Isc
  held : Nat → Nat

def IscOp.step (rng : Nat → Range) (u : IscUser) : IscOp → IscUser
  | .addFile r mk laddr ok => { u with c := (iscAddFile rng ok u.c r mk laddr).1 }
  | .lookup isid =>
    match iscLookup u.c isid with
    | (c, .ok e) => ⟨c, cInc u.held e.sec⟩
    | (c, _) => ⟨c, u.held⟩
  | .put s => ⟨{ u.c with uc := cDec u.c.uc s }, cDec u.held s⟩
  | .clear => { u with c := iscClear u.c }

/-- Valid operations: a new section object is one nobody has a reference to, its range is the requested
one truncated to the file; only held references are given back. -/
def IscOp.Ok (rng : Nat → Range) (trunc : Range → Range) (u : IscUser) : IscOp → Prop
  | .addFile r mk _ _ => mk ≠ .ub ∧ ∀ s, mk = .ok s → u.c.uc s = 0 ∧ rng s = trunc r
  | .lookup _ => True
  | .put s => 0 < u.held s
  | .clear => True

def iscUser (rng : Nat → Range) (u : IscUser) : List IscOp → IscUser
  | [] => u
  | op :: ops => iscUser rng (op.step rng u) ops

def iscOk (rng : Nat → Range) (trunc : Range → Range) (u : IscUser) : List IscOp → Prop
  | [] => True
  | op :: ops => op.Ok rng trunc u ∧ iscOk rng trunc (op.step rng u) ops

def iscNew : IscUser := ⟨{ uc := fun _ => 0, ac := fun _ => 0 }, fun _ => 0⟩

structure UserInv (rng : Nat → Range) (trunc : Range → Range) (u : IscUser) : Prop where
  inv : IscInv rng u.c
  fix : ∀ e ∈ u.c.entries, trunc (rng e.sec) = rng e.sec
  ac : ∀ t, u.c.ac t = cnt u.c.entries t
  uc : ∀ t, u.c.uc t = cnt u.c.entries t + u.held t

/-- `iscAdd` by a caller that holds a reference. -/
theorem iscAdd_spec (rng : Nat → Range) (ok : Bool) (c : Isc) (hi : IscInv rng c) (sec laddr : Nat)
    (c' : Isc) (res : Res Nat) (hr : iscAdd rng ok c sec laddr = (c', res)) :
    IscInv rng c' ∧ c.entries <+: c'.entries ∧ res.safe ∧
    (∀ k, res = .ok k → ∃ e, 1 ≤ k ∧ c'.entries[k - 1]? = some e ∧ rng e.sec = rng sec ∧ e.laddr = laddr) ∧
    (∀ t, c'.uc t + cnt c.entries t = c.uc t + cnt c'.entries t) ∧
    (∀ t, c'.ac t + cnt c.entries t = c.ac t + cnt c'.entries t) ∧
    (∀ i e, c.entries[i]? = some e → rng e.sec = rng sec → e.laddr = laddr → c.uc e.sec < 65534 →
      c.uc sec < 65535 → c.ac sec < 65535 →
      res = .ok (i + 1) ∧ c'.entries = c.entries) ∧
    (∀ e ∈ c'.entries, e ∈ c.entries ∨ rng e.sec = rng sec) := by
  unfold iscAdd at hr
  by_cases h1 : 65535 < c.uc sec + 1
  · rw [if_pos h1] at hr; simp only [Prod.mk.injEq] at hr; obtain ⟨rfl, rfl⟩ := hr
    exact ⟨hi, List.prefix_refl _, Res.safe_err _, by simp, fun _ => rfl, fun _ => rfl, fun _ _ _ _ _ _ h => by omega,
      fun e he => .inl he⟩
  · rw [if_neg h1] at hr
    by_cases h2 : 65535 < c.ac sec + 1
    · rw [if_pos h2] at hr; simp only [Prod.mk.injEq] at hr; obtain ⟨rfl, rfl⟩ := hr
      exact ⟨hi, List.prefix_refl _, Res.safe_err _, by simp, fun _ => rfl, fun _ => rfl,
        fun _ _ _ _ _ _ _ h => by omega, fun e he => .inl he⟩
    · rw [if_neg h2] at hr
      obtain ⟨g1, g2, g3, g4, g5, g6, g7, g8⟩ := addLoopIsc_spec rng ok 3 _ (inv_counts hi (cInc c.uc sec) (cInc c.ac sec))
        sec laddr (.inl (by omega)) (by simp [cInc]) (by simp [cInc]) c' res hr
      refine ⟨g1, g2, g3, g4, ?_, ?_, ?_, g8⟩
      · intro t; have := g5 t; simp only [cInc] at this
        by_cases ht : t = sec
        · simp only [if_pos ht] at this; omega
        · simp only [if_neg ht] at this; omega
      · intro t; have := g6 t; simp only [cInc] at this
        by_cases ht : t = sec
        · simp only [if_pos ht] at this; omega
        · simp only [if_neg ht] at this; omega
      · intro i e he hr hl hu _ _
        refine g7 i e he hr hl ?_
        simp only [cInc]; split <;> omega

theorem cnt_pos {l : List IEntry} {e : IEntry} (h : e ∈ l) : 0 < cnt l e.sec := by
  unfold cnt
  apply List.length_pos_of_mem (a := e)
  simp [h]

theorem cdec_cinc (f g : Nat → Nat) (s t : Nat) (n m : Nat) (h : g t + n = cInc f s t + m)
    (hm : m ≥ n ∨ t ≠ s ∨ True) (hg : t = s → 1 ≤ g s) : cDec g s t + n = f t + m := by
  unfold cDec
  unfold cInc at h
  by_cases ht : t = s
  · subst ht; simp only [if_true] at h ⊢; have := hg rfl; omega
  · simp only [if_neg ht] at h ⊢; exact h

/-- Everything `pt_iscache_add_file` does. -/
theorem addFile_spec (rng : Nat → Range) (trunc : Range → Range) (u : IscUser) (h : UserInv rng trunc u)
    (r : Range) (mk : Res Nat) (laddr : Nat) (ok : Bool)
    (hok : mk ≠ .ub ∧ ∀ s, mk = .ok s → u.c.uc s = 0 ∧ rng s = trunc r) (htr : trunc (trunc r) = trunc r)
    (c' : Isc) (res : Res Nat) (hr : iscAddFile rng ok u.c r mk laddr = (c', res)) :
    UserInv rng trunc { u with c := c' } ∧ u.c.entries <+: c'.entries ∧ res.safe ∧
    (∀ k, res = .ok k → ∃ e, 1 ≤ k ∧ c'.entries[k - 1]? = some e ∧ rng e.sec = trunc r ∧ e.laddr = laddr) ∧
    (∀ i e, u.c.entries[i]? = some e → rng e.sec = trunc r → e.laddr = laddr → u.c.uc e.sec < 65533 →
      (∃ s, mk = .ok s) → res = .ok (i + 1) ∧ c'.entries = u.c.entries) := by
  have hcu := h.uc
  have hca := h.ac
  have hi := h.inv
  -- the common part: add section `s`, whose range is `trunc r`, holding one extra reference
  have main : ∀ s c' res, rng s = trunc r →
      (let q := iscAdd rng ok { u.c with uc := cInc u.c.uc s } s laddr
       (({ q.1 with uc := cDec q.1.uc s } : Isc), q.2)) = (c', res) →
      UserInv rng trunc { u with c := c' } ∧ u.c.entries <+: c'.entries ∧ res.safe ∧
      (∀ k, res = .ok k → ∃ e, 1 ≤ k ∧ c'.entries[k - 1]? = some e ∧ rng e.sec = trunc r ∧ e.laddr = laddr) ∧
      (∀ i e, u.c.entries[i]? = some e → rng e.sec = trunc r → e.laddr = laddr → u.c.uc e.sec < 65533 →
        u.c.uc s < 65533 → res = .ok (i + 1) ∧ c'.entries = u.c.entries) := by
    intro s c' res hs hq
    cases hadd : iscAdd rng ok { u.c with uc := cInc u.c.uc s } s laddr with
    | mk c1 r1 =>
      rw [hadd] at hq
      simp only [Prod.mk.injEq] at hq
      obtain ⟨rfl, rfl⟩ := hq
      obtain ⟨g1, g2, g3, g4, g5, g6, g7, g8⟩ := iscAdd_spec rng ok _ (inv_counts hi (cInc u.c.uc s) u.c.ac) s laddr c1 r1 hadd
      simp only at g2 g5 g6 g7
      refine ⟨⟨inv_counts g1 _ _, ?_, ?_, ?_⟩, g2, g3, ?_, ?_⟩
      · intro e he
        simp only at he
        by_cases hmem : e ∈ u.c.entries
        · exact h.fix e hmem
        · -- a new entry: its section is the one added or an equal one
          rcases g8 e he with hx | hx
          · exact absurd hx hmem
          · rw [hx, hs, htr]
      · intro t
        have := g6 t
        simp only
        rw [hca t] at this; omega
      · intro t
        have := g5 t
        simp only
        have hge : t = s → 1 ≤ c1.uc s := by
          intro ht
          subst ht
          have hp : cnt u.c.entries t ≤ cnt c1.entries t := by
            obtain ⟨x, hx⟩ := g2; rw [← hx, cnt_append]; omega
          simp only [cInc, if_true] at this; omega
        have := cdec_cinc u.c.uc c1.uc s t _ _ this (.inr (.inr trivial)) hge
        have := hcu t
        omega
      · intro k hk; obtain ⟨e, a, b, d, f⟩ := g4 k hk; exact ⟨e, a, b, d.trans hs, f⟩
      · intro i e he hr hl hu hus
        have hb : ∀ t, u.c.uc t < 65533 → cInc u.c.uc s t < 65534 := by
          intro t ht; unfold cInc; split <;> omega
        have hac : u.c.ac s < 65535 := by
          rw [hca s]
          have := cnt_le u.c.entries s
          have := hi.cap; have := hi.cap8.2
          have := hcu s; omega
        exact g7 i e he (hr.trans hs.symm) hl (hb _ hu) (by have := hb s hus; omega) hac
  unfold iscAddFile at hr
  rcases findSection_spec rng u.c hi r laddr with ⟨h1, h2⟩ | ⟨k, e, h1, h2, h3, h4⟩
  · rw [h1] at hr
    simp only at hr
    cases mk with
    | ub => exact absurd rfl hok.1
    | err er =>
      simp only [Prod.mk.injEq] at hr
      obtain ⟨rfl, rfl⟩ := hr
      exact ⟨h, List.prefix_refl _, Res.safe_err _, by simp, by simp⟩
    | ok s =>
      have hs := (hok.2 s rfl)
      obtain ⟨m1, m2, m3, m4, m5⟩ := main s c' res hs.2 hr
      refine ⟨m1, m2, m3, m4, ?_⟩
      intro i e he hr hl hu _
      exact m5 i e he hr hl hu (by rw [hs.1]; omega)
  · rw [h1] at hr
    simp only [h2] at hr
    have hmem := List.mem_of_getElem? h2
    have hrt : trunc r = r := by have := h.fix e hmem; rw [h3] at this; exact this
    by_cases hl : e.laddr = laddr
    · rw [if_pos hl] at hr
      simp only [Prod.mk.injEq] at hr
      obtain ⟨rfl, rfl⟩ := hr
      refine ⟨h, List.prefix_refl _, Res.safe_ok _, ?_, ?_⟩
      · intro k' hk'; cases hk'; exact ⟨e, by omega, by simpa using h2, by rw [hrt, h3], hl⟩
      · intro i x hx hxr hxl _ _
        have hsx := hi.uniq x (List.mem_of_getElem? hx) e hmem (by rw [hxr, hrt, h3])
        have : x = e := by cases x; cases e; simp only at hsx hxl hl; rw [hsx, hxl, hl]
        subst this
        rw [nodup_idx hi.nodup hx h2]
        exact ⟨rfl, rfl⟩
    · rw [if_neg hl] at hr
      by_cases hu : 65535 < u.c.uc e.sec + 1
      · rw [if_pos hu] at hr
        simp only [Prod.mk.injEq] at hr
        obtain ⟨rfl, rfl⟩ := hr
        refine ⟨h, List.prefix_refl _, Res.safe_err _, by simp, ?_⟩
        intro i x hx hxr hxl hxu _
        have hsx := hi.uniq x (List.mem_of_getElem? hx) e hmem (by rw [hxr, hrt, h3])
        rw [hsx] at hxu; omega
      · rw [if_neg hu] at hr
        obtain ⟨m1, m2, m3, m4, m5⟩ := main e.sec c' res (by rw [hrt, h3]) hr
        refine ⟨m1, m2, m3, m4, ?_⟩
        intro i x hx hxr hxl hxu _
        have hsx := hi.uniq x (List.mem_of_getElem? hx) e hmem (by rw [hxr, hrt, h3])
        exact m5 i x hx hxr hxl hxu (by rw [← hsx]; exact hxu)

theorem foldl_cdec (l : List IEntry) (f : Nat → Nat) (t : Nat) :
    l.foldl (fun u e => cDec u e.sec) f t = f t - cnt l t := by
  induction l generalizing f with
  | nil => simp [cnt]
  | cons e l ih =>
    simp only [List.foldl_cons]
    rw [ih, cnt_cons]
    unfold cDec
    by_cases h : t = e.sec
    · subst h; simp only [if_true]; omega
    · have h' : ¬ e.sec = t := fun x => h x.symm
      simp [h, h']

theorem user_step {rng : Nat → Range} {trunc : Range → Range} (htr : ∀ r, trunc (trunc r) = trunc r)
    {u : IscUser} (h : UserInv rng trunc u) (op : IscOp) (hop : op.Ok rng trunc u) :
    UserInv rng trunc (op.step rng u) := by
  cases op with
  | addFile r mk laddr ok =>
    cases hq : iscAddFile rng ok u.c r mk laddr with
    | mk c' res =>
      simp only [IscOp.step, hq]
      exact (addFile_spec rng trunc u h r mk laddr ok hop (htr r) c' res hq).1
  | lookup isid =>
    have hkeep : UserInv rng trunc ⟨u.c, u.held⟩ := h
    simp only [IscOp.step, iscLookup]
    by_cases h1 : isid ≤ 0
    · rw [if_pos h1]; exact hkeep
    · rw [if_neg h1]
      by_cases h2 : 65535 < isid - 1
      · rw [if_pos h2]; exact hkeep
      · rw [if_neg h2]
        cases u.c.entries[(isid - 1).toNat]? with
        | none => exact hkeep
        | some e =>
          simp only
          by_cases h3 : 65535 < u.c.uc e.sec + 1
          · rw [if_pos h3]; exact hkeep
          · rw [if_neg h3]
            refine ⟨inv_counts h.inv _ _, h.fix, h.ac, ?_⟩
            intro t
            have := h.uc t
            simp only [cInc]
            split <;> omega
  | put s =>
    refine ⟨inv_counts h.inv _ _, h.fix, h.ac, ?_⟩
    intro t
    have := h.uc t
    have hpos : 0 < u.held s := hop
    simp only [IscOp.step, cDec]
    by_cases ht : t = s
    · subst ht; simp only [if_true]; omega
    · simp only [if_neg ht]; exact this
  | clear =>
    refine ⟨inv_new rng _ _, by simp [IscOp.step, iscClear], ?_, ?_⟩
    · intro t; simp only [IscOp.step, iscClear]; rw [foldl_cdec, h.ac t]; simp [cnt]
    · intro t; simp only [IscOp.step, iscClear]; rw [foldl_cdec, h.uc t]; simp [cnt]

theorem user_run {rng : Nat → Range} {trunc : Range → Range} (htr : ∀ r, trunc (trunc r) = trunc r)
    (ops : List IscOp) {u : IscUser} (h : UserInv rng trunc u) (hops : iscOk rng trunc u ops) :
    UserInv rng trunc (iscUser rng u ops) := by
  induction ops generalizing u with
  | nil => exact h
  | cons op ops ih => exact ih (user_step htr h op hops.1) hops.2

theorem user_new (rng : Nat → Range) (trunc : Range → Range) : UserInv rng trunc iscNew := by
  refine ⟨inv_new rng _ _, by simp [iscNew], by simp [iscNew, cnt], by simp [iscNew, cnt]⟩

/-- C29, adding a file: after any valid history, a successful `pt_iscache_add_file` reports an identifier
that denotes the requested file range, truncated to the file (`trunc`), at the requested address; all
other identifiers keep their meaning. -/
theorem C29_add_file (rng : Nat → Range) (trunc : Range → Range) (htr : ∀ r, trunc (trunc r) = trunc r)
    (ops : List IscOp) (hops : iscOk rng trunc iscNew ops) (u : IscUser) (hu : u = iscUser rng iscNew ops)
    (r : Range) (mk : Res Nat) (laddr : Nat) (ok : Bool) (hop : (IscOp.addFile r mk laddr ok).Ok rng trunc u)
    (c' : Isc) (res : Res Nat) (hr : iscAddFile rng ok u.c r mk laddr = (c', res)) :
    res.safe ∧
    (∀ isid, res = .ok isid → ∃ e, 1 ≤ isid ∧ isid ≤ 65535 ∧ c'.entries[isid - 1]? = some e ∧
      rng e.sec = trunc r ∧ e.laddr = laddr) ∧
    (∀ (i : Nat) (e : IEntry), u.c.entries[i]? = some e → c'.entries[i]? = some e) := by
  have hi := user_run htr ops (user_new rng trunc) hops
  rw [← hu] at hi
  obtain ⟨g1, g2, g3, g4, g5⟩ := addFile_spec rng trunc u hi r mk laddr ok hop (htr r) c' res hr
  refine ⟨g3, ?_, ?_⟩
  · intro isid h
    obtain ⟨e, a, b, d, f⟩ := g4 isid h
    obtain ⟨hlt, _⟩ := List.getElem?_eq_some_iff.mp b
    have := g1.inv.cap; have := g1.inv.cap8.2
    simp only at *
    exact ⟨e, a, by omega, b, d, f⟩
  · intro i e he
    obtain ⟨t, ht⟩ := g2
    rw [← ht]
    obtain ⟨hlt, _⟩ := List.getElem?_eq_some_iff.mp he
    rw [List.getElem?_append_left hlt]
    exact he

/-- C29, adding the same file range at the same address again reports the same identifier and adds
nothing - also when the requested size exceeds the file, in which case the second add goes through a
new section object that is dropped again.  (The bound on the use count leaves room for the temporary
references.) -/
theorem C29_add_file_again (rng : Nat → Range) (trunc : Range → Range) (htr : ∀ r, trunc (trunc r) = trunc r)
    (ops : List IscOp) (hops : iscOk rng trunc iscNew ops) (u : IscUser) (hu : u = iscUser rng iscNew ops)
    (r : Range) (s laddr : Nat) (ok : Bool) (hop : (IscOp.addFile r (.ok s) laddr ok).Ok rng trunc u)
    (i : Nat) (e : IEntry) (he : u.c.entries[i]? = some e) (hr : rng e.sec = trunc r) (hl : e.laddr = laddr)
    (hcount : u.c.uc e.sec < 65533) :
    (iscAddFile rng ok u.c r (.ok s) laddr).2 = .ok (i + 1) ∧
    (iscAddFile rng ok u.c r (.ok s) laddr).1.entries = u.c.entries := by
  have hi := user_run htr ops (user_new rng trunc) hops
  rw [← hu] at hi
  exact (addFile_spec rng trunc u hi r _ laddr ok hop (htr r) _ _ rfl).2.2.2.2 i e he hr hl hcount ⟨s, rfl⟩

/-- C29 and C27: after any valid history of cache operations the attach count of every section is the
number of its entries, and its use count is that number plus the references the user holds: the cache
neither leaks nor over-releases sections, and every attachment is backed by a reference. -/
theorem C29_references (rng : Nat → Range) (trunc : Range → Range) (htr : ∀ r, trunc (trunc r) = trunc r)
    (ops : List IscOp) (hops : iscOk rng trunc iscNew ops) (t : Nat) :
    let u := iscUser rng iscNew ops
    u.c.ac t = (u.c.entries.filter fun e => decide (e.sec = t)).length ∧
    u.c.uc t = (u.c.entries.filter fun e => decide (e.sec = t)).length + u.held t := by
  have hi := user_run htr ops (user_new rng trunc) hops
  exact ⟨hi.ac t, hi.uc t⟩

/-! Non-vacuity: a file of size 16, added twice with an oversized request, then at another address. -/

private def exTrunc (r : Range) : Range := { r with size := min r.size (16 - r.offset) }
private def exRng (s : Nat) : Range := if s < 3 then ⟨"a", 0, 16⟩ else ⟨"b", 4, 8⟩
private def exOps : List IscOp :=
  [.addFile ⟨"a", 0, 100⟩ (.ok 1) 0x1000 true, .addFile ⟨"a", 0, 100⟩ (.ok 2) 0x1000 true,
   .addFile ⟨"a", 0, 16⟩ (.ok 2) 0x2000 true, .addFile ⟨"b", 4, 8⟩ (.ok 3) 0x1000 true, .lookup 3, .put 3]

example : (∀ r, exTrunc (exTrunc r) = exTrunc r) ∧ iscOk exRng exTrunc iscNew exOps ∧
    (iscUser exRng iscNew exOps).c.entries = [⟨1, 0x1000⟩, ⟨1, 0x2000⟩, ⟨3, 0x1000⟩] ∧
    (iscUser exRng iscNew exOps).c.uc 1 = 2 ∧ (iscUser exRng iscNew exOps).c.uc 2 = 0 := by
  refine ⟨fun r => ?_, ?_, by decide +kernel, by decide +kernel, by decide +kernel⟩
  · simp only [exTrunc, Range.mk.injEq, true_and]; omega
  · simp only [iscOk, exOps, IscOp.Ok]
    refine ⟨⟨by simp, ?_⟩, ⟨by simp, ?_⟩, ⟨by simp, ?_⟩, ⟨by simp, ?_⟩, trivial, by decide +kernel, trivial⟩ <;>
      (intro s hs; cases hs; exact ⟨by decide +kernel, by decide +kernel⟩)

/-! ## C30 -/

/-- The amount of memory of a list of cached sections. -/
def memory (l : List (Nat × Nat)) : Nat := (l.map Prod.snd).sum

/-- The specification of eviction: keep the longest prefix (most recently used first) that fits. -/
def keep (limit : Nat) : List (Nat × Nat) → List (Nat × Nat)
  | [] => []
  | e :: l => if e.2 ≤ limit then e :: keep (limit - e.2) l else []

/-- The specification of using a section: it becomes the most recently used one. -/
def touch (sec size : Nat) (l : List (Nat × Nat)) : List (Nat × Nat) :=
  (sec, size) :: l.filter fun e => decide (e.1 ≠ sec)

/-- The cache operations with their sizes; `share` is the outcome of sharing the mapping. -/
inductive LruOp
  | map (sec memsize : Nat) (share : Res Unit)
  | resize (sec memsize : Nat) (share : Res Unit)
  | setLimit (limit : Nat)
  | clear

def LruOp.step (c : Lru) : LruOp → Lru × Res (List (Nat × Nat))
  | .map s m sh => lruNotifyMap c s m sh
  | .resize s m sh => lruNotifyResize c s m sh
  | .setLimit n => lruSetLimit c n
  | .clear => lruClear c

/-- Sizes are real memory: adding the section keeps the total below 2^64; limits are 64-bit. -/
def LruOp.Ok (c : Lru) : LruOp → Prop
  | .map _ m _ => c.used + m < 2 ^ 64
  | .resize _ m _ => c.used + m < 2 ^ 64
  | .setLimit n => n < 2 ^ 64
  | .clear => True

/-- What the list of cached sections should be after a successful operation. -/
def LruOp.spec (l : List (Nat × Nat)) (limit : Nat) : LruOp → List (Nat × Nat)
  | .map s m _ =>
    match l.find? fun e => decide (e.1 = s) with
    | some e => touch s e.2 l          -- already cached: most recently used, size as known
    | none => if limit < m then l else keep limit (touch s m l)
  | .resize s m _ =>
    match l.find? fun e => decide (e.1 = s) with
    | some _ => keep limit (touch s m l)
    | none => if limit < m then l else keep limit (touch s m l)
  | .setLimit n => keep n l
  | .clear => []

def LruOp.newLimit (limit : Nat) : LruOp → Nat
  | .setLimit n => n
  | _ => limit

structure LruInv (c : Lru) : Prop where
  used : c.used = memory c.lru
  fits : c.used ≤ c.limit
  lim : c.limit < 2 ^ 64
  nodup : (c.lru.map Prod.fst).Nodup

theorem memory_cons (e : Nat × Nat) (l : List (Nat × Nat)) : memory (e :: l) = e.2 + memory l := by
  simp [memory]

theorem keep_all {limit : Nat} {l : List (Nat × Nat)} (h : memory l ≤ limit) : keep limit l = l := by
  induction l generalizing limit with
  | nil => rfl
  | cons e l ih =>
    rw [memory_cons] at h
    unfold keep
    rw [if_pos (by omega), ih (by omega)]

theorem keep_fits (limit : Nat) (l : List (Nat × Nat)) : memory (keep limit l) ≤ limit := by
  induction l generalizing limit with
  | nil => simp [keep, memory]
  | cons e l ih =>
    unfold keep
    by_cases h : e.2 ≤ limit
    · rw [if_pos h, memory_cons]; have := ih (limit - e.2); omega
    · rw [if_neg h]; simp [memory]

theorem keep_prefix (limit : Nat) (l : List (Nat × Nat)) : keep limit l <+: l := by
  induction l generalizing limit with
  | nil => exact List.prefix_refl _
  | cons e l ih =>
    unfold keep
    by_cases h : e.2 ≤ limit
    · rw [if_pos h]; exact (List.prefix_cons_inj e).mpr (ih _)
    · rw [if_neg h]; exact List.nil_prefix

theorem pruneLoop_spec (limit : Nat) (l : List (Nat × Nat)) (used : Nat) (h1 : used ≤ limit)
    (h2 : used + memory l < 2 ^ 64) (hl : limit < used + memory l) :
    pruneLoop limit l used =
      some (used + memory (keep (limit - used) l), keep (limit - used) l, l.drop (keep (limit - used) l).length) := by
  induction l generalizing used with
  | nil => simp [memory] at hl; omega
  | cons e l ih =>
    rw [memory_cons] at h2 hl
    unfold pruneLoop keep
    have hm : (used + e.2) % 2 ^ 64 = used + e.2 := Nat.mod_eq_of_lt (by omega)
    simp only [hm]
    by_cases h : used + e.2 ≤ limit
    · rw [if_pos h, if_pos (by omega)]
      rw [ih (used + e.2) h (by omega) (by omega)]
      have : limit - (used + e.2) = limit - used - e.2 := by omega
      simp only [this, memory_cons, List.length_cons, List.drop_succ_cons]
      rw [Nat.add_assoc]
    · rw [if_neg h, if_neg (by omega)]
      have hx : (used + e.2 + 2 ^ 64 - e.2) % 2 ^ 64 = used := by
        rw [show used + e.2 + 2 ^ 64 - e.2 = used + 2 ^ 64 by omega]; omega
      rw [hx]; simp [memory]

theorem lruPrune_spec {c : Lru} (h2 : memory c.lru < 2 ^ 64) (hl : c.limit < memory c.lru) :
    lruPrune c = ({ c with lru := keep c.limit c.lru, used := memory (keep c.limit c.lru) },
      .ok (c.lru.drop (keep c.limit c.lru).length)) := by
  unfold lruPrune
  rw [pruneLoop_spec c.limit c.lru 0 (by omega) (by omega) (by omega)]
  simp

theorem takeSec_none {s : Nat} {l : List (Nat × Nat)} (h : takeSec s l = none) :
    l.find? (fun e => decide (e.1 = s)) = none ∧ l.filter (fun e => decide (e.1 ≠ s)) = l ∧ s ∉ l.map Prod.fst := by
  induction l with
  | nil => simp
  | cons e l ih =>
    unfold takeSec at h
    by_cases he : e.1 = s
    · rw [if_pos he] at h; cases h
    · rw [if_neg he] at h
      cases hq : takeSec s l with
      | some x => rw [hq] at h; cases h
      | none =>
        obtain ⟨a, b, d⟩ := ih hq
        refine ⟨?_, ?_, ?_⟩
        · rw [List.find?_cons_of_neg (by simpa using he)]; exact a
        · rw [List.filter_cons_of_pos (by simpa using he), b]
        · simp only [List.map_cons, List.mem_cons, not_or]; exact ⟨fun x => he x.symm, d⟩

theorem takeSec_some {s : Nat} {l : List (Nat × Nat)} {e : Nat × Nat} {l' : List (Nat × Nat)}
    (hn : (l.map Prod.fst).Nodup) (h : takeSec s l = some (e, l')) :
    e.1 = s ∧ l.find? (fun e => decide (e.1 = s)) = some e ∧ l' = l.filter (fun e => decide (e.1 ≠ s)) ∧
    memory l = e.2 + memory l' ∧ (s :: l'.map Prod.fst).Nodup := by
  induction l generalizing l' with
  | nil => cases h
  | cons x l ih =>
    unfold takeSec at h
    simp only [List.map_cons, List.nodup_cons] at hn
    by_cases he : x.1 = s
    · rw [if_pos he] at h
      simp only [Option.some.injEq, Prod.mk.injEq] at h
      obtain ⟨rfl, rfl⟩ := h
      have hnot : ∀ y ∈ l, y.1 ≠ s := by
        intro y hy hys
        exact hn.1 (by rw [he, ← hys]; exact List.mem_map_of_mem hy)
      refine ⟨he, ?_, ?_, memory_cons _ _, ?_⟩
      · rw [List.find?_cons_of_pos (by simpa using he)]
      · rw [List.filter_cons_of_neg (by simpa using he)]
        symm; rw [List.filter_eq_self]; intro y hy; simpa using hnot y hy
      · simp only [List.nodup_cons]; rw [← he]; exact hn
    · rw [if_neg he] at h
      cases hq : takeSec s l with
      | none => rw [hq] at h; cases h
      | some r =>
        obtain ⟨y, l''⟩ := r
        rw [hq] at h
        simp only [Option.some.injEq, Prod.mk.injEq] at h
        obtain ⟨rfl, rfl⟩ := h
        obtain ⟨a, b, d, m, f⟩ := ih hn.2 hq
        refine ⟨a, ?_, ?_, ?_, ?_⟩
        · rw [List.find?_cons_of_neg (by simpa using he)]; exact b
        · rw [List.filter_cons_of_pos (by simpa using he), d]
        · rw [memory_cons, memory_cons, m]; omega
        · simp only [List.map_cons, List.nodup_cons, List.mem_cons, not_or] at f ⊢
          refine ⟨⟨fun x => he x.symm, f.1⟩, ?_, f.2⟩
          intro hm
          apply hn.1
          rw [d] at hm
          simp only [List.mem_map, List.mem_filter] at hm ⊢
          obtain ⟨z, hz, hzx⟩ := hm
          exact ⟨z, hz.1, hzx⟩

theorem nodup_keep {limit : Nat} {l : List (Nat × Nat)} (h : (l.map Prod.fst).Nodup) :
    ((keep limit l).map Prod.fst).Nodup := by
  obtain ⟨t, ht⟩ := keep_prefix limit l
  rw [← ht, List.map_append, List.nodup_append] at h
  exact h.1

/-- The result of a successful operation that may prune. -/
theorem finish_inv {c : Lru} (hl : c.limit < 2 ^ 64) (hn : (c.lru.map Prod.fst).Nodup) (hu : c.used = memory c.lru)
    (hw : memory c.lru < 2 ^ 64) :
    ∃ tail, lruFinish (c, .ok (decide (c.limit < c.used))) =
        ({ c with lru := keep c.limit c.lru, used := memory (keep c.limit c.lru) }, .ok tail) ∧
      c.lru = keep c.limit c.lru ++ tail ∧
      LruInv { c with lru := keep c.limit c.lru, used := memory (keep c.limit c.lru) } := by
  refine ⟨c.lru.drop (keep c.limit c.lru).length, ?_, ?_, rfl, keep_fits _ _, hl, nodup_keep hn⟩
  · by_cases h : c.limit < c.used
    · simp only [h, decide_true, lruFinish]
      exact lruPrune_spec hw (hu ▸ h)
    · have hk := keep_all (limit := c.limit) (l := c.lru) (by omega)
      simp only [h, decide_false, lruFinish]
      rw [hk, ← hu]; simp
  · obtain ⟨t, ht⟩ := keep_prefix c.limit c.lru
    conv => lhs; rw [← ht]
    congr 1
    generalize keep c.limit c.lru = k at ht
    rw [← ht]; simp

theorem lru_step {c : Lru} (h : LruInv c) (op : LruOp) (hop : op.Ok c) :
    (∃ tail, op.step c = (⟨op.spec c.lru c.limit, memory (op.spec c.lru c.limit), op.newLimit c.limit⟩, .ok tail)) ∧ LruInv (op.step c).1 ∨
    (∃ s m e, (op = .map s m (.err e) ∨ op = .resize s m (.err e)) ∧ op.step c = (c, .err e)) ∨
    (∃ s m, (op = .map s m .ub ∨ op = .resize s m .ub)) := by
  obtain ⟨hu, hf, hl, hn⟩ := h
  obtain ⟨l, used, limit⟩ := c
  simp only at hu hf hl hn
  cases op with
  | clear => left; exact ⟨⟨l, rfl⟩, rfl, Nat.zero_le _, hl, List.nodup_nil⟩
  | setLimit n =>
    left
    have hn' : n < 2 ^ 64 := hop
    simp only [LruOp.step, lruSetLimit, LruOp.newLimit, LruOp.spec]
    by_cases hlt : n < used
    · rw [if_pos hlt, lruPrune_spec (by simp only; omega) (by simp only; omega)]
      exact ⟨⟨_, rfl⟩, rfl, keep_fits _ _, hn', nodup_keep hn⟩
    · rw [if_neg hlt, keep_all (by omega), ← hu]
      exact ⟨⟨_, rfl⟩, hu, by simp only; omega, hn', hn⟩
  | map s m sh =>
    have hw : used + m < 2 ^ 64 := hop
    simp only [LruOp.step, lruNotifyMap, LruOp.newLimit, LruOp.spec]
    unfold lruAdd
    simp only
    cases ht : takeSec s l with
    | some r =>
      obtain ⟨e, l'⟩ := r
      obtain ⟨a, b, d, mm, f⟩ := takeSec_some hn ht
      left
      simp only [lruFinish, b]
      have htouch : touch s e.2 l = e :: l' := by unfold touch; rw [← d, ← a]
      rw [htouch, memory_cons, ← mm, ← hu]
      refine ⟨⟨_, rfl⟩, ?_, hf, hl, ?_⟩
      · show used = memory (e :: l'); rw [memory_cons, ← mm, hu]
      · show (e.1 :: l'.map Prod.fst).Nodup; rw [a]; exact f
    | none =>
      obtain ⟨a, b, d⟩ := takeSec_none ht
      simp only [a]
      unfold lruNew
      simp only
      by_cases hbig : limit < m
      · left
        rw [if_pos hbig]; simp only [if_pos hbig, lruFinish]
        rw [← hu]
        exact ⟨⟨_, rfl⟩, hu, hf, hl, hn⟩
      · rw [if_neg hbig]; simp only [if_neg hbig]
        cases sh with
        | err e => right; left; exact ⟨s, m, e, .inl rfl, rfl⟩
        | ub => right; right; exact ⟨s, m, .inl rfl⟩
        | ok =>
          left
          have hmod : (used + m) % 2 ^ 64 = used + m := Nat.mod_eq_of_lt hw
          simp only [hmod]
          rw [if_neg (by omega)]
          have htouch : touch s m l = (s, m) :: l := by unfold touch; rw [b]
          rw [htouch]
          obtain ⟨tail, h1, h2, h3⟩ := finish_inv (c := ⟨(s, m) :: l, used + m, limit⟩) hl
            (by simp only [List.map_cons, List.nodup_cons]; exact ⟨d, hn⟩)
            (by rw [memory_cons, hu]; simp only; omega) (by rw [memory_cons, ← hu]; simp only; omega)
          simp only at h1 h3
          rw [h1]
          exact ⟨⟨tail, rfl⟩, h3⟩
  | resize s m sh =>
    have hw : used + m < 2 ^ 64 := hop
    simp only [LruOp.step, lruNotifyResize, LruOp.newLimit, LruOp.spec]
    unfold lruResize lruAdd
    simp only
    cases ht : takeSec s l with
    | some r =>
      obtain ⟨e, l'⟩ := r
      obtain ⟨a, b, d, mm, f⟩ := takeSec_some hn ht
      left
      simp only [b]
      rw [if_neg (by simpa using a)]
      simp only [Bool.false_eq_true, if_false]
      have hmod : (used + 2 ^ 64 - e.2 + m) % 2 ^ 64 = m + memory l' := by
        rw [show used + 2 ^ 64 - e.2 + m = (m + memory l') + 2 ^ 64 by omega]
        rw [Nat.add_mod_right]; exact Nat.mod_eq_of_lt (by omega)
      rw [hmod]
      have htouch : touch s m l = (e.1, m) :: l' := by unfold touch; rw [← d, ← a]
      rw [htouch]
      obtain ⟨tail, h1, h2, h3⟩ := finish_inv (c := ⟨(e.1, m) :: l', m + memory l', limit⟩) hl
        (by simp only [List.map_cons]; rw [a]; exact f)
        (by rw [memory_cons]) (by rw [memory_cons]; simp only; omega)
      simp only at h1 h3
      rw [h1]
      exact ⟨⟨tail, rfl⟩, h3⟩
    | none =>
      obtain ⟨a, b, d⟩ := takeSec_none ht
      simp only [a]
      unfold lruNew
      simp only
      by_cases hbig : limit < m
      · left
        simp only [if_pos hbig]
        cases l with
        | nil =>
          simp only [Bool.false_eq_true, if_false, lruFinish]
          rw [← hu]
          exact ⟨⟨_, rfl⟩, hu, hf, hl, hn⟩
        | cons e l =>
          have : e.1 ≠ s := by
            simp only [List.map_cons, List.mem_cons, not_or] at d; exact fun x => d.1 x.symm
          simp only [if_pos this, lruFinish]
          rw [← hu]
          exact ⟨⟨_, rfl⟩, hu, hf, hl, hn⟩
      · simp only [if_neg hbig]
        cases sh with
        | err e => right; left; exact ⟨s, m, e, .inr rfl, rfl⟩
        | ub => right; right; exact ⟨s, m, .inr rfl⟩
        | ok =>
          left
          have hmod : (used + m) % 2 ^ 64 = used + m := Nat.mod_eq_of_lt hw
          simp only [hmod]
          rw [if_neg (by omega)]
          simp only
          rw [if_neg (by simp)]
          have htouch : touch s m l = (s, m) :: l := by unfold touch; rw [b]
          rw [htouch]
          have hmod2 : (used + m + 2 ^ 64 - m + m) % 2 ^ 64 = used + m := by
            rw [show used + m + 2 ^ 64 - m + m = used + m + 2 ^ 64 by omega, Nat.add_mod_right]
            exact hmod
          rw [hmod2]
          obtain ⟨tail, h1, h2, h3⟩ := finish_inv (c := ⟨(s, m) :: l, used + m, limit⟩) hl
            (by simp only [List.map_cons, List.nodup_cons]; exact ⟨d, hn⟩)
            (by rw [memory_cons, hu]; simp only; omega) (by rw [memory_cons, ← hu]; simp only; omega)
          simp only at h1 h3
          by_cases hp : limit < used + m
          · simp only [hp, decide_true, if_true] at h1 ⊢
            rw [h1]
            exact ⟨⟨tail, rfl⟩, h3⟩
          · simp only [hp, decide_false, Bool.false_eq_true, if_false] at h1 ⊢
            rw [h1]
            exact ⟨⟨tail, rfl⟩, h3⟩

/-- Run a history; the operations must be valid when they are executed. -/
def lruRun (c : Lru) : List LruOp → Lru
  | [] => c
  | op :: ops => lruRun (op.step c).1 ops

def lruOk (c : Lru) : List LruOp → Prop
  | [] => True
  | op :: ops => op.Ok c ∧ (∀ s m, op ≠ .map s m .ub ∧ op ≠ .resize s m .ub) ∧ lruOk (op.step c).1 ops

theorem lru_run (ops : List LruOp) {c : Lru} (h : LruInv c) (hops : lruOk c ops) : LruInv (lruRun c ops) := by
  induction ops generalizing c with
  | nil => exact h
  | cons op ops ih =>
    obtain ⟨h1, h2, h3⟩ := hops
    refine ih ?_ h3
    rcases lru_step h op h1 with ⟨_, h'⟩ | ⟨s, m, e, _, h'⟩ | ⟨s, m, h'⟩
    · exact h'
    · rw [h']; exact h
    · rcases h' with h' | h'
      · exact absurd h' (h2 s m).1
      · exact absurd h' (h2 s m).2

/-- C30: after any history of map and resize notifications, limit changes and clears, starting from a new
cache: the accounted memory is the sum over the cached sections and does not exceed the limit; no
section is listed twice; and the next operation either leaves exactly the sections the specification
keeps - the longest prefix, in order of recent use, that fits the limit (a section bigger than the limit
is not cached) - or fails because the mapping could not be shared and changes nothing. -/
theorem C30_limit (ops : List LruOp) (hops : lruOk {} ops) (c : Lru) (hc : c = lruRun {} ops) :
    c.used = memory c.lru ∧ c.used ≤ c.limit ∧ (c.lru.map Prod.fst).Nodup ∧
    ∀ op : LruOp, op.Ok c → (∀ s m, op ≠ .map s m .ub ∧ op ≠ .resize s m .ub) →
      ((op.step c).1.lru = op.spec c.lru c.limit ∧ (op.step c).1.limit = op.newLimit c.limit ∧
        ∃ tail, (op.step c).2 = .ok tail) ∨
      ∃ e, (op.step c) = (c, .err e) := by
  have hi : LruInv c := hc ▸ lru_run ops ⟨rfl, by simp, by simp, by simp⟩ hops
  refine ⟨hi.used, hi.fits, hi.nodup, ?_⟩
  intro op hop hub
  rcases lru_step hi op hop with ⟨⟨tail, h⟩, _⟩ | ⟨s, m, e, _, h⟩ | ⟨s, m, h⟩
  · left; rw [h]; exact ⟨rfl, rfl, tail, rfl⟩
  · right; exact ⟨e, h⟩
  · rcases h with h | h
    · exact absurd h (hub s m).1
    · exact absurd h (hub s m).2

/-- C30, eviction: exactly the sections that leave the list are unmapped. -/
theorem C30_evicted_unmapped (ops : List LruOp) (hops : lruOk {} ops) (c : Lru) (hc : c = lruRun {} ops)
    (n : Nat) (hn : n < 2 ^ 64) :
    ∃ tail, (lruSetLimit c n).2 = .ok tail ∧ c.lru = (lruSetLimit c n).1.lru ++ tail := by
  have hi : LruInv c := hc ▸ lru_run ops ⟨rfl, by simp, by simp, by simp⟩ hops
  obtain ⟨hu, hf, hl, hnd⟩ := hi
  unfold lruSetLimit
  simp only
  by_cases h : n < c.used
  · rw [if_pos h, lruPrune_spec (by simp only; omega) (by simp only; omega)]
    refine ⟨_, rfl, ?_⟩
    simp only
    obtain ⟨t, ht⟩ := keep_prefix n c.lru
    conv => lhs; rw [← ht]
    congr 1
    generalize keep n c.lru = k at ht
    rw [← ht]; simp
  · rw [if_neg h]; exact ⟨[], rfl, by simp⟩

theorem pruneLoop_parts {limit : Nat} : ∀ {l : List (Nat × Nat)} {used u : Nat} {kept tail : List (Nat × Nat)},
    pruneLoop limit l used = some (u, kept, tail) → kept ++ tail = l := by
  intro l
  induction l with
  | nil => intro used u kept tail h; cases h
  | cons e l ih =>
    intro used u kept tail h
    unfold pruneLoop at h
    simp only at h
    split at h
    · split at h
      · cases h
      · rename_i h2
        simp only [Option.some.injEq, Prod.mk.injEq] at h
        obtain ⟨rfl, rfl, rfl⟩ := h
        rw [List.cons_append, ih h2]
    · simp only [Option.some.injEq, Prod.mk.injEq] at h
      obtain ⟨rfl, rfl, rfl⟩ := h
      rfl

theorem takeSec_perm {s : Nat} : ∀ {l : List (Nat × Nat)} {e : Nat × Nat} {l' : List (Nat × Nat)},
    takeSec s l = some (e, l') → e.1 = s ∧ (e :: l').Perm l := by
  intro l
  induction l with
  | nil => intro e l' h; cases h
  | cons x l ih =>
    intro e l' h
    unfold takeSec at h
    split at h
    · rename_i hx
      simp only [Option.some.injEq, Prod.mk.injEq] at h
      obtain ⟨rfl, rfl⟩ := h
      exact ⟨hx, .refl _⟩
    · split at h
      · cases h
      · rename_i h2
        simp only [Option.some.injEq, Prod.mk.injEq] at h
        obtain ⟨rfl, rfl⟩ := h
        obtain ⟨h3, h4⟩ := ih h2
        exact ⟨h3, (List.Perm.swap _ _ _).trans (h4.cons _)⟩

/-- The sections in `l` are those of the list of `c`, and possibly `s`, if that was not there. -/
def Kept (c : Lru) (s : Nat) (l : List (Nat × Nat)) : Prop :=
  (l.map Prod.fst).Perm (c.lru.map Prod.fst) ∨ s ∉ c.lru.map Prod.fst ∧ (l.map Prod.fst).Perm (s :: c.lru.map Prod.fst)

theorem lruAdd_kept {c c' : Lru} {s m : Nat} {sh : Res Unit} {b : Bool} (h : lruAdd c s m sh = (c', .ok b)) : Kept c s c'.lru := by
  unfold lruAdd at h
  split at h
  · rename_i e l ht
    simp only [Prod.mk.injEq] at h
    obtain ⟨rfl, -⟩ := h
    exact .inl ((takeSec_perm ht).2.map _)
  · rename_i ht
    have hs := (takeSec_none ht).2.2
    unfold lruNew at h
    split at h
    · simp only [Prod.mk.injEq] at h
      obtain ⟨rfl, -⟩ := h
      exact .inl (.refl _)
    · split at h
      · cases h
      · cases h
      · simp only at h
        split at h
        · cases h
        · simp only [Prod.mk.injEq] at h
          obtain ⟨rfl, -⟩ := h
          exact .inr ⟨hs, .refl _⟩

theorem lruResize_kept {c c' : Lru} {s m : Nat} {sh : Res Unit} {b : Bool} (h : lruResize c s m sh = (c', .ok b)) : Kept c s c'.lru := by
  unfold lruResize at h
  split at h
  · cases h
  · cases h
  · rename_i c1 st h1
    have hk := lruAdd_kept h1
    split at h
    · rename_i hl
      split at h
      · cases h
      · simp only [Prod.mk.injEq] at h
        obtain ⟨rfl, -⟩ := h
        exact hk
    · rename_i e l hl
      rw [hl] at hk
      split at h
      · split at h
        · simp only [Prod.mk.injEq] at h
          obtain ⟨rfl, -⟩ := h
          rw [hl]; exact hk
        · cases h
      · simp only at h
        split at h
        · simp only [Prod.mk.injEq] at h
          obtain ⟨rfl, -⟩ := h
          exact hk
        · simp only [Prod.mk.injEq] at h
          obtain ⟨rfl, -⟩ := h
          exact hk

theorem lruPrune_parts {c c' : Lru} {tail : List (Nat × Nat)} (h : lruPrune c = (c', .ok tail)) : c'.lru ++ tail = c.lru := by
  unfold lruPrune at h
  split at h
  · cases h
  · rename_i hp
    simp only [Prod.mk.injEq, Res.ok.injEq] at h
    obtain ⟨rfl, rfl⟩ := h
    exact pruneLoop_parts hp

theorem lruFinish_kept {c c1 c' : Lru} {s : Nat} {r : Res Bool} {tail : List (Nat × Nat)} (hk : ∀ b, r = .ok b → Kept c s c1.lru)
    (h : lruFinish (c1, r) = (c', .ok tail)) : Kept c s (c'.lru ++ tail) := by
  cases r with
  | ub => cases h
  | err e => cases h
  | ok b =>
    cases b with
    | true => rw [lruPrune_parts h]; exact hk _ rfl
    | false =>
      simp only [lruFinish, Prod.mk.injEq, Res.ok.injEq] at h
      obtain ⟨rfl, rfl⟩ := h
      rw [List.append_nil]; exact hk _ rfl

/-- C30: no mapping is lost or given up twice: whenever an operation succeeds, in whatever state of the cache, the sections that are
listed then, and those that are unmapped, are together exactly the sections that were listed before; mapping or resizing a section
that was not listed may add it.  Removing a section unmaps that section and no other. -/
theorem C30_no_mapping_lost (c c' : Lru) (tail : List (Nat × Nat)) :
    (∀ op : LruOp, op.step c = (c', .ok tail) →
      ((c'.lru ++ tail).map Prod.fst).Perm (c.lru.map Prod.fst) ∨
      ∃ s m sh, (op = .map s m sh ∨ op = .resize s m sh) ∧ s ∉ c.lru.map Prod.fst ∧
        ((c'.lru ++ tail).map Prod.fst).Perm (s :: c.lru.map Prod.fst)) ∧
    (∀ s, lruRemove c s = (c', .ok tail) →
      (c'.lru ++ tail).Perm c.lru ∧ tail.map Prod.fst = if s ∈ c.lru.map Prod.fst then [s] else []) := by
  refine ⟨fun op h => ?_, fun s h => ?_⟩
  · cases op with
    | map s m sh =>
      have h' : lruFinish ((lruAdd c s m sh).1, (lruAdd c s m sh).2) = (c', .ok tail) := h
      rcases lruFinish_kept (c := c) (s := s) (fun b hb => lruAdd_kept (b := b) (Prod.ext rfl hb)) h' with hk | hk
      · exact .inl hk
      · exact .inr ⟨s, m, sh, .inl rfl, hk⟩
    | resize s m sh =>
      have h' : lruFinish ((lruResize c s m sh).1, (lruResize c s m sh).2) = (c', .ok tail) := h
      rcases lruFinish_kept (c := c) (s := s) (fun b hb => lruResize_kept (b := b) (Prod.ext rfl hb)) h' with hk | hk
      · exact .inl hk
      · exact .inr ⟨s, m, sh, .inr rfl, hk⟩
    | setLimit n =>
      left
      simp only [LruOp.step, lruSetLimit] at h
      split at h
      · rw [lruPrune_parts h]
      · simp only [Prod.mk.injEq, Res.ok.injEq] at h
        obtain ⟨rfl, rfl⟩ := h
        simp
    | clear =>
      left
      simp only [LruOp.step, lruClear, Prod.mk.injEq, Res.ok.injEq] at h
      obtain ⟨rfl, rfl⟩ := h
      simp
  · unfold lruRemove at h
    split at h
    · rename_i e l ht
      simp only [Prod.mk.injEq, Res.ok.injEq] at h
      obtain ⟨rfl, rfl⟩ := h
      obtain ⟨h1, h2⟩ := takeSec_perm ht
      refine ⟨(List.perm_append_comm (l₁ := l) (l₂ := [e])).trans h2, ?_⟩
      rw [if_pos ((h2.map Prod.fst).mem_iff.1 (by simp [h1]))]
      simp [h1]
    · rename_i ht
      simp only [Prod.mk.injEq, Res.ok.injEq] at h
      obtain ⟨rfl, rfl⟩ := h
      rw [if_neg (takeSec_none ht).2.2]
      simp

example : (LruOp.map 3 30 (.ok ())).step ⟨[(1, 20), (2, 10)], 30, 45⟩ = (⟨[(3, 30)], 30, 45⟩, .ok [(1, 20), (2, 10)]) ∧
    lruRemove ⟨[(1, 20), (2, 10)], 30, 45⟩ 2 = (⟨[(1, 20)], 30, 45⟩, .ok [(2, 10)]) := by
  decide +kernel

/-- Finding: replacing a section in `pt_iscache_add` removes it from the list without giving back its
memory (`pt_iscache_lru_remove`), so the accounted amount is no longer the sum, and a later limit change
fails with an internal error. -/
theorem C30_remove_breaks_accounting :
    ∃ c : Lru, c = (lruRemove (lruRun {} [.map 1 10 (.ok ())]) 1).1 ∧ c.lru = [] ∧ c.used = 10 ∧
      (lruSetLimit c 5).2 = .err .internal :=
  ⟨_, rfl, by decide +kernel, by decide +kernel, by decide +kernel⟩

/-! Non-vacuity: three sections, a limit, a resize that evicts. -/
private def exLru : List LruOp :=
  [.map 1 10 (.ok ()), .map 2 20 (.ok ()), .map 3 30 (.ok ()), .setLimit 55, .map 2 20 (.ok ()), .resize 3 35 (.ok ())]

example : lruOk {} exLru ∧ (lruRun {} exLru).lru = [(3, 35), (2, 20)] ∧ (lruRun {} exLru).used = 55 := by
  refine ⟨?_, by decide +kernel, by decide +kernel⟩
  simp only [lruOk, exLru, LruOp.Ok]
  refine ⟨by decide +kernel, by simp, by decide +kernel, by simp, by decide +kernel, by simp, by decide +kernel, by simp,
    by decide +kernel, by simp, by decide +kernel, by simp, trivial⟩

end Ipt.Props
