import Verif.ImageLemmas

/-!
# Histories of image operations and their invariant
-/

set_option linter.unusedSimpArgs false
set_option linter.unusedVariables false

namespace Ipt

open Spec (SameSpace Concrete Cell Map Op)

/-- The operations on an image: adding a section (with the allocation oracle), the two removals,
and lookups, which reorder the section list. -/
inductive ImgOp
  | add (sec : Nat) (asid : Asid) (vaddr isid : Nat) (ora : List Bool)
  | removeAsid (asid : Asid)
  | removeFile (name : String) (asid : Asid)
  | lookup (asid : Asid) (x : Nat)

/-- Virtual addresses are 64-bit values. -/
def ImgOp.Ok : ImgOp → Prop
  | .add _ _ vaddr _ _ => vaddr < 2 ^ 64
  | _ => True

/-- One operation: the new image, and the change that took effect (none for lookups and for adds
that fail). -/
def ImgOp.step (env : SecEnv) (i : Img) : ImgOp → Img × List Op
  | .add sec asid vaddr isid ora =>
    match imageAdd env ora i sec asid vaddr isid with
    | (i', .ok ()) => (i', [.add sec asid vaddr isid])
    | (i', _) => (i', [])
  | .removeAsid asid => ((imageRemoveByAsid i asid).1, [.removeAsid asid])
  | .removeFile name asid => ((imageRemoveByFilename env i name asid).1, [.removeFile name asid])
  | .lookup asid x => ((imageFetch i asid x).1, [])

/-- A history of operations: the final image and the changes that took effect, in order. -/
def ImgOp.run (env : SecEnv) : Img → List ImgOp → Img × List Op
  | i, [] => (i, [])
  | i, o :: os =>
    let r := o.step env i
    let s := ImgOp.run env r.1 os
    (s.1, r.2 ++ s.2)

/-- Sections of overlapping address spaces cover different addresses. -/
def Apart (m n : Msec) : Prop := SameSpace m.asid n.asid → ∀ x, ¬ (m.Covers x ∧ n.Covers x)

theorem Apart.symm {m n : Msec} (h : Apart m n) : Apart n m :=
  fun hs x hx => h (sameSpace_symm hs) x ⟨hx.2, hx.1⟩

/-- The invariant relating an image to the abstract map. -/
structure ImgInv (env : SecEnv) (i : Img) (map : Map) : Prop where
  wf : ∀ m ∈ i.secs, m.WF env
  apart : i.secs.Pairwise Apart
  shows : ∀ x c, ShowsAt i.secs x c ↔ c ∈ map x

theorem apart_of_mem {l : List Msec} (h : l.Pairwise Apart) {m n : Msec} (hm : m ∈ l) (hn : n ∈ l)
    (hne : m ≠ n) : Apart m n := by
  have h1 : l.Pairwise (fun a b => a ≠ b → Apart a b) := by
    refine List.Pairwise.imp ?_ h
    intro a b h _; exact h
  have h2 : l.Pairwise (fun a b => b ≠ a → Apart b a) := by
    refine List.Pairwise.imp ?_ h
    intro a b h _; exact h.symm
  exact List.Pairwise.forall_of_forall_of_flip (R := fun a b => a ≠ b → Apart a b)
    (by intro a _ h; exact absurd rfl h) h1 h2 hm hn hne

theorem apart_perm {l r : List Msec} (h : l.Perm r) (hl : l.Pairwise Apart) : r.Pairwise Apart :=
  h.pairwise hl (fun {_ _} => Apart.symm)

/-- A section covers an address the new section covers, in an overlapping space: it is hit. -/
theorem hits_of_cover {env : SecEnv} (henv : env.Ok) {m : Msec} (hwf : m.WF env) {asid : Asid} {b e n x : Nat}
    (hb : b < 2 ^ 64) (hn : n < 2 ^ 63) (he : e = (b + n) % 2 ^ 64) (hm : asidMatch m.asid asid = true)
    (hc : m.Covers x) (hx : b ≤ x ∧ x < e) : hits asid b e m = true := by
  unfold hits
  simp only [Bool.and_eq_true, Bool.not_eq_true', decide_eq_false_iff_not]
  refine ⟨hm, ?_⟩
  unfold Msec.Covers at hc
  omega

theorem pieces_apart {env : SecEnv} (henv : env.Ok) {cur : Msec} (hwf : cur.WF env) {asid : Asid}
    {b e n : Nat} (hb : b < 2 ^ 64) (hn : n < 2 ^ 63) (he : e = (b + n) % 2 ^ 64)
    (hh : hits asid b e cur = true) : (pieces b e cur).Pairwise Apart := by
  unfold pieces
  by_cases h1 : e < cur.end_ <;> by_cases h2 : cur.vaddr < b
  · rw [if_pos h1, if_pos h2]
    simp only [List.singleton_append, List.pairwise_cons, List.mem_singleton, List.Pairwise.nil,
      List.not_mem_nil, false_imp_iff, implies_true, and_true]
    rintro _ rfl
    intro _ x hx
    have := ((@backOf_covers env henv cur hwf asid b e n x hb hn he hh h1).1.mp hx.1)
    have hbe := (@backOf_covers env henv cur hwf asid b e n x hb hn he hh h1).2.2.2.2
    have := ((@frontOf_covers env henv cur hwf asid b e n x hb hn he hh h2).1.mp hx.2)
    omega
  · rw [if_pos h1, if_neg h2]; simp
  · rw [if_neg h1, if_pos h2]; simp
  · rw [if_neg h1, if_neg h2]; simp

theorem pieces_covers_sub {env : SecEnv} (henv : env.Ok) {cur : Msec} (hwf : cur.WF env) {asid : Asid}
    {b e n : Nat} (hb : b < 2 ^ 64) (hn : n < 2 ^ 63) (he : e = (b + n) % 2 ^ 64)
    (hh : hits asid b e cur = true) {m : Msec} (hm : m ∈ pieces b e cur) {x : Nat} (hx : m.Covers x) :
    cur.Covers x ∧ ¬ (b ≤ x ∧ x < e) := by
  have := (pieces_shows henv hwf hb hn he hh x (m.cell x)).mp ⟨m, hm, hx, rfl⟩
  exact ⟨this.1, this.2.2⟩

theorem filter_step (l : List Cell) (asid : Asid) (c : Cell) :
    c ∈ l.filter (fun c => ¬ SameSpace c.asid asid) ↔ c ∈ l ∧ ¬ SameSpace c.asid asid := by
  simp

theorem add_preserves {env : SecEnv} (henv : env.Ok) {i : Img} {map : Map} (hi : ImgInv env i map)
    {sec : Nat} {asid : Asid} {vaddr isid : Nat} {ora : List Bool} (hv : vaddr < 2 ^ 64) :
    ImgInv env (ImgOp.step env i (.add sec asid vaddr isid ora)).1
      ((ImgOp.step env i (.add sec asid vaddr isid ora)).2.foldl (Map.step env.size env.filename) map) := by
  unfold ImgOp.step
  dsimp only
  rcases imageAdd_char env ora i sec asid vaddr isid with ⟨i', h, hp, _⟩ | ⟨i', h, hsecs, _⟩
  · rw [h]
    dsimp only
    refine ⟨fun m hm => hi.wf m (hp.mem_iff.mp hm), apart_perm hp.symm hi.apart, ?_⟩
    intro x c
    rw [showsAt_perm hp]; exact hi.shows x c
  · rw [h]
    dsimp only [List.foldl]
    generalize he : (vaddr + env.size sec) % 2 ^ 64 = e at hsecs
    have hn := henv sec
    generalize hnew : (⟨sec, asid, vaddr, 0, env.size sec, isid⟩ : Msec) = new at hsecs
    have hnewwf : new.WF env := by
      rw [← hnew]; exact ⟨hv, by simp⟩
    have hnewc : ∀ x, new.Covers x ↔ vaddr ≤ x ∧ x < e := by
      intro x; rw [← hnew]; unfold Msec.Covers Msec.end_; dsimp only; rw [he]
    have hfr : ∀ m, m ∈ (i.secs.filter (hits asid vaddr e)).reverse.flatMap (pieces vaddr e) ↔
        ∃ cur ∈ i.secs, hits asid vaddr e cur = true ∧ m ∈ pieces vaddr e cur := by
      intro m
      simp only [List.mem_flatMap, List.mem_reverse, List.mem_filter]
      constructor
      · rintro ⟨cur, ⟨h1, h2⟩, h3⟩; exact ⟨cur, h1, h2, h3⟩
      · rintro ⟨cur, h1, h2, h3⟩; exact ⟨cur, ⟨h1, h2⟩, h3⟩
    have hmem : ∀ m, m ∈ i'.secs ↔ (m ∈ i.secs ∧ hits asid vaddr e m = false) ∨
        (∃ cur ∈ i.secs, hits asid vaddr e cur = true ∧ m ∈ pieces vaddr e cur) ∨ m = new := by
      intro m
      rw [hsecs, List.mem_append, List.mem_append, hfr, List.mem_singleton, List.mem_filter]
      simp
    refine ⟨?_, ?_, ?_⟩
    · intro m hm
      rcases (hmem m).mp hm with ⟨h1, _⟩ | ⟨cur, h1, h2, h3⟩ | h1
      · exact hi.wf m h1
      · exact (pieces_wf henv (hi.wf cur h1) hv hn he.symm h2 m h3).1
      · rw [h1]; exact hnewwf
    · rw [hsecs]
      -- fragments of the section list are apart
      have hsub : ∀ cur ∈ i.secs, hits asid vaddr e cur = true → ∀ m ∈ pieces vaddr e cur,
          m.asid = cur.asid ∧ ∀ x, m.Covers x → cur.Covers x ∧ ¬ (vaddr ≤ x ∧ x < e) :=
        fun cur h1 h2 m hm => ⟨(pieces_wf henv (hi.wf cur h1) hv hn he.symm h2 m hm).2,
          fun x hx => pieces_covers_sub henv (hi.wf cur h1) hv hn he.symm h2 hm hx⟩
      have hfrap : ((i.secs.filter (hits asid vaddr e)).reverse.flatMap (pieces vaddr e)).Pairwise Apart := by
        have hrev : (i.secs.filter (hits asid vaddr e)).reverse.Pairwise Apart :=
          apart_perm (List.reverse_perm _).symm (hi.apart.sublist List.filter_sublist)
        have hall : ∀ c ∈ (i.secs.filter (hits asid vaddr e)).reverse, c ∈ i.secs ∧ hits asid vaddr e c = true := by
          intro c hc; simpa using hc
        generalize (i.secs.filter (hits asid vaddr e)).reverse = l at hrev hall
        induction l with
        | nil => simp
        | cons cur l ih =>
          rw [List.flatMap_cons, List.pairwise_append]
          rw [List.pairwise_cons] at hrev
          have hcur := hall cur (by simp)
          refine ⟨pieces_apart henv (hi.wf cur hcur.1) hv hn he.symm hcur.2,
            ih hrev.2 (fun c hc => hall c (by simp [hc])), ?_⟩
          intro m hm n hn'
          obtain ⟨c2, hc2, hn2⟩ := List.mem_flatMap.mp hn'
          have hc2' := hall c2 (by simp [hc2])
          have s1 := hsub cur hcur.1 hcur.2 m hm
          have s2 := hsub c2 hc2'.1 hc2'.2 n hn2
          intro hs x hx
          refine hrev.1 c2 hc2 ?_ x ⟨(s1.2 x hx.1).1, (s2.2 x hx.2).1⟩
          rw [s1.1, s2.1] at hs; exact hs
      rw [List.pairwise_append]
      refine ⟨hi.apart.sublist List.filter_sublist, ?_, ?_⟩
      · rw [List.pairwise_append]
        refine ⟨hfrap, by simp, ?_⟩
        intro m hm n hn'
        rw [List.mem_singleton] at hn'; subst hn'
        obtain ⟨cur, h1, h2, h3⟩ := (hfr m).mp hm
        intro _ x hx
        exact ((hsub cur h1 h2 m h3).2 x hx.1).2 ((hnewc x).mp hx.2)
      · intro m hm n hn'
        rw [List.mem_filter] at hm
        have hmh : hits asid vaddr e m = false := by simpa using hm.2
        rcases List.mem_append.mp hn' with hn' | hn'
        · obtain ⟨cur, h1, h2, h3⟩ := (hfr n).mp hn'
          have hne : m ≠ cur := by rintro rfl; rw [h2] at hmh; exact absurd hmh (by simp)
          have hap : Apart m cur := by
            exact apart_of_mem hi.apart hm.1 h1 hne
          intro hs x hx
          have s2 := hsub cur h1 h2 n h3
          rw [s2.1] at hs
          exact hap hs x ⟨hx.1, (s2.2 x hx.2).1⟩
        · rw [List.mem_singleton] at hn'; subst hn'
          intro hs x hx
          have hs' : asidMatch m.asid asid = true := by
            rw [asidMatch_iff]; rw [← hnew] at hs; exact hs
          have := hits_of_cover henv (hi.wf m hm.1) hv hn he.symm hs' hx.1 ((hnewc x).mp hx.2)
          rw [this] at hmh; exact absurd hmh (by simp)
    · intro x c
      have hold := hi.shows x c
      have hrange : (vaddr ≤ x ∧ x < vaddr + env.size sec ∧ vaddr + env.size sec < 2 ^ 64) ↔
          (vaddr ≤ x ∧ x < e) := by
        constructor
        · rintro ⟨h1, h2, h3⟩; rw [← he, Nat.mod_eq_of_lt h3]; exact ⟨h1, h2⟩
        · rintro ⟨h1, h2⟩
          rw [← he] at h2
          have : vaddr + env.size sec < 2 ^ 64 := by omega
          rw [Nat.mod_eq_of_lt this] at h2
          exact ⟨h1, h2, this⟩
      have hnewcell : ∀ y, vaddr ≤ y → y < e → new.cell y = ⟨asid, sec, y - vaddr, isid⟩ := by
        intro y h1 h2
        rw [← hnew]; unfold Msec.cell Msec.unmap; dsimp only
        congr 1
        omega
      have hL : ShowsAt i'.secs x c ↔
          (ShowsAt i.secs x c ∧ ¬ (vaddr ≤ x ∧ x < e ∧ SameSpace c.asid asid)) ∨
          (vaddr ≤ x ∧ x < e ∧ c = ⟨asid, sec, x - vaddr, isid⟩) := by
        constructor
        · rintro ⟨m, hm, hc, hcell⟩
          rcases (hmem m).mp hm with ⟨h1, h2⟩ | ⟨cur, h1, h2, h3⟩ | h1
          · left
            refine ⟨⟨m, h1, hc, hcell⟩, ?_⟩
            rintro ⟨g1, g2, g3⟩
            have hs' : asidMatch m.asid asid = true := by
              rw [asidMatch_iff]; rw [hcell] at g3; exact g3
            have := hits_of_cover henv (hi.wf m h1) hv hn he.symm hs' hc ⟨g1, g2⟩
            rw [this] at h2; exact absurd h2 (by simp)
          · left
            have := (pieces_shows henv (hi.wf cur h1) hv hn he.symm h2 x c).mp ⟨m, h3, hc, hcell⟩
            exact ⟨⟨cur, h1, this.1, this.2.1⟩, fun g => this.2.2 ⟨g.1, g.2.1⟩⟩
          · right
            subst h1
            have := (hnewc x).mp hc
            exact ⟨this.1, this.2, by rw [hcell, hnewcell x this.1 this.2]⟩
        · rintro (⟨⟨m, hm, hc, hcell⟩, hno⟩ | ⟨h1, h2, h3⟩)
          · by_cases hh : hits asid vaddr e m = true
            · have hmatch : SameSpace m.asid asid := by
                rw [← asidMatch_iff]; unfold hits at hh; simp at hh; exact hh.1
              have hnr : ¬ (vaddr ≤ x ∧ x < e) := by
                intro g; exact hno ⟨g.1, g.2, by rw [hcell]; exact hmatch⟩
              obtain ⟨p, hp1, hp2, hp3⟩ :=
                (pieces_shows henv (hi.wf m hm) hv hn he.symm hh x c).mpr ⟨hc, hcell, hnr⟩
              exact ⟨p, (hmem p).mpr (.inr (.inl ⟨m, hm, hh, hp1⟩)), hp2, hp3⟩
            · exact ⟨m, (hmem m).mpr (.inl ⟨hm, by simpa using hh⟩), hc, hcell⟩
          · exact ⟨new, (hmem new).mpr (.inr (.inr rfl)), (hnewc x).mpr ⟨h1, h2⟩,
              by rw [h3, hnewcell x h1 h2]⟩
      rw [hL, hold]
      unfold Map.step
      dsimp only
      by_cases hr : vaddr ≤ x ∧ x < e
      · rw [if_pos (hrange.mpr hr), List.mem_cons, filter_step]
        constructor
        · rintro (⟨h1, h2⟩ | ⟨_, _, h3⟩)
          · exact .inr ⟨h1, fun h => h2 ⟨hr.1, hr.2, h⟩⟩
          · exact .inl h3
        · rintro (h | ⟨h1, h2⟩)
          · exact .inr ⟨hr.1, hr.2, h⟩
          · exact .inl ⟨h1, fun h => h2 h.2.2⟩
      · rw [if_neg (fun h => hr (hrange.mp h))]
        constructor
        · rintro (⟨h1, _⟩ | ⟨h1, h2, _⟩)
          · exact h1
          · exact absurd ⟨h1, h2⟩ hr
        · intro h; exact .inl ⟨h, fun g => hr ⟨g.1, g.2.1⟩⟩

theorem removeLoop_secs (p : Msec → Bool) (l : List Msec) (uc : Nat → Nat) :
    (removeLoop p l uc).1 = l.filter (fun m => !p m) ∧
    (removeLoop p l uc).2.1 = freeTail uc (l.filter p) ∧
    (removeLoop p l uc).2.2 = (l.filter p).length := by
  induction l generalizing uc with
  | nil => simp [removeLoop, freeTail]
  | cons m l ih =>
    unfold removeLoop
    by_cases h : p m = true
    · rw [if_pos h]
      obtain ⟨h1, h2, h3⟩ := ih (ucDec uc m.sec)
      dsimp only
      rw [h1, h2, h3]
      simp [h, freeTail]
    · rw [if_neg h]
      obtain ⟨h1, h2, h3⟩ := ih uc
      dsimp only
      rw [h1, h2, h3]
      have h' : p m = false := by simpa using h
      simp [h', freeTail]

theorem filter_preserves {env : SecEnv} {i : Img} {map : Map} (hi : ImgInv env i map) (p : Msec → Bool)
    (q : Cell → Prop) [DecidablePred q] (hpq : ∀ m x, p m = true ↔ q (m.cell x)) (uc : Nat → Nat) :
    ImgInv env ⟨i.secs.filter (fun m => !p m), uc⟩ (fun x => (map x).filter fun c => ¬ q c) := by
  refine ⟨?_, hi.apart.sublist List.filter_sublist, ?_⟩
  · intro m hm; exact hi.wf m (List.mem_filter.mp hm).1
  · intro x c
    have := hi.shows x c
    simp only [List.mem_filter, decide_not, Bool.not_eq_true', decide_eq_false_iff_not, ← this]
    constructor
    · rintro ⟨m, hm, hc, hcell⟩
      rw [List.mem_filter] at hm
      refine ⟨⟨m, hm.1, hc, hcell⟩, ?_⟩
      rw [hcell, ← hpq m x]; simpa using hm.2
    · rintro ⟨⟨m, hm, hc, hcell⟩, hq⟩
      refine ⟨m, ?_, hc, hcell⟩
      rw [List.mem_filter]
      refine ⟨hm, ?_⟩
      rw [hcell, ← hpq m x] at hq; simpa using hq

theorem takeFirst_some {p : Msec → Bool} {l : List Msec} {m : Msec} {l' : List Msec}
    (h : takeFirst p l = some (m, l')) : p m = true ∧ (m :: l').Perm l := by
  induction l generalizing l' with
  | nil => simp [takeFirst] at h
  | cons a l ih =>
    unfold takeFirst at h
    by_cases hp : p a = true
    · rw [if_pos hp] at h
      simp at h; obtain ⟨rfl, rfl⟩ := h
      exact ⟨hp, List.Perm.refl _⟩
    · rw [if_neg hp] at h
      cases ht : takeFirst p l with
      | none => rw [ht] at h; simp at h
      | some r =>
        obtain ⟨y, l2⟩ := r
        rw [ht] at h; simp at h; obtain ⟨rfl, rfl⟩ := h
        obtain ⟨h1, h2⟩ := ih ht
        exact ⟨h1, (List.Perm.swap a y l2).trans (h2.cons a)⟩

theorem takeFirst_none {p : Msec → Bool} {l : List Msec} : takeFirst p l = none ↔ ∀ m ∈ l, p m = false := by
  induction l with
  | nil => simp [takeFirst]
  | cons a l ih =>
    unfold takeFirst
    by_cases hp : p a = true
    · rw [if_pos hp]; simp [hp]
    · rw [if_neg hp]
      have hp' : p a = false := by simpa using hp
      cases ht : takeFirst p l with
      | none => simp [hp']; exact ih.mp ht
      | some r =>
        simp only [reduceCtorEq, List.mem_cons, forall_eq_or_imp, false_iff, not_and]
        intro _ hc
        rw [ih.mpr hc] at ht; simp at ht

theorem fetch_perm (i : Img) (asid : Asid) (x : Nat) :
    (imageFetch i asid x).1.secs.Perm i.secs ∧ (imageFetch i asid x).1.uc = i.uc := by
  unfold imageFetch
  cases h : takeFirst (fun m => m.check asid x) i.secs with
  | none => exact ⟨List.Perm.refl _, rfl⟩
  | some r => exact ⟨(takeFirst_some h).2, rfl⟩

theorem check_iff (m : Msec) (asid : Asid) (x : Nat) :
    m.check asid x = true ↔ m.Covers x ∧ SameSpace m.asid asid := by
  unfold Msec.check Msec.Covers
  by_cases h : x < m.vaddr ∨ m.end_ ≤ x
  · rw [if_pos h]; simp; omega
  · rw [if_neg h, asidMatch_iff]
    constructor
    · intro g; exact ⟨by omega, g⟩
    · intro g; exact g.2

theorem step_preserves {env : SecEnv} (henv : env.Ok) {i : Img} {map : Map} (hi : ImgInv env i map)
    (o : ImgOp) (ho : o.Ok) :
    ImgInv env (o.step env i).1 ((o.step env i).2.foldl (Map.step env.size env.filename) map) := by
  cases o with
  | add sec asid vaddr isid ora => exact add_preserves henv hi ho
  | removeAsid asid =>
    have := filter_preserves hi (fun m => asidMatch m.asid asid) (fun c => SameSpace c.asid asid)
      (fun m x => asidMatch_iff m.asid asid) (removeLoop (fun m => asidMatch m.asid asid) i.secs i.uc).2.1
    rw [← (removeLoop_secs _ i.secs i.uc).1] at this
    exact this
  | removeFile name asid =>
    have := filter_preserves hi (fun m => asidMatch m.asid asid && (env.filename m.sec == name))
      (fun c => SameSpace c.asid asid ∧ env.filename c.sec = name)
      (fun m x => by simp [asidMatch_iff, Msec.cell])
      (removeLoop (fun m => asidMatch m.asid asid && (env.filename m.sec == name)) i.secs i.uc).2.1
    rw [← (removeLoop_secs _ i.secs i.uc).1] at this
    exact this
  | lookup asid x =>
    have hp := (fetch_perm i asid x).1
    refine ⟨fun m hm => hi.wf m (hp.mem_iff.mp hm), apart_perm hp.symm hi.apart, ?_⟩
    intro y c
    show ShowsAt (imageFetch i asid x).1.secs y c ↔ _
    rw [showsAt_perm hp]; exact hi.shows y c

theorem run_inv {env : SecEnv} (henv : env.Ok) (ops : List ImgOp) (hops : ∀ o ∈ ops, o.Ok) {i : Img} {map : Map}
    (hi : ImgInv env i map) :
    ImgInv env (ImgOp.run env i ops).1 ((ImgOp.run env i ops).2.foldl (Map.step env.size env.filename) map) := by
  induction ops generalizing i map with
  | nil => exact hi
  | cons o os ih =>
    unfold ImgOp.run
    dsimp only
    rw [List.foldl_append]
    exact ih (fun o' h => hops o' (by simp [h])) (step_preserves henv hi o (hops o (by simp)))

theorem inv_empty (env : SecEnv) (uc : Nat → Nat) : ImgInv env ⟨[], uc⟩ (fun _ => []) := by
  refine ⟨by simp, by simp, ?_⟩
  intro x c; simp [ShowsAt]

end Ipt
