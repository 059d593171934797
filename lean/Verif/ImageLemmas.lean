import Verif.Image
import Verif.Spec.Image

/-!
# Lemmas about the image model
-/

set_option linter.unusedSimpArgs false
set_option linter.unusedVariables false

namespace Ipt

open Spec (SameSpace Concrete Cell Map Op)

theorem asidMatch_iff (a b : Asid) : asidMatch a b = true ↔ SameSpace a b := by
  unfold asidMatch SameSpace
  by_cases h1 : a.cr3 = b.cr3 <;> by_cases h2 : a.vmcs = b.vmcs <;>
    by_cases h3 : a.cr3 = asidNone <;> by_cases h4 : b.cr3 = asidNone <;>
    by_cases h5 : a.vmcs = asidNone <;> by_cases h6 : b.vmcs = asidNone <;>
    simp [h1, h2, h3, h4, h5, h6]

theorem asidMatch_false_iff (a b : Asid) : asidMatch a b = false ↔ ¬ SameSpace a b := by
  rw [← asidMatch_iff]; cases asidMatch a b <;> simp

theorem sameSpace_symm {a b : Asid} (h : SameSpace a b) : SameSpace b a := by
  unfold SameSpace at *
  obtain ⟨h1, h2⟩ := h
  refine ⟨?_, ?_⟩
  · rcases h1 with h | h | h
    · exact .inl h.symm
    · exact .inr (.inr h)
    · exact .inr (.inl h)
  · rcases h2 with h | h | h
    · exact .inl h.symm
    · exact .inr (.inr h)
    · exact .inr (.inl h)

/-- Two spaces that overlap a concrete one overlap each other. -/
theorem sameSpace_concrete {a b c : Asid} (hc : Concrete c) (h1 : SameSpace a c) (h2 : SameSpace b c) :
    SameSpace a b := by
  unfold SameSpace Concrete at *
  obtain ⟨c1, c2⟩ := hc
  obtain ⟨p1, p2⟩ := h1
  obtain ⟨q1, q2⟩ := h2
  refine ⟨?_, ?_⟩
  · rcases p1 with h | h | h
    · rcases q1 with g | g | g
      · exact .inl (h.trans g.symm)
      · exact .inr (.inr g)
      · exact absurd g c1
    · exact .inr (.inl h)
    · exact absurd h c1
  · rcases p2 with h | h | h
    · rcases q2 with g | g | g
      · exact .inl (h.trans g.symm)
      · exact .inr (.inr g)
      · exact absurd g c2
    · exact .inr (.inl h)
    · exact absurd h c2

/-- The mapped section covers the address. -/
def Msec.Covers (m : Msec) (x : Nat) : Prop := m.vaddr ≤ x ∧ x < m.end_

/-- What the mapped section shows at an address. -/
def Msec.cell (m : Msec) (x : Nat) : Cell := ⟨m.asid, m.sec, m.unmap x, m.isid⟩

/-- Section sizes are file sizes: below 2^63. -/
def SecEnv.Ok (env : SecEnv) : Prop := ∀ s, env.size s < 2 ^ 63

/-- A mapped section is a part of its section, mapped at a 64-bit address. -/
def Msec.WF (env : SecEnv) (m : Msec) : Prop :=
  m.vaddr < 2 ^ 64 ∧ m.offset + m.size ≤ env.size m.sec

/-- The cells a section list shows at an address. -/
def ShowsAt (l : List Msec) (x : Nat) (c : Cell) : Prop := ∃ m ∈ l, m.Covers x ∧ c = m.cell x

theorem showsAt_append (l r : List Msec) (x : Nat) (c : Cell) :
    ShowsAt (l ++ r) x c ↔ ShowsAt l x c ∨ ShowsAt r x c := by
  unfold ShowsAt
  constructor
  · rintro ⟨m, hm, h⟩
    rcases List.mem_append.mp hm with hm | hm
    · exact .inl ⟨m, hm, h⟩
    · exact .inr ⟨m, hm, h⟩
  · rintro (⟨m, hm, h⟩ | ⟨m, hm, h⟩)
    · exact ⟨m, List.mem_append_left _ hm, h⟩
    · exact ⟨m, List.mem_append_right _ hm, h⟩

theorem showsAt_perm {l r : List Msec} (h : l.Perm r) (x : Nat) (c : Cell) :
    ShowsAt l x c ↔ ShowsAt r x c := by
  unfold ShowsAt
  constructor
  · rintro ⟨m, hm, h'⟩; exact ⟨m, h.mem_iff.mp hm, h'⟩
  · rintro ⟨m, hm, h'⟩; exact ⟨m, h.mem_iff.mpr hm, h'⟩

/-! ## The loop of pt_image_add -/

/-- Does the loop replace `cur`? -/
def hits (asid : Asid) (b e : Nat) (cur : Msec) : Bool :=
  asidMatch cur.asid asid && !decide (e ≤ cur.vaddr ∨ cur.end_ ≤ b)

/-- The part of `cur` in front of the new section. -/
def frontOf (b : Nat) (cur : Msec) : Msec := { cur with size := b - cur.vaddr }

/-- The part of `cur` behind the new section. -/
def backOf (e : Nat) (cur : Msec) : Msec :=
  { cur with vaddr := e, offset := (cur.offset + (e - cur.vaddr)) % 2 ^ 64, size := cur.end_ - e }

/-- The replacements for `cur`. -/
def pieces (b e : Nat) (cur : Msec) : List Msec :=
  (if e < cur.end_ then [backOf e cur] else []) ++ (if cur.vaddr < b then [frontOf b cur] else [])

/-- References of a list to section `t`. -/
def refs (l : List Msec) (t : Nat) : Nat := (l.filter fun m => m.sec == t).length

@[simp] theorem refs_nil (t : Nat) : refs [] t = 0 := rfl

theorem refs_cons (m : Msec) (l : List Msec) (t : Nat) :
    refs (m :: l) t = refs l t + (if m.sec = t then 1 else 0) := by
  unfold refs
  by_cases h : m.sec = t <;> simp [h]

theorem refs_append (l r : List Msec) (t : Nat) : refs (l ++ r) t = refs l t + refs r t := by
  unfold refs; simp

theorem refs_perm {l r : List Msec} (h : l.Perm r) (t : Nat) : refs l t = refs r t := by
  unfold refs; exact (h.filter _).length_eq

theorem mk'_cases (s : AddSt) (m : Msec) :
    (∃ ora, s.mk' m = ({ s with ora := ora }, false)) ∨
    (∃ ora, s.uc m.sec + 1 ≤ 65535 ∧
      s.mk' m = ({ s with ora := ora, uc := ucInc s.uc m.sec, next := m :: s.next }, true)) := by
  unfold AddSt.mk'
  by_cases h1 : s.ora.headD false = true
  · left; exact ⟨s.ora.tail, by simp only [h1, if_true]⟩
  · by_cases h2 : 65535 < s.uc m.sec + 1
    · left; refine ⟨s.ora.tail, ?_⟩; simp only [h1, h2, if_true]; rfl
    · right
      refine ⟨s.ora.tail, by omega, ?_⟩
      simp only [h1, h2, if_false]; rfl

theorem ucInc_apply (uc : Nat → Nat) (s t : Nat) : ucInc uc s t = uc t + (if s = t then 1 else 0) := by
  unfold ucInc
  by_cases h : t = s
  · simp [h]
  · simp [h, Ne.symm h]

/-- Result of the loop on success and on failure. -/
theorem addLoop_char (asid : Asid) (b e : Nat) (l : List Msec) (s : AddSt) :
    (∃ uc ora, addLoop asid b e l s =
      ({ done := s.done ++ l.filter (fun m => !hits asid b e m),
         next := (l.filter (hits asid b e)).reverse.flatMap (pieces b e) ++ s.next,
         removed := (l.filter (hits asid b e)).reverse ++ s.removed, uc := uc, ora := ora }, [], true)
      ∧ ∀ t, uc t + refs s.next t =
          s.uc t + refs ((l.filter (hits asid b e)).reverse.flatMap (pieces b e) ++ s.next) t)
    ∨ (∃ s' rest, addLoop asid b e l s = (s', rest, false)
      ∧ (s'.done ++ rest ++ s'.removed).Perm (s.done ++ l ++ s.removed)
      ∧ ∀ t, s'.uc t + refs s.next t = s.uc t + refs s'.next t) := by
  induction l generalizing s with
  | nil => left; exact ⟨s.uc, s.ora, by simp [addLoop], by simp⟩
  | cons cur rest ih =>
    by_cases hh : hits asid b e cur = true
    · have hm : asidMatch cur.asid asid = true := by unfold hits at hh; simp at hh; exact hh.1
      have ho : ¬ (e ≤ cur.vaddr ∨ cur.end_ ≤ b) := by
        unfold hits at hh; simp at hh; omega
      have hm' : ¬ asidMatch cur.asid asid = false := by simp [hm]
      unfold addLoop
      rw [if_neg hm', if_neg ho]
      have hp : ∀ (d r : List Msec), (d ++ rest ++ cur :: r).Perm (d ++ cur :: rest ++ r) := by
        intro d r
        simp only [List.append_assoc, List.cons_append]
        exact List.Perm.append_left d List.perm_middle
      -- front
      have hf : (∃ ora, AddSt.front { s with removed := cur :: s.removed } cur b =
            ({ s with removed := cur :: s.removed, ora := ora }, false)) ∨
          (∃ uc ora, AddSt.front { s with removed := cur :: s.removed } cur b =
            ({ s with removed := cur :: s.removed, ora := ora, uc := uc
                      next := (if cur.vaddr < b then [frontOf b cur] else []) ++ s.next }, true) ∧
            ∀ t, uc t + refs s.next t =
              s.uc t + refs ((if cur.vaddr < b then [frontOf b cur] else []) ++ s.next) t) := by
        unfold AddSt.front
        by_cases hb : cur.vaddr < b
        · rw [if_pos hb]
          rcases mk'_cases { s with removed := cur :: s.removed } { cur with size := b - cur.vaddr } with
            ⟨ora, h⟩ | ⟨ora, _, h⟩
          · left; exact ⟨ora, h⟩
          · right
            refine ⟨ucInc s.uc cur.sec, ora, ?_, ?_⟩
            · rw [h]
              simp only [if_pos hb, frontOf, List.singleton_append]
            · intro t
              simp only [if_pos hb, List.singleton_append, refs_cons, ucInc_apply, frontOf]
              omega
        · rw [if_neg hb]
          right
          refine ⟨s.uc, s.ora, ?_, ?_⟩
          · simp [if_neg hb]
          · simp [if_neg hb]
      rcases hf with ⟨ora, hf⟩ | ⟨uc1, ora1, hf, hu1⟩
      · right
        refine ⟨_, rest, by rw [hf], hp _ _, ?_⟩
        intro t; rfl
      · rw [hf]
        dsimp only
        generalize hn1 : (if cur.vaddr < b then [frontOf b cur] else []) ++ s.next = n1 at hu1
        have hb : (∃ ora, AddSt.back (⟨s.done, n1, cur :: s.removed, uc1, ora1⟩ : AddSt) cur e =
            (⟨s.done, n1, cur :: s.removed, uc1, ora⟩, false)) ∨
          (∃ uc ora, AddSt.back (⟨s.done, n1, cur :: s.removed, uc1, ora1⟩ : AddSt) cur e =
            (⟨s.done, (if e < cur.end_ then [backOf e cur] else []) ++ n1, cur :: s.removed, uc, ora⟩, true) ∧
            ∀ t, uc t + refs n1 t =
              uc1 t + refs ((if e < cur.end_ then [backOf e cur] else []) ++ n1) t) := by
          unfold AddSt.back
          by_cases hb : e < cur.end_
          · rw [if_pos hb]
            rcases mk'_cases ⟨s.done, n1, cur :: s.removed, uc1, ora1⟩
              { cur with vaddr := e, offset := (cur.offset + (e - cur.vaddr)) % 2 ^ 64, size := cur.end_ - e } with
              ⟨ora, h⟩ | ⟨ora, _, h⟩
            · left; exact ⟨ora, h⟩
            · right
              refine ⟨ucInc uc1 cur.sec, ora, ?_, ?_⟩
              · rw [h]
                simp only [if_pos hb, backOf, List.singleton_append]
              · intro t
                simp only [if_pos hb, List.singleton_append, refs_cons, ucInc_apply, backOf]
                omega
          · rw [if_neg hb]
            right
            refine ⟨uc1, ora1, ?_, ?_⟩
            · simp [if_neg hb]
            · simp [if_neg hb]
        rcases hb with ⟨ora, hb⟩ | ⟨uc2, ora2, hb, hu2⟩
        · right
          refine ⟨_, rest, by rw [hb], hp _ _, ?_⟩
          intro t; exact hu1 t
        · rw [hb]
          dsimp only
          generalize hn2 : (if e < cur.end_ then [backOf e cur] else []) ++ n1 = n2 at hu2
          have hn : n2 = pieces b e cur ++ s.next := by
            rw [← hn2, ← hn1]; simp [pieces]
          have hfl : (cur :: rest).filter (hits asid b e) = cur :: rest.filter (hits asid b e) := by
            simp [hh]
          have hfn : (cur :: rest).filter (fun m => !hits asid b e m) = rest.filter (fun m => !hits asid b e m) := by
            simp [hh]
          rcases ih ⟨s.done, n2, cur :: s.removed, uc2, ora2⟩ with ⟨uc, ora, h, hu⟩ | ⟨s', r', h, hp', hu⟩
          · left
            refine ⟨uc, ora, ?_, ?_⟩
            · rw [h, hfl, hfn]
              simp [hn]
            · intro t
              have h1 := hu t; have h2 := hu1 t; have h3 := hu2 t
              rw [hfl]
              simp only [List.reverse_cons, List.flatMap_append, List.flatMap_cons, List.flatMap_nil,
                List.append_nil, List.append_assoc, ← hn]
              dsimp only at h1 h2 h3
              omega
          · right
            refine ⟨s', r', h, hp'.trans (hp _ _), ?_⟩
            intro t
            have h1 := hu t; have h2 := hu1 t; have h3 := hu2 t
            dsimp only at h1 h2 h3
            omega
    · have hh' : hits asid b e cur = false := by simpa using hh
      have hstep : addLoop asid b e (cur :: rest) s =
          addLoop asid b e rest { s with done := s.done ++ [cur] } := by
        rw [addLoop]
        by_cases hm : asidMatch cur.asid asid = false
        · rw [if_pos hm]
        · rw [if_neg hm]
          have : e ≤ cur.vaddr ∨ cur.end_ ≤ b := by
            unfold hits at hh'; simp at hh' hm; by_cases h1 : e ≤ cur.vaddr
            · exact .inl h1
            · exact .inr (hh' hm (by omega))
          rw [if_pos this]
      rw [hstep]
      have hfl : (cur :: rest).filter (hits asid b e) = rest.filter (hits asid b e) := by simp [hh']
      have hfn : (cur :: rest).filter (fun m => !hits asid b e m) =
          cur :: rest.filter (fun m => !hits asid b e m) := by simp [hh']
      rw [hfl, hfn]
      rcases ih { s with done := s.done ++ [cur] } with ⟨uc, ora, h, hu⟩ | ⟨s', r', h, hp', hu⟩
      · left
        refine ⟨uc, ora, ?_, hu⟩
        rw [h]; simp
      · right
        refine ⟨s', r', h, hp'.trans (by simp), hu⟩

theorem freeTail_apply (l : List Msec) (uc : Nat → Nat) (t : Nat) :
    freeTail uc l t = uc t - refs l t := by
  induction l generalizing uc with
  | nil => simp [freeTail]
  | cons m l ih =>
    have : freeTail uc (m :: l) = freeTail (ucDec uc m.sec) l := rfl
    rw [this, ih, refs_cons]
    unfold ucDec
    by_cases h : t = m.sec
    · simp [h]; omega
    · simp [h, Ne.symm h]

/-- The section list and use counts after `pt_image_add`. -/
theorem imageAdd_char (env : SecEnv) (ora : List Bool) (i : Img) (sec : Nat) (asid : Asid) (vaddr isid : Nat) :
    (∃ i', imageAdd env ora i sec asid vaddr isid = (i', .err .nomem) ∧ i'.secs.Perm i.secs
      ∧ ∀ t, i'.uc t = i.uc t)
    ∨ (∃ i', imageAdd env ora i sec asid vaddr isid = (i', .ok ()) ∧
        i'.secs = i.secs.filter (fun m => !hits asid vaddr ((vaddr + env.size sec) % 2 ^ 64) m) ++
          ((i.secs.filter (hits asid vaddr ((vaddr + env.size sec) % 2 ^ 64))).reverse.flatMap
            (pieces vaddr ((vaddr + env.size sec) % 2 ^ 64)) ++ [⟨sec, asid, vaddr, 0, env.size sec, isid⟩]) ∧
        ∀ t, refs i.secs t ≤ i.uc t → i'.uc t + refs i.secs t = i.uc t + refs i'.secs t) := by
  unfold imageAdd
  dsimp only
  rcases mk'_cases ({ uc := i.uc, ora := ora } : AddSt) ⟨sec, asid, vaddr, 0, env.size sec, isid⟩ with
    ⟨ora1, h⟩ | ⟨ora1, _, h⟩
  · left
    rw [h]
    exact ⟨i, rfl, List.Perm.refl _, fun _ => rfl⟩
  · rw [h]
    dsimp only
    generalize he : (vaddr + env.size sec) % 2 ^ 64 = e
    generalize hnew : (⟨sec, asid, vaddr, 0, env.size sec, isid⟩ : Msec) = new
    have hns : new.sec = sec := by rw [← hnew]
    rcases addLoop_char asid vaddr e i.secs ⟨[], [new], [], ucInc i.uc sec, ora1⟩ with
      ⟨uc, ora2, h2, hu⟩ | ⟨s', rest, h2, hp, hu⟩
    · right
      rw [h2]
      refine ⟨_, rfl, ?_, ?_⟩
      · simp
      · intro t ht
        have hu' := hu t
        dsimp only at hu' ⊢
        rw [freeTail_apply]
        have hc : refs i.secs t = refs (i.secs.filter (hits asid vaddr e)) t +
            refs (i.secs.filter (fun m => !hits asid vaddr e m)) t := by
          rw [← refs_append]
          exact (refs_perm (List.filter_append_perm (hits asid vaddr e) i.secs) t).symm
        have hr : refs (i.secs.filter (hits asid vaddr e)).reverse t =
            refs (i.secs.filter (hits asid vaddr e)) t := refs_perm (List.reverse_perm _) t
        simp only [List.append_nil, List.nil_append, refs_append] at hu' ⊢
        rw [ucInc_apply] at hu'
        have hn : refs [new] t = (if sec = t then 1 else 0) := by
          rw [refs_cons, hns]; simp
        rw [hr]
        omega
    · left
      rw [h2]
      refine ⟨_, rfl, ?_, ?_⟩
      · simpa using hp
      · intro t
        dsimp only
        rw [freeTail_apply]
        have hu' := hu t
        dsimp only at hu'
        rw [ucInc_apply] at hu'
        have hn : refs [new] t = (if sec = t then 1 else 0) := by
          rw [refs_cons, hns]; simp
        omega

/-! ## Geometry -/

theorem frontOf_covers {env : SecEnv} (henv : env.Ok) {cur : Msec} (hwf : cur.WF env) {asid : Asid}
    {b e n x : Nat} (hb : b < 2 ^ 64) (hn : n < 2 ^ 63) (he : e = (b + n) % 2 ^ 64)
    (hh : hits asid b e cur = true) (hv : cur.vaddr < b) :
    ((frontOf b cur).Covers x ↔ cur.vaddr ≤ x ∧ x < b) ∧ (frontOf b cur).WF env ∧
    (∀ y, (frontOf b cur).cell y = cur.cell y) ∧ b ≤ cur.end_ := by
  have hs := henv cur.sec
  obtain ⟨w1, w2⟩ := hwf
  unfold hits at hh
  simp only [Bool.and_eq_true, Bool.not_eq_true', decide_eq_false_iff_not] at hh
  obtain ⟨_, ho⟩ := hh
  unfold frontOf Msec.Covers Msec.WF Msec.cell Msec.unmap Msec.end_ at *
  dsimp only at *
  refine ⟨?_, ⟨w1, ?_⟩, fun _ => rfl, by omega⟩
  · omega
  · omega

theorem backOf_covers {env : SecEnv} (henv : env.Ok) {cur : Msec} (hwf : cur.WF env) {asid : Asid}
    {b e n x : Nat} (hb : b < 2 ^ 64) (hn : n < 2 ^ 63) (he : e = (b + n) % 2 ^ 64)
    (hh : hits asid b e cur = true) (hv : e < cur.end_) :
    ((backOf e cur).Covers x ↔ e ≤ x ∧ x < cur.end_) ∧ (backOf e cur).WF env ∧
    (∀ y, e ≤ y → (backOf e cur).cell y = cur.cell y) ∧ cur.vaddr ≤ e ∧ b ≤ e := by
  have hs := henv cur.sec
  obtain ⟨w1, w2⟩ := hwf
  unfold hits at hh
  simp only [Bool.and_eq_true, Bool.not_eq_true', decide_eq_false_iff_not] at hh
  obtain ⟨_, ho⟩ := hh
  unfold backOf Msec.Covers Msec.WF Msec.cell Msec.unmap Msec.end_ at *
  dsimp only at *
  refine ⟨?_, ⟨?_, ?_⟩, ?_, ?_, ?_⟩
  · omega
  · omega
  · omega
  · intro y hy
    congr 1
    omega
  · omega
  · omega

/-- The replacements for a hit section show what it showed outside the new range. -/
theorem pieces_shows {env : SecEnv} (henv : env.Ok) {cur : Msec} (hwf : cur.WF env) {asid : Asid}
    {b e n : Nat} (hb : b < 2 ^ 64) (hn : n < 2 ^ 63) (he : e = (b + n) % 2 ^ 64)
    (hh : hits asid b e cur = true) (x : Nat) (c : Cell) :
    ShowsAt (pieces b e cur) x c ↔ (cur.Covers x ∧ c = cur.cell x ∧ ¬ (b ≤ x ∧ x < e)) := by
  have hs := henv cur.sec
  unfold pieces
  rw [showsAt_append]
  have F := @frontOf_covers env henv cur hwf asid b e n x hb hn he hh
  have B := @backOf_covers env henv cur hwf asid b e n x hb hn he hh
  have hbase : cur.Covers x ∧ ¬ (b ≤ x ∧ x < e) ↔
      (e < cur.end_ ∧ e ≤ x ∧ x < cur.end_) ∨ (cur.vaddr < b ∧ cur.vaddr ≤ x ∧ x < b) := by
    obtain ⟨w1, w2⟩ := hwf
    have hh' := hh
    unfold hits at hh'
    simp only [Bool.and_eq_true, Bool.not_eq_true', decide_eq_false_iff_not] at hh'
    obtain ⟨_, ho⟩ := hh'
    unfold Msec.Covers Msec.end_ at *
    omega
  constructor
  · rintro (⟨m, hm, hc, hcell⟩ | ⟨m, hm, hc, hcell⟩)
    · by_cases hv : e < cur.end_
      · rw [if_pos hv] at hm
        have := List.mem_singleton.mp hm; subst this
        obtain ⟨h1, _, h3, _, _⟩ := B hv
        have h1' := h1.mp hc
        have := hbase.mpr (.inl ⟨hv, h1'⟩)
        exact ⟨this.1, by rw [hcell, h3 x h1'.1], this.2⟩
      · rw [if_neg hv] at hm; simp at hm
    · by_cases hv : cur.vaddr < b
      · rw [if_pos hv] at hm
        have := List.mem_singleton.mp hm; subst this
        obtain ⟨h1, _, h3, _⟩ := F hv
        have := hbase.mpr (.inr ⟨hv, h1.mp hc⟩)
        exact ⟨this.1, by rw [hcell, h3 x], this.2⟩
      · rw [if_neg hv] at hm; simp at hm
  · rintro ⟨h1, h2, h3⟩
    rcases hbase.mp ⟨h1, h3⟩ with ⟨hv, h⟩ | ⟨hv, h⟩
    · left
      obtain ⟨g1, _, g3, _, _⟩ := B hv
      exact ⟨backOf e cur, by rw [if_pos hv]; simp, g1.mpr h, by rw [h2, g3 x h.1]⟩
    · right
      obtain ⟨g1, _, g3, _⟩ := F hv
      exact ⟨frontOf b cur, by rw [if_pos hv]; simp, g1.mpr h, by rw [h2, g3 x]⟩

theorem pieces_wf {env : SecEnv} (henv : env.Ok) {cur : Msec} (hwf : cur.WF env) {asid : Asid}
    {b e n : Nat} (hb : b < 2 ^ 64) (hn : n < 2 ^ 63) (he : e = (b + n) % 2 ^ 64)
    (hh : hits asid b e cur = true) : ∀ m ∈ pieces b e cur, m.WF env ∧ m.asid = cur.asid := by
  intro m hm
  unfold pieces at hm
  rcases List.mem_append.mp hm with hm | hm
  · by_cases hv : e < cur.end_
    · rw [if_pos hv] at hm
      have := List.mem_singleton.mp hm; subst this
      exact ⟨(@backOf_covers env henv cur hwf asid b e n 0 hb hn he hh hv).2.1, rfl⟩
    · rw [if_neg hv] at hm; simp at hm
  · by_cases hv : cur.vaddr < b
    · rw [if_pos hv] at hm
      have := List.mem_singleton.mp hm; subst this
      exact ⟨(@frontOf_covers env henv cur hwf asid b e n 0 hb hn he hh hv).2.1, rfl⟩
    · rw [if_neg hv] at hm; simp at hm

end Ipt
