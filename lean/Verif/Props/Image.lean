import Verif.ImageInv

/-!
# C22-C26: the traced memory image
-/

set_option linter.unusedSimpArgs false

namespace Ipt

open Spec (SameSpace Concrete Cell Map Op)

namespace Props

/-- **C22.** After any history of adds, removals and lookups (with allocation failures at any
point), a lookup of address `x` in address space `asid`
* only ever finds a section that the abstract map shows at `x` in an overlapping space, with the
  right section, offset and identifier,
* fails, with -pte_nomap, exactly if the map shows nothing at `x` in an overlapping space, and
* in a concrete address space finds the one cell that the map shows there, whatever the order of
  the section list. -/
theorem C22_image_refines (env : SecEnv) (henv : env.Ok) (uc : Nat → Nat) (ops : List ImgOp)
    (hops : ∀ o ∈ ops, o.Ok) (asid : Asid) (x : Nat) :
    let i := (ImgOp.run env ⟨[], uc⟩ ops).1
    let map := Map.run env.size env.filename (ImgOp.run env ⟨[], uc⟩ ops).2
    (∀ m, (imageFetch i asid x).2 = .ok m →
      SameSpace m.asid asid ∧ (⟨m.asid, m.sec, m.unmap x, m.isid⟩ : Cell) ∈ map x) ∧
    ((imageFetch i asid x).2 = .err .nomap ↔ ∀ c ∈ map x, ¬ SameSpace c.asid asid) ∧
    (Concrete asid → ∀ c ∈ map x, SameSpace c.asid asid →
      ∃ m, (imageFetch i asid x).2 = .ok m ∧ (⟨m.asid, m.sec, m.unmap x, m.isid⟩ : Cell) = c) := by
  have hinv := run_inv henv ops hops (inv_empty env uc)
  generalize hI : (ImgOp.run env ⟨[], uc⟩ ops).1 = i at hinv
  have hM : List.foldl (Map.step env.size env.filename) (fun _ => []) (ImgOp.run env ⟨[], uc⟩ ops).2 =
      Map.run env.size env.filename (ImgOp.run env ⟨[], uc⟩ ops).2 := rfl
  rw [hM] at hinv
  generalize Map.run env.size env.filename (ImgOp.run env ⟨[], uc⟩ ops).2 = map at hinv
  dsimp only
  have hok : ∀ m, (imageFetch i asid x).2 = .ok m → m ∈ i.secs ∧ m.Covers x ∧ SameSpace m.asid asid := by
    intro m hm
    unfold imageFetch at hm
    cases h : takeFirst (fun m => m.check asid x) i.secs with
    | none => rw [h] at hm; simp at hm
    | some r =>
      rw [h] at hm; simp at hm; subst hm
      obtain ⟨h1, h2⟩ := takeFirst_some (l' := r.2) h
      exact ⟨h2.mem_iff.mp (by simp), (check_iff _ _ _).mp h1⟩
  have hno : (imageFetch i asid x).2 = .err .nomap ↔ ∀ m ∈ i.secs, m.check asid x = false := by
    unfold imageFetch
    cases h : takeFirst (fun m => m.check asid x) i.secs with
    | none => simp; exact takeFirst_none.mp h
    | some r =>
      simp only [reduceCtorEq, false_iff]
      intro hc; rw [takeFirst_none.mpr hc] at h; simp at h
  have hex : (imageFetch i asid x).2 = .err .nomap ∨ ∃ m, (imageFetch i asid x).2 = .ok m := by
    unfold imageFetch
    cases takeFirst (fun m => m.check asid x) i.secs with
    | none => exact .inl rfl
    | some r => exact .inr ⟨r.1, rfl⟩
  refine ⟨?_, ?_, ?_⟩
  · intro m hm
    obtain ⟨h1, h2, h3⟩ := hok m hm
    exact ⟨h3, (hinv.shows x _).mp ⟨m, h1, h2, rfl⟩⟩
  · rw [hno]
    constructor
    · intro h c hc hs
      obtain ⟨m, hm, hcov, hcell⟩ := (hinv.shows x c).mpr hc
      have := h m hm
      have h2 : m.check asid x = true := (check_iff _ _ _).mpr ⟨hcov, by rw [hcell] at hs; exact hs⟩
      rw [h2] at this; simp at this
    · intro h m hm
      cases hck : m.check asid x with
      | false => rfl
      | true =>
        obtain ⟨h1, h2⟩ := (check_iff _ _ _).mp hck
        exact absurd h2 (h (m.cell x) ((hinv.shows x _).mp ⟨m, hm, h1, rfl⟩))
  · intro hcon c hc hs
    obtain ⟨m, hm, hcov, hcell⟩ := (hinv.shows x c).mpr hc
    have hsm : SameSpace m.asid asid := by rw [hcell] at hs; exact hs
    rcases hex with h | ⟨m', h⟩
    · have := hno.mp h m hm
      rw [(check_iff _ _ _).mpr ⟨hcov, hsm⟩] at this; simp at this
    · refine ⟨m', h, ?_⟩
      obtain ⟨h1, h2, h3⟩ := hok m' h
      by_cases hne : m = m'
      · subst hne; rw [hcell]; rfl
      · have hap : Apart m m' := by
          exact apart_of_mem hinv.apart hm h1 hne
        exact absurd ⟨hcov, h2⟩ (hap (sameSpace_concrete hcon hsm h3) x)

/-- **C22** is not about nothing: a section, a second one for one process in the middle of it,
a lookup, and a failed add. -/
example : ∃ env : SecEnv, ∃ ops : List ImgOp, env.Ok ∧ (∀ o ∈ ops, o.Ok) ∧
    (imageFetch (ImgOp.run env ⟨[], fun _ => 1⟩ ops).1 ⟨1, 2⟩ 0x1031).2 =
      .ok ⟨0, {}, 0x1030, 0x30, 0x70, 7⟩ ∧
    (Map.run env.size env.filename (ImgOp.run env ⟨[], fun _ => 1⟩ ops).2) 0x1031 = [⟨{}, 0, 0x31, 7⟩] := by
  refine ⟨⟨fun s => if s = 0 then 0xa0 else 0x10, fun _ => "a", fun _ _ => 0⟩,
    [.add 0 {} 0x1000 7 [], .add 1 ⟨1, asidNone⟩ 0x1020 8 [], .lookup ⟨1, 2⟩ 0x1025,
     .add 1 {} 0x1031 9 [false, true]], ?_, ?_, ?_, ?_⟩
  · intro s; dsimp only; split <;> omega
  · intro o ho
    simp only [List.mem_cons, List.not_mem_nil, or_false] at ho
    rcases ho with rfl | rfl | rfl | rfl <;> simp [ImgOp.Ok]
  · decide +kernel
  · decide +kernel

/-- The abstract map of **C22** hides a section from *all* address spaces that overlap its own when
a later section is added to one of them: the wildcard section added first is no longer visible at
0x1025 in address space 2, although the second section was added to address space 1 only. -/
theorem C22_shared_section_hidden_everywhere :
    ∃ env : SecEnv, env.Ok ∧
      let i := (ImgOp.run env ⟨[], fun _ => 1⟩
        [.add 0 {} 0x1000 7 [], .add 1 ⟨1, asidNone⟩ 0x1020 8 []]).1
      (imageFetch i ⟨2, 5⟩ 0x1025).2 = .err .nomap ∧
      (imageFetch (ImgOp.run env ⟨[], fun _ => 1⟩ [.add 0 {} 0x1000 7 []]).1 ⟨2, 5⟩ 0x1025).2 =
        .ok ⟨0, {}, 0x1000, 0, 0x100, 7⟩ := by
  refine ⟨⟨fun _ => 0x100, fun _ => "a", fun _ _ => 0⟩, ?_, ?_⟩
  · intro s; dsimp only; omega
  · decide +kernel

/-- In an address space that is not concrete, the result of a lookup does depend on earlier
lookups: with no cr3, the same address yields the section of process 1 or of process 2. -/
theorem C22_unknown_space_depends_on_order :
    ∃ env : SecEnv, env.Ok ∧
      let h : List ImgOp := [.add 0 ⟨1, 0⟩ 0x1000 7 [], .add 1 ⟨2, 0⟩ 0x1000 8 []]
      (imageFetch (ImgOp.run env ⟨[], fun _ => 1⟩ h).1 {} 0x1000).2 =
        .ok ⟨0, ⟨1, 0⟩, 0x1000, 0, 0x100, 7⟩ ∧
      (imageFetch (ImgOp.run env ⟨[], fun _ => 1⟩ (h ++ [.lookup ⟨2, 0⟩ 0x1000])).1 {} 0x1000).2 =
        .ok ⟨1, ⟨2, 0⟩, 0x1000, 0, 0x100, 8⟩ := by
  refine ⟨⟨fun _ => 0x100, fun _ => "a", fun _ _ => 0⟩, ?_, ?_⟩
  · intro s; dsimp only; omega
  · decide +kernel

/-- **C23.** In every reachable image, no address is covered by two (different list elements that
are) sections of overlapping address spaces. -/
theorem C23_sections_disjoint (env : SecEnv) (henv : env.Ok) (uc : Nat → Nat) (ops : List ImgOp)
    (hops : ∀ o ∈ ops, o.Ok) :
    (ImgOp.run env ⟨[], uc⟩ ops).1.secs.Pairwise fun m n => SameSpace m.asid n.asid →
      ∀ x, ¬ ((m.vaddr ≤ x ∧ x < m.end_) ∧ (n.vaddr ≤ x ∧ x < n.end_)) :=
  (run_inv henv ops hops (inv_empty env uc)).apart

example : ∃ env : SecEnv, env.Ok ∧ ((ImgOp.run env ⟨[], fun _ => 1⟩
    [.add 0 {} 0x1000 7 [], .add 1 ⟨1, asidNone⟩ 0x1020 8 []]).1.secs.map fun m => (m.vaddr, m.end_)) =
      [(0x1030, 0x1100), (0x1000, 0x1020), (0x1020, 0x1030)] := by
  refine ⟨⟨fun s => if s = 0 then 0x100 else 0x10, fun _ => "a", fun _ _ => 0⟩, ?_, ?_⟩
  · intro s; dsimp only; split <;> omega
  · decide +kernel

/-- **C24.** Whatever image an add starts from and wherever an allocation fails or a use count
overflows, an add that does not succeed reports -pte_nomem, keeps exactly the same mapped sections
(in some order) and leaves every section's use count as it was. -/
theorem C24_failed_add_unchanged (env : SecEnv) (ora : List Bool) (i : Img) (sec : Nat) (asid : Asid)
    (vaddr isid : Nat) :
    let r := imageAdd env ora i sec asid vaddr isid
    r.2 = .ok () ∨ (r.2 = .err .nomem ∧ r.1.secs.Perm i.secs ∧ ∀ s, r.1.uc s = i.uc s) := by
  dsimp only
  rcases imageAdd_char env ora i sec asid vaddr isid with ⟨i', h, hp, hu⟩ | ⟨i', h, _⟩
  · right; rw [h]; exact ⟨rfl, hp, hu⟩
  · left; rw [h]

/-- The lookup result as the user sees it. -/
def seen (x : Nat) (r : Res Msec) : Res Cell := r >>= fun m => .ok ⟨m.asid, m.sec, m.unmap x, m.isid⟩

/-- **C24.** Lookups in concrete address spaces give the same result before and after a failed
add. -/
theorem C24_failed_add_lookup (env : SecEnv) (henv : env.Ok) (uc : Nat → Nat) (ops : List ImgOp)
    (hops : ∀ o ∈ ops, o.Ok) (ora : List Bool) (sec : Nat) (asid : Asid) (vaddr isid : Nat)
    (hv : vaddr < 2 ^ 64) (a : Asid) (ha : Concrete a) (x : Nat) :
    let i := (ImgOp.run env ⟨[], uc⟩ ops).1
    let r := imageAdd env ora i sec asid vaddr isid
    r.2 ≠ .ok () → seen x (imageFetch r.1 a x).2 = seen x (imageFetch i a x).2 := by
  dsimp only
  intro hne
  have hrun : ∀ o, ImgOp.run env ⟨[], uc⟩ (ops ++ [o]) =
      ((o.step env (ImgOp.run env ⟨[], uc⟩ ops).1).1,
       (ImgOp.run env ⟨[], uc⟩ ops).2 ++ (o.step env (ImgOp.run env ⟨[], uc⟩ ops).1).2) := by
    intro o
    clear hne hops
    generalize (⟨[], uc⟩ : Img) = i0
    induction ops generalizing i0 with
    | nil => simp [ImgOp.run]
    | cons p ps ih =>
      rw [List.cons_append, ImgOp.run, ImgOp.run]
      dsimp only
      rw [ih]
      simp
  have h1 := C22_image_refines env henv uc ops hops a x
  have h2 := C22_image_refines env henv uc (ops ++ [.add sec asid vaddr isid ora])
    (by intro o ho; rcases List.mem_append.mp ho with h | h
        · exact hops o h
        · simp at h; subst h; exact hv) a x
  rw [hrun] at h2
  rcases C24_failed_add_unchanged env ora (ImgOp.run env ⟨[], uc⟩ ops).1 sec asid vaddr isid with h | ⟨h, _⟩
  · exact absurd h hne
  · generalize hi : (ImgOp.run env ⟨[], uc⟩ ops).1 = i at *
    have hst : ImgOp.step env i (.add sec asid vaddr isid ora) =
        ((imageAdd env ora i sec asid vaddr isid).1, []) := by
      unfold ImgOp.step
      dsimp only
      generalize imageAdd env ora i sec asid vaddr isid = r at h ⊢
      obtain ⟨r1, r2⟩ := r
      simp only at h; subst h; rfl
    rw [hst] at h2
    dsimp only at h1 h2
    rw [List.append_nil] at h2
    generalize imageAdd env ora i sec asid vaddr isid = r at h2 ⊢
    generalize Map.run env.size env.filename (ImgOp.run env ⟨[], uc⟩ ops).2 = map at h1 h2
    have key : ∀ (f g : Res Msec),
        ((∀ m, f = .ok m → SameSpace m.asid a ∧ (⟨m.asid, m.sec, m.unmap x, m.isid⟩ : Cell) ∈ map x) ∧
          (f = .err .nomap ↔ ∀ c ∈ map x, ¬ SameSpace c.asid a) ∧
          (Concrete a → ∀ c ∈ map x, SameSpace c.asid a → ∃ m, f = .ok m ∧
            (⟨m.asid, m.sec, m.unmap x, m.isid⟩ : Cell) = c)) →
        ((∀ m, g = .ok m → SameSpace m.asid a ∧ (⟨m.asid, m.sec, m.unmap x, m.isid⟩ : Cell) ∈ map x) ∧
          (g = .err .nomap ↔ ∀ c ∈ map x, ¬ SameSpace c.asid a) ∧
          (Concrete a → ∀ c ∈ map x, SameSpace c.asid a → ∃ m, g = .ok m ∧
            (⟨m.asid, m.sec, m.unmap x, m.isid⟩ : Cell) = c)) → seen x f = seen x g := by
      intro f g hf hg
      by_cases hc : ∀ c ∈ map x, ¬ SameSpace c.asid a
      · rw [hf.2.1.mpr hc, hg.2.1.mpr hc]
      · have : ∃ c ∈ map x, SameSpace c.asid a := by
          refine Classical.byContradiction fun hn => hc fun c h1 h2 => hn ⟨c, h1, h2⟩
        obtain ⟨c, hc1, hc2⟩ := this
        obtain ⟨m, hm, e1⟩ := hf.2.2 ha c hc1 hc2
        obtain ⟨m', hm', e2⟩ := hg.2.2 ha c hc1 hc2
        rw [hm, hm']
        show Res.ok _ = Res.ok _
        rw [e1, e2]
    exact key _ _ h2 h1

/-- A failing add that had already unlinked a section: the third allocation fails. -/
example : ∃ env : SecEnv, env.Ok ∧
    let i := (ImgOp.run env ⟨[], fun _ => 1⟩ [.add 0 {} 0x1000 7 [], .add 0 {} 0x2000 6 []]).1
    let r := imageAdd env [false, false, true] i 1 {} 0x1020 8
    r.2 = .err .nomem ∧ r.1.secs ≠ i.secs ∧ r.1.uc 0 = 3 := by
  refine ⟨⟨fun s => if s = 0 then 0x100 else 0x10, fun _ => "a", fun _ _ => 0⟩, ?_, ?_⟩
  · intro s; dsimp only; split <;> omega
  · decide +kernel

/-- **C27** (image part). Every element of an image's section list holds exactly one reference: after
any history, the use count of every section is its initial count plus the number of list elements
that refer to it.  In particular no section in the list has been freed. -/
theorem C27_image_references (env : SecEnv) (uc : Nat → Nat) (ops : List ImgOp) (s : Nat) :
    let i := (ImgOp.run env ⟨[], uc⟩ ops).1
    i.uc s = uc s + (i.secs.filter fun m => m.sec == s).length := by
  dsimp only
  suffices h : ∀ (i : Img), i.uc s = uc s + refs i.secs s →
      (ImgOp.run env i ops).1.uc s = uc s + refs (ImgOp.run env i ops).1.secs s from h ⟨[], uc⟩ rfl
  induction ops with
  | nil => intro i hi; exact hi
  | cons o os ih =>
    intro i hi
    unfold ImgOp.run
    dsimp only
    apply ih
    have hrm : ∀ p, (removeLoop p i.secs i.uc).2.1 s = uc s + refs (removeLoop p i.secs i.uc).1 s := by
      intro p
      obtain ⟨h1, h2, _⟩ := removeLoop_secs p i.secs i.uc
      rw [h1, h2, freeTail_apply, hi]
      have : refs i.secs s = refs (i.secs.filter p) s + refs (i.secs.filter fun m => !p m) s := by
        rw [← refs_append]; exact (refs_perm (List.filter_append_perm p i.secs) s).symm
      omega
    cases o with
    | add sec asid vaddr isid ora =>
      unfold ImgOp.step
      dsimp only
      rcases imageAdd_char env ora i sec asid vaddr isid with ⟨i', h, hp, hu⟩ | ⟨i', h, _, hu⟩
      · rw [h]; dsimp only; rw [hu s, refs_perm hp]; exact hi
      · rw [h]; dsimp only
        have := hu s (by omega)
        omega
    | removeAsid asid => exact hrm _
    | removeFile name asid => exact hrm _
    | lookup asid x =>
      have h := fetch_perm i asid x
      show (imageFetch i asid x).1.uc s = uc s + refs (imageFetch i asid x).1.secs s
      rw [h.2, refs_perm h.1]; exact hi

theorem msec_read {env : SecEnv} (henv : env.Ok) {m : Msec} (hwf : m.WF env) {size x : Nat}
    (hsize : size < 2 ^ 16) (hc : m.Covers x) :
    m.read env size x = .ok ((List.range (min size (m.end_ - x))).map fun k => env.byte m.sec (m.unmap (x + k)))
    ∧ ∀ k < min size (m.end_ - x), m.Covers (x + k) := by
  have hs := henv m.sec
  obtain ⟨w1, w2⟩ := hwf
  obtain ⟨c1, c2⟩ := hc
  have hend : m.end_ < 2 ^ 64 := by unfold Msec.end_; omega
  have hnw : m.end_ = m.vaddr + m.size := by unfold Msec.end_ at *; omega
  refine ⟨?_, ?_⟩
  · unfold Msec.read
    dsimp only
    rw [if_neg (by omega)]
    generalize hE : (if m.end_ < (if (x + size) % 2 ^ 64 < x then 2 ^ 64 - 1 else (x + size) % 2 ^ 64) then m.end_
      else (if (x + size) % 2 ^ 64 < x then 2 ^ 64 - 1 else (x + size) % 2 ^ 64)) = E
    have hEx : (E - x) % 2 ^ 16 = min size (m.end_ - x) := by
      by_cases g : (x + size) % 2 ^ 64 < x
      · rw [if_pos g] at hE
        by_cases g2 : m.end_ < 2 ^ 64 - 1
        · rw [if_pos g2] at hE; omega
        · rw [if_neg g2] at hE; omega
      · rw [if_neg g] at hE
        by_cases g2 : m.end_ < (x + size) % 2 ^ 64
        · rw [if_pos g2] at hE; omega
        · rw [if_neg g2] at hE; omega
    rw [hEx]
    have hun : m.unmap x = x - m.vaddr + m.offset := by unfold Msec.unmap; omega
    unfold sectionRead
    rw [if_neg (by omega)]
    dsimp only
    rw [if_neg (by omega)]
    refine congrArg Res.ok (List.map_congr_left ?_)
    intro k hk
    have hk' := List.mem_range.mp hk
    unfold Msec.unmap
    congr 1
    omega
  · intro k hk
    unfold Msec.Covers
    omega

/-- **C25.** Reading `size` bytes at `x` in a concrete address space of a reachable image.
If the map shows a cell at `x`, the read yields its identifier and `n` bytes, where `n` is `size`
or, if less, the distance to the end of the mapped section; the byte read for `x + k` is the byte
that the map shows at `x + k` in this address space, under the same identifier.
If the map shows nothing at `x`, the read is left to the user's callback; without one it is
-pte_nomap. -/
theorem C25_image_read (env : SecEnv) (henv : env.Ok) (uc : Nat → Nat) (ops : List ImgOp)
    (hops : ∀ o ∈ ops, o.Ok) (cb : ReadCb) (size : Nat) (hsize : size < 2 ^ 16) (asid : Asid)
    (ha : Concrete asid) (x : Nat) :
    let i := (ImgOp.run env ⟨[], uc⟩ ops).1
    let map := Map.run env.size env.filename (ImgOp.run env ⟨[], uc⟩ ops).2
    (∀ c ∈ map x, SameSpace c.asid asid →
      ∃ (m : Msec) (bs : List UInt8), (imageRead env cb (.ok ()) i size asid x).2 = .ok (c.isid, bs) ∧
        (imageFetch i asid x).2 = .ok m ∧ bs.length = min size (m.end_ - x) ∧ x < m.end_ ∧
        ∀ (k : Nat) (hk : k < bs.length), ∃ c' ∈ map (x + k), SameSpace c'.asid asid ∧ c'.isid = c.isid ∧
          bs[k] = env.byte c'.sec c'.off) ∧
    ((∀ c ∈ map x, ¬ SameSpace c.asid asid) →
      (imageRead env cb (.ok ()) i size asid x).2 =
        match cb with
        | none => .err .nomap
        | some f => f size asid x >>= fun bs => .ok (0, bs)) := by
  have hinv := run_inv henv ops hops (inv_empty env uc)
  have h22 := C22_image_refines env henv uc ops hops asid x
  dsimp only at h22 ⊢
  have hM : List.foldl (Map.step env.size env.filename) (fun _ => []) (ImgOp.run env ⟨[], uc⟩ ops).2 =
      Map.run env.size env.filename (ImgOp.run env ⟨[], uc⟩ ops).2 := rfl
  rw [hM] at hinv
  generalize Map.run env.size env.filename (ImgOp.run env ⟨[], uc⟩ ops).2 = map at hinv h22 ⊢
  generalize (ImgOp.run env ⟨[], uc⟩ ops).1 = i at hinv h22 ⊢
  refine ⟨?_, ?_⟩
  · intro c hc hs
    obtain ⟨m, hm, hcell⟩ := h22.2.2 ha c hc hs
    have hmem : m ∈ i.secs ∧ m.Covers x ∧ SameSpace m.asid asid := by
      unfold imageFetch at hm
      cases h : takeFirst (fun m => m.check asid x) i.secs with
      | none => rw [h] at hm; simp at hm
      | some r =>
        rw [h] at hm; simp at hm; subst hm
        obtain ⟨h1, h2⟩ := takeFirst_some (l' := r.2) h
        exact ⟨h2.mem_iff.mp (by simp), (check_iff _ _ _).mp h1⟩
    obtain ⟨hr, hcov⟩ := msec_read henv (hinv.wf m hmem.1) hsize hmem.2.1
    refine ⟨m, (List.range (min size (m.end_ - x))).map fun k => env.byte m.sec (m.unmap (x + k)),
      ?_, hm, ?_, hmem.2.1.2, ?_⟩
    · unfold imageRead
      generalize hF : imageFetch i asid x = F at hm
      obtain ⟨F1, F2⟩ := F
      simp only at hm; subst hm
      dsimp only
      rw [hr]
      dsimp only
      rw [← hcell]
    · simp
    · intro k hk
      have hk' : k < min size (m.end_ - x) := by simpa using hk
      refine ⟨m.cell (x + k), (hinv.shows _ _).mp ⟨m, hmem.1, hcov k hk', rfl⟩, hmem.2.2, ?_, ?_⟩
      · rw [← hcell]; rfl
      · simp [Msec.cell]
  · intro hno
    have := h22.2.1.mpr hno
    unfold imageRead
    generalize hF : imageFetch i asid x = F at this
    obtain ⟨F1, F2⟩ := F
    simp only at this; subst this
    dsimp only
    unfold readCallback
    cases cb <;> rfl

/-- A read across the end of a section is truncated. -/
example : ∃ env : SecEnv, env.Ok ∧
    let i := (ImgOp.run env ⟨[], fun _ => 1⟩ [.add 0 {} 0x1000 7 [], .add 1 {} 0x1008 8 []]).1
    (imageRead env none (.ok ()) i 15 ⟨1, 1⟩ 0x1005).2 = .ok (7, [5, 6, 7]) := by
  refine ⟨⟨fun _ => 0x10, fun _ => "a", fun s o => UInt8.ofNat (0x40 * s + o)⟩, ?_, ?_⟩
  · intro s; dsimp only; omega
  · decide +kernel

/-- A read fails with the error of mapping the section, without data. -/
theorem C25_map_error (env : SecEnv) (cb : ReadCb) (e : Err) (i : Img) (size : Nat) (asid : Asid)
    (x : Nat) (m : Msec) (h : (imageFetch i asid x).2 = .ok m) :
    (imageRead env cb (.err e) i size asid x).2 = .err e := by
  unfold imageRead
  generalize imageFetch i asid x = F at h
  obtain ⟨F1, F2⟩ := F
  simp only at h; subst h; rfl

/-- Copying, one section after the other, with every add succeeding. -/
theorem copy_inv {env : SecEnv} (henv : env.Ok) (l : List Msec) :
    ∀ (oras : List (List Bool)) (i : Img) (map : Map) (old : List Msec), ImgInv env i map →
      (∀ x c, c ∈ map x ↔ ShowsAt old x c) → (old ++ l).Pairwise Apart →
      (∀ m ∈ l, m.WF env ∧ m.offset = 0 ∧ m.size = env.size m.sec) →
      (imageCopyLoop env oras l i).2 = 0 →
      ∃ map', ImgInv env (imageCopyLoop env oras l i).1 map' ∧ ∀ x c, c ∈ map' x ↔ ShowsAt (old ++ l) x c := by
  induction l with
  | nil => intro oras i map old hi ho _ _ _; exact ⟨map, hi, by simpa using ho⟩
  | cons m l ih =>
    intro oras i map old hi ho hap hun h0
    have hm := hun m (by simp)
    have hst := add_preserves henv hi (sec := m.sec) (asid := m.asid) (vaddr := m.vaddr) (isid := m.isid)
      (ora := oras.headD []) hm.1.1
    unfold imageCopyLoop at h0 ⊢
    unfold ImgOp.step at hst
    dsimp only at hst
    rcases imageAdd_char env (oras.headD []) i m.sec m.asid m.vaddr m.isid with ⟨i', h, _⟩ | ⟨i', h, _⟩
    · rw [h] at h0; dsimp only at h0; omega
    · rw [h] at h0 hst ⊢
      dsimp only [List.foldl] at h0 hst ⊢
      have hcell : ∀ x, m.Covers x → m.cell x = ⟨m.asid, m.sec, x - m.vaddr, m.isid⟩ := by
        intro x hx
        have := henv m.sec
        obtain ⟨⟨w1, w2⟩, w3, w4⟩ := hm
        unfold Msec.Covers Msec.end_ at hx
        unfold Msec.cell Msec.unmap
        congr 1
        omega
      have hcov : ∀ x, (m.vaddr ≤ x ∧ x < m.vaddr + env.size m.sec ∧ m.vaddr + env.size m.sec < 2 ^ 64) ↔
          m.Covers x := by
        intro x
        have := henv m.sec
        obtain ⟨⟨w1, w2⟩, w3, w4⟩ := hm
        unfold Msec.Covers Msec.end_
        omega
      have hnew : ∀ x c, c ∈ Map.step env.size env.filename map (.add m.sec m.asid m.vaddr m.isid) x ↔
          ShowsAt (old ++ [m]) x c := by
        intro x c
        rw [showsAt_append, ← ho x c]
        unfold Map.step
        dsimp only
        have hone : ShowsAt [m] x c ↔ m.Covers x ∧ c = m.cell x := by simp [ShowsAt]
        rw [hone]
        by_cases hx : m.Covers x
        · rw [if_pos ((hcov x).mpr hx), List.mem_cons, filter_step, hcell x hx]
          constructor
          · rintro (h | h)
            · exact .inr ⟨hx, h⟩
            · exact .inl h.1
          · rintro (h | h)
            · right
              refine ⟨h, ?_⟩
              intro hs
              obtain ⟨n, hn, hnc, hcell'⟩ := (ho x c).mp h
              have : Apart n m := (List.pairwise_append.mp hap).2.2 n hn m (by simp)
              exact this (by rw [hcell'] at hs; exact hs) x ⟨hnc, hx⟩
            · exact .inl h.2
        · rw [if_neg (fun h => hx ((hcov x).mp h))]
          simp [hx]
      obtain ⟨map', h1, h2⟩ := ih oras.tail i' _ (old ++ [m]) hst hnew (by simpa using hap)
        (fun n hn => hun n (by simp [hn])) h0
      exact ⟨map', h1, by simpa using h2⟩

/-- What a list of sections shows in a concrete space is what a lookup sees. -/
theorem seen_fetch {env : SecEnv} {i : Img} {map : Map} (hi : ImgInv env i map) {a : Asid} (ha : Concrete a)
    (x : Nat) (c : Cell) :
    seen x (imageFetch i a x).2 = .ok c ↔ ShowsAt i.secs x c ∧ SameSpace c.asid a := by
  unfold imageFetch
  cases h : takeFirst (fun m => m.check a x) i.secs with
  | none =>
    constructor
    · intro g; cases g
    · rintro ⟨⟨m, hm, hc, rfl⟩, hs⟩
      have := takeFirst_none.mp h m hm
      rw [(check_iff _ _ _).mpr ⟨hc, hs⟩] at this; simp at this
  | some r =>
    obtain ⟨m, l⟩ := r
    obtain ⟨h1, h2⟩ := takeFirst_some h
    have hmem : m ∈ i.secs := h2.mem_iff.mp (by simp)
    obtain ⟨hc, hs⟩ := (check_iff _ _ _).mp h1
    show Res.ok (m.cell x) = Res.ok c ↔ _
    constructor
    · intro g; injection g with g; subst g
      exact ⟨⟨m, hmem, hc, rfl⟩, hs⟩
    · rintro ⟨⟨n, hn, hc', rfl⟩, hs'⟩
      by_cases hne : m = n
      · rw [hne]
      · exact absurd ⟨hc, hc'⟩ (apart_of_mem hi.apart hmem hn hne (sameSpace_concrete ha hs hs') x)

theorem seen_fetch_cases (i : Img) (a : Asid) (x : Nat) :
    seen x (imageFetch i a x).2 = .err .nomap ∨ ∃ c, seen x (imageFetch i a x).2 = .ok c := by
  unfold imageFetch
  cases takeFirst (fun m => m.check a x) i.secs with
  | none => exact .inl rfl
  | some r => exact .inr ⟨r.1.cell x, rfl⟩

/-- **C26, partial.** If no section of the source image has been split or shrunk, copying it into
an empty image without failures makes every lookup in a concrete address space agree.

Missing: images with split or shrunk sections; there the claim is false, see
`C26_copy_split_wrong`. -/
theorem C26_copy_unsplit_partial (env : SecEnv) (henv : env.Ok) (uc : Nat → Nat) (ops : List ImgOp)
    (hops : ∀ o ∈ ops, o.Ok) (oras : List (List Bool)) (uc' : Nat → Nat) (a : Asid) (ha : Concrete a) (x : Nat) :
    let src := (ImgOp.run env ⟨[], uc⟩ ops).1
    let r := imageCopy env oras ⟨[], uc'⟩ src.secs
    (∀ m ∈ src.secs, m.offset = 0 ∧ m.size = env.size m.sec) → r.2 = 0 →
      seen x (imageFetch r.1 a x).2 = seen x (imageFetch src a x).2 := by
  dsimp only
  intro hun h0
  have hinv := run_inv henv ops hops (inv_empty env uc)
  obtain ⟨map', h1, h2⟩ := copy_inv henv (ImgOp.run env ⟨[], uc⟩ ops).1.secs oras ⟨[], uc'⟩ (fun _ => []) []
    (inv_empty env uc') (by intro x c; simp [ShowsAt]) (by simpa using hinv.apart)
    (fun m hm => ⟨hinv.wf m hm, hun m hm⟩) h0
  have e : ∀ c, seen x (imageFetch (imageCopy env oras ⟨[], uc'⟩ (ImgOp.run env ⟨[], uc⟩ ops).1.secs).1 a x).2 = .ok c ↔
      seen x (imageFetch (ImgOp.run env ⟨[], uc⟩ ops).1 a x).2 = .ok c := by
    intro c
    rw [seen_fetch hinv ha, imageCopy, seen_fetch h1 ha, h1.shows, h2]
    simp
  rcases seen_fetch_cases (ImgOp.run env ⟨[], uc⟩ ops).1 a x with h | ⟨c, h⟩
  · rcases seen_fetch_cases (imageCopy env oras ⟨[], uc'⟩ (ImgOp.run env ⟨[], uc⟩ ops).1.secs).1 a x with g | ⟨d, g⟩
    · rw [h, g]
    · rw [(e d).mp g] at h; cases h
  · rw [h]; exact (e c).mpr h

/-- **C26 is false in general.** A section split by a later add and then looked up: the copy of the
image maps the section's first byte where the source maps its byte 0x30, and the copy maps
addresses the source does not map. -/
theorem C26_copy_split_wrong :
    ∃ (env : SecEnv) (ops : List ImgOp), env.Ok ∧
      let src := (ImgOp.run env ⟨[], fun _ => 1⟩ ops).1
      let r := imageCopy env [] ⟨[], fun _ => 1⟩ src.secs
      r.2 = 0 ∧
      seen 0x1030 (imageFetch src ⟨1, 1⟩ 0x1030).2 = .ok ⟨{}, 0, 0x30, 7⟩ ∧
      seen 0x1030 (imageFetch r.1 ⟨1, 1⟩ 0x1030).2 = .ok ⟨{}, 0, 0, 7⟩ ∧
      seen 0x1110 (imageFetch src ⟨1, 1⟩ 0x1110).2 = .err .nomap ∧
      seen 0x1110 (imageFetch r.1 ⟨1, 1⟩ 0x1110).2 = .ok ⟨{}, 0, 0xe0, 7⟩ := by
  refine ⟨⟨fun s => if s = 0 then 0x100 else 0x10, fun _ => "a", fun _ _ => 0⟩,
    [.add 0 {} 0x1000 7 [], .add 1 {} 0x1020 8 [], .lookup ⟨1, 1⟩ 0x1000], ?_, ?_⟩
  · intro s; dsimp only; split <;> omega
  · decide +kernel

/-- The hypotheses of `C26_copy_unsplit_partial` hold for two adjacent sections. -/
example : ∃ (env : SecEnv) (ops : List ImgOp), env.Ok ∧
    let src := (ImgOp.run env ⟨[], fun _ => 1⟩ ops).1
    src.secs.length = 2 ∧ (∀ m ∈ src.secs, m.offset = 0 ∧ m.size = env.size m.sec) ∧
    (imageCopy env [] ⟨[], fun _ => 1⟩ src.secs).2 = 0 := by
  refine ⟨⟨fun _ => 0x100, fun _ => "a", fun _ _ => 0⟩,
    [.add 0 {} 0x1000 7 [], .add 1 {} 0x1100 8 [], .lookup ⟨1, 1⟩ 0x1000], ?_, ?_⟩
  · intro s; dsimp only; omega
  · decide +kernel

/-- C22 and C27, removing one section (`pt_image_remove`): the first section of the list with this
file, address and an overlapping address space disappears and its reference is dropped; everything else
stays.  If there is none, nothing changes. -/
theorem C22_remove_one (i i' : Img) (sec vaddr : Nat) (asid : Asid) (r : Res Unit)
    (h : imageRemove i sec asid vaddr = (i', r)) :
    (∃ l1 m l2, r = .ok () ∧ i.secs = l1 ++ m :: l2 ∧ i'.secs = l1 ++ l2 ∧
      SameSpace m.asid asid ∧ m.sec = sec ∧ m.vaddr = vaddr ∧
      (∀ x ∈ l1, ¬ (SameSpace x.asid asid ∧ x.sec = sec ∧ x.vaddr = vaddr)) ∧
      ∀ s, i'.uc s = if s = sec then i.uc s - 1 else i.uc s) ∨
    (r = .err .badImage ∧ i' = i ∧ ∀ x ∈ i.secs, ¬ (SameSpace x.asid asid ∧ x.sec = sec ∧ x.vaddr = vaddr)) := by
  have key : ∀ l : List Msec,
      (∃ l1 m l2, removeFirst sec asid vaddr l = some (m, l1 ++ l2) ∧ l = l1 ++ m :: l2 ∧
        SameSpace m.asid asid ∧ m.sec = sec ∧ m.vaddr = vaddr ∧
        ∀ x ∈ l1, ¬ (SameSpace x.asid asid ∧ x.sec = sec ∧ x.vaddr = vaddr)) ∨
      (removeFirst sec asid vaddr l = none ∧ ∀ x ∈ l, ¬ (SameSpace x.asid asid ∧ x.sec = sec ∧ x.vaddr = vaddr)) := by
    intro l
    induction l with
    | nil => right; exact ⟨rfl, by simp⟩
    | cons m l ih =>
      unfold removeFirst
      by_cases hc : asidMatch m.asid asid = true ∧ m.sec = sec ∧ m.vaddr = vaddr
      · left
        rw [if_pos hc]
        exact ⟨[], m, l, rfl, rfl, (asidMatch_iff _ _).1 hc.1, hc.2.1, hc.2.2, by simp⟩
      · rw [if_neg hc]
        have hn : ¬ (SameSpace m.asid asid ∧ m.sec = sec ∧ m.vaddr = vaddr) := by rwa [← asidMatch_iff]
        rcases ih with ⟨l1, x, l2, h1, rfl, h3, h4, h5, h6⟩ | ⟨h1, h2⟩
        · left
          rw [h1]
          refine ⟨m :: l1, x, l2, rfl, rfl, h3, h4, h5, ?_⟩
          intro y hy
          rcases List.mem_cons.1 hy with rfl | hy
          · exact hn
          · exact h6 y hy
        · right
          rw [h1]
          refine ⟨rfl, ?_⟩
          intro y hy
          rcases List.mem_cons.1 hy with rfl | hy
          · exact hn
          · exact h2 y hy
  unfold imageRemove at h
  rcases key i.secs with ⟨l1, m, l2, h1, h2, h3, h4, h5, h6⟩ | ⟨h1, h2⟩
  · left
    rw [h1] at h
    simp only [Prod.mk.injEq] at h
    obtain ⟨rfl, rfl⟩ := h
    refine ⟨l1, m, l2, rfl, h2, rfl, h3, h4, h5, h6, ?_⟩
    intro s
    simp only [ucDec, h4]
  · right
    rw [h1] at h
    simp only [Prod.mk.injEq] at h
    obtain ⟨rfl, rfl⟩ := h
    exact ⟨rfl, rfl, h2⟩

end Props
end Ipt
