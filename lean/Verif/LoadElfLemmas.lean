import Verif.LoadElf
import Verif.Spec.Elf
import Verif.Props.Image

/-!
# Lemmas about loading ELF files
-/

namespace Ipt

open Spec (SameSpace Concrete Cell Map Op)
open Spec.Elf

/-! ## Reading -/

theorem leBytes_eq (l : List UInt8) : fileNum l = Spec.leValue l := by
  induction l with
  | nil => rfl
  | cons b l ih => unfold fileNum Spec.leValue; rw [List.foldr_cons, ih]; rfl

theorem structField_take (f : List UInt8) {p sz a n : Nat} (h : a + n ≤ sz) :
    structField ((f.drop p).take sz) a n = num f (p + a) n := by
  unfold structField num
  rw [leBytes_eq, List.drop_take, List.take_take, List.drop_drop, Nat.min_eq_left (by omega)]

/-- The layout for a class. -/
def layoutOf : Class → ElfLayout
  | .elf32 => elf32Layout
  | .elf64 => elf64Layout

theorem layout_sizes (c : Class) : (layoutOf c).ehdrSize = headerSize c ∧ (layoutOf c).phdrSize = entrySize c := by
  cases c <;> exact ⟨rfl, rfl⟩

theorem layout_ehdr (f : List UInt8) (c : Class) :
    (layoutOf c).phoff ((f.drop 0).take (headerSize c)) = phoff f c ∧
    (layoutOf c).phnum ((f.drop 0).take (headerSize c)) = phnum f c := by
  cases c
  · refine ⟨?_, ?_⟩
    · show structField ((f.drop 0).take 52) 28 4 = num f 28 4
      rw [structField_take f (by omega), Nat.zero_add]
    · show structField ((f.drop 0).take 52) 44 2 = num f 44 2
      rw [structField_take f (by omega), Nat.zero_add]
  · refine ⟨?_, ?_⟩
    · show structField ((f.drop 0).take 64) 32 8 = num f 32 8
      rw [structField_take f (by omega), Nat.zero_add]
    · show structField ((f.drop 0).take 64) 56 2 = num f 56 2
      rw [structField_take f (by omega), Nat.zero_add]

/-- A segment as the loader sees it. -/
def toPhdr (s : Spec.Elf.Segment) : Phdr := ⟨s.type, s.offset, s.vaddr, s.filesz⟩

theorem layout_phdr (f : List UInt8) (c : Class) (hu : phentsize f c = entrySize c) (n : Nat) :
    (layoutOf c).phdr ((f.drop (phoff f c + n * entrySize c)).take (entrySize c)) = toPhdr (segment f c n) := by
  cases c
  · show (⟨structField _ 0 4, structField _ 4 4, structField _ 8 4, structField _ 16 4⟩ : Phdr) = _
    rw [structField_take f (by decide), structField_take f (by decide), structField_take f (by decide),
      structField_take f (by decide)]
    unfold toPhdr segment
    dsimp only
    rw [hu, Nat.add_zero]
  · show (⟨structField _ 0 4, structField _ 8 8, structField _ 16 8, structField _ 32 8⟩ : Phdr) = _
    rw [structField_take f (by decide), structField_take f (by decide), structField_take f (by decide),
      structField_take f (by decide)]
    unfold toPhdr segment
    dsimp only
    rw [hu, Nat.add_zero]

theorem leValue_lt (l : List UInt8) : Spec.leValue l < 256 ^ l.length := by
  induction l with
  | nil => decide
  | cons b l ih =>
    unfold Spec.leValue at ih ⊢
    rw [List.foldr_cons, List.length_cons, Nat.pow_succ]
    have := b.toNat_lt
    omega

theorem num_lt (f : List UInt8) (o n : Nat) : num f o n < 256 ^ n := by
  unfold num
  refine Nat.lt_of_lt_of_le (leValue_lt _) (Nat.pow_le_pow_right (by omega) ?_)
  rw [List.length_take]; omega

theorem segment_vaddr_lt (f : List UInt8) (c : Class) (n : Nat) : (segment f c n).vaddr < 2 ^ 64 := by
  cases c
  · exact Nat.lt_of_lt_of_le (num_lt f _ 4) (by decide)
  · exact Nat.lt_of_lt_of_le (num_lt f _ 8) (by decide)

theorem phoff32_lt (f : List UInt8) : phoff f .elf32 < 2 ^ 63 :=
  Nat.lt_of_lt_of_le (num_lt f _ 4) (by decide)

/-! ## The lowest address -/

/-- The program headers from number `a` up to number `b` are in the file. -/
def InFile (f : List UInt8) (c : Class) (a b : Nat) : Prop :=
  ∀ n, a ≤ n → n < b → phoff f c + (n + 1) * entrySize c ≤ f.length

theorem fread_phdr (f : List UInt8) (c : Class) (n : Nat) :
    fread f (phoff f c + n * entrySize c) (layoutOf c).phdrSize =
      if phoff f c + (n + 1) * entrySize c ≤ f.length then
        some ((f.drop (phoff f c + n * entrySize c)).take (entrySize c), phoff f c + (n + 1) * entrySize c)
      else none := by
  unfold fread
  rw [(layout_sizes c).2, show phoff f c + n * entrySize c + entrySize c = phoff f c + (n + 1) * entrySize c by
    rw [Nat.add_mul]; omega]
  by_cases h : phoff f c + (n + 1) * entrySize c ≤ f.length
  · rw [if_neg (by omega), if_pos h]
  · rw [if_pos (by omega), if_neg h]

theorem minLoop_spec (f : List UInt8) (c : Class) (hu : phentsize f c = entrySize c) : ∀ (n a m : Nat),
    (¬ InFile f c a (a + n) → minLoop (layoutOf c) f n (phoff f c + a * entrySize c) m = .err .badConfig) ∧
    (InFile f c a (a + n) → ∃ m', minLoop (layoutOf c) f n (phoff f c + a * entrySize c) m = .ok m' ∧ m' ≤ m ∧
      (∀ j, a ≤ j → j < a + n → (segment f c j).Loadable → m' ≤ (segment f c j).vaddr) ∧
      (m' = m ∨ ∃ j, a ≤ j ∧ j < a + n ∧ (segment f c j).Loadable ∧ (segment f c j).vaddr = m')) := by
  intro n
  induction n with
  | zero =>
    intro a m
    exact ⟨fun h => absurd (fun j h1 h2 => by omega) h, fun _ => ⟨m, rfl, Nat.le_refl _, fun j h1 h2 => by omega, .inl rfl⟩⟩
  | succ n ih =>
    intro a m
    unfold minLoop
    rw [fread_phdr]
    by_cases hr : phoff f c + (a + 1) * entrySize c ≤ f.length
    · rw [if_pos hr]
      dsimp only
      rw [layout_phdr f c hu]
      have hin : InFile f c a (a + (n + 1)) ↔ InFile f c (a + 1) (a + 1 + n) := by
        constructor
        · intro h j h1 h2; exact h j (by omega) (by omega)
        · intro h j h1 h2
          by_cases hj : j = a
          · rw [hj]; exact hr
          · exact h j (by omega) (by omega)
      rw [hin]
      by_cases ht : (segment f c a).Loadable
      · rw [if_neg (show ¬ (toPhdr (segment f c a)).type ≠ ptLoad from fun h => h ht)]
        obtain ⟨h1, h2⟩ := ih (a + 1) (if (toPhdr (segment f c a)).vaddr < m then (toPhdr (segment f c a)).vaddr else m)
        refine ⟨h1, fun h => ?_⟩
        obtain ⟨m', h3, h4, h5, h6⟩ := h2 h
        have hva : (toPhdr (segment f c a)).vaddr = (segment f c a).vaddr := rfl
        rw [hva] at h4 h6
        refine ⟨m', h3, ?_, ?_, ?_⟩
        · split at h4 <;> omega
        · intro j hj1 hj2 hl
          by_cases hj : j = a
          · rw [hj]; split at h4 <;> omega
          · exact h5 j (by omega) (by omega) hl
        · rcases h6 with h6 | ⟨j, g1, g2, g3, g4⟩
          · split at h6
            · exact .inr ⟨a, by omega, by omega, ht, h6.symm⟩
            · exact .inl h6
          · exact .inr ⟨j, by omega, by omega, g3, g4⟩
      · rw [if_pos (show (toPhdr (segment f c a)).type ≠ ptLoad from ht)]
        obtain ⟨h1, h2⟩ := ih (a + 1) m
        refine ⟨h1, fun h => ?_⟩
        obtain ⟨m', h3, h4, h5, h6⟩ := h2 h
        refine ⟨m', h3, h4, ?_, ?_⟩
        · intro j hj1 hj2 hl
          by_cases hj : j = a
          · rw [hj] at hl; exact absurd hl ht
          · exact h5 j (by omega) (by omega) hl
        · rcases h6 with h6 | ⟨j, g1, g2, g3, g4⟩
          · exact .inl h6
          · exact .inr ⟨j, by omega, by omega, g3, g4⟩
    · rw [if_neg hr]
      exact ⟨fun _ => rfl, fun h => absurd (h a (by omega) (by omega)) hr⟩

/-! ## Adding a section -/

theorem ImgInv.setUc {env : SecEnv} {i : Img} {map : Map} (h : ImgInv env i map) (uc : Nat → Nat) :
    ImgInv env { i with uc := uc } map := ⟨h.wf, h.apart, h.shows⟩

theorem loadSection_inv {w : LoadWorld} (henv : w.env.Ok) {fsize : Nat} {i : Img} {map : Map} (hi : ImgInv w.env i map)
    (pidx offset size : Nat) {vaddr : Nat} (hv : vaddr < 2 ^ 64) :
    (∃ i', loadSection w fsize i pidx offset size vaddr = (i', .ok ()) ∧ offset < fsize ∧
      ImgInv w.env i' (Map.step w.env.size w.env.filename map (.add (w.obj pidx) {} vaddr (w.isid pidx)))) ∨
    (∃ i' e, loadSection w fsize i pidx offset size vaddr = (i', .err e) ∧ ImgInv w.env i' map ∧
      (w.fail pidx = some e ∨ (fsize ≤ offset ∧ e = .invalid) ∨ e = .nomem)) := by
  unfold loadSection
  cases hf : w.fail pidx with
  | some e => exact .inr ⟨i, e, rfl, hi, .inl rfl⟩
  | none =>
    dsimp only
    unfold mkSection
    by_cases ho : fsize ≤ offset
    · rw [if_pos ho]; exact .inr ⟨i, .invalid, rfl, hi, .inr (.inl ⟨ho, rfl⟩)⟩
    · rw [if_neg ho]
      dsimp only
      have h := add_preserves henv (hi.setUc (ucInc i.uc (w.obj pidx))) (sec := w.obj pidx) (asid := {}) (vaddr := vaddr)
        (isid := w.isid pidx) (ora := w.ora pidx) hv
      unfold ImgOp.step at h
      dsimp only at h
      rcases imageAdd_char w.env (w.ora pidx) { i with uc := ucInc i.uc (w.obj pidx) } (w.obj pidx) {} vaddr (w.isid pidx)
        with ⟨i', h1, _⟩ | ⟨i', h1, _⟩
      · rw [h1] at h ⊢
        exact .inr ⟨_, .nomem, rfl, h.setUc _, .inr (.inr rfl)⟩
      · rw [h1] at h ⊢
        exact .inl ⟨_, rfl, by omega, h.setUc _⟩

/-! ## Adding all sections -/

/-- Segment `n` has contents to be loaded. -/
def Wanted (f : List UInt8) (c : Class) (n : Nat) : Prop := (segment f c n).Loadable ∧ (segment f c n).filesz ≠ 0

/-- The address of segment `n`. -/
def addrOf (f : List UInt8) (c : Class) (offset n : Nat) : Nat := ((segment f c n).vaddr + offset) % 2 ^ 64

/-- The section for segment `n` covers an address. -/
def CoversAt (w : LoadWorld) (f : List UInt8) (c : Class) (offset n x : Nat) : Prop :=
  addrOf f c offset n ≤ x ∧ x < addrOf f c offset n + w.env.size (w.obj n) ∧
    addrOf f c offset n + w.env.size (w.obj n) < 2 ^ 64

theorem sameSpace_any (a : Asid) : SameSpace a {} := ⟨.inr (.inr rfl), .inr (.inr rfl)⟩

theorem sameSpace_any' (a : Asid) : SameSpace {} a := ⟨.inr (.inl rfl), .inr (.inl rfl)⟩

/-- Adding a section without address space hides everything else. -/
theorem step_any (size : Nat → Nat) (fn : Nat → String) (map : Map) (s v d x : Nat) :
    Map.step size fn map (.add s {} v d) x =
      if v ≤ x ∧ x < v + size s ∧ v + size s < 2 ^ 64 then [⟨{}, s, x - v, d⟩] else map x := by
  unfold Map.step
  dsimp only
  split
  · rw [List.filter_eq_nil_iff.2 (fun c _ => by simp [sameSpace_any])]
  · rfl

/-- What the map is after loading the segments from number `a` up to number `b`. -/
structure Loaded (w : LoadWorld) (f : List UInt8) (c : Class) (offset a b : Nat) (warned : List (Nat × Err)) (map map' : Map) :
    Prop where
  same : ∀ x, (∀ n, a ≤ n → n < b → Wanted f c n → (∀ e, (n, e) ∉ warned) → ¬ CoversAt w f c offset n x) → map' x = map x
  shows : ∀ x n, a ≤ n → n < b → Wanted f c n → (∀ e, (n, e) ∉ warned) → CoversAt w f c offset n x →
    (∀ m, n < m → m < b → Wanted f c m → (∀ e, (m, e) ∉ warned) → ¬ CoversAt w f c offset m x) →
    map' x = [⟨{}, w.obj n, x - addrOf f c offset n, w.isid n⟩]
  warn : ∀ n e, (n, e) ∈ warned → a ≤ n ∧ n < b ∧ Wanted f c n ∧
    (w.fail n = some e ∨ (f.length ≤ (segment f c n).offset ∧ e = .invalid) ∨ e = .nomem)
  inside : ∀ n, a ≤ n → n < b → Wanted f c n → (∀ e, (n, e) ∉ warned) → (segment f c n).offset < f.length

theorem loadLoop_spec (w : LoadWorld) (henv : w.env.Ok) (f : List UInt8) (c : Class) (hu : phentsize f c = entrySize c)
    (offset : Nat) : ∀ (n a : Nat) (i : Img) (map : Map), ImgInv w.env i map →
    (∃ map', ImgInv w.env (loadLoop w (layoutOf c) f offset n a (phoff f c + a * entrySize c) i).img map' ∧
      (InFile f c a (a + n) → (loadLoop w (layoutOf c) f offset n a (phoff f c + a * entrySize c) i).res = .ok () ∧
        Loaded w f c offset a (a + n) (loadLoop w (layoutOf c) f offset n a (phoff f c + a * entrySize c) i).warned map map')) ∧
    (¬ InFile f c a (a + n) → (loadLoop w (layoutOf c) f offset n a (phoff f c + a * entrySize c) i).res = .err .badConfig) := by
  intro n
  induction n with
  | zero =>
    intro a i map hi
    refine ⟨⟨map, hi, fun _ => ⟨rfl, ⟨fun _ _ => rfl, fun x n h1 h2 => by omega, fun n e h => ?_, fun n h1 h2 => by omega⟩⟩⟩,
      fun h => absurd (fun j h1 h2 => by omega) h⟩
    cases h
  | succ n ih =>
    intro a i map hi
    unfold loadLoop
    rw [fread_phdr]
    by_cases hr : phoff f c + (a + 1) * entrySize c ≤ f.length
    · rw [if_pos hr]
      dsimp only
      rw [layout_phdr f c hu]
      have hin : InFile f c a (a + (n + 1)) ↔ InFile f c (a + 1) (a + 1 + n) := by
        constructor
        · intro h j h1 h2; exact h j (by omega) (by omega)
        · intro h j h1 h2
          by_cases hj : j = a
          · rw [hj]; exact hr
          · exact h j (by omega) (by omega)
      rw [hin, show a + (n + 1) = a + 1 + n by omega]
      -- a segment that is not loaded
      have skip : ¬ Wanted f c a → ∀ warned map', Loaded w f c offset (a + 1) (a + 1 + n) warned map map' →
          Loaded w f c offset a (a + 1 + n) warned map map' := by
        intro hw warned map' h
        refine ⟨fun x hx => h.same x fun m h1 h2 => hx m (by omega) h2, fun x m h1 h2 h3 => ?_, fun m e hm => ?_,
          fun m h1 h2 h3 => ?_⟩
        · by_cases hm : m = a
          · rw [hm] at h3; exact absurd h3 hw
          · exact h.shows x m (by omega) h2 h3
        · obtain ⟨g1, g2, g3⟩ := h.warn m e hm
          exact ⟨by omega, g2, g3⟩
        · by_cases hm : m = a
          · rw [hm] at h3; exact absurd h3 hw
          · exact h.inside m (by omega) h2 h3
      by_cases ht : (segment f c a).Loadable
      · rw [if_neg (show ¬ (toPhdr (segment f c a)).type ≠ ptLoad from fun h => h ht)]
        by_cases hz : (segment f c a).filesz = 0
        · rw [if_pos (show (toPhdr (segment f c a)).filesz = 0 from hz)]
          obtain ⟨⟨map', h1, h2⟩, h3⟩ := ih (a + 1) i map hi
          exact ⟨⟨map', h1, fun h => ⟨(h2 h).1, skip (fun hw => hw.2 hz) _ _ (h2 h).2⟩⟩, h3⟩
        · rw [if_neg (show ¬ (toPhdr (segment f c a)).filesz = 0 from hz)]
          have hwant : Wanted f c a := ⟨ht, hz⟩
          rcases loadSection_inv henv (fsize := f.length) hi a (toPhdr (segment f c a)).offset (toPhdr (segment f c a)).filesz
            (vaddr := ((toPhdr (segment f c a)).vaddr + offset) % 2 ^ 64) (Nat.mod_lt _ (by omega)) with
            ⟨i', h1, h2, h3⟩ | ⟨i', e, h1, h2, h3⟩
          · rw [h1]
            dsimp only
            obtain ⟨⟨map', g1, g2⟩, g3⟩ := ih (a + 1) i' _ h3
            refine ⟨⟨map', g1, fun h => ⟨(g2 h).1, ?_⟩⟩, g3⟩
            obtain ⟨_, g2⟩ := g2 h
            have hva : ((toPhdr (segment f c a)).vaddr + offset) % 2 ^ 64 = addrOf f c offset a := rfl
            rw [hva] at g2
            have hnot : ∀ e, (a, e) ∉ (loadLoop w (layoutOf c) f offset n (a + 1) (phoff f c + (a + 1) * entrySize c) i').warned :=
              fun e he => by have := (g2.warn a e he).1; omega
            refine ⟨fun x hx => ?_, fun x m k1 k2 k3 k4 k5 k6 => ?_, fun m e hm => ?_, fun m k1 k2 k3 k4 => ?_⟩
            · rw [g2.same x fun m k1 k2 => hx m (by omega) k2, step_any]
              exact if_neg (hx a (by omega) (by omega) hwant hnot)
            · by_cases hm : m = a
              · subst hm
                rw [g2.same x fun j l1 l2 => k6 j (by omega) l2, step_any]
                exact if_pos k5
              · exact g2.shows x m (by omega) k2 k3 k4 k5 k6
            · obtain ⟨l1, l2, l3⟩ := g2.warn m e hm
              exact ⟨by omega, l2, l3⟩
            · by_cases hm : m = a
              · subst hm; exact h2
              · exact g2.inside m (by omega) k2 k3 k4
          · rw [h1]
            dsimp only
            obtain ⟨⟨map', g1, g2⟩, g3⟩ := ih (a + 1) i' map h2
            refine ⟨⟨map', g1, fun h => ⟨(g2 h).1, ?_⟩⟩, g3⟩
            obtain ⟨_, g2⟩ := g2 h
            generalize (loadLoop w (layoutOf c) f offset n (a + 1) (phoff f c + (a + 1) * entrySize c) i').warned = wd at g2
            have hsub : ∀ m, m ≠ a → (∀ e', (m, e') ∉ wd) → ∀ e', (m, e') ∉ (a, e) :: wd := by
              intro m hm h e' he'
              rcases List.mem_cons.1 he' with h4 | h4
              · injection h4 with h5 _; exact hm h5
              · exact h e' h4
            have hsup : ∀ m, (∀ e', (m, e') ∉ (a, e) :: wd) → m ≠ a ∧ ∀ e', (m, e') ∉ wd := by
              intro m h
              exact ⟨fun hm => h e (by rw [hm]; exact List.mem_cons_self), fun e' he' => h e' (List.mem_cons_of_mem _ he')⟩
            refine ⟨fun x hx => ?_, fun x m k1 k2 k3 k4 k5 k6 => ?_, fun m e' hm => ?_, fun m k1 k2 k3 k4 => ?_⟩
            · exact g2.same x fun m k1 k2 k3 k4 => hx m (by omega) k2 k3 (hsub m (by omega) k4)
            · obtain ⟨l1, l2⟩ := hsup m k4
              exact g2.shows x m (by omega) k2 k3 l2 k5 fun j j1 j2 j3 j4 => k6 j j1 j2 j3 (hsub j (by omega) j4)
            · rcases List.mem_cons.1 hm with h4 | h4
              · injection h4 with h5 h6
                subst h5 h6
                exact ⟨by omega, by omega, hwant, h3⟩
              · obtain ⟨l1, l2, l3⟩ := g2.warn m e' h4
                exact ⟨by omega, l2, l3⟩
            · obtain ⟨l1, l2⟩ := hsup m k4
              exact g2.inside m (by omega) k2 k3 l2
      · rw [if_pos (show (toPhdr (segment f c a)).type ≠ ptLoad from ht)]
        obtain ⟨⟨map', h1, h2⟩, h3⟩ := ih (a + 1) i map hi
        exact ⟨⟨map', h1, fun h => ⟨(h2 h).1, skip (fun hw => ht hw.1) _ _ (h2 h).2⟩⟩, h3⟩
    · rw [if_neg hr]
      exact ⟨⟨map, hi, fun h => absurd (h a (by omega) (by omega)) hr⟩, fun _ => rfl⟩

/-! ## Reading from the image -/

open Props (seen)

theorem read_seen {env : SecEnv} (henv : env.Ok) {i : Img} {map : Map} (hi : ImgInv env i map) (cb : ReadCb) (a : Asid) (x : Nat) :
    (imageRead env cb (.ok ()) i 1 a x).2 =
      match seen x (imageFetch i a x).2 with
      | .ok c => .ok (c.isid, [env.byte c.sec c.off])
      | .err _ => readCallback cb 1 a x
      | .ub => .ub := by
  unfold imageRead imageFetch
  cases h : takeFirst (fun m => m.check a x) i.secs with
  | none => rfl
  | some r =>
    obtain ⟨m, l⟩ := r
    obtain ⟨h1, h2⟩ := takeFirst_some h
    have hm : m ∈ i.secs := h2.mem_iff.mp (by simp)
    obtain ⟨hc, hs⟩ := (check_iff _ _ _).mp h1
    obtain ⟨hr, _⟩ := Props.msec_read henv (hi.wf m hm) (size := 1) (by omega) hc
    have h1 : min 1 (m.end_ - x) = 1 := by have := hc.2; omega
    rw [h1] at hr
    dsimp only
    rw [hr]
    rfl

/-- Only one byte is shown at an address, in all address spaces. -/
theorem read_single {env : SecEnv} (henv : env.Ok) {i : Img} {map : Map} (hi : ImgInv env i map) (cb : ReadCb) (a : Asid)
    (x : Nat) (c : Cell) (hm : map x = [c]) (hc : SameSpace c.asid a) :
    (imageRead env cb (.ok ()) i 1 a x).2 = .ok (c.isid, [env.byte c.sec c.off]) := by
  rw [read_seen henv hi]
  unfold imageFetch
  cases h : takeFirst (fun m => m.check a x) i.secs with
  | none =>
    exfalso
    obtain ⟨m, h1, h2, h3⟩ := (hi.shows x c).2 (by rw [hm]; exact List.mem_singleton_self c)
    have := takeFirst_none.mp h m h1
    rw [(check_iff _ _ _).mpr ⟨h2, by rw [h3] at hc; exact hc⟩] at this
    cases this
  | some r =>
    obtain ⟨m, l⟩ := r
    obtain ⟨h1, h2⟩ := takeFirst_some h
    have hmem : m ∈ i.secs := h2.mem_iff.mp (by simp)
    obtain ⟨hcov, _⟩ := (check_iff _ _ _).mp h1
    have := (hi.shows x (m.cell x)).1 ⟨m, hmem, hcov, rfl⟩
    rw [hm, List.mem_singleton] at this
    rw [← this]
    rfl

/-- Images that show the same at an address are read the same. -/
theorem read_same {env : SecEnv} (henv : env.Ok) {i i' : Img} {map map' : Map} (hi : ImgInv env i map)
    (hi' : ImgInv env i' map') (cb : ReadCb) (a : Asid) (ha : Concrete a) (x : Nat) (h : map' x = map x) :
    (imageRead env cb (.ok ()) i' 1 a x).2 = (imageRead env cb (.ok ()) i 1 a x).2 := by
  rw [read_seen henv hi, read_seen henv hi']
  have key : seen x (imageFetch i' a x).2 = seen x (imageFetch i a x).2 := by
    rcases Props.seen_fetch_cases i a x with h1 | ⟨c, h1⟩
    · rcases Props.seen_fetch_cases i' a x with h2 | ⟨c', h2⟩
      · rw [h1, h2]
      · exfalso
        obtain ⟨g1, g2⟩ := (Props.seen_fetch hi' ha x c').1 h2
        have g3 := (hi.shows x c').2 (by rw [← h]; exact (hi'.shows x c').1 g1)
        rw [(Props.seen_fetch hi ha x c').2 ⟨g3, g2⟩] at h1
        cases h1
    · obtain ⟨g1, g2⟩ := (Props.seen_fetch hi ha x c).1 h1
      have g3 := (hi'.shows x c).2 (by rw [h]; exact (hi.shows x c).1 g1)
      rw [(Props.seen_fetch hi' ha x c).2 ⟨g3, g2⟩, h1]
  rw [key]

end Ipt
