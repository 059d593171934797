import Verif.LoadElfLemmas

/-!
# C72: ELF files are loaded as their program headers say

See `Verif/Spec/Elf.lean` for ELF files.
-/

namespace Ipt

open Spec (SameSpace Concrete Cell Map)
open Spec.Elf

theorem take4_ident (f : List UInt8) : (((f.drop 0).take 16).take 4) = f.take 4 := by
  rw [List.take_take]; rfl

theorem getD_ident (f : List UInt8) : ((f.drop 0).take 16).getD 4 0 = f.getD 4 0 := by
  rw [List.drop_zero, List.getD_eq_getElem?_getD, List.getD_eq_getElem?_getD, List.getElem?_take_of_lt (by omega)]

/-- `load_elf` on a file that is not an ELF file. -/
theorem loadElf_other (w : LoadWorld) (f : List UInt8) (base : Nat) (i : Img) (h : ∀ c, ¬ IsElf f c) :
    loadElf w f base i = ⟨i, [], .err .badConfig⟩ := by
  unfold loadElf fread
  by_cases hl : f.length < 0 + 16
  · rw [if_pos hl]
  rw [if_neg hl]
  dsimp only
  rw [take4_ident, getD_ident]
  by_cases hm : f.take 4 = [0x7f, 0x45, 0x4c, 0x46]
  · rw [if_neg (by simpa using hm)]
    have h4 : f[4]? = some (f.getD 4 0) := by
      rw [List.getD_eq_getElem?_getD, List.getElem?_eq_getElem (by omega)]; rfl
    split
    · rename_i h1; exact absurd ⟨hm, by rw [h4, h1]⟩ (h .elf32)
    · rename_i h1; exact absurd ⟨hm, by rw [h4, h1]⟩ (h .elf64)
    · rfl
  · rw [if_pos (by simpa using hm)]

/-- `load_elf` on an ELF file. -/
theorem loadElf_class (w : LoadWorld) (f : List UInt8) (base : Nat) (i : Img) (c : Class) (h : IsElf f c) :
    loadElf w f base i =
      if headerSize c ≤ f.length then loadElfClass w (layoutOf c) f base i else ⟨i, [], .err .badConfig⟩ := by
  obtain ⟨h1, h2⟩ := h
  unfold loadElf
  by_cases hl : f.length < 0 + 16
  · have : ¬ headerSize c ≤ f.length := by cases c <;> (simp only [headerSize]; omega)
    unfold fread
    rw [if_pos hl, if_neg this]
  · have hc : (if headerSize c ≤ f.length then loadElfClass w (layoutOf c) f base i else ⟨i, [], .err .badConfig⟩) =
        loadElfClass w (layoutOf c) f base i := by
      by_cases hs : headerSize c ≤ f.length
      · rw [if_pos hs]
      · rw [if_neg hs]
        unfold loadElfClass fread
        rw [(layout_sizes c).1, if_pos (by omega)]
    rw [hc, fread, if_neg hl]
    dsimp only
    rw [take4_ident, getD_ident, if_neg (by simpa using h1), List.getD_eq_getElem?_getD, h2]
    cases c <;> rfl

/-- What is added to the addresses of all segments. -/
def biasOf (f : List UInt8) (c : Class) (base : Nat) : Nat :=
  if base = 0 then 0
  else match minLoop (layoutOf c) f (phnum f c) (phoff f c) (2 ^ 64 - 1) with
    | .ok m => (base + 2 ^ 64 - m) % 2 ^ 64
    | _ => 0

theorem inFile_iff {f : List UInt8} {c : Class} (hu : phentsize f c = entrySize c) :
    InFile f c 0 (0 + phnum f c) ↔ ∀ n < phnum f c, phoff f c + (n + 1) * phentsize f c ≤ f.length := by
  rw [hu]
  exact ⟨fun h n hn => h n (by omega) (by omega), fun h n _ hn => h n (by omega)⟩

theorem tooBig_usual {f : List UInt8} {c : Class} (h : phoff f c < 2 ^ 63) : (layoutOf c).tooBig (phoff f c) = false := by
  cases c
  · rfl
  · show decide (2 ^ 63 - 1 < phoff f .elf64) = false
    rw [decide_eq_false_iff_not]; omega

/-- Loading an ELF file whose table has the usual format. -/
theorem loadElf_usual (w : LoadWorld) (henv : w.env.Ok) (f : List UInt8) (base : Nat) (i : Img) (map : Map)
    (hi : ImgInv w.env i map) (c : Class) (h : IsElf f c) (hu : Usual f c) :
    (Complete f c ∧ loadElf w f base i = loadLoop w (layoutOf c) f (biasOf f c base) (phnum f c) 0 (phoff f c) i) ∨
    (¬ Complete f c ∧ (loadElf w f base i).res = .err .badConfig ∧ (base ≠ 0 → (loadElf w f base i).img = i)) := by
  rw [loadElf_class w f base i c h]
  by_cases hs : headerSize c ≤ f.length
  · rw [if_pos hs]
    unfold loadElfClass fread
    rw [(layout_sizes c).1, if_neg (by omega)]
    dsimp only
    rw [(layout_ehdr f c).1, (layout_ehdr f c).2, tooBig_usual hu.2, if_neg (by simp)]
    have hm := minLoop_spec f c hu.1 (phnum f c) 0 (2 ^ 64 - 1)
    have hp : phoff f c + 0 * entrySize c = phoff f c := by omega
    rw [hp] at hm
    have hcomp : Complete f c ↔ InFile f c 0 (0 + phnum f c) := by
      unfold Complete; rw [inFile_iff hu.1]; exact ⟨fun h => h.2, fun h => ⟨hs, h⟩⟩
    by_cases hc : Complete f c
    · refine .inl ⟨hc, ?_⟩
      obtain ⟨m, h1, _⟩ := hm.2 (hcomp.1 hc)
      unfold biasOf
      rw [h1]
      by_cases hb : base = 0
      · rw [if_pos hb, if_pos hb]
      · rw [if_neg hb, if_neg hb]
    · refine .inr ⟨hc, ?_⟩
      have h1 := hm.1 (fun h => hc (hcomp.2 h))
      rw [h1]
      by_cases hb : base = 0
      · rw [if_pos hb]
        dsimp only
        refine ⟨?_, fun h => absurd hb h⟩
        have := (loadLoop_spec w henv f c hu.1 0 (phnum f c) 0 i map hi).2 (fun h => hc (hcomp.2 h))
        rw [hp] at this
        exact this
      · rw [if_neg hb]
        exact ⟨rfl, fun _ => rfl⟩
  · rw [if_neg hs]
    exact .inr ⟨fun h => hs h.1, rfl, fun _ => rfl⟩

/-- Where a segment belongs is where it is put. -/
theorem belongs_iff {f : List UInt8} {c : Class} {base n a : Nat} (hu : Usual f c) (hc : Complete f c) (hb : base < 2 ^ 64)
    (hn : n < phnum f c) (hl : (segment f c n).Loadable) :
    Belongs f c base n a ↔ a = addrOf f c (biasOf f c base) n := by
  unfold Belongs addrOf biasOf
  have hv := segment_vaddr_lt f c n
  by_cases h0 : base = 0
  · rw [if_pos h0, if_pos h0, Nat.add_zero, Nat.mod_eq_of_lt hv]
  · rw [if_neg h0, if_neg h0]
    have hm := minLoop_spec f c hu.1 (phnum f c) 0 (2 ^ 64 - 1)
    rw [show phoff f c + 0 * entrySize c = phoff f c by omega] at hm
    obtain ⟨m, h1, h2, h3, h4⟩ := hm.2 ((inFile_iff hu.1).2 hc.2)
    rw [h1]
    dsimp only
    have hlow : Lowest f c m := by
      refine ⟨?_, fun j hj hjl => h3 j (by omega) (by omega) hjl⟩
      rcases h4 with h4 | ⟨j, _, g2, g3, g4⟩
      · exact ⟨n, hn, hl, by have := h3 n (by omega) (by omega) hl; omega⟩
      · exact ⟨j, by omega, g3, g4⟩
    have hmv := h3 n (by omega) (by omega) hl
    have hval : ((segment f c n).vaddr - m + base) % 2 ^ 64 =
        ((segment f c n).vaddr + (base + 2 ^ 64 - m) % 2 ^ 64) % 2 ^ 64 := by omega
    constructor
    · rintro ⟨low, hlo, rfl⟩
      have : low = m := by
        obtain ⟨j, j1, j2, j3⟩ := hlo.1
        obtain ⟨k, k1, k2, k3⟩ := hlow.1
        have := hlo.2 k k1 k2
        have := hlow.2 j j1 j2
        omega
      rw [this]; exact hval
    · intro ha
      exact ⟨m, hlow, by rw [ha, hval]⟩

end Ipt

namespace Ipt.Spec.Elf

/-- Segment `n` is loaded, and nobody was warned that it is not. -/
def IsLoaded (f : List UInt8) (c : Class) (warned : List (Nat × Err)) (n : Nat) : Prop :=
  n < phnum f c ∧ (segment f c n).Loadable ∧ (segment f c n).filesz ≠ 0 ∧ ∀ e, (n, e) ∉ warned

/-- Address `x` belongs to byte `k` of the contents of segment `n`.  As for all sections of an image, a segment that reaches
the end of the address space is not visible. -/
def HasByte (f : List UInt8) (c : Class) (base n k x : Nat) : Prop :=
  ∃ a, Belongs f c base n a ∧ x = a + k ∧ k < (segment f c n).size f.length ∧
    a + (segment f c n).size f.length < 2 ^ 64

/-- The section objects are right: the one for a segment has the contents of the segment, see C28 and C29. -/
def SectionsOk (w : LoadWorld) (f : List UInt8) (c : Class) : Prop :=
  ∀ n < phnum f c, w.env.size (w.obj n) = (segment f c n).size f.length ∧
    ∀ k < (segment f c n).size f.length, f[(segment f c n).offset + k]? = some (w.env.byte (w.obj n) k)

end Ipt.Spec.Elf

namespace Ipt.Props

open Ipt
open Ipt.Spec (Concrete)
open Ipt.Spec.Elf

/-- **C72.**  For every ELF file, load address and image, and whatever sections cannot be created: when `load_elf` succeeds,
* the image shows, in all address spaces, the bytes of the loaded segments at the addresses where they belong.  If segments
  overlap, it is the last one that counts.
* Addresses that do not belong to a loaded segment are not affected.
* Every segment with contents is loaded, or there is a warning, which gives the reason.  A segment whose contents are not in
  the file is not loaded.
Missing: files whose program headers do not have the usual size, see `C72_entry_size_fails`. -/
theorem C72_loaded_partial (w : LoadWorld) (henv : w.env.Ok) (uc : Nat → Nat) (ops : List ImgOp) (hops : ∀ o ∈ ops, o.Ok)
    (i : Img) (hi : i = (ImgOp.run w.env ⟨[], uc⟩ ops).1) (f : List UInt8) (c : Class) (hf : IsElf f c) (hu : Usual f c)
    (base : Nat) (hb : base < 2 ^ 64) (hw : SectionsOk w f c) (r : LoadOut) (hr : r = loadElf w f base i)
    (hok : r.res = .ok ()) (cb : ReadCb) (asid : Asid) :
    (∀ n k x, IsLoaded f c r.warned n → HasByte f c base n k x →
      (∀ m, n < m → IsLoaded f c r.warned m → ∀ k', ¬ HasByte f c base m k' x) →
      ∃ b, f[(segment f c n).offset + k]? = some b ∧ (imageRead w.env cb (.ok ()) r.img 1 asid x).2 = .ok (w.isid n, [b])) ∧
    (∀ x, Concrete asid → (∀ n k, IsLoaded f c r.warned n → ¬ HasByte f c base n k x) →
      (imageRead w.env cb (.ok ()) r.img 1 asid x).2 = (imageRead w.env cb (.ok ()) i 1 asid x).2) ∧
    (∀ n e, (n, e) ∈ r.warned → n < phnum f c ∧ (segment f c n).Loadable ∧ (segment f c n).filesz ≠ 0 ∧
      (w.fail n = some e ∨ (f.length ≤ (segment f c n).offset ∧ e = .invalid) ∨ e = .nomem)) ∧
    (∀ n, IsLoaded f c r.warned n → (segment f c n).offset < f.length) := by
  have hinv := run_inv henv ops hops (inv_empty w.env uc)
  rw [← hi] at hinv
  obtain ⟨map, hinv⟩ : ∃ map, ImgInv w.env i map := ⟨_, hinv⟩
  obtain ⟨hc, h⟩ : Complete f c ∧
      loadElf w f base i = loadLoop w (layoutOf c) f (biasOf f c base) (phnum f c) 0 (phoff f c) i := by
    rcases loadElf_usual w henv f base i map hinv c hf hu with h | ⟨_, h, _⟩
    · exact h
    · rw [hr, h] at hok; cases hok
  rw [← hr] at h
  obtain ⟨⟨map', h1, h2⟩, _⟩ := loadLoop_spec w henv f c hu.1 (biasOf f c base) (phnum f c) 0 i map hinv
  rw [show phoff f c + 0 * entrySize c = phoff f c by omega, ← h] at h1 h2
  rw [Nat.zero_add] at h2
  obtain ⟨_, h2⟩ := h2 (by have := (inFile_iff hu.1).2 hc.2; rwa [Nat.zero_add] at this)
  -- the two ways of saying that a segment covers an address
  have hcov : ∀ n x, n < phnum f c → (segment f c n).Loadable →
      (CoversAt w f c (biasOf f c base) n x ↔ ∃ k, HasByte f c base n k x) := by
    intro n x hn hl
    unfold CoversAt HasByte
    rw [(hw n hn).1]
    constructor
    · rintro ⟨g1, g2, g3⟩
      exact ⟨x - addrOf f c (biasOf f c base) n, _, (belongs_iff hu hc hb hn hl).2 rfl, by omega, by omega, g3⟩
    · rintro ⟨k, a, g1, g2, g3, g4⟩
      rw [(belongs_iff hu hc hb hn hl).1 g1] at g2 g4
      exact ⟨by omega, by omega, g4⟩
  refine ⟨?_, ?_, ?_, ?_⟩
  · intro n k x ⟨hn, hl, hz, hwn⟩ hx hlast
    have hm := h2.shows x n (by omega) hn ⟨hl, hz⟩ hwn ((hcov n x hn hl).2 ⟨k, hx⟩) (by
      intro m hnm hm hwant hwm hcm
      obtain ⟨k', hk'⟩ := (hcov m x hm hwant.1).1 hcm
      exact hlast m hnm ⟨hm, hwant.1, hwant.2, hwm⟩ k' hk')
    obtain ⟨a, g1, g2, g3, g4⟩ := hx
    rw [(belongs_iff hu hc hb hn hl).1 g1] at g2
    refine ⟨_, (hw n hn).2 k g3, ?_⟩
    rw [read_single henv h1 cb asid x _ hm (sameSpace_any' asid)]
    dsimp only
    rw [g2, Nat.add_sub_cancel_left]
  · intro x ha hx
    refine read_same henv hinv h1 cb asid ha x (h2.same x ?_)
    intro n _ hn hwant hwn hcn
    obtain ⟨k, hk⟩ := (hcov n x hn hwant.1).1 hcn
    exact hx n k ⟨hn, hwant.1, hwant.2, hwn⟩ hk
  · intro n e hne
    obtain ⟨_, g2, g3, g4⟩ := h2.warn n e hne
    exact ⟨g2, g3.1, g3.2, g4⟩
  · intro n ⟨hn, hl, hz, hwn⟩
    exact h2.inside n (by omega) hn ⟨hl, hz⟩ hwn

/-- **C72**, the return value: `load_elf` succeeds exactly if the file is an ELF file with complete headers.  Otherwise it
returns -pte_bad_config.  The image is then unchanged if the file is no ELF file or if there is a load address.
Missing: without load address, the image may be changed on errors, see `C72_partly_loaded_fails`. -/
theorem C72_result_partial (w : LoadWorld) (henv : w.env.Ok) (uc : Nat → Nat) (ops : List ImgOp) (hops : ∀ o ∈ ops, o.Ok)
    (i : Img) (hi : i = (ImgOp.run w.env ⟨[], uc⟩ ops).1) (f : List UInt8) (base : Nat) (r : LoadOut)
    (hr : r = loadElf w f base i) :
    ((∀ c, ¬ IsElf f c) → r = ⟨i, [], .err .badConfig⟩) ∧
    (∀ c, IsElf f c → Usual f c → (r.res = .ok () ↔ Complete f c) ∧ (r.res = .ok () ∨ r.res = .err .badConfig) ∧
      (r.res ≠ .ok () → base ≠ 0 → r.img = i)) := by
  have hinv := run_inv henv ops hops (inv_empty w.env uc)
  rw [← hi] at hinv
  obtain ⟨map, hinv⟩ : ∃ map, ImgInv w.env i map := ⟨_, hinv⟩
  refine ⟨fun h => by rw [hr]; exact loadElf_other w f base i h, fun c hf hu => ?_⟩
  rcases loadElf_usual w henv f base i map hinv c hf hu with ⟨hc, h⟩ | ⟨hc, h, h'⟩
  · rw [← hr] at h
    obtain ⟨⟨map', h1, h2⟩, _⟩ := loadLoop_spec w henv f c hu.1 (biasOf f c base) (phnum f c) 0 i map hinv
    rw [show phoff f c + 0 * entrySize c = phoff f c by omega, ← h] at h2
    have := (h2 ((inFile_iff hu.1).2 hc.2)).1
    rw [this]
    exact ⟨⟨fun _ => hc, fun _ => rfl⟩, .inl rfl, fun h => absurd rfl h⟩
  · rw [← hr] at h h'
    rw [h]
    exact ⟨⟨(fun h => by cases h), fun h => absurd h hc⟩, .inr rfl, fun _ => h'⟩

/-! ### Examples -/

/-- The ELF header of a 32-bit file with the table of program headers behind it. -/
def elfHeader32 (entsize num : UInt8) : List UInt8 :=
  [0x7f, 0x45, 0x4c, 0x46, 1, 1, 1] ++ List.replicate 21 0 ++ [52, 0, 0, 0] ++ List.replicate 10 0 ++
    [entsize, 0, num, 0] ++ List.replicate 6 0

/-- A program header. -/
def elfProgram32 (type offset vaddr0 vaddr1 filesz : UInt8) : List UInt8 :=
  [type, 0, 0, 0, offset, 0, 0, 0, vaddr0, vaddr1, 0, 0, 0, 0, 0, 0, filesz, 0, 0, 0] ++ List.replicate 12 0

/-- A note, and two segments of two and three bytes. -/
def elfFile : List UInt8 :=
  elfHeader32 32 3 ++ elfProgram32 4 0 0 0 9 ++ elfProgram32 1 148 0x10 0x20 2 ++ elfProgram32 1 150 0x00 0x10 3 ++
    [0xc3, 0x90, 1, 2, 3]

/-- The section objects for segments of this file. -/
def elfWorld (f : List UInt8) : LoadWorld where
  env := { size := fun n => (segment f .elf32 n).size f.length % 2 ^ 63, filename := fun _ => "a",
           byte := fun n k => f.getD ((segment f .elf32 n).offset + k) 0 }
  obj n := n
  isid _ := 0
  fail _ := none
  ora _ := []

theorem elfWorld_ok (f : List UInt8) : (elfWorld f).env.Ok := fun _ => Nat.mod_lt _ (by omega)

theorem elfWorld_sections (f : List UInt8) (hf : f.length < 2 ^ 63) : SectionsOk (elfWorld f) f .elf32 := by
  intro n _
  have hs : (segment f .elf32 n).size f.length < 2 ^ 63 := by unfold Spec.Elf.Segment.size; omega
  refine ⟨Nat.mod_eq_of_lt hs, fun k hk => ?_⟩
  show _ = some (f.getD ((segment f .elf32 n).offset + k) 0)
  have : (segment f .elf32 n).offset + k < f.length := by unfold Spec.Elf.Segment.size at hk; omega
  rw [List.getD_eq_getElem?_getD, List.getElem?_eq_getElem this]
  rfl

/-- Not about nothing: the file is loaded at address 0x400000. -/
example : IsElf elfFile .elf32 ∧ Usual elfFile .elf32 ∧ Complete elfFile .elf32 ∧ SectionsOk (elfWorld elfFile) elfFile .elf32 ∧
    (loadElf (elfWorld elfFile) elfFile 0x400000 ⟨[], fun _ => 0⟩).res = .ok () ∧
    HasByte elfFile .elf32 0x400000 2 1 0x400001 ∧
    (imageRead (elfWorld elfFile).env none (.ok ()) (loadElf (elfWorld elfFile) elfFile 0x400000 ⟨[], fun _ => 0⟩).img 1 {}
      0x401010).2 = .ok (0, [0xc3]) ∧
    (imageRead (elfWorld elfFile).env none (.ok ()) (loadElf (elfWorld elfFile) elfFile 0x400000 ⟨[], fun _ => 0⟩).img 1 {}
      0x400002).2 = .ok (0, [3]) := by
  refine ⟨by unfold IsElf; decide +kernel, by unfold Usual; decide +kernel, by unfold Complete; decide +kernel,
    elfWorld_sections _ (by decide +kernel), by decide +kernel, ?_, by decide +kernel, by decide +kernel⟩
  refine ⟨0x400000, ?_, rfl, by decide +kernel, by decide +kernel⟩
  unfold Belongs
  rw [if_neg (by decide)]
  refine ⟨0x1000, ?_, by decide +kernel⟩
  unfold Lowest Spec.Elf.Segment.Loadable
  exact ⟨⟨2, by decide +kernel, by decide +kernel, by decide +kernel⟩, by decide +kernel⟩

/-- **C72 is false of the code** if an error occurs and there is no load address: the table of program headers is not
complete, `load_elf` fails, but the first segment has been loaded. -/
theorem C72_partly_loaded_fails :
    let f := elfHeader32 32 2 ++ elfProgram32 1 0 0 0x10 4 ++ [1, 0, 0, 0]
    IsElf f .elf32 ∧ Usual f .elf32 ∧ ¬ Complete f .elf32 ∧
    (loadElf (elfWorld f) f 0 ⟨[], fun _ => 0⟩).res = .err .badConfig ∧
    (imageRead (elfWorld f).env none (.ok ()) (loadElf (elfWorld f) f 0 ⟨[], fun _ => 0⟩).img 1 {} 0x1000).2 =
      .ok (0, [0x7f]) := by
  refine ⟨by unfold IsElf; decide +kernel, by unfold Usual; decide +kernel, by unfold Complete; decide +kernel,
    by decide +kernel, by decide +kernel⟩

/-- **C72 is false of the code** for program headers of another size: the code ignores `e_phentsize`.  The file has a
segment at 0x1000, which `load_elf` does not load, without warning. -/
theorem C72_entry_size_fails :
    let f := elfHeader32 40 2 ++ elfProgram32 4 0 0 0 0 ++ List.replicate 8 0 ++ elfProgram32 1 0 0 0x10 4 ++ List.replicate 8 0
    IsElf f .elf32 ∧ Complete f .elf32 ∧ segment f .elf32 1 = ⟨1, 0, 4, 0x1000⟩ ∧
    (loadElf (elfWorld f) f 0 ⟨[], fun _ => 0⟩).res = .ok () ∧
    (loadElf (elfWorld f) f 0 ⟨[], fun _ => 0⟩).warned = [] ∧
    (imageRead (elfWorld f).env none (.ok ()) (loadElf (elfWorld f) f 0 ⟨[], fun _ => 0⟩).img 1 {} 0x1000).2 =
      .err .nomap := by
  refine ⟨by unfold IsElf; decide +kernel, by unfold Complete; decide +kernel, by decide +kernel, by decide +kernel,
    by decide +kernel, by decide +kernel⟩

end Ipt.Props
