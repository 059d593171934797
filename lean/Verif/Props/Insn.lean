import Verif.InsnLemmas
import Verif.IldAbs
import Verif.Props.Image

/-!
# C40, C41: next instruction address and instruction fetch
-/

set_option linter.unusedSimpArgs false

namespace Ipt.Props

open Ipt Ild Spec

/-- C41, soundness: whatever the reader does, as long as what it reads is in memory: decoding
an instruction ends, stores at most 15 bytes, and if it succeeds the instruction has 1 to 15 bytes,
which are the memory at its address, and they are this instruction.  Undefined behaviour happens only
in the case of `C39_overread`: 15 bytes can be read in 64-bit mode, of which the last but one is
0xd5.  Missing for the full property: that case. -/
theorem C41_fetch_sound_partial {σ : Type} (rdr : MemReader σ) (good : σ → Prop) (mem : Mem)
    (hr : ReadsFrom rdr good mem) (s : σ) (hs : good s) (i : Insn) (hraw : i.raw.length = 15) :
    good (insnDecode rdr s i).1 ∧
    (∀ j, (insnDecode rdr s i).2 = .ok j → j.ip = i.ip ∧ j.mode = i.mode ∧
      j.raw.length = 15 ∧ 1 ≤ j.size ∧ j.size ≤ 15 ∧
      (∀ k (h : k < j.raw.length), k < j.size → mem ((i.ip + k) % 2 ^ 64) = some j.raw[k]) ∧
      ildDecode j.raw j.size i.mode = (j.size, .ok j.ext)) ∧
    ((insnDecode rdr s i).2 = .ub → i.mode = .b64 ∧
      (∀ k, k < 15 → ∃ b, mem ((i.ip + k) % 2 ^ 64) = some b) ∧
      mem ((i.ip + 13) % 2 ^ 64) = some 0xd5) := by
  unfold insnDecode
  have hg' := hr.keep s 15 i.ip hs
  have hu := hr.safe s 15 i.ip hs
  have hb := hr.bytes s 15 i.ip
  rcases hq : rdr s 15 i.ip with ⟨s', ⟨isid, bs⟩ | e | _⟩ <;> rw [hq] at hg' hu hb
  · dsimp only at hg' hb ⊢
    obtain ⟨h3, h4⟩ := hb isid bs hs (by omega) rfl
    rw [store_ok (by omega)]
    dsimp only
    have hlen := store_length (raw := i.raw) (bs := bs) (pos := 0) (by omega)
    have hh : Holds mem i.ip _ (0 + bs.length) := holds_store (n := 0) (raw := i.raw) (bs := bs)
      ⟨by omega, fun k _ h => by omega⟩ (by omega)
      (fun k hk => by rw [Nat.mod_add_mod]; exact h4 k hk)
    simp only [Nat.zero_add] at hlen hh ⊢
    generalize i.raw.take 0 ++ bs ++ i.raw.drop bs.length = raw' at hlen hh ⊢
    rcases hil : ildDecode raw' bs.length i.mode with ⟨n, x | e | _⟩
    · have hn := C39_size _ _ _ _ _ hil
      refine ⟨hg', ?_, fun hj => by cases hj⟩
      intro j hj
      cases hj
      exact ⟨rfl, rfl, hlen.trans hraw, hn.1, (by dsimp only; omega), fun k a b =>
        hh.2 k a (by dsimp only at b; omega),
        C39_depends_on_instruction_only raw' raw' _ n i.mode n x (by omega) (Nat.le_refl _) hil rfl⟩
    · obtain ⟨rfl, rfl⟩ := C39_error _ _ _ _ _ (by omega) hil
      simp only [ne_eq, not_true_eq_false, if_false]
      obtain ⟨r1, r2, r3⟩ := retry_sound hr 16 s' { i with isid, raw := raw', size := bs.length } hg'
        (by dsimp only; omega) (hlen.trans hraw) hh
      refine ⟨r1, fun j hj => ?_, r3⟩
      obtain ⟨a, b, c, d, e, f⟩ := r2 j hj
      have := e.1
      refine ⟨a, b, c, d, by omega, e.2, ?_⟩
      rw [b] at f; exact f
    · exact ⟨hg', fun j hj => (by cases hj), fun _ => holds_ub hh (hlen.trans hraw) (by rw [hil])⟩
  · exact ⟨hg', fun j hj => (by cases hj), fun hj => by cases hj⟩
  · exact absurd rfl hu

/-- C41, completeness: if the reader finds what is in memory, in pieces of any size, the outcome is
that of decoding the up to 15 bytes that are there in one piece; it does not depend on how the
bytes are spread over sections.  Without memory at the address it is -pte_nomap.  The section
identifier is that of the section with the first byte, and the instruction is marked truncated if
and only if it does not fit into that section. -/
theorem C41_fetch_split {σ : Type} (rdr : MemReader σ) (good : σ → Prop) (mem : Mem)
    (hr : ReadsAll rdr good mem) (s : σ) (hs : good s) (i : Insn) (hraw : i.raw.length = 15)
    (ht : i.truncated = false) (hip : i.ip < 2 ^ 64) (B : List UInt8) (hB : B = avail mem i.ip 15) :
    (B = [] → (insnDecode rdr s i).2 = .err .nomap) ∧
    (B ≠ [] → ∃ isid k, (rdr s 15 i.ip).2 = .ok (isid, B.take k) ∧ 1 ≤ k ∧ k ≤ B.length ∧
      match ildDecode (B ++ i.raw.drop B.length) B.length i.mode with
      | (n, .ok x) => ∃ j, (insnDecode rdr s i).2 = .ok j ∧ j.size = n ∧ j.ext = x ∧
          j.raw.take n = B.take n ∧ j.isid = isid ∧ (j.truncated = true ↔ k < n)
      | (_, .err e) => (insnDecode rdr s i).2 = .err e
      | (_, .ub) => (insnDecode rdr s i).2 = .ub) := by
  subst hB
  have hmod : i.ip % 2 ^ 64 = i.ip := Nat.mod_eq_of_lt hip
  have hBl := avail_length mem 15 i.ip
  refine ⟨fun h => ?_, fun h => ?_⟩
  · have hn : mem i.ip = none := by
      have := avail_end mem 15 i.ip (by rw [h]; simp)
      rw [h] at this
      simpa [hmod] using this
    have := hr.none s 15 i.ip hs hip hn
    unfold insnDecode
    rcases hq : rdr s 15 i.ip with ⟨s', r⟩
    rw [hq] at this
    dsimp only at this
    subst this
    rfl
  · have hpos : 0 < (avail mem i.ip 15).length := List.length_pos_iff.2 h
    have hsome := avail_get mem 15 i.ip 0 hpos
    rw [Nat.add_zero, hmod] at hsome
    obtain ⟨isid, bs, h1, h2⟩ := hr.some s 15 i.ip _ hs (by omega) (by omega) hip hsome
    obtain ⟨h3, h4⟩ := hr.bytes _ _ _ _ _ hs (by omega) h1
    have hg' := hr.keep s 15 i.ip hs
    obtain ⟨hk, hbs⟩ := avail_of_bytes (mem := mem) (ip := i.ip) (n := 15) h3 h4
    refine ⟨isid, bs.length, by rw [hbs]; exact h1, h2, hk, ?_⟩
    have key : outR (insnDecode rdr s i).2 =
        outcome i (avail mem i.ip 15) i.raw isid bs.length ∧
        ∀ j, (insnDecode rdr s i).2 = .ok j →
          j.raw.take j.size = (avail mem i.ip 15).take j.size := by
      unfold insnDecode
      rcases hq : rdr s 15 i.ip with ⟨s', r⟩
      rw [hq] at h1 hg'
      dsimp only at h1 hg'
      subst h1
      dsimp only
      rw [store_ok (by omega)]
      dsimp only
      have hlen := store_length (raw := i.raw) (bs := bs) (pos := 0) (by omega)
      have htk := store_take (raw := i.raw) (bs := bs) (pos := 0) (by omega)
      simp only [Nat.zero_add, List.take_zero, List.nil_append] at hlen htk ⊢
      generalize bs ++ i.raw.drop bs.length = raw' at hlen htk
      have p' := piece (mode := i.mode) hk hBl hraw (hlen.trans hraw) (htk.trans hbs.symm)
      rcases hil : ildDecode raw' bs.length i.mode with ⟨n, x | e | _⟩
      · have hfull := p'.1 n x hil
        have hn := C39_size _ _ _ _ _ hil
        refine ⟨?_, ?_⟩
        · unfold outcome
          rw [hfull]
          simp only [outR, Insn.out, ht]
          simp; omega
        · intro j hj
          cases hj
          have := congrArg (List.take n) (htk.trans hbs.symm)
          rw [List.take_take, List.take_take, Nat.min_eq_left hn.2] at this
          exact this
      · obtain ⟨rfl, rfl⟩ := C39_error _ _ _ _ _ (by omega) hil
        simp only [ne_eq, not_true_eq_false, if_false]
        have := retry_outcome hr hraw 16 s' { i with isid, raw := raw', size := bs.length } hg'
          (by dsimp only; omega) (hlen.trans hraw) hk (k0 := bs.length) (by dsimp only; omega)
          (htk.trans hbs.symm) hil
        exact ⟨this.1, fun j hj => (this.2 j hj).2.2⟩
      · refine ⟨?_, fun j hj => by cases hj⟩
        have hlt : ¬ bs.length < (avail mem i.ip 15).length := by
          intro hc
          have := p'.2.2.2 hc
          rw [hil] at this
          exact this rfl
        have := p'.2.2.1 (by omega)
        unfold outcome
        rw [← this, hil]
        rfl
    obtain ⟨key, kraw⟩ := key
    unfold outcome at key
    rcases hil : ildDecode (avail mem i.ip 15 ++ i.raw.drop (avail mem i.ip 15).length)
      (avail mem i.ip 15).length i.mode with ⟨n, x | e | _⟩
    all_goals
      rw [hil] at key
      rcases hi : (insnDecode rdr s i).2 with j | e' | _ <;> rw [hi] at key <;>
        simp only [outR, Insn.out, Res.ok.injEq, Prod.mk.injEq, Res.err.injEq, reduceCtorEq] at key
    · obtain ⟨rfl, rfl, rfl, k4⟩ := key
      exact ⟨j, rfl, rfl, rfl, kraw j hi, rfl, by rw [k4]; simp⟩
    · simp [key]

/-- An image that shows `map`, and mapping its sections succeeds. -/
def Shows (env : SecEnv) (map : Map) (s : Img × List (Res Unit)) : Prop :=
  s.2 = [] ∧ ImgInv env s.1 map

theorem imgMem_unique {env : SecEnv} {i : Img} {map : Map} (hi : ImgInv env i map) {asid : Asid}
    (ha : Concrete asid) {x : Nat} {c : Cell} (hc : c ∈ map x) (hs : SameSpace c.asid asid) :
    imgMem env map asid x = some (env.byte c.sec c.off) := by
  have huniq : ∀ d ∈ map x, SameSpace d.asid asid → d = c := by
    intro d hd hds
    obtain ⟨m, hm, hcov, hcell⟩ := (hi.shows x c).mpr hc
    obtain ⟨n, hn, hcov', hcell'⟩ := (hi.shows x d).mpr hd
    by_cases he : m = n
    · rw [hcell, hcell', he]
    · exfalso
      refine apart_of_mem hi.apart hm hn he ?_ x ⟨hcov, hcov'⟩
      have h1 : SameSpace m.asid asid := by rw [hcell] at hs; exact hs
      have h2 : SameSpace n.asid asid := by rw [hcell'] at hds; exact hds
      unfold Concrete at ha
      unfold SameSpace at *
      generalize asidNone = z at *
      obtain ⟨a1, a2⟩ := ha
      refine ⟨?_, ?_⟩
      · rcases h1.1 with h | h | h <;> rcases h2.1 with g | g | g <;> simp_all
      · rcases h1.2 with h | h | h <;> rcases h2.2 with g | g | g <;> simp_all
  unfold imgMem
  rcases hf : (map x).find? (fun c => SameSpace c.asid asid) with _ | d
  · have := List.find?_eq_none.1 hf c hc
    simp [hs] at this
  · have h1 := List.mem_of_find?_eq_some hf
    have h2 := List.find?_some hf
    rw [hf, huniq d h1 (by simpa using h2)]
    rfl

theorem imgMem_none {env : SecEnv} {map : Map} {asid : Asid} {x : Nat} :
    imgMem env map asid x = none ↔ ∀ c ∈ map x, ¬ SameSpace c.asid asid := by
  unfold imgMem
  simp [List.find?_eq_none]

theorem fetch_ok {env : SecEnv} {i : Img} {map : Map} (hi : ImgInv env i map) {asid : Asid}
    {x : Nat} : ((imageFetch i asid x).2 = .err .nomap ∧ ∀ c ∈ map x, ¬ SameSpace c.asid asid) ∨
      ∃ m, (imageFetch i asid x).2 = .ok m ∧ m ∈ i.secs ∧ m.Covers x ∧ SameSpace m.asid asid := by
  unfold imageFetch
  cases h : takeFirst (fun m => m.check asid x) i.secs with
  | none =>
    left
    refine ⟨rfl, fun c hc hs => ?_⟩
    obtain ⟨m, hm, hcov, hcell⟩ := (hi.shows x c).mpr hc
    have := takeFirst_none.mp h m hm
    rw [(check_iff _ _ _).mpr ⟨hcov, by rw [hcell] at hs; exact hs⟩] at this
    cases this
  | some r =>
    right
    obtain ⟨h1, h2⟩ := takeFirst_some (l' := r.2) h
    exact ⟨_, rfl, h2.mem_iff.mp (by simp), (check_iff _ _ _).mp h1⟩

theorem imageRead_img (env : SecEnv) (cb mapErr i size asid x) :
    (imageRead env cb mapErr i size asid x).1 = (imageFetch i asid x).1 := by
  unfold imageRead
  split <;> rename_i h <;> rw [h]
  split
  · rfl
  · rfl
  · split <;> rfl

/-- The library's image reads from the memory it shows, also if mapping fails now and then. -/
theorem img_readsFrom (env : SecEnv) (henv : env.Ok) (map : Map) (asid : Asid)
    (ha : Concrete asid) : ReadsFrom (imgReader env none asid)
      (fun s => ImgInv env s.1 map ∧ ∀ r ∈ s.2, r ≠ .ub) (imgMem env map asid) := by
  have hub : ∀ l : List (Res Unit), (∀ r ∈ l, r ≠ .ub) → l.headD (.ok ()) ≠ .ub := by
    intro l hl; cases l with
    | nil => simp
    | cons a l => exact hl a (by simp)
  refine ⟨?_, ?_, ?_⟩
  · rintro ⟨i, o⟩ size a ⟨h1, h2⟩
    refine ⟨?_, fun r hr => h2 r (List.mem_of_mem_tail hr)⟩
    have := step_preserves henv h1 (.lookup asid a) trivial
    show ImgInv env (imageRead env none _ i size asid a).1 map
    rw [imageRead_img]
    exact this
  · rintro ⟨i, o⟩ size a isid bs ⟨h1, h2⟩ hsz h
    change (imageRead env none (o.headD (.ok ())) i size asid a).2 = _ at h
    have h3 := hub o h2
    rcases fetch_ok h1 (asid := asid) (x := a) with ⟨hf, -⟩ | ⟨m, hf, hm, hcov, hsp⟩
    · unfold imageRead at h
      rcases hq : imageFetch i asid a with ⟨j, r⟩
      rw [hq] at h hf
      dsimp only at hf; subst hf
      cases h
    · obtain ⟨hr, hcv⟩ := msec_read henv (h1.wf m hm) (size := size) (by omega) hcov
      unfold imageRead at h
      rcases hq : imageFetch i asid a with ⟨j, r⟩
      rw [hq] at h hf
      dsimp only at hf; subst hf
      dsimp only at h
      rcases ho : o.headD (.ok ()) with _ | _ | _ <;> rw [ho] at h h3
      · dsimp only at h
        rw [hr] at h
        cases h
        refine ⟨by simp; omega, fun k hk => ?_⟩
        have hk' : k < min size (m.end_ - a) := by simpa using hk
        have hc := hcv k hk'
        have hlt : (a + k) % 2 ^ 64 = a + k := by
          have := hc.2
          unfold Msec.end_ at this
          omega
        rw [hlt, imgMem_unique h1 ha ((h1.shows _ (m.cell (a + k))).mp ⟨m, hm, hc, rfl⟩) hsp]
        simp [Msec.cell]
      · cases h
      · cases h
  · rintro ⟨i, o⟩ size a ⟨h1, h2⟩ h
    change (imageRead env none (o.headD (.ok ())) i size asid a).2 = _ at h
    have h3 := hub o h2
    rcases fetch_ok h1 (asid := asid) (x := a) with ⟨hf, -⟩ | ⟨m, hf, hm, hcov, hsp⟩
    · unfold imageRead at h
      rcases hq : imageFetch i asid a with ⟨j, r⟩
      rw [hq] at h hf
      dsimp only at hf; subst hf
      cases h
    · have hr : m.read env size a ≠ .ub := by
        unfold Msec.read sectionRead
        dsimp only
        repeat' split
        all_goals simp
      unfold imageRead at h
      rcases hq : imageFetch i asid a with ⟨j, r⟩
      rw [hq] at h hf
      dsimp only at hf; subst hf
      dsimp only at h
      rcases ho : o.headD (.ok ()) with _ | _ | _ <;> rw [ho] at h h3
      · dsimp only at h
        revert h hr
        rcases m.read env size a with bs | e | _
        · simp
        · intro _; cases e <;> simp [readCallback]
        · simp
      · cases h
      · exact h3 rfl

/-- If mapping succeeds, it finds all of it. -/
theorem img_readsAll (env : SecEnv) (henv : env.Ok) (map : Map) (asid : Asid)
    (ha : Concrete asid) : ReadsAll (imgReader env none asid)
      (fun s => ImgInv env s.1 map ∧ s.2 = []) (imgMem env map asid) := by
  have hf := img_readsFrom env henv map asid ha
  refine ⟨⟨?_, ?_, ?_⟩, ?_, ?_⟩
  · rintro s size a ⟨h1, h2⟩
    refine ⟨(hf.keep s size a ⟨h1, by rw [h2]; simp⟩).1, ?_⟩
    show s.2.tail = []
    rw [h2]; rfl
  · rintro s size a isid bs ⟨h1, h2⟩ hsz h
    exact hf.bytes s size a isid bs ⟨h1, by rw [h2]; simp⟩ hsz h
  · rintro s size a ⟨h1, h2⟩
    exact hf.safe s size a ⟨h1, by rw [h2]; simp⟩
  · rintro ⟨i, o⟩ size a b ⟨h1, h2⟩ hs1 hs2 hlt hm
    dsimp only at h1 h2
    subst h2
    show ∃ isid bs, (imageRead env none (.ok ()) i size asid a).2 = _ ∧ _
    rcases fetch_ok h1 (asid := asid) (x := a) with ⟨hn, hno⟩ | ⟨m, hf, hmm, hcov, hsp⟩
    · rw [imgMem_none.2 hno] at hm; cases hm
    · obtain ⟨hr, -⟩ := msec_read henv (h1.wf m hmm) (size := size) (by omega) hcov
      unfold imageRead
      rcases hq : imageFetch i asid a with ⟨j, r⟩
      rw [hq] at hf
      dsimp only at hf; subst hf
      dsimp only
      rw [hr]
      refine ⟨_, _, rfl, ?_⟩
      have := hcov.2
      simp; omega
  · rintro ⟨i, o⟩ size a ⟨h1, h2⟩ hlt hm
    dsimp only at h1 h2
    subst h2
    show (imageRead env none (.ok ()) i size asid a).2 = _
    rcases fetch_ok h1 (asid := asid) (x := a) with ⟨hn, hno⟩ | ⟨m, hf, hmm, hcov, hsp⟩
    · unfold imageRead
      rcases hq : imageFetch i asid a with ⟨j, r⟩
      rw [hq] at hn
      dsimp only at hn; subst hn
      rfl
    · have := imgMem_unique h1 ha ((h1.shows _ (m.cell a)).mp ⟨m, hmm, hcov, rfl⟩) hsp
      rw [hm] at this; cases this

/-- C41 for the library's image: in every image that a history of operations leads to and in every
concrete address space, `pt_insn_decode` has the outcome of decoding, in one piece, the up to 15
bytes the image shows at the address. -/
theorem C41_fetch_image (env : SecEnv) (henv : env.Ok) (uc : Nat → Nat) (ops : List ImgOp)
    (hops : ∀ o ∈ ops, o.Ok) (asid : Asid) (ha : Concrete asid) (i : Insn)
    (hraw : i.raw.length = 15) (ht : i.truncated = false) (hip : i.ip < 2 ^ 64) (B : List UInt8)
    (hB : B = avail (imgMem env
      (Map.run env.size env.filename (ImgOp.run env ⟨[], uc⟩ ops).2) asid) i.ip 15) :
    let r := (insnDecode (imgReader env none asid) ((ImgOp.run env ⟨[], uc⟩ ops).1, []) i).2
    (B = [] → r = .err .nomap) ∧
    (B ≠ [] →
      match ildDecode (B ++ i.raw.drop B.length) B.length i.mode with
      | (n, .ok x) => ∃ j, r = .ok j ∧ j.size = n ∧ j.ext = x ∧ j.raw.take n = B.take n
      | (_, .err e) => r = .err e
      | (_, .ub) => r = .ub) := by
  have hinv := run_inv henv ops hops (inv_empty env uc)
  dsimp only
  obtain ⟨h1, h2⟩ := C41_fetch_split _ _ _ (img_readsAll env henv _ asid ha)
    ((ImgOp.run env ⟨[], uc⟩ ops).1, []) ⟨hinv, rfl⟩ i hraw ht hip B hB
  refine ⟨h1, fun hne => ?_⟩
  obtain ⟨isid, k, -, -, -, h3⟩ := h2 hne
  revert h3
  rcases ildDecode (B ++ i.raw.drop B.length) B.length i.mode with ⟨n, x | e | _⟩
  · rintro ⟨j, h4, h5, h6, h7, -⟩
    exact ⟨j, h4, h5, h6, h7⟩
  · exact id
  · exact id

/-- Two sections that meet in the middle of a call: the instruction is put together from both and
marked truncated. -/
example : ∃ env : SecEnv, env.Ok ∧
    let s := (ImgOp.run env ⟨[], fun _ => 1⟩ [.add 0 {} 0x1000 7 [], .add 1 {} 0x1002 8 []]).1
    let i : Insn := { ip := 0x1000, mode := .b64 }
    ((insnDecode (imgReader env none ⟨1, 1⟩) (s, []) i).2 =
      .ok { i with
        isid := 7, size := 5, truncated := true, ext := ⟨.call, .callE8, 0x10, true⟩
        raw := [0xe8, 0x10, 0, 0, 0, 0, 0, 0, 0, 0, 0, 0, 0, 0, 0] }) := by
  refine ⟨⟨fun s => if s = 0 then 2 else 3, fun _ => "a",
    fun s o => if s = 0 then (if o = 0 then 0xe8 else 0x10) else 0⟩, ?_, ?_⟩
  · intro s; dsimp only; split <;> omega
  · decide +kernel

/-- `t` is the 64-bit address `v` wraps around to. -/
def IsAddr (t : Nat) (v : Int) : Prop := t < 2 ^ 64 ∧ ∃ k : Int, (t : Int) = v + k * 2 ^ 64

theorem isAddr_add {ip : Nat} {d : Int} {t : Nat} : addDisp ip d = t ↔ IsAddr t (ip + d) := by
  unfold addDisp IsAddr
  generalize (ip : Int) + d = v
  constructor
  · rintro rfl
    refine ⟨by omega, -(v / 2 ^ 64), by omega⟩
  · rintro ⟨h1, k, h2⟩
    omega

/-- C40, next address: the address statically known to follow a decoded instruction is that of
the next instruction, modulo 2^64, for instructions that do not branch; it is the address of the
next instruction plus the displacement for direct calls and jumps; for all others there is
none. -/
theorem C40_next_ip (raw : List UInt8) (max : Nat) (i : Insn) (hl : max ≤ raw.length)
    (h : ildDecode raw max i.mode = (i.size, .ok i.ext)) (t : Nat) :
    nextIp i = .ok t ↔
      ((i.ext.cls = .other ∨ i.ext.cls = .ptwrite) ∧ IsAddr t (i.ip + i.size)) ∨
      ((i.ext.cls = .call ∨ i.ext.cls = .jump) ∧ ∃ d, DirectBranch i.mode (raw.take i.size) i.ext.cls d ∧
        IsAddr t (i.ip + i.size + d)) := by
  have hn := C39_size raw max i.mode _ _ h
  have fall : (i.ip + i.size) % 2 ^ 64 = t ↔ IsAddr t (i.ip + i.size) := by
    rw [show ((i.ip : Int) + i.size) = ((i.ip + i.size : Nat) : Int) + 0 from by omega,
      ← isAddr_add]
    unfold addDisp
    omega
  have addr : ∀ d, addDisp ((i.ip + i.size) % 2 ^ 64) d = t ↔ IsAddr t (i.ip + i.size + d) := by
    intro d
    rw [show ((i.ip : Int) + i.size + d) = ((i.ip + i.size : Nat) : Int) + d from by omega,
      ← isAddr_add]
    unfold addDisp
    omega
  have dir : i.ext.isDirect = true → i.ext.inst ≠ .jmpabs →
      ∀ d, DirectBranch i.mode (raw.take i.size) i.ext.cls d → i.ext.displacement = d := by
    intro _ _ d hd
    obtain ⟨x, hx, -, h3, -⟩ := C40_direct_complete raw max i.mode i.size _ d hl hn.2 hd
    rw [h] at hx
    cases hx
    exact h3
  have ndir : ∀ d, DirectBranch i.mode (raw.take i.size) i.ext.cls d →
      i.ext.isDirect = true ∧ i.ext.inst ≠ .jmpabs := by
    intro d hd
    obtain ⟨x, hx, -, -, h4, h5⟩ := C40_direct_complete raw max i.mode i.size _ d hl hn.2 hd
    rw [h] at hx
    cases hx
    exact ⟨h4, h5⟩
  have snd := C40_direct_sound raw max i.mode i.size i.ext hl h
  have both : (∀ d, DirectBranch i.mode (raw.take i.size) i.ext.cls d →
        i.ext.isDirect = true ∧ i.ext.inst ≠ .jmpabs) →
      (i.ext.inst ≠ .jmpabs) → i.ext.isDirect = true →
      (addDisp ((i.ip + i.size) % 2 ^ 64) i.ext.displacement = t ↔
        ∃ d, DirectBranch i.mode (raw.take i.size) i.ext.cls d ∧ IsAddr t (i.ip + i.size + d)) := by
    intro _ h1 h2
    rw [addr]
    constructor
    · intro h3; exact ⟨_, snd h2 h1, h3⟩
    · rintro ⟨d, hd, h3⟩; rw [dir h2 h1 d hd]; exact h3
  unfold nextIp
  dsimp only
  rcases hc : i.ext.cls <;> simp only [hc] at dir ndir snd both ⊢ <;>
    simp only [Res.ok.injEq, reduceCtorEq, true_or, or_true, true_and, false_or, or_false,
      false_and, fall, or_self, false_iff, not_false_eq_true]
  · -- call
    by_cases hj : i.ext.inst = .jmpabs
    · have hcj := (Ild.abs_sound h hj hl).1
      rw [hc] at hcj; cases hcj
    by_cases hd : i.ext.isDirect = true
    · rw [if_pos hd, Res.ok.injEq]; exact both ndir hj hd
    · rw [if_neg hd]
      simp only [reduceCtorEq, false_iff]
      rintro ⟨d, h1, -⟩
      exact hd (ndir d h1).1
  · by_cases hj : i.ext.inst = .jmpabs
    · rw [if_pos hj]
      simp only [reduceCtorEq, false_iff]
      rintro ⟨d, h1, -⟩
      exact (ndir d h1).2 hj
    rw [if_neg hj]
    by_cases hd : i.ext.isDirect = true
    · rw [if_pos hd, Res.ok.injEq]; exact both ndir hj hd
    · rw [if_neg hd]
      simp only [reduceCtorEq, false_iff]
      rintro ⟨d, h1, -⟩
      exact hd (ndir d h1).1

/-- A short jump backwards over address zero. -/
example : nextIp { ip := 2, mode := .b32, size := 2, ext := (⟨.jump, .jmpEB, -6, true⟩ : Iext) } =
    .ok 0xfffffffffffffffe := by decide +kernel

/-- C40, JMPABS: an instruction is reported as JMPABS, a direct jump that nevertheless has its
target in the trace, if and only if its bytes are the encoding of JMPABS; the reported displacement
is its target. -/
theorem C40_jmpabs (raw : List UInt8) (max n : Nat) (mode : Mode) (x : Iext) (hl : max ≤ raw.length)
    (h : ildDecode raw max mode = (n, .ok x)) :
    (x.inst = .jmpabs ↔ ∃ t, JmpAbs mode (raw.take n) t) ∧
    (x.inst = .jmpabs → x.cls = .jump ∧ JmpAbs mode (raw.take n) x.displacement) := by
  have hn := C39_size raw max mode _ _ h
  refine ⟨⟨fun hj => ⟨_, (Ild.abs_sound h hj hl).2.2⟩, ?_⟩, fun hj =>
    ⟨(Ild.abs_sound h hj hl).1, (Ild.abs_sound h hj hl).2.2⟩⟩
  rintro ⟨t, ht⟩
  have := Ild.abs_complete hn.2 hl ht
  rw [h] at this
  cases this
  rfl

example : ildDecode [0xd5, 0x00, 0xa1, 1, 2, 3, 4, 5, 6, 7, 0x80, 0, 0, 0, 0] 15 .b64 =
    (11, .ok ⟨.jump, .jmpabs, 0x807060504030201 - 0x8800000000000000, true⟩) := by decide +kernel

end Ipt.Props
