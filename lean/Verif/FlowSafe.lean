import Verif.Spec.Safe
import Verif.InsnFlowMem

/-!
# Helper lemmas: fetching instructions is defined
-/

set_option linter.unusedSimpArgs false

namespace Ipt

open Ild Spec Props

/-- What a reader reads is in memory, and reading is defined. -/
structure ReadsSafe {σ} (rdr : MemReader σ) (good : σ → Prop) (mem : Nat → UInt8 → Prop) : Prop extends
    ReadsRel rdr good mem where
  safe : ∀ s size a, good s → size ≤ 15 → (rdr s size a).2 ≠ .ub
  len : ∀ s size a isid bs, good s → size ≤ 15 → (rdr s size a).2 = .ok (isid, bs) → bs.length ≤ size

/-- No fifteen bytes of which the last but one is 0xd5. -/
def NoRex2 (mem : Nat → UInt8 → Prop) : Prop :=
  ∀ x, (∀ k, k < 15 → ∃ b, mem ((x + k) % 2 ^ 64) b) → ¬ mem ((x + 13) % 2 ^ 64) 0xd5

theorem holdsRel_safe {mem : Nat → UInt8 → Prop} (hx : NoRex2 mem) {ip : Nat} {raw : List UInt8} {n : Nat} {mode : Mode}
    (hl : raw.length = 15) (h : HoldsRel mem ip raw n) : (ildDecode raw n mode).2 ≠ .ub := by
  have hn := h.1
  refine C39_reads_inside_partial raw n mode hn ?_
  rintro ⟨-, h1, i, h2, h3⟩
  have hi : i = 13 := by omega
  subst hi
  refine hx ip (fun k hk => ⟨raw[k], h.2 k (by omega) (by omega)⟩) ?_
  have := h.2 13 (by omega) (by omega)
  have he : raw[13]'(by omega) = 0xd5 := by
    rw [List.getElem?_eq_getElem (by omega)] at h3
    injection h3
  rw [he] at this
  exact this

variable {σ : Type} {rdr : MemReader σ} {good : σ → Prop} {mem : Nat → UInt8 → Prop}

theorem retry_safe (hr : ReadsSafe rdr good mem) (hx : NoRex2 mem) :
    ∀ (fuel : Nat) (s : σ) (i : Insn), good s → i.raw.length = 15 → HoldsRel mem i.ip i.raw i.size → 16 ≤ fuel + i.size →
      (insnRetry rdr fuel s i).2 ≠ .ub
  | 0, s, i, hg, hl, h, hf => by have := h.1; omega
  | fuel + 1, s, i, hg, hl, h, hf => by
    have h1 := h.1
    unfold insnRetry
    dsimp only
    by_cases hz : 15 - i.size = 0
    · rw [if_pos hz]; simp
    rw [if_neg hz]
    have hg' := hr.keep s (15 - i.size) ((i.ip + i.size) % 2 ^ 64) hg
    have hb := hr.bytes s (15 - i.size) ((i.ip + i.size) % 2 ^ 64)
    have hs := hr.safe s (15 - i.size) ((i.ip + i.size) % 2 ^ 64) hg (by omega)
    have hln := hr.len s (15 - i.size) ((i.ip + i.size) % 2 ^ 64)
    rcases hq : rdr s (15 - i.size) ((i.ip + i.size) % 2 ^ 64) with ⟨s', ⟨isid, bs⟩ | e | _⟩ <;>
      rw [hq] at hg' hb hs hln
    · dsimp only at hg' hb hln ⊢
      have h4 := hb isid bs hg (by omega) rfl
      have h5 := hln isid bs hg (by omega) rfl
      split
      · simp
      rename_i hbs
      rw [store_ok (by omega)]
      dsimp only
      have hlen := store_length (raw := i.raw) (bs := bs) (pos := i.size) (by omega)
      have hh := holdsRel_store h (by omega) h4
      generalize i.raw.take i.size ++ bs ++ i.raw.drop (i.size + bs.length) = raw' at hlen hh
      have hsafe := holdsRel_safe hx (mode := i.mode) (hlen.trans hl) hh
      rcases hil : ildDecode raw' (i.size + bs.length) i.mode with ⟨n, x | e | _⟩ <;> rw [hil] at hsafe
      · simp
      · obtain ⟨rfl, rfl⟩ := C39_error _ _ _ _ _ (by omega) hil
        simp only [ne_eq, not_true_eq_false, if_false]
        exact retry_safe hr hx fuel s' { i with raw := raw', size := i.size + bs.length } hg' (hlen.trans hl) hh
          (by dsimp only; omega)
      · exact absurd rfl hsafe
    · cases e <;> simp
    · exact absurd rfl hs

theorem decode_safe (hr : ReadsSafe rdr good mem) (hx : NoRex2 mem) (s : σ) (i : Insn) (hg : good s)
    (hl : i.raw.length = 15) : (insnDecode rdr s i).2 ≠ .ub := by
  unfold insnDecode
  have hg' := hr.keep s 15 i.ip hg
  have hb := hr.bytes s 15 i.ip
  have hs := hr.safe s 15 i.ip hg (by omega)
  have hln := hr.len s 15 i.ip
  rcases hq : rdr s 15 i.ip with ⟨s', ⟨isid, bs⟩ | e | _⟩ <;> rw [hq] at hg' hb hs hln
  · dsimp only at hg' hb hln ⊢
    have h4 := hb isid bs hg (by omega) rfl
    have h5 := hln isid bs hg (by omega) rfl
    rw [store_ok (by omega)]
    dsimp only
    have hlen := store_length (raw := i.raw) (bs := bs) (pos := 0) (by omega)
    have hh := holdsRel_store (raw := i.raw) (bs := bs) (holdsRel_zero mem i.ip i.raw) (by omega) (by
      intro k hk; simpa using h4 k hk)
    generalize i.raw.take 0 ++ bs ++ i.raw.drop (0 + bs.length) = raw' at hlen hh
    rw [Nat.zero_add] at hh
    have hsafe := holdsRel_safe hx (mode := i.mode) (hlen.trans hl) hh
    rcases hil : ildDecode raw' bs.length i.mode with ⟨n, x | e | _⟩ <;> rw [hil] at hsafe
    · simp
    · obtain ⟨rfl, rfl⟩ := C39_error _ _ _ _ _ (by omega) hil
      simp only [ne_eq, not_true_eq_false, if_false]
      exact retry_safe hr hx 16 s' { i with isid := isid, raw := raw', size := bs.length } hg' (hlen.trans hl) hh
        (by omega)
    · exact absurd rfl hsafe
  · simp
  · exact absurd rfl hs

theorem nextIp_safe (i : Insn) : nextIp i ≠ .ub := by
  unfold nextIp
  dsimp only
  repeat' split
  all_goals simp

theorem range_safe (hr : ReadsSafe rdr good mem) (hx : NoRex2 mem) (end_ : Nat) : ∀ (n : Nat) (s : σ) (i : Insn), good s →
    i.raw.length = 15 → (rangeContiguous rdr end_ n s i).2 ≠ .ub
  | n, s, i, hg, hl => by
    unfold rangeContiguous
    split
    · simp
    · split
      · simp
      · rename_i n
        have h1 := decode_rel hr.toReadsRel s i hg hl
        have h2 := decode_safe hr hx s i hg hl
        rcases hq : insnDecode rdr s i with ⟨s', j | e | _⟩ <;> rw [hq] at h1 h2
        · dsimp only at h1 ⊢
          have h3 := nextIp_safe j
          rcases hni : nextIp j with _ | _ | _
          · exact range_safe hr hx end_ n s' _ h1.1 (h1.2 j rfl).len
          · simp
          · exact absurd hni h3
        · simp
        · exact absurd rfl h2

/-- The image and the results of mapping sections. -/
def ImgSafe (secs : Msec → Prop) (s : Img × List (Res Unit)) : Prop :=
  (∀ m ∈ s.1.secs, secs m) ∧ ∀ r ∈ s.2, r ≠ .ub

theorem headD_safe {l : List (Res Unit)} (h : ∀ r ∈ l, r ≠ .ub) : l.headD (.ok ()) ≠ .ub := by
  cases l with
  | nil => simp
  | cons a l => exact h a (by simp)

theorem tail_safe {l : List (Res Unit)} (h : ∀ r ∈ l, r ≠ .ub) : ∀ r ∈ l.tail, r ≠ .ub :=
  fun r hr => h r (List.mem_of_mem_tail hr)

variable {c : InsnCfg} {secs : Msec → Prop}

theorem msecRead_safe (hm : SafeMemory c secs) {m : Msec} (h : secs m) {size x : Nat} (hsz : size ≤ 15) :
    m.read c.env size x ≠ .ub ∧ ∀ bs, m.read c.env size x = .ok bs →
      bs.length ≤ size ∧ ∀ k (h : k < bs.length), Readable c secs ((x + k) % 2 ^ 64) bs[k] := by
  by_cases hc : m.Covers x
  · have hwf := hm.sections m h
    obtain ⟨h1, h2⟩ := msec_read hm.files hwf (size := size) (by omega) hc
    rw [h1]
    refine ⟨by simp, fun bs hbs => ?_⟩
    rw [← h1] at hbs
    refine ⟨?_, fun k hk => ?_⟩
    · rw [h1] at hbs; cases hbs; simp; omega
    · have := read_rel (c := c) (f := { Flow.start none [] with sections := secs, asid := m.asid }) hm.files h hwf
        (by unfold SameSpace; simp) hsz hbs k hk
      rcases this with ⟨m', a1, a2, a3, -, a4⟩ | ⟨g, n, a, bs, k, a1, a2, a3, a4⟩
      · exact .inl ⟨m', a1, a2, a3, a4⟩
      · exact .inr ⟨g, n, _, a, bs, k, a1, a2, a3, a4⟩
  · have : m.read c.env size x = .err .nomap := by
      unfold Msec.read
      dsimp only
      rw [if_pos (by unfold Msec.Covers at hc; omega)]
    rw [this]
    exact ⟨by simp, fun bs h => by cases h⟩

theorem callback_safe (hm : SafeMemory c secs) (size : Nat) (asid : Asid) (x : Nat) :
    readCallback c.cb size asid x ≠ .ub ∧ ∀ isid bs, readCallback c.cb size asid x = .ok (isid, bs) →
      bs.length ≤ size ∧ ∀ k (h : k < bs.length), Readable c secs ((x + k) % 2 ^ 64) bs[k] := by
  unfold readCallback
  rcases hg : c.cb with _ | g
  · exact ⟨by simp, fun _ _ h => by cases h⟩
  · dsimp only
    have := hm.callback g hg size asid x
    rcases hr : g size asid x with bs | e | _ <;> rw [hr] at this
    · refine ⟨fun h => (by cases h), fun isid bs' h => ?_⟩
      cases h
      exact ⟨this.2 _ rfl, fun k hk => .inr ⟨g, size, asid, x, bs, k, hg, hr, rfl, by simp [hk]⟩⟩
    · exact ⟨fun h => (by cases h), fun isid bs' h => by cases h⟩
    · exact absurd rfl this.1

theorem fetch_mem {i j : Img} {asid : Asid} {x : Nat} {r : Res Msec} (h : imageFetch i asid x = (j, r)) :
    (∀ m, m ∈ j.secs ↔ m ∈ i.secs) ∧ r ≠ .ub ∧ ∀ m, r = .ok m → m ∈ i.secs := by
  have hp := fetch_perm i asid x
  rw [h] at hp
  refine ⟨fun m => hp.1.mem_iff, ?_, fun m hm => ?_⟩
  · unfold imageFetch at h
    split at h <;> cases h <;> simp
  · subst hm
    have hj : m ∈ j.secs := by
      unfold imageFetch at h
      split at h <;> cases h
      simp
    exact hp.1.mem_iff.1 hj

theorem image_safe (hm : SafeMemory c secs) (asid : Asid) :
    ReadsSafe (imgReader c.env c.cb asid) (ImgSafe secs) (Readable c secs) := by
  have key : ∀ (s : Img × List (Res Unit)) size a, ImgSafe secs s → size ≤ 15 →
      (imgReader c.env c.cb asid s size a).2 ≠ .ub ∧
      ∀ isid bs, (imgReader c.env c.cb asid s size a).2 = .ok (isid, bs) →
        bs.length ≤ size ∧ ∀ k (h : k < bs.length), Readable c secs ((a + k) % 2 ^ 64) bs[k] := by
    rintro ⟨i, o⟩ size a ⟨hg1, hg2⟩ hsz
    show (imageRead c.env c.cb (o.headD (.ok ())) i size asid a).2 ≠ .ub ∧ ∀ isid bs,
      (imageRead c.env c.cb (o.headD (.ok ())) i size asid a).2 = .ok (isid, bs) → _
    have ho := headD_safe hg2
    have hcb := callback_safe hm size asid a
    unfold imageRead
    rcases hq : imageFetch i asid a with ⟨j, m | e | _⟩
    · have hf := fetch_mem hq
      have hr := msecRead_safe hm (hg1 m (hf.2.2 m rfl)) (x := a) hsz
      dsimp only
      rcases hoo : o.headD (.ok ()) with _ | _ | _ <;> rw [hoo] at ho
      · dsimp only
        rcases hrr : m.read c.env size a with bs | e | _ <;> rw [hrr] at hr
        · refine ⟨by simp, fun isid bs' h => ?_⟩
          cases h
          exact hr.2 _ rfl
        · cases e <;> first | exact hcb | exact ⟨by simp, fun _ _ h => by cases h⟩
        · exact absurd rfl hr.1
      · exact ⟨by simp, fun _ _ h => by cases h⟩
      · exact absurd rfl ho
    · cases e <;> first | exact hcb | exact ⟨by simp, fun _ _ h => by cases h⟩
    · exact absurd rfl (fetch_mem hq).2.1
  refine ⟨⟨?_, ?_⟩, ?_, ?_⟩
  · rintro ⟨i, o⟩ size a ⟨hg1, hg2⟩
    refine ⟨fun m hm => hg1 m ?_, tail_safe hg2⟩
    have hm : m ∈ (imageRead c.env c.cb (o.headD (.ok ())) i size asid a).1.secs := hm
    rw [imageRead_img] at hm
    exact (fetch_perm i asid a).1.mem_iff.1 hm
  · exact fun s size a isid bs hg hsz h => ((key s size a hg hsz).2 isid bs h).2
  · exact fun s size a hg hsz => (key s size a hg hsz).1
  · exact fun s size a isid bs hg hsz h => ((key s size a hg hsz).2 isid bs h).1

/-- Decoding from a section. -/
theorem store_safe (hm : SafeMemory c secs) {m : Msec} (h : secs m) {x : Nat} {bs raw : List UInt8} {mode : Mode}
    (hl : raw.length = 15) (hr : m.read c.env 15 x = .ok bs) :
    ∃ raw', store raw 0 bs = .ok raw' ∧ raw'.length = 15 ∧ (ildDecode raw' bs.length mode).2 ≠ .ub ∧ bs.length ≤ raw'.length := by
  obtain ⟨-, h1⟩ := msecRead_safe hm h (x := x) (Nat.le_refl 15)
  obtain ⟨h2, h3⟩ := h1 bs hr
  rw [store_ok (by omega)]
  have hlen := store_length (raw := raw) (bs := bs) (pos := 0) (by omega)
  have hh := holdsRel_store (raw := raw) (bs := bs) (holdsRel_zero (Readable c secs) x raw) (by omega) (by intro k hk; simpa using h3 k hk)
  rw [Nat.zero_add] at hh
  refine ⟨_, rfl, hlen.trans hl, ?_, by rw [hlen]; omega⟩
  exact holdsRel_safe hm.rex2 (hlen.trans hl) (by simpa using hh)

theorem cached_safe (hm : SafeMemory c secs) (asid : Asid) (msec : Option Msec) (hs : ∀ m, msec = some m → secs m)
    (s : Img × List (Res Unit)) (hg : ImgSafe secs s) (i : Insn) (hl : i.raw.length = 15) :
    ImgSafe secs (insnDecodeCached c.env (imgReader c.env c.cb asid) msec s i).1 ∧
      (insnDecodeCached c.env (imgReader c.env c.cb asid) msec s i).2 ≠ .ub := by
  have hr := image_safe hm asid
  have plain : ∀ i' : Insn, i'.raw.length = 15 → ImgSafe secs (insnDecode (imgReader c.env c.cb asid) s i').1 ∧
      (insnDecode (imgReader c.env c.cb asid) s i').2 ≠ .ub := fun i' h =>
    ⟨(decode_rel hr.toReadsRel s i' hg h).1, decode_safe hr hm.rex2 s i' hg h⟩
  unfold insnDecodeCached
  cases msec with
  | none => exact plain i hl
  | some m =>
    dsimp only
    have hq := (msecRead_safe hm (hs m rfl) (x := i.ip) (Nat.le_refl 15)).1
    rcases hrd : m.read c.env 15 i.ip with bs | e | _
    · obtain ⟨raw', h1, h2, h3, h4⟩ := store_safe hm (hs m rfl) (mode := i.mode) hl hrd
      dsimp only
      rw [h1]
      dsimp only
      rcases hil : ildDecode raw' bs.length i.mode with ⟨n, x | e | _⟩ <;> rw [hil] at h3
      · exact ⟨hg, by simp⟩
      · obtain ⟨rfl, rfl⟩ := C39_error _ _ _ _ _ h4 hil
        exact plain _ h2
      · exact absurd rfl h3
    · cases e <;> first | exact plain i hl | exact ⟨hg, by simp⟩
    · exact absurd hrd hq

/-! ### The section cache -/

theorem msecLookup_safe (s : ScSt) (u p : Res Unit) (x : Nat) (hu : u ≠ .ub) (hp : p ≠ .ub)
    (hs : ∀ m ∈ s.img.secs, secs m) : (∀ m ∈ (msecLookup s u p x).1.img.secs, secs m) ∧
      (msecLookup s u p x).2 ≠ .ub ∧ ∀ m, (msecLookup s u p x).2 = .ok m → secs m := by
  have fill : (∀ m ∈ (cacheFill s u p x).1.img.secs, secs m) ∧
      (cacheFill s u p x).2 ≠ .ub ∧ ∀ m, (cacheFill s u p x).2 = .ok m → secs m := by
    have h0 := (invalidate_spec s u).2.2.1
    have h1 : (cacheInvalidate s u).2 ≠ .ub := by
      unfold cacheInvalidate
      rcases s.cache with _ | _
      · simp
      · rcases u with _ | _ | _
        · simp
        · simp
        · exact absurd rfl hu
    unfold cacheFill
    rcases hci : cacheInvalidate s u with ⟨s', _ | e | _⟩ <;> rw [hci] at h0 h1
    · dsimp only at h0 ⊢
      have hs' : ∀ m ∈ s'.img.secs, secs m := by rw [h0]; exact hs
      unfold imageFind
      rcases hif : imageFetch s'.img s'.asid x with ⟨j, m | e | _⟩
      · have hf := fetch_mem hif
        have hj : ∀ m ∈ j.secs, secs m := fun m hm => hs' m ((hf.1 m).1 hm)
        have hmm := hs' m (hf.2.2 m rfl)
        dsimp only
        split
        · rename_i hlt
          split at hlt <;> cases hlt
          exact ⟨hj, by simp, fun _ h => by cases h⟩
        · rename_i hlt
          split at hlt <;> cases hlt
        · rename_i hlt
          split at hlt <;> cases hlt
          rcases p with _ | e | _
          · exact ⟨hj, by simp, fun _ h => by cases h; exact hmm⟩
          · exact ⟨hj, by simp, fun _ h => by cases h⟩
          · exact absurd rfl hp
      · have hf := fetch_mem hif
        exact ⟨fun m hm => hs' m ((hf.1 m).1 hm), by simp, fun _ h => by cases h⟩
      · exact absurd rfl (fetch_mem hif).2.1
    · dsimp only at h0 ⊢
      exact ⟨by rw [h0]; exact hs, by simp, fun _ h => by cases h⟩
    · exact absurd rfl h1
  unfold msecLookup
  split
  · rename_i m hc
    split
    · rename_i hv
      refine ⟨hs, by simp, fun m' h => ?_⟩
      cases h
      unfold imageValidate at hv
      rw [hc] at hv
      rcases hl : s.img.secs with _ | ⟨top, l⟩
      · rw [hl] at hv; simp at hv
      · rw [hl] at hv
        dsimp only at hv
        split at hv
        · cases hv
        · have : top = m := by simpa using hv
          exact hs m (by rw [hl, this]; simp)
    · exact fill
  · exact fill

theorem invalidate_safe (s : ScSt) (u : Res Unit) (hu : u ≠ .ub) : (cacheInvalidate s u).2 ≠ .ub := by
  unfold cacheInvalidate
  rcases s.cache with _ | _
  · simp
  · rcases u with _ | _ | _
    · simp
    · simp
    · exact absurd rfl hu

theorem setCr3_safe (s : ScSt) (u : Res Unit) (v : Nat) (hu : u ≠ .ub) (hs : ∀ m ∈ s.img.secs, secs m) :
    (setCr3 s u v).2 ≠ .ub ∧ ∀ m ∈ (setCr3 s u v).1.img.secs, secs m := by
  have h0 := (invalidate_spec s u).2.2.1
  have h1 := invalidate_safe s u hu
  unfold setCr3
  split
  · rcases hci : cacheInvalidate s u with ⟨s', _ | e | _⟩ <;> rw [hci] at h0 h1
    · exact ⟨by simp, by dsimp only at h0 ⊢; rw [h0]; exact hs⟩
    · exact ⟨by simp, by dsimp only at h0 ⊢; rw [h0]; exact hs⟩
    · exact absurd rfl h1
  · exact ⟨by simp, hs⟩

theorem setVmcs_safe (s : ScSt) (u : Res Unit) (v : Nat) (hu : u ≠ .ub) (hs : ∀ m ∈ s.img.secs, secs m) :
    (setVmcs s u v).2 ≠ .ub ∧ ∀ m ∈ (setVmcs s u v).1.img.secs, secs m := by
  have h0 := (invalidate_spec s u).2.2.1
  have h1 := invalidate_safe s u hu
  unfold setVmcs
  split
  · rcases hci : cacheInvalidate s u with ⟨s', _ | e | _⟩ <;> rw [hci] at h0 h1
    · exact ⟨by simp, by dsimp only at h0 ⊢; rw [h0]; exact hs⟩
    · exact ⟨by simp, by dsimp only at h0 ⊢; rw [h0]; exact hs⟩
    · exact absurd rfl h1
  · exact ⟨by simp, hs⟩

end Ipt
