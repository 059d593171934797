import Verif.Spec.Flow
import Verif.Props.InsnCached

/-!
# Helper lemmas: the instructions the flow decoder fetches are in memory
-/

set_option linter.unusedSimpArgs false

namespace Ipt

open Ild Spec Props

/-- What is read from `rdr` is in the memory `mem`, as long as its state is a good one. -/
structure ReadsRel {σ} (rdr : MemReader σ) (good : σ → Prop) (mem : Nat → UInt8 → Prop) : Prop where
  keep : ∀ s size a, good s → good (rdr s size a).1
  bytes : ∀ s size a isid bs, good s → size ≤ 15 → (rdr s size a).2 = .ok (isid, bs) →
    ∀ k (h : k < bs.length), mem ((a + k) % 2 ^ 64) bs[k]

/-- The first `n` bytes of `raw` are the memory at `ip`. -/
def HoldsRel (mem : Nat → UInt8 → Prop) (ip : Nat) (raw : List UInt8) (n : Nat) : Prop :=
  n ≤ raw.length ∧ ∀ k (h : k < raw.length), k < n → mem ((ip + k) % 2 ^ 64) raw[k]

theorem holdsRel_store {mem : Nat → UInt8 → Prop} {ip : Nat} {raw bs : List UInt8} {n : Nat}
    (h : HoldsRel mem ip raw n) (hl : n + bs.length ≤ raw.length)
    (hb : ∀ k (h : k < bs.length), mem (((ip + n) % 2 ^ 64 + k) % 2 ^ 64) bs[k]) :
    HoldsRel mem ip (raw.take n ++ bs ++ raw.drop (n + bs.length)) (n + bs.length) := by
  refine ⟨by simp; omega, fun k h1 h2 => ?_⟩
  have ht : (raw.take n).length = n := by simp; omega
  simp only [List.append_assoc]
  rw [List.getElem_append]
  split
  · rename_i h3
    rw [List.getElem_take]
    exact h.2 k (by omega) (by omega)
  · rename_i h3
    rw [List.getElem_append]
    split
    · simp only [ht]
      have := hb (k - n) (by omega)
      rw [Nat.mod_add_mod] at this
      have e : ip + n + (k - n) = ip + k := by omega
      rw [e] at this
      exact this
    · rename_i h4
      exfalso; omega

/-- A decoded instruction: its bytes are in memory, and they are what the length decoder takes them for. -/
structure Decoded (mem : Nat → UInt8 → Prop) (x : Nat) (md : Mode) (j : Insn) : Prop where
  ip : j.ip = x
  mode : j.mode = md
  len : j.raw.length = 15
  size : 1 ≤ j.size
  holds : HoldsRel mem x j.raw j.size
  decodes : ildDecode j.raw j.size j.mode = (j.size, .ok j.ext)

theorem store_inv {raw raw' bs : List UInt8} {pos : Nat} (h : store raw pos bs = .ok raw') :
    pos + bs.length ≤ raw.length ∧ raw' = raw.take pos ++ bs ++ raw.drop (pos + bs.length) := by
  unfold store at h
  split at h
  · cases h
  · cases h; exact ⟨by omega, rfl⟩

theorem decoded_of {mem : Nat → UInt8 → Prop} {ip : Nat} {mode : Mode} {raw : List UInt8} {max n : Nat} {x : Iext}
    (hl : raw.length = 15) (hh : HoldsRel mem ip raw max) (h : ildDecode raw max mode = (n, .ok x)) {j : Insn}
    (h1 : j.ip = ip) (h2 : j.mode = mode) (h3 : j.raw = raw) (h4 : j.size = n) (h5 : j.ext = x) :
    Decoded mem ip mode j := by
  have hn := C39_size _ _ _ _ _ h
  have hm := hh.1
  subst h1 h2 h3 h4 h5
  exact ⟨rfl, rfl, hl, hn.1, ⟨by omega, fun k a b => hh.2 k a (by omega)⟩,
    C39_depends_on_instruction_only _ _ _ _ _ _ _ (by omega) (Nat.le_refl _) h rfl⟩

theorem retry_rel {σ} {rdr : MemReader σ} {good : σ → Prop} {mem : Nat → UInt8 → Prop} (hr : ReadsRel rdr good mem) :
    ∀ (fuel : Nat) (s : σ) (i : Insn), good s → i.raw.length = 15 → HoldsRel mem i.ip i.raw i.size →
      good (insnRetry rdr fuel s i).1 ∧
      (∀ j, (insnRetry rdr fuel s i).2 = .ok j → Decoded mem i.ip i.mode j)
  | 0, s, i, hg, hl, h => ⟨hg, fun j hj => by cases hj⟩
  | fuel + 1, s, i, hg, hl, h => by
    have h1 := h.1
    unfold insnRetry
    dsimp only
    by_cases hz : 15 - i.size = 0
    · rw [if_pos hz]
      exact ⟨hg, fun j hj => by cases hj⟩
    rw [if_neg hz]
    have hg' := hr.keep s (15 - i.size) ((i.ip + i.size) % 2 ^ 64) hg
    have hb := hr.bytes s (15 - i.size) ((i.ip + i.size) % 2 ^ 64)
    rcases hq : rdr s (15 - i.size) ((i.ip + i.size) % 2 ^ 64) with ⟨s', ⟨isid, bs⟩ | e | _⟩ <;>
      rw [hq] at hg' hb
    · dsimp only at hg' hb ⊢
      have h4 := hb isid bs hg (by omega) rfl
      split
      · exact ⟨hg', fun j hj => by cases hj⟩
      rename_i hbs
      rcases hst : store i.raw i.size bs with raw' | e | _
      · obtain ⟨hle, rfl⟩ := store_inv hst
        dsimp only
        have hlen := store_length (raw := i.raw) (bs := bs) (pos := i.size) (by omega)
        have hh := holdsRel_store h (by omega) h4
        generalize i.raw.take i.size ++ bs ++ i.raw.drop (i.size + bs.length) = raw' at hlen hh
        rcases hil : ildDecode raw' (i.size + bs.length) i.mode with ⟨n, x | e | _⟩
        · refine ⟨hg', fun j hj => ?_⟩
          cases hj
          exact decoded_of (hlen.trans hl) hh hil rfl rfl rfl rfl rfl
        · obtain ⟨rfl, rfl⟩ := C39_error _ _ _ _ _ (by omega) hil
          simp only [ne_eq, not_true_eq_false, if_false]
          exact retry_rel hr fuel s' { i with raw := raw', size := i.size + bs.length } hg' (hlen.trans hl) hh
        · exact ⟨hg', fun j hj => by cases hj⟩
      · exact ⟨hg', fun j hj => by cases hj⟩
      · exact ⟨hg', fun j hj => by cases hj⟩
    · cases e <;> exact ⟨hg', fun j hj => by cases hj⟩
    · exact ⟨hg', fun j hj => by cases hj⟩

theorem holdsRel_zero (mem : Nat → UInt8 → Prop) (ip : Nat) (raw : List UInt8) : HoldsRel mem ip raw 0 :=
  ⟨Nat.zero_le _, fun _ _ h => absurd h (Nat.not_lt_zero _)⟩

theorem decode_rel {σ} {rdr : MemReader σ} {good : σ → Prop} {mem : Nat → UInt8 → Prop} (hr : ReadsRel rdr good mem)
    (s : σ) (i : Insn) (hg : good s) (hl : i.raw.length = 15) :
    good (insnDecode rdr s i).1 ∧ (∀ j, (insnDecode rdr s i).2 = .ok j → Decoded mem i.ip i.mode j) := by
  unfold insnDecode
  have hg' := hr.keep s 15 i.ip hg
  have hb := hr.bytes s 15 i.ip
  rcases hq : rdr s 15 i.ip with ⟨s', ⟨isid, bs⟩ | e | _⟩ <;> rw [hq] at hg' hb
  · dsimp only at hg' hb ⊢
    have h4 := hb isid bs hg (by omega) rfl
    rcases hst : store i.raw 0 bs with raw' | e | _
    · obtain ⟨hle, rfl⟩ := store_inv hst
      dsimp only
      have hlen := store_length (raw := i.raw) (bs := bs) (pos := 0) (by omega)
      have hh := holdsRel_store (holdsRel_zero mem i.ip i.raw) (by omega) (by
        intro k hk; simpa using h4 k hk)
      generalize i.raw.take 0 ++ bs ++ i.raw.drop (0 + bs.length) = raw' at hlen hh
      rw [Nat.zero_add] at hh
      rcases hil : ildDecode raw' bs.length i.mode with ⟨n, x | e | _⟩
      · refine ⟨hg', fun j hj => ?_⟩
        cases hj
        exact decoded_of (hlen.trans hl) hh hil rfl rfl rfl rfl rfl
      · obtain ⟨rfl, rfl⟩ := C39_error _ _ _ _ _ (by omega) hil
        simp only [ne_eq, not_true_eq_false, if_false]
        exact retry_rel hr 16 s' { i with isid := isid, raw := raw', size := bs.length } hg' (hlen.trans hl) hh
      · exact ⟨hg', fun j hj => by cases hj⟩
    · exact ⟨hg', fun j hj => by cases hj⟩
    · exact ⟨hg', fun j hj => by cases hj⟩
  · exact ⟨hg', fun j hj => by cases hj⟩
  · exact ⟨hg', fun j hj => by cases hj⟩

theorem range_rel {σ} {rdr : MemReader σ} {good : σ → Prop} {mem : Nat → UInt8 → Prop} (hr : ReadsRel rdr good mem)
    (end_ : Nat) : ∀ (n : Nat) (s : σ) (i : Insn), good s → i.raw.length = 15 →
      good (rangeContiguous rdr end_ n s i).1
  | n, s, i, hg, hl => by
    unfold rangeContiguous
    split
    · exact hg
    · split
      · exact hg
      · rename_i n
        have := decode_rel hr s i hg hl
        rcases hq : insnDecode rdr s i with ⟨s', j | e | _⟩ <;> rw [hq] at this
        · dsimp only at this ⊢
          split
          · exact range_rel hr end_ n s' _ this.1 (this.2 j rfl).len
          · exact this.1
          · exact this.1
        · exact this.1
        · exact this.1

theorem read_covered {env : SecEnv} {m : Msec} {size x : Nat} {bs : List UInt8} (h : m.read env size x = .ok bs) :
    m.Covers x := by
  unfold Msec.read at h
  dsimp only at h
  split at h
  · cases h
  · unfold Msec.Covers; omega

/-- The bytes of a section. -/
theorem read_rel {c : InsnCfg} {f : Flow} (henv : c.env.Ok) {m : Msec} (hm : f.sections m) (hwf : m.WF c.env)
    (hs : SameSpace m.asid f.asid) {size x : Nat} (hsz : size ≤ 15) {bs : List UInt8}
    (h : m.read c.env size x = .ok bs) : ∀ k (h : k < bs.length), f.Byte c ((x + k) % 2 ^ 64) bs[k] := by
  have hc := read_covered h
  obtain ⟨h1, h2⟩ := msec_read henv hwf (size := size) (by omega) hc
  rw [h1] at h
  cases h
  intro k hk
  have hk' : k < min size (m.end_ - x) := by simpa using hk
  have hc' := h2 k hk'
  have hcx := hc.1
  have hcy := hc'.2
  have hw1 := hwf.1
  have hw2 := hwf.2
  have hsec := henv m.sec
  have he : m.end_ = m.vaddr + m.size := by unfold Msec.end_ at *; omega
  have hlt : m.end_ < 2 ^ 64 := by unfold Msec.end_; omega
  refine .inl ⟨m, hm, ?_, ?_, hs, ?_⟩
  · omega
  · omega
  · simp only [List.getElem_map, List.getElem_range]
    have : (x + k) % 2 ^ 64 = x + k := by omega
    rw [this]
    unfold Msec.unmap
    congr 1
    omega

/-- The memory of the flow decoder. -/
theorem image_rel {c : InsnCfg} {f : Flow} (henv : c.env.Ok) (hwf : ∀ m, f.sections m → m.WF c.env) :
    ReadsRel (imgReader c.env c.cb f.asid) (fun s => ∀ m, m ∈ s.1.secs ↔ f.sections m) (f.Byte c) := by
  refine ⟨?_, ?_⟩
  · rintro ⟨i, o⟩ size a hg
    show ∀ m, m ∈ (imageRead c.env c.cb (o.headD (.ok ())) i size f.asid a).1.secs ↔ f.sections m
    rw [imageRead_img]
    intro m
    rw [(fetch_perm i f.asid a).1.mem_iff]
    exact hg m
  · rintro ⟨i, o⟩ size a isid bs hg hsz h
    change (imageRead c.env c.cb (o.headD (.ok ())) i size f.asid a).2 = _ at h
    have cbk : readCallback c.cb size f.asid a = .ok (isid, bs) →
        ∀ k (h : k < bs.length), f.Byte c ((a + k) % 2 ^ 64) bs[k] := by
      intro h k hk
      unfold readCallback at h
      split at h
      · cases h
      · rename_i g hcb
        rcases hg : g size f.asid a with bs' | e | _
        · rw [hg] at h
          cases h
          exact .inr ⟨g, size, a, bs, k, hcb, hg, rfl, by simp [hk]⟩
        · rw [hg] at h; cases h
        · rw [hg] at h; cases h
    unfold imageRead at h
    have hp := fetch_perm i f.asid a
    have hf := @fetch_ok_space i f.asid a
    rcases hq : imageFetch i f.asid a with ⟨j, m | e | _⟩ <;> rw [hq] at h hp hf
    · dsimp only at h hp hf
      have hin : f.sections m := by
        rw [← hg m]
        have hj : m ∈ j.secs := by
          unfold imageFetch at hq
          split at hq <;> cases hq
          simp
        exact hp.1.mem_iff.1 hj
      rcases ho : o.headD (.ok ()) with _ | _ | _ <;> rw [ho] at h
      · dsimp only at h
        rcases hr : m.read c.env size a with bs' | e | _ <;> rw [hr] at h
        · cases h
          exact read_rel henv hin (hwf m hin) (hf rfl).2 hsz hr
        · cases e <;> first | (cases h; done) | exact cbk h
        · cases h
      · cases h
      · cases h
    · cases e <;> first | (cases h; done) | exact cbk h
    · cases h

theorem Decoded.at {c : InsnCfg} {f : Flow} {i : Insn} (h : Decoded (f.Byte c) f.ip f.mode i) : f.At c i := by
  have hsz : i.size ≤ 15 := by have := h.holds.1; have := h.len; omega
  refine ⟨h.ip, h.mode, ⟨h.size, hsz⟩, fun k hk => ?_, h.decodes⟩
  have hk' : k < i.raw.length := by have := h.len; omega
  exact ⟨i.raw[k], by simp [hk'], by rw [h.ip]; exact h.holds.2 k hk' hk⟩

/-- Looking up a section through the cache. -/
theorem msecLookup_rel (s : ScSt) (u p : Res Unit) (x : Nat) (hi : ScInv s) :
    ScInv (msecLookup s u p x).1 ∧ (msecLookup s u p x).1.asid = s.asid ∧
    (∀ m, m ∈ (msecLookup s u p x).1.img.secs ↔ m ∈ s.img.secs) ∧
    (∀ m, (msecLookup s u p x).2 = .ok m → m ∈ s.img.secs ∧ SameSpace m.asid s.asid) := by
  have hl := lookup_spec s u p x hi
  refine ⟨hl.1, ?_, ?_, fun m hm => ?_⟩
  · exact (C46_address_space s u p 0 x s.img).2.2.1
  · have fill : ∀ m, m ∈ (cacheFill s u p x).1.img.secs ↔ m ∈ s.img.secs := by
      intro m
      have ⟨h1, h2, h3, h4, h5⟩ := invalidate_spec s u
      unfold cacheFill
      rcases hci : cacheInvalidate s u with ⟨s', _ | e | _⟩ <;> rw [hci] at h3
      · dsimp only at h3 ⊢
        have hp := (fetch_perm s'.img s'.asid x).1
        have hfind : ∀ m, m ∈ (imageFind s'.img s'.asid x).1.secs ↔ m ∈ s'.img.secs := by
          intro m
          unfold imageFind
          rcases hif : imageFetch s'.img s'.asid x with ⟨j, r | e | _⟩ <;> rw [hif] at hp
          · dsimp only at hp ⊢
            split <;> exact hp.mem_iff
          · exact hp.mem_iff
          · exact hp.mem_iff
        rcases hif : imageFind s'.img s'.asid x with ⟨j, r | e | _⟩ <;> rw [hif] at hfind
        · rcases p with _ | e | _ <;> (dsimp only at hfind ⊢; rw [hfind, h3])
        · dsimp only at hfind ⊢; rw [hfind, h3]
        · dsimp only at hfind ⊢; rw [hfind, h3]
      · dsimp only at h3 ⊢; rw [h3]
      · dsimp only at h3 ⊢; rw [h3]
    intro m
    unfold msecLookup
    split
    · split
      · rfl
      · exact fill m
    · exact fill m
  · have hf := hl.2 m hm
    refine ⟨?_, (fetch_ok_space hf).2⟩
    unfold imageFetch at hf
    cases h' : takeFirst (fun m => m.check s.asid x) s.img.secs with
    | none => rw [h'] at hf; cases hf
    | some r =>
      rw [h'] at hf
      cases hf
      exact (takeFirst_some h').2.mem_iff.1 (by simp)

/-- Decoding from the cached section. -/
theorem cached_rel {c : InsnCfg} {f : Flow} (henv : c.env.Ok) (hwf : ∀ m, f.sections m → m.WF c.env)
    (msec : Option Msec) (hm : ∀ m, msec = some m → f.sections m ∧ SameSpace m.asid f.asid)
    (s : Img × List (Res Unit)) (hg : ∀ m, m ∈ s.1.secs ↔ f.sections m) (i : Insn) (hl : i.raw.length = 15) :
    (∀ m, m ∈ (insnDecodeCached c.env (imgReader c.env c.cb f.asid) msec s i).1.1.secs ↔ f.sections m) ∧
    (∀ j, (insnDecodeCached c.env (imgReader c.env c.cb f.asid) msec s i).2 = .ok j →
      Decoded (f.Byte c) i.ip i.mode j) := by
  have hr := image_rel (c := c) (f := f) henv hwf
  have plain : ∀ i' : Insn, i'.raw.length = 15 → i'.ip = i.ip → i'.mode = i.mode →
      (∀ m, m ∈ (insnDecode (imgReader c.env c.cb f.asid) s i').1.1.secs ↔ f.sections m) ∧
      (∀ j, (insnDecode (imgReader c.env c.cb f.asid) s i').2 = .ok j → Decoded (f.Byte c) i.ip i.mode j) := by
    intro i' h1 h2 h3
    have := decode_rel hr s i' hg h1
    rw [h2, h3] at this
    exact this
  unfold insnDecodeCached
  cases msec with
  | none => exact plain i hl rfl rfl
  | some m =>
    obtain ⟨hin, hsp⟩ := hm m rfl
    dsimp only
    rcases hq : m.read c.env 15 i.ip with bs | e | _
    · dsimp only
      have hb := read_rel henv hin (hwf m hin) hsp (Nat.le_refl _) hq
      rcases hst : store i.raw 0 bs with raw' | e | _
      · obtain ⟨hle, rfl⟩ := store_inv hst
        dsimp only
        have hlen := store_length (raw := i.raw) (bs := bs) (pos := 0) (by omega)
        have hh := holdsRel_store (holdsRel_zero (f.Byte c) i.ip i.raw) (by omega) (by
          intro k hk; simpa using hb k hk)
        generalize i.raw.take 0 ++ bs ++ i.raw.drop (0 + bs.length) = raw' at hlen hh
        rw [Nat.zero_add] at hh
        rcases hil : ildDecode raw' bs.length i.mode with ⟨n, x | e | _⟩
        · refine ⟨hg, fun j hj => ?_⟩
          cases hj
          exact decoded_of (hlen.trans hl) hh hil rfl rfl rfl rfl rfl
        · obtain ⟨rfl, rfl⟩ := C39_error _ _ _ _ _ (by omega) hil
          exact plain _ (hlen.trans hl) rfl rfl
        · exact ⟨hg, fun j hj => by cases hj⟩
      · exact ⟨hg, fun j hj => by cases hj⟩
      · exact ⟨hg, fun j hj => by cases hj⟩
    · cases e <;> first | exact plain i hl rfl rfl | exact ⟨hg, fun j hj => by cases hj⟩
    · exact ⟨hg, fun j hj => by cases hj⟩

end Ipt
