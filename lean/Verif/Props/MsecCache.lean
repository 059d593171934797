import Verif.MsecCache
import Verif.Props.Image

/-!
# C46: the one-entry section cache is transparent
-/

namespace Ipt.Props

open Ipt Ipt.Spec

/-- What can happen to a flow decoder between two instruction fetches: another fetch, a paging
or VMCS event, a synchronization, and any change of the image (by the user, by another decoder
sharing it, or a switch to another image).  The results of mapping and unmapping are arbitrary. -/
inductive ScOp
  | lookup (unmap map : Res Unit) (x : Nat)
  | cr3 (unmap : Res Unit) (v : Nat)
  | vmcs (unmap : Res Unit) (v : Nat)
  | reset
  | image (i : Img)

def ScOp.step (s : ScSt) : ScOp → ScSt
  | .lookup u m x => (msecLookup s u m x).1
  | .cr3 u v => (setCr3 s u v).1
  | .vmcs u v => (setVmcs s u v).1
  | .reset => scReset s
  | .image i => scSetImage s i

/-- A decoder after its allocation and a history of operations. -/
def scRun (i : Img) (ops : List ScOp) : ScSt := ops.foldl ScOp.step { img := i }

/-- The cached section belongs to the current address space. -/
def ScInv (s : ScSt) : Prop := ∀ m, s.cache = some m → SameSpace m.asid s.asid

theorem fetch_ok_space {i : Img} {a : Asid} {x : Nat} {m : Msec} (h : (imageFetch i a x).2 = .ok m) :
    m.Covers x ∧ SameSpace m.asid a := by
  unfold imageFetch at h
  cases h' : takeFirst (fun m => m.check a x) i.secs with
  | none => rw [h'] at h; simp at h
  | some r =>
    rw [h'] at h
    simp only [Res.ok.injEq] at h
    subst h
    exact (check_iff _ _ _).mp (takeFirst_some h').1

theorem find_eq {i : Img} {a : Asid} {x : Nat} {m : Msec} (h : (imageFind i a x).2 = .ok m) :
    (imageFetch i a x).2 = .ok m := by
  unfold imageFind at h
  cases h' : imageFetch i a x with
  | mk j r =>
    rw [h'] at h
    cases r with
    | ok m' =>
      simp only at h
      by_cases hc : 65535 < j.uc m'.sec + 1
      · rw [if_pos hc] at h; simp at h
      · rw [if_neg hc] at h; exact h
    | err e => exact h
    | ub => exact h

theorem invalidate_spec (s : ScSt) (u : Res Unit) :
    ((cacheInvalidate s u).1.cache = none ∨ (cacheInvalidate s u).1 = s) ∧
    (cacheInvalidate s u).1.asid = s.asid ∧ (cacheInvalidate s u).1.img.secs = s.img.secs ∧
    (∀ t, (cacheInvalidate s u).1.img.uc t ≤ s.img.uc t) ∧
    ((cacheInvalidate s u).2 = .ok () → (cacheInvalidate s u).1.cache = none) := by
  unfold cacheInvalidate
  cases hc : s.cache with
  | none => simp [hc]
  | some m =>
    cases u with
    | ok => simp [ucDec]; intro t; split <;> omega
    | err e => simp
    | ub => simp

theorem fetch_congr {i j : Img} (h : i.secs = j.secs) (a : Asid) (x : Nat) :
    (imageFetch i a x).2 = (imageFetch j a x).2 := by
  unfold imageFetch; rw [h]; cases takeFirst (fun m => m.check a x) j.secs <;> rfl

theorem fill_spec (s : ScSt) (u p : Res Unit) (x : Nat) (hi : ScInv s) :
    ScInv (cacheFill s u p x).1 ∧
    (∀ m, (cacheFill s u p x).2 = .ok m → (imageFetch s.img s.asid x).2 = .ok m) := by
  have ⟨h1, h2, h3, h4, h5⟩ := invalidate_spec s u
  unfold cacheFill
  generalize cacheInvalidate s u = r at *
  obtain ⟨s', r⟩ := r
  simp only at h1 h2 h3 h4 h5
  have hi' : ScInv s' := by
    rcases h1 with h | h
    · intro m hm; rw [h] at hm; cases hm
    · rw [h]; exact hi
  cases r with
  | err e => exact ⟨hi', by simp⟩
  | ub => exact ⟨hi', by simp⟩
  | ok =>
    have hn := h5 rfl
    simp only
    have hf := @find_eq s'.img s'.asid x
    generalize imageFind s'.img s'.asid x = q at *
    obtain ⟨i, q⟩ := q
    cases q with
    | err e => exact ⟨fun m hm => hi' m hm, by simp⟩
    | ub => exact ⟨fun m hm => hi' m hm, by simp⟩
    | ok m =>
      have hf := hf rfl
      rw [fetch_congr h3, h2] at hf
      cases p with
      | ok =>
        refine ⟨?_, ?_⟩
        · intro m' hm; cases hm; show SameSpace m.asid s'.asid; rw [h2]; exact (fetch_ok_space hf).2
        · intro m' hm; cases hm; exact hf
      | err e => exact ⟨fun m hm => hi' m hm, by simp⟩
      | ub => exact ⟨fun m hm => hi' m hm, by simp⟩

theorem validate_fetch {s : ScSt} {x : Nat} {m : Msec} (hi : ScInv s) (hc : s.cache = some m)
    (hv : imageValidate s.img s.cache x = true) : (imageFetch s.img s.asid x).2 = .ok m := by
  have hsp := hi m hc
  unfold imageValidate at hv
  rw [hc] at hv
  unfold imageFetch
  cases hl : s.img.secs with
  | nil => rw [hl] at hv; simp at hv
  | cons top l =>
    rw [hl] at hv
    simp only at hv
    by_cases hb : x < m.vaddr ∨ m.end_ ≤ x
    · rw [if_pos hb] at hv; cases hv
    · rw [if_neg hb] at hv
      have ht : top = m := by simpa using hv
      subst ht
      have : top.check s.asid x = true := by
        unfold Msec.check; rw [if_neg hb]; exact (asidMatch_iff _ _).mpr hsp
      simp [takeFirst, this]

theorem lookup_spec (s : ScSt) (u p : Res Unit) (x : Nat) (hi : ScInv s) :
    ScInv (msecLookup s u p x).1 ∧
    (∀ m, (msecLookup s u p x).2 = .ok m → (imageFetch s.img s.asid x).2 = .ok m) := by
  unfold msecLookup
  cases hc : s.cache with
  | none => exact fill_spec s u p x hi
  | some m =>
    simp only
    by_cases hv : imageValidate s.img s.cache x = true
    · rw [hc] at hv; rw [if_pos hv]
      rw [← hc] at hv
      exact ⟨hi, fun m' hm => by cases hm; exact validate_fetch hi hc hv⟩
    · rw [hc] at hv; rw [if_neg hv]
      exact fill_spec s u p x hi

theorem sameSpace_unknown (a : Asid) : SameSpace a {} := by
  rw [← asidMatch_iff]; simp [asidMatch]

theorem sc_step {s : ScSt} (hi : ScInv s) (op : ScOp) : ScInv (op.step s) := by
  cases op with
  | lookup u p x => exact (lookup_spec s u p x hi).1
  | cr3 u v =>
    have ⟨h1, h2, h3, h4, h5⟩ := invalidate_spec s u
    simp only [ScOp.step, setCr3]
    by_cases hv : s.asid.cr3 ≠ v
    · rw [if_pos hv]
      generalize cacheInvalidate s u = r at *
      obtain ⟨s', r⟩ := r
      have hi' : ScInv s' := by
        rcases h1 with h | h
        · intro m hm; simp only at h; rw [h] at hm; cases hm
        · simp only at h; rw [h]; exact hi
      cases r with
      | ok => intro m hm; have := h5 rfl; simp only at this hm; rw [this] at hm; cases hm
      | err e => exact hi'
      | ub => exact hi'
    · rw [if_neg hv]; exact hi
  | vmcs u v =>
    have ⟨h1, h2, h3, h4, h5⟩ := invalidate_spec s u
    simp only [ScOp.step, setVmcs]
    by_cases hv : s.asid.vmcs ≠ v
    · rw [if_pos hv]
      generalize cacheInvalidate s u = r at *
      obtain ⟨s', r⟩ := r
      have hi' : ScInv s' := by
        rcases h1 with h | h
        · intro m hm; simp only at h; rw [h] at hm; cases hm
        · simp only at h; rw [h]; exact hi
      cases r with
      | ok => intro m hm; have := h5 rfl; simp only at this hm; rw [this] at hm; cases hm
      | err e => exact hi'
      | ub => exact hi'
    · rw [if_neg hv]; exact hi
  | reset => intro m hm; exact sameSpace_unknown _
  | image i => exact hi

theorem sc_run (i : Img) (ops : List ScOp) : ScInv (scRun i ops) := by
  have h0 : ScInv { img := i } := by intro m hm; cases hm
  unfold scRun
  generalize ({ img := i } : ScSt) = s at h0
  induction ops generalizing s with
  | nil => exact h0
  | cons op ops ih => exact ih _ (sc_step h0 op)

/-- C46: after any history of fetches, address-space changes, synchronizations, image changes and
image switches, a section obtained through the cache is the one a lookup in the decoder's current
image and address space yields.  Conversely, if mapping works and the section's use count does
not overflow, the cached lookup succeeds whenever the image lookup does, and it reports
`-pte_nomap` whenever the image lookup does. -/
theorem C46_cached_lookup (i : Img) (ops : List ScOp) (unmap map : Res Unit) (x : Nat) (s : ScSt)
    (hs : s = scRun i ops) :
    (∀ m, (msecLookup s unmap map x).2 = .ok m → (imageFetch s.img s.asid x).2 = .ok m) ∧
    (∀ m, (imageFetch s.img s.asid x).2 = .ok m → unmap = .ok () → map = .ok () →
      s.img.uc m.sec < 65535 → (msecLookup s unmap map x).2 = .ok m) ∧
    ((imageFetch s.img s.asid x).2 = .err .nomap → unmap = .ok () →
      (msecLookup s unmap map x).2 = .err .nomap) := by
  have hi : ScInv s := hs ▸ sc_run i ops
  refine ⟨(lookup_spec s unmap map x hi).2, ?_, ?_⟩
  · rintro m hf rfl rfl hu
    have hfill : (cacheFill s (.ok ()) (.ok ()) x).2 = .ok m := by
      have ⟨h1, h2, h3, h4, h5⟩ := invalidate_spec s (.ok ())
      have hok : (cacheInvalidate s (.ok ())).2 = .ok () := by
        unfold cacheInvalidate; cases s.cache <;> rfl
      unfold cacheFill
      generalize cacheInvalidate s (.ok ()) = r at *
      obtain ⟨s', r⟩ := r
      simp only at h1 h2 h3 h4 h5 hok
      subst hok
      simp only
      rw [← fetch_congr h3, ← h2] at hf
      have hp := (fetch_perm s'.img s'.asid x).2
      unfold imageFind
      generalize imageFetch s'.img s'.asid x = q at *
      obtain ⟨j, q⟩ := q
      simp only at hf hp
      subst hf
      have := h4 m.sec
      have hnc : ¬ 65535 < j.uc m.sec + 1 := by rw [hp]; omega
      simp only [if_neg hnc]
    unfold msecLookup
    cases hc : s.cache with
    | none => exact hfill
    | some m' =>
      simp only
      by_cases hv : imageValidate s.img s.cache x = true
      · have := validate_fetch hi hc hv
        rw [hc] at hv; rw [if_pos hv]; rw [← this, hf]
      · rw [hc] at hv; rw [if_neg hv]; exact hfill
  · rintro hf rfl
    have hfill : (cacheFill s (.ok ()) map x).2 = .err .nomap := by
      have ⟨h1, h2, h3, h4, h5⟩ := invalidate_spec s (.ok ())
      have hok : (cacheInvalidate s (.ok ())).2 = .ok () := by
        unfold cacheInvalidate; cases s.cache <;> rfl
      unfold cacheFill
      generalize cacheInvalidate s (.ok ()) = r at *
      obtain ⟨s', r⟩ := r
      simp only at h1 h2 h3 h4 h5 hok
      subst hok
      simp only
      rw [← fetch_congr h3, ← h2] at hf
      unfold imageFind
      generalize imageFetch s'.img s'.asid x = q at *
      obtain ⟨j, q⟩ := q
      simp only at hf
      subst hf
      rfl
    unfold msecLookup
    cases hc : s.cache with
    | none => exact hfill
    | some m' =>
      simp only
      by_cases hv : imageValidate s.img s.cache x = true
      · have := validate_fetch hi hc hv
        rw [hf] at this; cases this
      · rw [hc] at hv; rw [if_neg hv]; exact hfill

/-- C46, bytes: what is read from the cached section is what `pt_image_read` reads, with the same
section identifier. -/
theorem C46_cached_bytes (env : SecEnv) (cb : ReadCb) (i : Img) (ops : List ScOp) (unmap map : Res Unit)
    (x size : Nat) (m : Msec) (bs : List UInt8)
    (hl : (msecLookup (scRun i ops) unmap map x).2 = .ok m) (hr : m.read env size x = .ok bs) :
    (imageRead env cb (.ok ()) (scRun i ops).img size (scRun i ops).asid x).2 = .ok (m.isid, bs) := by
  have hf := (C46_cached_lookup i ops unmap map x _ rfl).1 m hl
  generalize scRun i ops = s at *
  unfold imageRead
  generalize imageFetch s.img s.asid x = q at *
  obtain ⟨j, q⟩ := q
  simp only at hf
  subst hf
  simp only [hr]

/-- The cache holds exactly one reference: a lookup changes the use counts by the references of
the old and the new entry.  `cached s t` is the number of references the cache holds on `t`. -/
def cached (s : ScSt) (t : Nat) : Nat :=
  match s.cache with
  | some m => if m.sec = t then 1 else 0
  | none => 0

/-- C46, references: starting with enough references, no history of fetches and address-space
changes leaks or over-releases a section: the use count minus the cache's own reference stays
what it was.  (Image changes are excluded here; they have their own reference theorem C27.) -/
theorem C46_cache_references (s : ScSt) (op : ScOp) (t : Nat) (hop : ∀ i, op ≠ .image i)
    (hub : ∀ u x, op ≠ .lookup u .ub x)
    (hpos : cached s t ≤ s.img.uc t) :
    (op.step s).img.uc t + cached s t = s.img.uc t + cached (op.step s) t := by
  have hinv : ∀ u, (cacheInvalidate s u).1.img.uc t + cached s t =
      s.img.uc t + cached (cacheInvalidate s u).1 t := by
    intro u
    unfold cacheInvalidate
    cases hc : s.cache with
    | none => simp
    | some m =>
      cases u with
      | ok =>
        simp only [cached, hc, ucDec] at hpos ⊢
        by_cases h : m.sec = t
        · subst h; simp only [if_true] at hpos ⊢; omega
        · have h' : ¬ t = m.sec := fun e => h e.symm
          simp [h, h']
      | err e => rfl
      | ub => rfl
  have hfill : ∀ u p x, p ≠ .ub → (cacheFill s u p x).1.img.uc t + cached s t =
      s.img.uc t + cached (cacheFill s u p x).1 t := by
    intro u p x hp
    have h1 := hinv u
    have ⟨_, _, _, _, h5⟩ := invalidate_spec s u
    unfold cacheFill
    generalize cacheInvalidate s u = r at *
    obtain ⟨s', r⟩ := r
    simp only at h1 h5
    cases r with
    | err e => exact h1
    | ub => exact h1
    | ok =>
      have hn := h5 rfl
      have hz : cached s' t = 0 := by simp [cached, hn]
      have hz' : ∀ j, cached { s' with img := j } t = 0 := by intro j; simp [cached, hn]
      simp only
      have hfu := (fetch_perm s'.img s'.asid x).2
      unfold imageFind
      generalize imageFetch s'.img s'.asid x = q at *
      obtain ⟨j, q⟩ := q
      simp only at hfu
      cases q with
      | err e => simp only [hz']; rw [hfu]; omega
      | ub => simp only [hz']; rw [hfu]; omega
      | ok m =>
        simp only
        by_cases hc : 65535 < j.uc m.sec + 1
        · simp only [if_pos hc, hz']; rw [hfu]; omega
        · simp only [if_neg hc]
          cases p with
          | ok =>
            have hz2 : ∀ j, cached { s' with cache := some m, img := j } t = if m.sec = t then 1 else 0 :=
              fun _ => rfl
            simp only [hz2, ucInc, hfu]
            by_cases h : m.sec = t
            · subst h; simp only [if_true]; omega
            · have h' : ¬ t = m.sec := fun e => h e.symm
              simp only [if_neg h, if_neg h']; omega
          | err e =>
            simp only [hz', ucDec, ucInc, hfu]
            by_cases h : t = m.sec
            · simp only [if_pos h]; omega
            · simp only [if_neg h]; omega
          | ub => exact absurd rfl hp
  cases op with
  | lookup u p x =>
    have hp : p ≠ .ub := fun h => hub u x (by rw [h])
    simp only [ScOp.step, msecLookup]
    cases hc : s.cache with
    | none => exact hfill u p x hp
    | some m =>
      simp only
      by_cases hv : imageValidate s.img (some m) x = true
      · rw [if_pos hv]
      · rw [if_neg hv]; exact hfill u p x hp
  | cr3 u v =>
    have h1 := hinv u
    simp only [ScOp.step, setCr3]
    by_cases hv : s.asid.cr3 ≠ v
    · rw [if_pos hv]
      generalize cacheInvalidate s u = r at *
      obtain ⟨s', r⟩ := r
      cases r <;> exact h1
    · rw [if_neg hv]
  | vmcs u v =>
    have h1 := hinv u
    simp only [ScOp.step, setVmcs]
    by_cases hv : s.asid.vmcs ≠ v
    · rw [if_pos hv]
      generalize cacheInvalidate s u = r at *
      obtain ⟨s', r⟩ := r
      cases r <;> exact h1
    · rw [if_neg hv]
  | reset => rfl
  | image i => exact absurd rfl (hop i)

/-! A history that fills the cache in one address space, switches to another and back: the cached
lookup then hits and agrees with the image. -/

private def exImg : Img :=
  { secs := [⟨1, ⟨0x1000, asidNone⟩, 0x400000, 0, 0x100, 7⟩, ⟨2, ⟨0x2000, asidNone⟩, 0x400000, 0, 0x100, 8⟩],
    uc := fun _ => 1 }

example : (msecLookup (scRun exImg [.cr3 (.ok ()) 0x2000, .lookup (.ok ()) (.ok ()) 0x400010,
      .cr3 (.ok ()) 0x1000, .lookup (.ok ()) (.ok ()) 0x400020, .reset]) (.ok ()) (.ok ()) 0x400030).2 =
    .ok ⟨1, ⟨0x1000, asidNone⟩, 0x400000, 0, 0x100, 7⟩ := by decide +kernel

example : (scRun exImg [.cr3 (.ok ()) 0x2000, .lookup (.ok ()) (.ok ()) 0x400010]).cache =
    some ⟨2, ⟨0x2000, asidNone⟩, 0x400000, 0, 0x100, 8⟩ := by decide +kernel

/-- C46, address spaces: the address space a decoder reads from is the one announced by the trace.  A paging
event replaces the CR3 base and a VMCS event the VMCS base, each keeping the other; fetches and image changes
keep the address space; synchronizing forgets it.  If a change fails, the address space is unchanged. -/
theorem C46_address_space (s : ScSt) (unmap map : Res Unit) (v x : Nat) (i : Img) :
    (((ScOp.cr3 unmap v).step s).asid = ⟨v, s.asid.vmcs⟩ ∨
      (((ScOp.cr3 unmap v).step s).asid = s.asid ∧ (setCr3 s unmap v).2 ≠ .ok ())) ∧
    (((ScOp.vmcs unmap v).step s).asid = ⟨s.asid.cr3, v⟩ ∨
      (((ScOp.vmcs unmap v).step s).asid = s.asid ∧ (setVmcs s unmap v).2 ≠ .ok ())) ∧
    ((ScOp.lookup unmap map x).step s).asid = s.asid ∧ ((ScOp.image i).step s).asid = s.asid ∧
    (ScOp.reset.step s).asid = {} := by
  have ha : (cacheInvalidate s unmap).1.asid = s.asid := by
    unfold cacheInvalidate
    cases s.cache with
    | none => rfl
    | some m => cases unmap <;> rfl
  refine ⟨?_, ?_, ?_, rfl, rfl⟩
  · simp only [ScOp.step, setCr3]
    split
    · revert ha
      rcases cacheInvalidate s unmap with ⟨s', a | e | _⟩
      · intro ha; left; simp only at ha ⊢; rw [ha]
      · intro ha; right; exact ⟨ha, by simp⟩
      · intro ha; right; exact ⟨ha, by simp⟩
    · left; rename_i h; rw [← Classical.not_not.1 h]
  · simp only [ScOp.step, setVmcs]
    split
    · revert ha
      rcases cacheInvalidate s unmap with ⟨s', a | e | _⟩
      · intro ha; left; simp only at ha ⊢; rw [ha]
      · intro ha; right; exact ⟨ha, by simp⟩
      · intro ha; right; exact ⟨ha, by simp⟩
    · left; rename_i h; rw [← Classical.not_not.1 h]
  · have hf : (cacheFill s unmap map x).1.asid = s.asid := by
      unfold cacheFill
      revert ha
      rcases cacheInvalidate s unmap with ⟨s', a | e | _⟩
      · intro ha
        simp only at ha ⊢
        rcases imageFind s'.img s'.asid x with ⟨i', m | e | _⟩
        · rcases map with a | e | _ <;> exact ha
        · exact ha
        · exact ha
      · exact fun ha => ha
      · exact fun ha => ha
    simp only [ScOp.step, msecLookup]
    split
    · split
      · rfl
      · exact hf
    · exact hf

example : (scRun { secs := [], uc := fun _ => 1 } [.cr3 (.ok ()) 0x1000, .vmcs (.ok ()) 0x2000, .cr3 (.ok ()) 0x3000]).asid = ⟨0x3000, 0x2000⟩ := by
  decide +kernel

end Ipt.Props
