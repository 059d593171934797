import Verif.Props.Insn
import Verif.Props.MsecCache

/-!
# C46: instructions decoded from the cached section
-/

namespace Ipt.Props

open Ipt Ild Spec

/-- After a lookup through the cache the image finds the same section, or still none. -/
theorem lookup_again (s : ScSt) (u p : Res Unit) (x : Nat) (hi : ScInv s) :
    (∀ m, (msecLookup s u p x).2 = .ok m →
      (imageFetch (msecLookup s u p x).1.img (msecLookup s u p x).1.asid x).2 = .ok m) := by
  have front : ∀ (i : Img) (a : Asid) (m : Msec), (imageFetch i a x).2 = .ok m →
      (imageFetch (imageFetch i a x).1 a x).2 = .ok m := by
    intro i a m h
    have hs := fetch_ok_space h
    have hck := (check_iff m a x).mpr hs
    unfold imageFetch at h ⊢
    cases h' : takeFirst (fun m => m.check a x) i.secs with
    | none => rw [h'] at h; cases h
    | some r =>
      rw [h'] at h
      cases h
      simp [takeFirst, hck]
  have fill : ∀ m, (cacheFill s u p x).2 = .ok m →
      (imageFetch (cacheFill s u p x).1.img (cacheFill s u p x).1.asid x).2 = .ok m := by
    intro m h
    unfold cacheFill at h ⊢
    rcases hu : cacheInvalidate s u with ⟨s', r | e | _⟩ <;> rw [hu] at h
    · dsimp only at h ⊢
      have hf := front s'.img s'.asid
      unfold imageFind at h ⊢
      rcases hq : imageFetch s'.img s'.asid x with ⟨j, m' | e | _⟩ <;> rw [hq] at h hf
      · dsimp only at h hf ⊢
        by_cases hlt : 65535 < j.uc m'.sec + 1
        · rw [if_pos hlt] at h; cases h
        · rw [if_neg hlt] at h ⊢
          dsimp only at h ⊢
          rcases p with _ | _ | _
          · cases h
            show (imageFetch _ s'.asid x).2 = _
            exact (fetch_congr (i := ⟨j.secs, ucInc j.uc m.sec⟩) (j := j) rfl _ _).trans (hf _ rfl)
          · cases h
          · cases h
      · cases h
      · cases h
    · cases h
    · cases h
  intro m h
  unfold msecLookup at h ⊢
  cases hc : s.cache with
  | none => rw [hc] at h; exact fill m h
  | some m' =>
    rw [hc] at h
    dsimp only at h ⊢
    by_cases hv : imageValidate s.img (some m') x = true
    · rw [if_pos hv] at h ⊢
      cases h
      exact validate_fetch hi hc (by rw [hc]; exact hv)
    · rw [if_neg hv] at h ⊢
      exact fill m h

theorem store_store {raw raw' bs : List UInt8} (h : store raw 0 bs = .ok raw') :
    store raw' 0 bs = .ok raw' := by
  unfold store at h
  split at h
  · cases h
  · rename_i hl
    cases h
    rw [store_ok (by simp)]
    simp

/-- Decoding from the section the image finds is decoding from the image. -/
theorem cached_decode {env : SecEnv} {cb : ReadCb} {img : Img} {asid : Asid} {m : Msec} {i : Insn}
    (hf : (imageFetch img asid i.ip).2 = .ok m) (hid : i.isid = m.isid) :
    (insnDecodeCached env (imgReader env cb asid) (some m) (img, []) i).2 =
      (insnDecode (imgReader env cb asid) (img, []) i).2 := by
  have hread : (imgReader env cb asid (img, []) 15 i.ip).2 =
      match m.read env 15 i.ip with
      | .ok bs => .ok (m.isid, bs)
      | .err .nomap => readCallback cb 15 asid i.ip
      | .err e => .err e
      | .ub => .ub := by
    unfold imgReader
    dsimp only [List.headD_nil]
    unfold imageRead
    rcases hq : imageFetch img asid i.ip with ⟨j, r⟩
    rw [hq] at hf
    dsimp only at hf
    subst hf
    dsimp only
    rcases m.read env 15 i.ip with bs | e | _
    · rfl
    · cases e <;> rfl
    · rfl
  unfold insnDecodeCached
  dsimp only
  rcases hr : m.read env 15 i.ip with bs | e | _ <;> rw [hr] at hread
  · dsimp only at hread ⊢
    rcases hs : store i.raw 0 bs with raw | e | _
    · dsimp only
      rcases hil : ildDecode raw bs.length i.mode with ⟨n, x | e | _⟩
      · dsimp only
        unfold insnDecode
        rcases hq : imgReader env cb asid (img, []) 15 i.ip with ⟨s', r⟩
        rw [hq] at hread
        dsimp only at hread
        subst hread
        dsimp only
        rw [hs]
        dsimp only
        rw [hil, ← hid]
      · have same : insnDecode (imgReader env cb asid) (img, []) { i with raw, size := n } =
            insnDecode (imgReader env cb asid) (img, []) i := by
          unfold insnDecode
          dsimp only
          rcases hq : imgReader env cb asid (img, []) 15 i.ip with ⟨s', r⟩
          rw [hq] at hread
          dsimp only at hread
          subst hread
          dsimp only
          rw [hs, store_store hs]
        cases e
        all_goals first
          | (dsimp only; rw [same]; done)
          | (dsimp only
             unfold insnDecode
             rcases hq : imgReader env cb asid (img, []) 15 i.ip with ⟨s', r⟩
             rw [hq] at hread
             dsimp only at hread
             subst hread
             dsimp only
             rw [hs]
             dsimp only
             rw [hil])
      · dsimp only
        unfold insnDecode
        rcases hq : imgReader env cb asid (img, []) 15 i.ip with ⟨s', r⟩
        rw [hq] at hread
        dsimp only at hread
        subst hread
        dsimp only
        rw [hs]
        dsimp only
        rw [hil]
    all_goals
      dsimp only
      unfold insnDecode
      rcases hq : imgReader env cb asid (img, []) 15 i.ip with ⟨s', r⟩
      rw [hq] at hread
      dsimp only at hread
      subst hread
      dsimp only
      rw [hs]
  · cases e
    all_goals first
      | rfl
      | (dsimp only at hread ⊢
         unfold insnDecode
         rcases hq : imgReader env cb asid (img, []) 15 i.ip with ⟨s', r⟩
         rw [hq] at hread
         dsimp only at hread
         subst hread
         rfl)
  · dsimp only at hread ⊢
    unfold insnDecode
    rcases hq : imgReader env cb asid (img, []) 15 i.ip with ⟨s', r⟩
    rw [hq] at hread
    dsimp only at hread
    subst hread
    rfl

/-- C46, instructions: after any history, looking up the section of an instruction in the cache and
decoding the instruction from it has the same result as decoding it from the image, including its
bytes, section identifier and errors; a truncated read from the cached section, which fails to
decode, is not mistaken for a bad instruction. -/
theorem C46_cached_instruction (env : SecEnv) (cb : ReadCb) (img : Img) (ops : List ScOp)
    (unmap map : Res Unit) (i : Insn) (m : Msec)
    (hl : (msecLookup (scRun img ops) unmap map i.ip).2 = .ok m) (hid : i.isid = m.isid) :
    let s := (msecLookup (scRun img ops) unmap map i.ip).1
    (insnDecodeCached env (imgReader env cb s.asid) (some m) (s.img, []) i).2 =
      (insnDecode (imgReader env cb s.asid) (s.img, []) i).2 := by
  have h := lookup_again (scRun img ops) unmap map i.ip (sc_run img ops) m hl
  exact cached_decode h hid

/-- A call that starts in the cached section and ends in the next one. -/
example : ∃ env : SecEnv, ∃ m,
    let img := (ImgOp.run env ⟨[], fun _ => 1⟩ [.add 0 {} 0x1000 7 [], .add 1 {} 0x1002 8 []]).1
    let i : Insn := { ip := 0x1000, mode := .b64, isid := 7 }
    let l := msecLookup (scRun img []) (.ok ()) (.ok ()) 0x1000
    l.2 = .ok m ∧ m.isid = 7 ∧
    (insnDecodeCached env (imgReader env none l.1.asid) (some m) (l.1.img, []) i).2 =
      .ok { i with
        isid := 7, size := 5, truncated := true, ext := ⟨.call, .callE8, 0x10, true⟩
        raw := [0xe8, 0x10, 0, 0, 0, 0, 0, 0, 0, 0, 0, 0, 0, 0, 0] } := by
  refine ⟨⟨fun s => if s = 0 then 2 else 3, fun _ => "a",
    fun s o => if s = 0 then (if o = 0 then 0xe8 else 0x10) else 0⟩,
    ⟨0, {}, 0x1000, 0, 2, 7⟩, ?_⟩
  decide +kernel

end Ipt.Props
