import Verif.Spec.History
import Verif.Props.MsecCache
import Verif.Props.RetStack
import Verif.InsnDecoder

/-!
# Reading memory from images with the same sections in a different order
-/

namespace Ipt

open Spec Props Ild

/-! ## Lookup -/

/-- The same sections. -/
def SameSecs (a b : List Msec) : Prop := ∀ m, m ∈ a ↔ m ∈ b

theorem fetch_members (i : Img) (a : Asid) (x : Nat) :
    SameSecs (imageFetch i a x).1.secs i.secs ∧ (imageFetch i a x).1.uc = i.uc := by
  unfold imageFetch
  cases h : takeFirst (fun m => m.check a x) i.secs with
  | none => exact ⟨fun _ => .rfl, rfl⟩
  | some r =>
    obtain ⟨m, l⟩ := r
    exact ⟨fun n => (takeFirst_some h).2.mem_iff, rfl⟩

theorem fetch_same {i j : Img} (hu : Unambiguous i.secs) (h : SameSecs i.secs j.secs) (a : Asid) (x : Nat) :
    (imageFetch j a x).2 = (imageFetch i a x).2 := by
  unfold imageFetch
  cases hi : takeFirst (fun m => m.check a x) i.secs with
  | none =>
    rw [takeFirst_none] at hi
    have : takeFirst (fun m => m.check a x) j.secs = none := takeFirst_none.2 fun m hm => hi m ((h m).2 hm)
    rw [this]
  | some r =>
    obtain ⟨m, l⟩ := r
    obtain ⟨h1, h2⟩ := takeFirst_some hi
    have hm : m ∈ i.secs := h2.mem_iff.1 (List.mem_cons_self ..)
    cases hj : takeFirst (fun m => m.check a x) j.secs with
    | none =>
      have := takeFirst_none.1 hj m ((h m).1 hm)
      rw [h1] at this
      cases this
    | some r' =>
      obtain ⟨n, l'⟩ := r'
      obtain ⟨k1, k2⟩ := takeFirst_some hj
      have hn : n ∈ i.secs := (h n).2 (k2.mem_iff.1 (List.mem_cons_self ..))
      have := hu m hm n hn x ((check_iff _ _ _).1 h1).1 ((check_iff _ _ _).1 k1).1
      subst this
      rfl

/-! ## Readers -/

/-- The reader takes related states to related states, with the same result. -/
def RdrSim (R : σ → σ → Prop) (rdr : MemReader σ) : Prop :=
  ∀ s t, R s t → ∀ n a, (rdr t n a).2 = (rdr s n a).2 ∧ R (rdr s n a).1 (rdr t n a).1

section
variable {σ : Type} {R : σ → σ → Prop} {rdr : MemReader σ}

theorem insnRetry_sim (hr : RdrSim R rdr) (n : Nat) (s t : σ) (h : R s t) (i : Insn) :
    (insnRetry rdr n t i).2 = (insnRetry rdr n s i).2 ∧ R (insnRetry rdr n s i).1 (insnRetry rdr n t i).1 := by
  induction n generalizing s t i with
  | zero => exact ⟨rfl, h⟩
  | succ n ih =>
    unfold insnRetry
    dsimp only
    split
    · exact ⟨rfl, h⟩
    · obtain ⟨h1, h2⟩ := hr s t h (15 - i.size) ((i.ip + i.size) % 2 ^ 64)
      rcases hs : rdr s (15 - i.size) ((i.ip + i.size) % 2 ^ 64) with ⟨s', r⟩
      rcases ht : rdr t (15 - i.size) ((i.ip + i.size) % 2 ^ 64) with ⟨t', r'⟩
      rw [hs, ht] at h1 h2
      dsimp only at h1 h2
      subst h1
      rcases r' with ⟨_, bs⟩ | e | _
      · dsimp only
        split
        · exact ⟨rfl, h2⟩
        · cases store i.raw i.size bs with
          | ok raw =>
            dsimp only
            rcases ildDecode raw (i.size + bs.length) i.mode with ⟨k, x | e | _⟩
            · exact ⟨rfl, h2⟩
            · cases e
              all_goals try exact ⟨rfl, h2⟩
              dsimp only
              split
              · exact ⟨rfl, h2⟩
              · exact ih s' t' h2 _
            · exact ⟨rfl, h2⟩
          | err e => exact ⟨rfl, h2⟩
          | ub => exact ⟨rfl, h2⟩
      · cases e <;> exact ⟨rfl, h2⟩
      · exact ⟨rfl, h2⟩

theorem insnDecode_sim (hr : RdrSim R rdr) (s t : σ) (h : R s t) (i : Insn) :
    (insnDecode rdr t i).2 = (insnDecode rdr s i).2 ∧ R (insnDecode rdr s i).1 (insnDecode rdr t i).1 := by
  unfold insnDecode
  obtain ⟨h1, h2⟩ := hr s t h 15 i.ip
  rcases hs : rdr s 15 i.ip with ⟨s', r⟩
  rcases ht : rdr t 15 i.ip with ⟨t', r'⟩
  rw [hs, ht] at h1 h2
  dsimp only at h1 h2
  subst h1
  rcases r' with ⟨isid, bs⟩ | e | _
  · dsimp only
    cases store i.raw 0 bs with
    | ok raw =>
      dsimp only
      rcases ildDecode raw bs.length i.mode with ⟨k, x | e | _⟩
      · exact ⟨rfl, h2⟩
      · cases e
        all_goals try exact ⟨rfl, h2⟩
        dsimp only
        split
        · exact ⟨rfl, h2⟩
        · exact insnRetry_sim hr _ s' t' h2 _
      · exact ⟨rfl, h2⟩
    | err e => exact ⟨rfl, h2⟩
    | ub => exact ⟨rfl, h2⟩
  · exact ⟨rfl, h2⟩
  · exact ⟨rfl, h2⟩

theorem rangeContiguous_sim (hr : RdrSim R rdr) (e : Nat) (n : Nat) (s t : σ) (h : R s t) (i : Insn) :
    (rangeContiguous rdr e n t i).2 = (rangeContiguous rdr e n s i).2 ∧
      R (rangeContiguous rdr e n s i).1 (rangeContiguous rdr e n t i).1 := by
  induction n generalizing s t i with
  | zero =>
    unfold rangeContiguous
    split <;> exact ⟨rfl, h⟩
  | succ n ih =>
    unfold rangeContiguous
    split
    · exact ⟨rfl, h⟩
    · dsimp only
      obtain ⟨h1, h2⟩ := insnDecode_sim hr s t h i
      rcases hs : insnDecode rdr s i with ⟨s', r⟩
      rcases ht : insnDecode rdr t i with ⟨t', r'⟩
      rw [hs, ht] at h1 h2
      dsimp only at h1 h2
      subst h1
      rcases r' with j | e | _
      · dsimp only
        cases nextIp j with
        | ok ip => exact ih s' t' h2 _
        | err e => exact ⟨rfl, h2⟩
        | ub => exact ⟨rfl, h2⟩
      · exact ⟨rfl, h2⟩
      · exact ⟨rfl, h2⟩

theorem insnDecodeCached_sim (hr : RdrSim R rdr) (env : SecEnv) (m : Option Msec) (s t : σ) (h : R s t) (i : Insn) :
    (insnDecodeCached env rdr m t i).2 = (insnDecodeCached env rdr m s i).2 ∧
      R (insnDecodeCached env rdr m s i).1 (insnDecodeCached env rdr m t i).1 := by
  unfold insnDecodeCached
  cases m with
  | none => exact insnDecode_sim hr s t h i
  | some m =>
    dsimp only
    rcases m.read env 15 i.ip with bs | e | _
    · dsimp only
      cases store i.raw 0 bs with
      | ok raw =>
        dsimp only
        rcases ildDecode raw bs.length i.mode with ⟨k, x | e | _⟩
        · exact ⟨rfl, h⟩
        · cases e
          all_goals try exact ⟨rfl, h⟩
          exact insnDecode_sim hr s t h _
        · exact ⟨rfl, h⟩
      | err e => exact ⟨rfl, h⟩
      | ub => exact ⟨rfl, h⟩
    · cases e
      all_goals try exact ⟨rfl, h⟩
      exact insnDecode_sim hr s t h i
    · exact ⟨rfl, h⟩

end

/-- Images with the same sections; mapping sections succeeds. -/
structure SameImg (u v : Nat → Nat) (s t : Img × List (Res Unit)) : Prop where
  maps : s.2 = []
  maps' : t.2 = []
  secs : SameSecs s.1.secs t.1.secs
  unamb : Unambiguous s.1.secs
  uc : s.1.uc = u
  uc' : t.1.uc = v

theorem SameSecs.unambiguous {a b : List Msec} (h : SameSecs a b) (hu : Unambiguous b) : Unambiguous a :=
  fun m hm n hn x h1 h2 => hu m ((h m).1 hm) n ((h n).1 hn) x h1 h2

theorem imgReader_sim (env : SecEnv) (cb : ReadCb) (a : Asid) (u v : Nat → Nat) :
    RdrSim (SameImg u v) (imgReader env cb a) := by
  rintro ⟨i, m⟩ ⟨j, m'⟩ ⟨h1, h2, h3, h4, h5, h6⟩ n x
  dsimp only at h1 h2 h3 h4 h5 h6
  subst h1 h2
  have k := fetch_same h4 h3 a x
  obtain ⟨k1, k2⟩ := fetch_members i a x
  obtain ⟨k3, k4⟩ := fetch_members j a x
  unfold imgReader
  dsimp only
  have key : ∀ i : Img, imageRead env cb (([] : List (Res Unit)).headD (.ok ())) i n a x =
      ((imageFetch i a x).1,
        match (imageFetch i a x).2 with
        | .err .nomap => readCallback cb n a x
        | .err e => .err e
        | .ub => .ub
        | .ok m =>
          match m.read env n x with
          | .ok bs => .ok (m.isid, bs)
          | .err .nomap => readCallback cb n a x
          | .err e => .err e
          | .ub => .ub) := by
    intro i
    unfold imageRead
    rcases imageFetch i a x with ⟨i', m | e | _⟩
    · show (match m.read env n x with
        | .ok bs => (i', Res.ok (m.isid, bs))
        | .err .nomap => (i', readCallback cb n a x)
        | .err e => (i', Res.err e)
        | .ub => (i', Res.ub)) = _
      dsimp only
      rcases m.read env n x with bs | e | _
      · rfl
      · cases e <;> rfl
      · rfl
    · cases e <;> rfl
    · rfl
  rw [key i, key j, k]
  refine ⟨rfl, rfl, rfl, ?_, k1.unambiguous h4, ?_, ?_⟩
  · intro m
    exact (k1 m).trans ((h3 m).trans (k3 m).symm)
  · show (imageFetch i a x).1.uc = u
    rw [k2, h5]
  · show (imageFetch j a x).1.uc = v
    rw [k4, h6]

/-! ## The section cache -/

/-- The parts of the state that the section cache depends on, up to the order of the sections. -/
structure ScAlike (s t : ScSt) : Prop where
  asid : t.asid = s.asid
  secs : SameSecs s.img.secs t.img.secs
  unamb : Unambiguous s.img.secs
  fits : CacheFits s
  fits' : CacheFits t
  room : Room s
  room' : Room t

/-- One side of `ScAlike`. -/
structure ScFit (s : ScSt) : Prop where
  fits : CacheFits s
  room : Room s

theorem invalidate_fit {s : ScSt} (h : ScFit s) :
    (cacheInvalidate s (.ok ())).2 = .ok () ∧ (cacheInvalidate s (.ok ())).1.cache = none ∧
    (cacheInvalidate s (.ok ())).1.asid = s.asid ∧ (cacheInvalidate s (.ok ())).1.img.secs = s.img.secs ∧
    ∀ sec, (cacheInvalidate s (.ok ())).1.img.uc sec < 65535 := by
  unfold cacheInvalidate
  have hr := h.room
  unfold Room at hr
  cases hc : s.cache with
  | none => rw [hc] at hr; exact ⟨rfl, hc, rfl, rfl, hr⟩
  | some m =>
    rw [hc] at hr
    refine ⟨rfl, rfl, rfl, rfl, fun sec => ?_⟩
    have := hr sec
    show ucDec s.img.uc m.sec sec < 65535
    unfold ucDec
    split <;> (dsimp only at this; split at this <;> omega)

theorem fill_fit {s : ScSt} (h : ScFit s) (x : Nat) :
    (cacheFill s (.ok ()) (.ok ()) x).2 = (imageFetch s.img s.asid x).2 ∧
    ScFit (cacheFill s (.ok ()) (.ok ()) x).1 ∧ (cacheFill s (.ok ()) (.ok ()) x).1.asid = s.asid ∧
    SameSecs (cacheFill s (.ok ()) (.ok ()) x).1.img.secs s.img.secs := by
  obtain ⟨h1, h2, h3, h4, h5⟩ := invalidate_fit h
  unfold cacheFill
  rcases hi : cacheInvalidate s (.ok ()) with ⟨s', r⟩
  rw [hi] at h1 h2 h3 h4 h5
  dsimp only at h1 h2 h3 h4 h5
  subst h1
  dsimp only
  have hf := fetch_congr h4 s.asid x
  obtain ⟨k1, k2⟩ := fetch_members s'.img s.asid x
  unfold imageFind
  rw [h3]
  rcases hi : imageFetch s'.img s.asid x with ⟨i, m | e | _⟩ <;> rw [hi] at hf k1 k2 <;> dsimp only at hf k1 k2
  · dsimp only
    rw [if_neg (by rw [k2]; have := h5 m.sec; omega)]
    refine ⟨hf, ⟨?_, ?_⟩, rfl, fun n => by rw [← h4]; exact k1 n⟩
    · intro n hn
      cases hn
      show SameSpace m.asid s.asid
      exact (fetch_ok_space hf.symm).2
    · intro sec
      have := h5 sec
      show ucInc i.uc m.sec sec < 65535 + if m.sec = sec then 1 else 0
      unfold ucInc
      rw [k2]
      by_cases hm : sec = m.sec
      · rw [if_pos hm, if_pos hm.symm]; omega
      · rw [if_neg hm, if_neg (Ne.symm hm)]; omega
  · refine ⟨hf, ⟨fun n hn => ?_, fun sec => ?_⟩, rfl, fun n => by rw [← h4]; exact k1 n⟩
    · have hn : s'.cache = some n := hn
      rw [h2] at hn; cases hn
    · show i.uc sec < 65535 + match s'.cache with | some m => _ | none => _
      rw [h2, k2]
      exact h5 sec
  · refine ⟨hf, ⟨fun n hn => ?_, fun sec => ?_⟩, rfl, fun n => by rw [← h4]; exact k1 n⟩
    · have hn : s'.cache = some n := hn
      rw [h2] at hn; cases hn
    · show i.uc sec < 65535 + match s'.cache with | some m => _ | none => _
      rw [h2, k2]
      exact h5 sec

theorem lookup_fit {s : ScSt} (h : ScFit s) (x : Nat) :
    (msecLookup s (.ok ()) (.ok ()) x).2 = (imageFetch s.img s.asid x).2 ∧
    ScFit (msecLookup s (.ok ()) (.ok ()) x).1 ∧ (msecLookup s (.ok ()) (.ok ()) x).1.asid = s.asid ∧
    SameSecs (msecLookup s (.ok ()) (.ok ()) x).1.img.secs s.img.secs := by
  unfold msecLookup
  cases hc : s.cache with
  | none => exact fill_fit h x
  | some m =>
    dsimp only
    by_cases hv : imageValidate s.img (some m) x = true
    · rw [if_pos hv]
      exact ⟨(validate_fetch h.fits hc (by rw [hc]; exact hv)).symm, h, rfl, fun _ => .rfl⟩
    · rw [if_neg hv]
      exact fill_fit h x

theorem msecLookup_sim {s t : ScSt} (h : ScAlike s t) (x : Nat) :
    (msecLookup t (.ok ()) (.ok ()) x).2 = (msecLookup s (.ok ()) (.ok ()) x).2 ∧
      ScAlike (msecLookup s (.ok ()) (.ok ()) x).1 (msecLookup t (.ok ()) (.ok ()) x).1 := by
  obtain ⟨a1, a2, a3, a4⟩ := lookup_fit ⟨h.fits, h.room⟩ x
  obtain ⟨b1, b2, b3, b4⟩ := lookup_fit ⟨h.fits', h.room'⟩ x
  refine ⟨?_, b3.trans (h.asid.trans a3.symm), ?_, a4.unambiguous h.unamb, a2.fits, b2.fits, a2.room, b2.room⟩
  · rw [a1, b1, h.asid]
    exact fetch_same h.unamb h.secs _ _
  · intro m
    exact (a4 m).trans ((h.secs m).trans (b4 m).symm)

theorem setCr3_sim {s t : ScSt} (h : ScAlike s t) (v : Nat) :
    (setCr3 t (.ok ()) v).2 = (setCr3 s (.ok ()) v).2 ∧ ScAlike (setCr3 s (.ok ()) v).1 (setCr3 t (.ok ()) v).1 := by
  unfold setCr3
  rw [h.asid]
  split
  · obtain ⟨a1, a2, a3, a4, a5⟩ := invalidate_fit ⟨h.fits, h.room⟩
    obtain ⟨b1, b2, b3, b4, b5⟩ := invalidate_fit ⟨h.fits', h.room'⟩
    rcases hs : cacheInvalidate s (.ok ()) with ⟨s', r⟩
    rcases ht : cacheInvalidate t (.ok ()) with ⟨t', r'⟩
    rw [hs] at a1 a2 a3 a4 a5
    rw [ht] at b1 b2 b3 b4 b5
    dsimp only at a1 a2 a3 a4 a5 b1 b2 b3 b4 b5
    subst a1 b1
    dsimp only
    refine ⟨rfl, ?_, ?_, ?_, ?_, ?_, ?_, ?_⟩
    · show { t'.asid with cr3 := v } = { s'.asid with cr3 := v }
      rw [a3, b3, h.asid]
    · show SameSecs s'.img.secs t'.img.secs
      rw [a4, b4]; exact h.secs
    · show Unambiguous s'.img.secs
      rw [a4]; exact h.unamb
    · intro m hm
      have hm : s'.cache = some m := hm
      rw [a2] at hm; cases hm
    · intro m hm
      have hm : t'.cache = some m := hm
      rw [b2] at hm; cases hm
    · intro sec
      show s'.img.uc sec < 65535 + match s'.cache with | some m => _ | none => _
      rw [a2]; exact a5 sec
    · intro sec
      show t'.img.uc sec < 65535 + match t'.cache with | some m => _ | none => _
      rw [b2]; exact b5 sec
  · exact ⟨rfl, h⟩

theorem setVmcs_sim {s t : ScSt} (h : ScAlike s t) (v : Nat) :
    (setVmcs t (.ok ()) v).2 = (setVmcs s (.ok ()) v).2 ∧ ScAlike (setVmcs s (.ok ()) v).1 (setVmcs t (.ok ()) v).1 := by
  unfold setVmcs
  rw [h.asid]
  split
  · obtain ⟨a1, a2, a3, a4, a5⟩ := invalidate_fit ⟨h.fits, h.room⟩
    obtain ⟨b1, b2, b3, b4, b5⟩ := invalidate_fit ⟨h.fits', h.room'⟩
    rcases hs : cacheInvalidate s (.ok ()) with ⟨s', r⟩
    rcases ht : cacheInvalidate t (.ok ()) with ⟨t', r'⟩
    rw [hs] at a1 a2 a3 a4 a5
    rw [ht] at b1 b2 b3 b4 b5
    dsimp only at a1 a2 a3 a4 a5 b1 b2 b3 b4 b5
    subst a1 b1
    dsimp only
    refine ⟨rfl, ?_, ?_, ?_, ?_, ?_, ?_, ?_⟩
    · show { t'.asid with vmcs := v } = { s'.asid with vmcs := v }
      rw [a3, b3, h.asid]
    · show SameSecs s'.img.secs t'.img.secs
      rw [a4, b4]; exact h.secs
    · show Unambiguous s'.img.secs
      rw [a4]; exact h.unamb
    · intro m hm
      have hm : s'.cache = some m := hm
      rw [a2] at hm; cases hm
    · intro m hm
      have hm : t'.cache = some m := hm
      rw [b2] at hm; cases hm
    · intro sec
      show s'.img.uc sec < 65535 + match s'.cache with | some m => _ | none => _
      rw [a2]; exact a5 sec
    · intro sec
      show t'.img.uc sec < 65535 + match t'.cache with | some m => _ | none => _
      rw [b2]; exact b5 sec
  · exact ⟨rfl, h⟩

end Ipt
