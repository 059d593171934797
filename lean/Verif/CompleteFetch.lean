import Verif.Spec.Traced
import Verif.HistoryInsn
import Verif.InsnFlowStep

/-!
# Helper lemmas: the instruction that is in memory is found
-/

set_option linter.unusedSimpArgs false

namespace Ipt

open Ild Spec Props

variable {c : InsnCfg} {s s' : Idec} {f : Flow}

/-- Mapping sections succeeds, and does not depend on the order of the sections. -/
structure Fit (c : InsnCfg) (s : Idec) : Prop where
  sc : ScAlike s.sc s.sc
  maps : s.maps = []
  placed : Placed s.sc.img.secs ∧ Agrees c s.sc.img.secs

/-- The memory an image shows. -/
def memOf (env : SecEnv) (cm : Asid → Mem) (i : Img) (a : Asid) : Mem := fun x =>
  match (imageFetch i a x).2 with
  | .ok m => some (env.byte m.sec (m.unmap x))
  | _ => cm a x

theorem fetch_found (i : Img) (a : Asid) (x : Nat) :
    ((imageFetch i a x).2 = .err .nomap ∧ ∀ m ∈ i.secs, m.check a x = false) ∨
      ∃ m, (imageFetch i a x).2 = .ok m ∧ m ∈ i.secs ∧ m.Covers x ∧ SameSpace m.asid a := by
  unfold imageFetch
  cases h : takeFirst (fun m => m.check a x) i.secs with
  | none => exact .inl ⟨rfl, takeFirst_none.1 h⟩
  | some r =>
    obtain ⟨m, l⟩ := r
    obtain ⟨h1, h2⟩ := takeFirst_some h
    exact .inr ⟨m, rfl, h2.mem_iff.1 (List.mem_cons_self ..), (check_iff _ _ _).1 h1⟩

theorem placed_covers {env : SecEnv} {m : Msec} {x : Nat} (hp : m.vaddr + m.size < 2 ^ 64) :
    m.Covers x ↔ m.vaddr ≤ x ∧ x < m.vaddr + m.size := by
  unfold Msec.Covers Msec.end_
  rw [Nat.mod_eq_of_lt hp]

theorem callback_bytes {cb : ReadCb} {cm : Asid → Mem} {a : Asid} {size x isid : Nat} {bs : List UInt8} (hcb : CbMem cb cm)
    (h : readCallback cb size a x = .ok (isid, bs)) :
    bs.length ≤ size ∧ ∀ k (h : k < bs.length), cm a ((x + k) % 2 ^ 64) = some bs[k] := by
  unfold readCallback at h
  cases cb with
  | none => cases h
  | some g =>
    dsimp only at h
    rcases hg : g size a x with bs' | e | _ <;> rw [hg] at h <;> cases h
    have := hcb.bytes _ _ _ _ hg
    exact ⟨this.1, fun k hk => this.2 k _ (List.getElem?_eq_getElem hk)⟩

theorem callback_some {cb : ReadCb} {cm : Asid → Mem} {a : Asid} {size x : Nat} {b : UInt8} (hcb : CbMem cb cm) (hs : 1 ≤ size)
    (hx : x < 2 ^ 64) (h : cm a x = some b) : ∃ isid bs, readCallback cb size a x = .ok (isid, bs) ∧ 1 ≤ bs.length := by
  cases cb with
  | none => rw [hcb a x] at h; cases h
  | some g =>
    obtain ⟨bs, h1, h2⟩ := hcb.some _ _ _ _ hs hx h
    refine ⟨0, bs, ?_, h2⟩
    unfold readCallback
    dsimp only
    rw [h1]; rfl

theorem callback_none {cb : ReadCb} {cm : Asid → Mem} {a : Asid} {size x : Nat} (hcb : CbMem cb cm)
    (hx : x < 2 ^ 64) (h : cm a x = none) : readCallback cb size a x = .err .nomap := by
  cases cb with
  | none => rfl
  | some g =>
    unfold readCallback
    dsimp only
    rw [hcb.none _ _ _ hx h]; rfl

theorem callback_noub {cb : ReadCb} {cm : Asid → Mem} {a : Asid} {size x : Nat} (hcb : CbMem cb cm) :
    readCallback cb size a x ≠ .ub := by
  cases cb with
  | none => exact fun h => by cases h
  | some g =>
    unfold readCallback
    dsimp only
    have := hcb.safe size a x
    rcases hg : g size a x with bs' | e | _
    · intro h; cases h
    · intro h; cases h
    · exact absurd hg this

/-- All of the memory is found. -/
theorem mem_readsAll {env : SecEnv} {cb : ReadCb} {cm : Asid → Mem} (henv : env.Ok) (hcb : CbMem cb cm) {i0 : Img} {a : Asid}
    (hu : Unambiguous i0.secs) (hwf : ∀ m ∈ i0.secs, m.WF env) (hp : Placed i0.secs) (hag : AgreesWith env cm i0.secs) :
    ReadsAll (imgReader env cb a) (fun p => SameSecs i0.secs p.1.secs ∧ p.2 = []) (memOf env cm i0 a) := by
  have keep : ∀ s size x, (SameSecs i0.secs s.1.secs ∧ s.2 = []) →
      SameSecs i0.secs (imgReader env cb a s size x).1.1.secs ∧ (imgReader env cb a s size x).1.2 = [] := by
    rintro ⟨i, o⟩ size x ⟨h1, rfl⟩
    have := (imgReader_sim env cb a i.uc i.uc) (i, []) (i, []) ⟨rfl, rfl, fun _ => .rfl,
      SameSecs.unambiguous (fun m => (h1 m).symm) hu, rfl, rfl⟩ size x
    have hf := (fetch_members i a x).1
    refine ⟨?_, this.2.maps⟩
    have e : (imgReader env cb a (i, []) size x).1.1 = (imageFetch i a x).1 := by
      unfold imgReader imageRead
      dsimp only [List.headD]
      rcases imageFetch i a x with ⟨j, m | e | _⟩
      · dsimp only
        rcases m.read env size x with _ | e | _
        · rfl
        · cases e <;> rfl
        · rfl
      · cases e <;> rfl
      · rfl
    intro m
    rw [e]
    exact (h1 m).trans (hf m).symm
  have run : ∀ i : Img, SameSecs i0.secs i.secs → ∀ size x, size ≤ 15 → (imgReader env cb a (i, []) size x).2 =
      match (imageFetch i0 a x).2 with
      | .ok m => .ok (m.isid, (List.range (min size (m.end_ - x))).map fun k => env.byte m.sec (m.unmap (x + k)))
      | _ => readCallback cb size a x := by
    intro i h1 size x hs
    have hf := fetch_same hu h1 a x
    unfold imgReader imageRead
    dsimp only [List.headD]
    rcases fetch_found i0 a x with ⟨h2, -⟩ | ⟨m, h2, h3, h4, -⟩
    · rw [h2] at hf ⊢
      rcases hq : imageFetch i a x with ⟨j, r⟩
      rw [hq] at hf
      dsimp only at hf
      subst hf
      rfl
    · rw [h2] at hf ⊢
      rcases hq : imageFetch i a x with ⟨j, r⟩
      rw [hq] at hf
      dsimp only at hf
      subst hf
      dsimp only
      rw [(msec_read henv (hwf m h3) (by omega) h4).1]
  refine ⟨⟨keep, ?_, ?_⟩, ?_, ?_⟩
  · rintro ⟨i, o⟩ size x isid bs ⟨h1, h2⟩ hs h
    dsimp only at h1 h2
    subst h2
    rw [run i h1 size x hs] at h
    rcases fetch_found i0 a x with ⟨h2, h2'⟩ | ⟨m, h2, h3, h4, h5⟩
    · rw [h2] at h
      dsimp only at h
      obtain ⟨b1, b2⟩ := callback_bytes hcb h
      refine ⟨b1, fun k hk => ?_⟩
      have b3 := b2 k hk
      unfold memOf
      rcases fetch_found i0 a ((x + k) % 2 ^ 64) with ⟨g2, -⟩ | ⟨m', g2, g3, g4, g5⟩
      · rw [g2]; exact b3
      · rw [g2]
        dsimp only
        have g6 := (placed_covers (env := env) (hp m' g3)).1 g4
        rw [hag m' g3 _ _ _ g6.1 g6.2 g5 b3]
        congr 1
        have h6 := (hwf m' g3).2
        have h7 := henv m'.sec
        unfold Msec.unmap
        congr 1
        omega
    · rw [h2] at h
      cases h
      have hc := (msec_read henv (hwf m h3) (size := size) (by omega) h4).2
      refine ⟨by simp; omega, fun k hk => ?_⟩
      have hk' : k < min size (m.end_ - x) := by simpa using hk
      have hck := hc k hk'
      have hlt : (x + k) % 2 ^ 64 = x + k := by
        have := hck.2
        unfold Msec.end_ at this
        omega
      rw [hlt]
      unfold memOf
      have : (imageFetch i0 a (x + k)).2 = .ok m := by
        rcases fetch_found i0 a (x + k) with ⟨-, g2⟩ | ⟨m', g2, g3, g4, -⟩
        · have := g2 m h3
          rw [(check_iff _ _ _).2 ⟨hck, h5⟩] at this
          cases this
        · rw [g2, hu m' g3 m h3 (x + k) g4 hck]
      rw [this]
      simp
  · rintro ⟨i, o⟩ size x ⟨h1, h2⟩ h
    dsimp only at h1 h2
    subst h2
    unfold imgReader imageRead at h
    dsimp only [List.headD] at h
    rcases fetch_found i a x with ⟨h2, -⟩ | ⟨m, h2, -⟩
    · rcases hq : imageFetch i a x with ⟨j, r⟩
      rw [hq] at h h2
      dsimp only at h2
      subst h2
      exact callback_noub hcb h
    · rcases hq : imageFetch i a x with ⟨j, r⟩
      rw [hq] at h h2
      dsimp only at h2
      subst h2
      dsimp only at h
      have hr : m.read env size x ≠ .ub := by
        unfold Msec.read sectionRead
        dsimp only
        repeat' split
        all_goals simp
      revert h hr
      rcases m.read env size x with bs | e | _
      · intro h; cases h
      · intro h; cases e <;> first | exact fun _ => callback_noub (cb := cb) (a := a) (size := size) (x := x) hcb h | cases h
      · intro _ hr; exact absurd rfl hr
  · rintro ⟨i, o⟩ size x b ⟨h1, h2⟩ hs1 hs2 hlt hm
    dsimp only at h1 h2
    subst h2
    rw [run i h1 size x hs2]
    unfold memOf at hm
    rcases fetch_found i0 a x with ⟨h2, -⟩ | ⟨m, h2, h3, h4, h5⟩
    · rw [h2] at hm ⊢; exact callback_some hcb hs1 hlt hm
    · rw [h2]
      refine ⟨_, _, rfl, ?_⟩
      have := h4.2
      simp
      omega
  · rintro ⟨i, o⟩ size x ⟨h1, h2⟩ hlt hm
    dsimp only at h1 h2
    subst h2
    unfold memOf at hm
    have hf := fetch_same hu h1 a x
    rcases fetch_found i0 a x with ⟨h2, -⟩ | ⟨m, h2, h3, h4, h5⟩
    · rw [h2] at hf
      unfold imgReader imageRead
      rcases hq : imageFetch i a x with ⟨j, r⟩
      rw [hq] at hf
      dsimp only at hf
      subst hf
      rw [h2] at hm
      exact callback_none hcb hlt hm
    · rw [h2] at hm; cases hm

/-- The bytes of the instruction. -/
theorem at_mem {i : Insn} {cm : Asid → Mem} (henv : c.env.Ok) (hcb : CbMem c.cb cm) (hag : AgreesWith c.env cm s.sc.img.secs)
    (hc : Core c s f) (hfit : Fit c s) (hat : f.At c i) :
    i.size ≤ i.raw.length ∧ ∀ k (h : k < i.raw.length), k < i.size →
      memOf c.env cm s.sc.img s.sc.asid ((i.ip + k) % 2 ^ 64) = some i.raw[k] := by
  have h1 : i.size ≤ i.raw.length := by
    by_contra hn
    obtain ⟨b, hb, -⟩ := hat.bytes (i.size - 1) (by have := hat.size; omega)
    rw [List.getElem?_eq_none (by omega)] at hb
    cases hb
  refine ⟨h1, fun k hk hks => ?_⟩
  obtain ⟨b, hb, hby⟩ := hat.bytes k hks
  rw [List.getElem?_eq_getElem hk] at hb
  cases hb
  generalize (i.ip + k) % 2 ^ 64 = x at hby
  rcases hby with ⟨m, a1, a2, a3, a4, a5⟩ | ⟨g, n, a, bs, j, hg, hg1, hg2, hg3⟩
  · have hm := (hc.secs m).2 a1
    have hcov : m.Covers x := (placed_covers (env := c.env) (hfit.placed.1 m hm)).2 ⟨a2, a3⟩
    rw [hc.asid] at a4
    unfold memOf
    rcases fetch_found s.sc.img s.sc.asid x with ⟨-, g2⟩ | ⟨m', g2, g3, g4, -⟩
    · have := g2 m hm
      rw [(check_iff _ _ _).2 ⟨hcov, a4⟩] at this
      cases this
    · rw [g2, hfit.sc.unamb m' g3 m hm x g4 hcov, a5]
      dsimp only
      congr 2
      have h6 := (hc.wf m a1).2
      have h7 := henv m.sec
      unfold Msec.unmap
      omega
  · rw [hg] at hcb
    have h3 := (hcb.bytes _ _ _ _ hg1).2 _ _ hg3
    rw [← hg2, hc.asid] at h3
    unfold memOf
    rcases fetch_found s.sc.img s.sc.asid x with ⟨g2, -⟩ | ⟨m', g2, g3, g4, g5⟩
    · rw [g2]; exact h3
    · rw [g2]
      dsimp only
      have g6 := (placed_covers (env := c.env) (hfit.placed.1 m' g3)).1 g4
      rw [hag m' g3 _ _ _ g6.1 g6.2 g5 h3]
      congr 2
      have h6 := (hc.wf m' ((hc.secs m').1 g3)).2
      have h7 := henv m'.sec
      unfold Msec.unmap
      omega

/-- The decoder finds the instruction in memory. -/
theorem decode_found {σ : Type} {rdr : MemReader σ} {good : σ → Prop} {mem : Mem} (hr : ReadsAll rdr good mem) {t : σ}
    (hg : good t) {i i0 : Insn} (hraw : i0.raw.length = 15) (ht : i0.truncated = false) (hlt : i0.ip < 2 ^ 64)
    (hip : i.ip = i0.ip) (hmode : i.mode = i0.mode) (hsz : i.size ≤ 15) (hl : i.size ≤ i.raw.length)
    (hb : ∀ k (h : k < i.raw.length), k < i.size → mem ((i.ip + k) % 2 ^ 64) = some i.raw[k])
    (hd : ildDecode i.raw i.size i.mode = (i.size, .ok i.ext)) :
    ∃ j, (insnDecode rdr t i0).2 = .ok j ∧ j.size = i.size ∧ j.ext = i.ext ∧ j.raw.take i.size = i.raw.take i.size := by
  have hn := C39_size _ _ _ _ _ hd
  have hlen : (i.raw.take i.size).length = i.size := by simp; omega
  obtain ⟨a1, a2⟩ := avail_of_bytes (mem := mem) (ip := i0.ip) (n := 15) (l := i.raw.take i.size) (by omega) (by
    intro k hk
    rw [List.getElem_take]
    rw [← hip]
    exact hb k (by omega) (by omega))
  rw [hlen] at a1 a2
  obtain ⟨-, h⟩ := C41_fetch_split rdr good mem hr t hg i0 hraw ht hlt _ rfl
  obtain ⟨isid, k, -, -, -, h⟩ := h (by intro hh; rw [hh] at a1; simp at a1; omega)
  generalize avail mem i0.ip 15 = B at a1 a2 h
  have : ildDecode (B ++ i0.raw.drop B.length) B.length i0.mode = (i.size, .ok i.ext) := by
    rw [← hmode]
    refine C39_depends_on_instruction_only _ _ _ _ _ _ _ hl a1 hd ?_
    rw [List.take_append_of_le_length a1, a2]
  rw [this] at h
  obtain ⟨j, h1, h2, h3, h4, -⟩ := h
  exact ⟨j, h1, h2, h3, h4.trans a2⟩

theorem msecLookup_keep {sc : ScSt} (h : ScAlike sc sc) (x : Nat) :
    ScAlike (msecLookup sc (.ok ()) (.ok ()) x).1 (msecLookup sc (.ok ()) (.ok ()) x).1 := (msecLookup_sim h x).2

theorem alike_img {sc : ScSt} (h : ScAlike sc sc) {i : Img} (hs : SameSecs i.secs sc.img.secs) (hu : i.uc = sc.img.uc) :
    ScAlike { sc with img := i } { sc with img := i } := by
  have hr : Room { sc with img := i } := by
    intro sec
    have := h.room sec
    show i.uc sec < _
    rw [hu]
    exact this
  exact ⟨rfl, fun _ => .rfl, hs.unambiguous h.unamb, h.fits, h.fits, hr, hr⟩

theorem placed_same {a b : List Msec} (h : Placed a ∧ Agrees c a) (hs : SameSecs b a) : Placed b ∧ Agrees c b := by
  obtain ⟨h1, cm, h2, h3⟩ := h
  exact ⟨fun m hm => h1 m ((hs m).1 hm), cm, h2, fun m hm => h3 m ((hs m).1 hm)⟩

theorem fetch_fwd (henv : c.env.Ok) (hc : Core c s f) (hip : f.ip = s.ip) (hlt : f.ip < 2 ^ 64)
    (hfit : Fit c s) {i : Insn} (hat : f.At c i) : ∃ s' j, fetchInsn c s = (s', .ok j) ∧ Fit c s' ∧ SameInsn i j := by
  have hmaps := hfit.maps
  obtain ⟨cm, hcb, hag⟩ := hfit.placed.2
  obtain ⟨hl, hb⟩ := at_mem henv hcb hag hc hfit hat
  obtain ⟨l1, l2, l3, l4⟩ := lookup_fit ⟨hfit.sc.fits, hfit.sc.room⟩ s.ip
  have lk := msecLookup_keep hfit.sc s.ip
  have hwf : ∀ m ∈ s.sc.img.secs, m.WF c.env := fun m hm => hc.wf m ((hc.secs m).1 hm)
  have hrd := mem_readsAll (a := s.sc.asid) henv hcb hfit.sc.unamb hwf hfit.placed.1 hag
  generalize hsc : (msecLookup s.sc (.ok ()) (.ok ()) s.ip).1 = sc1 at l2 l3 l4 lk
  -- the image after reading
  have finish : ∀ (msec : Option Msec) (i0 : Insn) , i0.ip = s.ip → i0.mode = s.mode → i0.raw.length = 15 →
      i0.truncated = false → (∀ m, msec = some m → (imageFetch s.sc.img s.sc.asid s.ip).2 = .ok m) →
      ∃ s' j, IM.image (fun im => insnDecodeCached c.env (c.reader s) msec im i0) { s with sc := sc1, maps := [] } =
        (s', .ok j) ∧ Fit c s' ∧ j.size = i.size ∧ j.ext = i.ext ∧ j.raw.take i.size = i.raw.take i.size := by
    intro msec i0 e1 e2 e3 e4 e5
    have keep := (insnDecodeCached_sim (imgReader_sim c.env c.cb s.sc.asid sc1.img.uc sc1.img.uc) c.env msec
      (sc1.img, []) (sc1.img, []) ⟨rfl, rfl, fun _ => .rfl, lk.unamb, rfl, rfl⟩ i0).2
    have hok : ∃ j, (insnDecodeCached c.env (c.reader s) msec (sc1.img, []) i0).2 = .ok j ∧ j.size = i.size ∧
        j.ext = i.ext ∧ j.raw.take i.size = i.raw.take i.size := by
      have hat1 := hat.ip
      have hat2 := hat.mode
      have good : SameSecs s.sc.img.secs sc1.img.secs ∧ ([] : List (Res Unit)) = [] := ⟨fun m => (l4 m).symm, rfl⟩
      have rd : c.reader s = imgReader c.env c.cb s.sc.asid := rfl
      rw [rd]
      have slow : ∀ i1 : Insn, i1.ip = s.ip → i1.mode = s.mode → i1.raw.length = 15 → i1.truncated = false →
          ∃ j, (insnDecode (imgReader c.env c.cb s.sc.asid) (sc1.img, []) i1).2 = .ok j ∧ j.size = i.size ∧
            j.ext = i.ext ∧ j.raw.take i.size = i.raw.take i.size := by
        intro i1 g1 g2 g3 g4
        exact decode_found hrd good g3 g4 (by rw [g1, ← hip]; exact hlt) (by rw [hat1, hip, g1])
          (by rw [hat2, hc.mode, g2]) hat.size.2 hl hb hat.decodes
      unfold insnDecodeCached
      rcases msec with _ | m
      · exact slow i0 e1 e2 e3 e4
      · have hf := e5 m rfl
        dsimp only
        rcases fetch_found s.sc.img s.sc.asid s.ip with ⟨g2, -⟩ | ⟨m', g2, g3, g4, g5⟩
        · rw [g2] at hf; cases hf
        rw [hf] at g2
        cases g2
        obtain ⟨r1, -⟩ := msec_read henv (hwf m g3) (size := 15) (by omega) g4
        rw [e1, r1]
        dsimp only
        have hrb := hrd.bytes (s.sc.img, []) 15 s.ip m.isid
          ((List.range (min 15 (m.end_ - s.ip))).map fun k => c.env.byte m.sec (m.unmap (s.ip + k))) ⟨fun _ => .rfl, rfl⟩
          (by omega) (by
            unfold imgReader imageRead
            dsimp only [List.headD]
            rcases hq : imageFetch s.sc.img s.sc.asid s.ip with ⟨j, r⟩
            rw [hq] at hf
            dsimp only at hf
            subst hf
            dsimp only
            rw [r1])
        generalize ((List.range (min 15 (m.end_ - s.ip))).map fun k => c.env.byte m.sec (m.unmap (s.ip + k))) = bs at hrb
        rw [store_ok (by rw [e3]; simpa using hrb.1)]
        dsimp only
        have hrl : (i0.raw.take 0 ++ bs ++ i0.raw.drop (0 + bs.length)).length = 15 := by
          rw [store_length (by rw [e3]; simpa using hrb.1), e3]
        have hbs : ∀ n, n ≤ bs.length → (i0.raw.take 0 ++ bs ++ i0.raw.drop (0 + bs.length)).take n = bs.take n := by
          intro n hn
          simp only [List.take_zero, List.nil_append]
          rw [List.take_append_of_le_length hn]
        generalize (i0.raw.take 0 ++ bs ++ i0.raw.drop (0 + bs.length)) = raw at hrl hbs
        have agree : ∀ n, n ≤ bs.length → n ≤ i.size → bs.take n = i.raw.take n := by
          intro n h1 h2
          refine List.ext_getElem (by simp; omega) fun k a1 a2 => ?_
          simp only [List.length_take] at a1 a2
          rw [List.getElem_take, List.getElem_take]
          have b1 := hrb.2 k (by omega)
          have b2 := hb k (by omega) (by omega)
          rw [hat1, hip] at b2
          rw [b1] at b2
          exact Option.some.inj b2
        rw [e2, show s.mode = i.mode by rw [hat2, hc.mode]]
        by_cases hcase : i.size ≤ bs.length
        · have : ildDecode raw bs.length i.mode = (i.size, .ok i.ext) := by
            refine C39_depends_on_instruction_only _ _ _ _ _ _ _ hl hcase hat.decodes ?_
            rw [hbs _ hcase, agree _ hcase (Nat.le_refl _)]
          rw [this]
          refine ⟨_, rfl, rfl, rfl, ?_⟩
          dsimp only
          rw [hbs _ hcase, agree _ hcase (Nat.le_refl _)]
        · have hsz := hat.size.2
          have nub := C39_reads_inside_partial raw bs.length i.mode (by omega) (fun h => by omega)
          have hsl := slow { ip := s.ip, mode := i.mode, isid := i0.isid, raw := raw, size := bs.length, truncated := i0.truncated, ext := i0.ext } rfl (hat2.trans hc.mode) hrl e4
          rcases hil : ildDecode raw bs.length i.mode with ⟨n, x | e | _⟩
          · exfalso
            have hn := C39_size _ _ _ _ _ hil
            have := C39_depends_on_instruction_only raw i.raw bs.length i.size i.mode n x (by omega) (by omega) hil
              (by rw [hbs _ hn.2, agree _ hn.2 (by omega)])
            rw [hat.decodes] at this
            cases this
            omega
          · obtain ⟨rfl, rfl⟩ := C39_error _ _ _ _ _ (by omega) hil
            exact hsl
          · rw [hil] at nub; exact absurd rfl nub
    obtain ⟨j, hj, hj2⟩ := hok
    refine ⟨(IM.image (fun im => insnDecodeCached c.env (c.reader s) msec im i0) { s with sc := sc1, maps := [] }).1, j,
      ?_, ?_, hj2⟩
    · exact Prod.ext rfl hj
    · refine ⟨alike_img lk (i := (insnDecodeCached c.env (c.reader s) msec (sc1.img, []) i0).1.1) (by
        have hwf1 : ∀ m, f.sections m → m.WF c.env := hc.wf
        intro m
        have hr := (cached_rel (f := f) henv hc.wf msec (by
          rintro m rfl
          have := e5 m rfl
          rcases fetch_found s.sc.img s.sc.asid s.ip with ⟨g2, -⟩ | ⟨m', g2, g3, g4, g5⟩
          · rw [g2] at this; cases this
          · rw [this] at g2; cases g2
            exact ⟨(hc.secs m).1 g3, by rw [hc.asid]; exact g5⟩) (sc1.img, []) (fun m => (l4 m).trans (hc.secs m)) i0 e3).1
        rw [reader_eq hc]
        exact (hr m).trans ((hc.secs m).symm.trans (l4 m).symm)) keep.uc, keep.maps, ?_⟩
      have hr := (cached_rel (f := f) henv hc.wf msec (by
          rintro m rfl
          have := e5 m rfl
          rcases fetch_found s.sc.img s.sc.asid s.ip with ⟨g2, -⟩ | ⟨m', g2, g3, g4, g5⟩
          · rw [g2] at this; cases this
          · rw [this] at g2; cases g2
            exact ⟨(hc.secs m).1 g3, by rw [hc.asid]; exact g5⟩) (sc1.img, []) (fun m => (l4 m).trans (hc.secs m)) i0 e3).1
      rw [reader_eq hc]
      exact placed_same hfit.placed fun m => (hr m).trans (hc.secs m).symm
  have top : ∃ s' j, fetchInsn c s = (s', .ok j) ∧ Fit c s' ∧ j.size = i.size ∧ j.ext = i.ext ∧
      j.raw.take i.size = i.raw.take i.size := by
    have e0 : fetchInsn c s = ((IM.try_ (IM.cache fun sc => msecLookup sc (.ok ()) (.ok ()) s.ip)) >>= fun r =>
        match r with
        | (some msec, _) =>
          IM.image fun im => insnDecodeCached c.env (c.reader s) (some msec) im { ip := s.ip, mode := s.mode, isid := msec.isid }
        | (none, some e) =>
          if e ≠ .nomap then IM.fail e
          else IM.image fun im => insnDecodeCached c.env (c.reader s) none im { ip := s.ip, mode := s.mode }
        | (none, none) => IM.undef) { s with maps := [] } := by
      unfold fetchInsn
      rw [IM.mapped_bind, IM.mapped_bind, IM.get_bind, hmaps]
      rfl
    rw [e0]
    rcases fetch_found s.sc.img s.sc.asid s.ip with ⟨g2, -⟩ | ⟨m, g2, g3, g4, g5⟩
    · have e1 : (IM.try_ (IM.cache fun sc => msecLookup sc (.ok ()) (.ok ()) s.ip)) { s with maps := [] } =
          ({ s with sc := sc1, maps := [] }, .ok (none, some .nomap)) := by
        rw [IM.try_ok]
        refine .inr ⟨_, ?_, rfl⟩
        unfold IM.cache
        dsimp only
        rw [hsc, l1, g2]
      obtain ⟨s', j, h1, h2⟩ := finish none { ip := s.ip, mode := s.mode } rfl rfl rfl rfl (by simp)
      refine ⟨s', j, ?_, h2⟩
      rw [IM.bind_ok]
      exact ⟨_, _, e1, h1⟩
    · have e1 : (IM.try_ (IM.cache fun sc => msecLookup sc (.ok ()) (.ok ()) s.ip)) { s with maps := [] } =
          ({ s with sc := sc1, maps := [] }, .ok (some m, none)) := by
        rw [IM.try_ok]
        refine .inl ⟨_, ?_, rfl⟩
        unfold IM.cache
        dsimp only
        rw [hsc, l1, g2]
      obtain ⟨s', j, h1, h2⟩ := finish (some m) { ip := s.ip, mode := s.mode, isid := m.isid } rfl rfl rfl rfl (by
        rintro m' ⟨⟩; exact g2)
      refine ⟨s', j, ?_, h2⟩
      rw [IM.bind_ok]
      exact ⟨_, _, e1, h1⟩
  obtain ⟨s', j, h1, h2, h3, h4, h5⟩ := top
  obtain ⟨-, hj, -⟩ := fetch_flow henv hc hip h1
  exact ⟨s', j, h1, h2, by rw [hj.ip, hat.ip], by rw [hj.mode, hat.mode], h3, h4, h5⟩

/-- Looking for a VM entry. -/
theorem skd022_fwd (henv : c.env.Ok) (hc : Core c s f) (hip : f.ip = s.ip) (hlt : f.ip < 2 ^ 64) (hfit : Fit c s) {b : Bool}
    (hv : (∃ i, f.At c i ∧ (i.ext.inst == .vmlaunch || i.ext.inst == .vmresume) = b) ∨ (b = false ∧ ∀ x, ¬ f.Byte c f.ip x)) :
    ∃ s', checkSkd022 c s = (s', .ok b) ∧ Core c s' f ∧ Fit c s' ∧ SameButImage s s' := by
  have hmaps := hfit.maps
  obtain ⟨cm, hcb, hag⟩ := hfit.placed.2
  have hwf : ∀ m ∈ s.sc.img.secs, m.WF c.env := fun m hm => hc.wf m ((hc.secs m).1 hm)
  have hrd := mem_readsAll (a := s.sc.asid) henv hcb hfit.sc.unamb hwf hfit.placed.1 hag
  have rd : c.reader s = imgReader c.env c.cb s.sc.asid := rfl
  have good : SameSecs s.sc.img.secs s.sc.img.secs ∧ ([] : List (Res Unit)) = [] := ⟨fun _ => .rfl, rfl⟩
  have hres : (∃ j, (insnDecode (c.reader s) (s.sc.img, s.maps) { ip := s.ip, mode := s.mode }).2 = .ok j ∧
      (j.ext.inst == .vmlaunch || j.ext.inst == .vmresume) = b) ∨
      ((insnDecode (c.reader s) (s.sc.img, s.maps) { ip := s.ip, mode := s.mode }).2 = .err .nomap ∧ b = false) := by
    rw [rd, hmaps]
    rcases hv with ⟨i, hat, hb⟩ | ⟨hb, hno⟩
    · left
      obtain ⟨hl, hby⟩ := at_mem henv hcb hag hc hfit hat
      obtain ⟨j, h1, -, h2, -⟩ := decode_found (i0 := { ip := s.ip, mode := s.mode }) hrd (t := (s.sc.img, [])) good rfl rfl
        (hip ▸ hlt) (hat.ip.trans hip) (hat.mode.trans hc.mode) hat.size.2 hl hby hat.decodes
      exact ⟨j, h1, by rw [h2]; exact hb⟩
    · right
      refine ⟨?_, hb⟩
      have hm : memOf c.env cm s.sc.img s.sc.asid s.ip = none := by
        unfold memOf
        rcases fetch_found s.sc.img s.sc.asid s.ip with ⟨g2, -⟩ | ⟨m, g2, g3, g4, g5⟩
        · rw [g2]
          dsimp only
          cases hcm : cm s.sc.asid s.ip with
          | none => rfl
          | some x =>
            exfalso
            cases hcb' : c.cb with
            | none => rw [hcb'] at hcb; rw [hcb s.sc.asid s.ip] at hcm; cases hcm
            | some g =>
              rw [hcb'] at hcb
              obtain ⟨bs, k1, k2⟩ := hcb.some 1 _ _ _ (Nat.le_refl 1) (hip ▸ hlt) hcm
              refine hno bs[0] (.inr ⟨g, 1, f.ip, bs, 0, hcb', ?_, ?_, List.getElem?_eq_getElem k2⟩)
              · rw [hc.asid, hip]; exact k1
              · rw [Nat.add_zero, Nat.mod_eq_of_lt hlt]
        · exfalso
          have g6 := (placed_covers (env := c.env) (hfit.placed.1 m g3)).1 g4
          exact hno _ (.inl ⟨m, (hc.secs m).1 g3, hip ▸ g6.1, hip ▸ g6.2, hc.asid ▸ g5, rfl⟩)
      have hav : avail (memOf c.env cm s.sc.img s.sc.asid) s.ip 15 = [] := by
        cases hB : avail (memOf c.env cm s.sc.img s.sc.asid) s.ip 15 with
        | nil => rfl
        | cons x l =>
          have := avail_get (memOf c.env cm s.sc.img s.sc.asid) 15 s.ip 0 (by rw [hB]; simp)
          rw [Nat.add_zero, Nat.mod_eq_of_lt (hip ▸ hlt), hm] at this
          cases this
      exact (C41_fetch_split _ _ _ hrd (s.sc.img, []) good { ip := s.ip, mode := s.mode } rfl rfl (hip ▸ hlt) _ rfl).1 hav
  have hrun : checkSkd022 c s = ({ s with sc := { s.sc with img := (insnDecode (c.reader s) (s.sc.img, s.maps) { ip := s.ip, mode := s.mode }).1.1 }
                                          maps := (insnDecode (c.reader s) (s.sc.img, s.maps) { ip := s.ip, mode := s.mode }).1.2 }, .ok b) := by
    unfold checkSkd022
    rw [IM.get_bind, IM.bind_ok]
    refine ⟨{ s with sc := { s.sc with img := (insnDecode (c.reader s) (s.sc.img, s.maps) { ip := s.ip, mode := s.mode }).1.1 }
                     maps := (insnDecode (c.reader s) (s.sc.img, s.maps) { ip := s.ip, mode := s.mode }).1.2 }, ?_⟩
    rcases hres with ⟨j, h1, h2⟩ | ⟨h1, h2⟩
    · refine ⟨(some j, none), ?_, ?_⟩
      · rw [IM.try_ok]
        refine .inl ⟨j, ?_, rfl⟩
        unfold IM.image
        exact Prod.ext rfl h1
      · dsimp only
        rw [h2]; rfl
    · refine ⟨(none, some .nomap), ?_, ?_⟩
      · rw [IM.try_ok]
        refine .inr ⟨.nomap, ?_, rfl⟩
        unfold IM.image
        exact Prod.ext rfl h1
      · dsimp only
        rw [h2]; rfl
  obtain ⟨g1, g2, -⟩ := checkSkd022_flow henv hc hip hrun
  have keep := (insnDecode_sim (imgReader_sim c.env c.cb s.sc.asid s.sc.img.uc s.sc.img.uc)
      (s.sc.img, []) (s.sc.img, []) ⟨rfl, rfl, fun _ => .rfl, hfit.sc.unamb, rfl, rfl⟩ { ip := s.ip, mode := s.mode }).2
  rw [← rd, ← hmaps] at keep
  refine ⟨_, hrun, g1, ⟨?_, keep.maps, ?_⟩, g2⟩
  · exact alike_img hfit.sc (fun m => (g1.secs m).trans (hc.secs m).symm) keep.uc
  · exact placed_same hfit.placed fun m => (g1.secs m).trans (hc.secs m).symm

end Ipt
