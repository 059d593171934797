import Verif.BlockBase

/-!
# Helper lemmas: adding an instruction to a block
-/

set_option linter.unusedSimpArgs false

namespace Ipt

open Ild Spec Props BM

/-! ### Where instructions come from -/

theorem retry_isid {σ} (rdr : MemReader σ) : ∀ (fuel : Nat) (s : σ) (i j : Insn),
    (insnRetry rdr fuel s i).2 = .ok j → j.isid = i.isid ∧ j.truncated = true
  | 0, s, i, j, h => by cases h
  | fuel + 1, s, i, j, h => by
    unfold insnRetry at h
    dsimp only at h
    split at h
    · cases h
    rcases hq : rdr s (15 - i.size) ((i.ip + i.size) % 2 ^ 64) with ⟨s', ⟨isid, bs⟩ | e | _⟩ <;> simp only [hq] at h
    · split at h
      · cases h
      rcases hst : store i.raw i.size bs with raw' | e | _ <;> simp only [hst] at h
      · rcases hil : ildDecode raw' (i.size + bs.length) i.mode with ⟨n, x | e | _⟩ <;> simp only [hil] at h
        · cases h; exact ⟨rfl, rfl⟩
        · cases e <;> dsimp only at h <;> (try (cases h; done))
          split at h
          · cases h
          · have := retry_isid rdr fuel s' _ j h
            exact this
        · cases h
      · cases h
      · cases h
    · cases e <;> cases h
    · cases h

theorem decode_isid {σ} {rdr : MemReader σ} {s : σ} {i j : Insn} (h : (insnDecode rdr s i).2 = .ok j) :
    ∃ bs, (rdr s 15 i.ip).2 = .ok (j.isid, bs) := by
  unfold insnDecode at h
  rcases hq : rdr s 15 i.ip with ⟨s', ⟨isid, bs⟩ | e | _⟩ <;> simp only [hq] at h
  · rcases hst : store i.raw 0 bs with raw' | e | _ <;> simp only [hst] at h
    · rcases hil : ildDecode raw' bs.length i.mode with ⟨n, x | e | _⟩ <;> simp only [hil] at h
      · cases h; exact ⟨bs, rfl⟩
      · cases e <;> dsimp only at h <;> (try (cases h; done))
        split at h
        · cases h
        · have := retry_isid rdr 16 s' _ j h
          exact ⟨bs, by rw [this.1]⟩
      · cases h
    · cases h
    · cases h
  · cases h
  · cases h

theorem read_isid {c : InsnCfg} {f : Flow} (henv : c.env.Ok) (hwf : ∀ m, f.sections m → m.WF c.env) {img : Img}
    {maps : List (Res Unit)} (hg : ∀ m, m ∈ img.secs ↔ f.sections m) {size isid : Nat} {bs : List UInt8}
    (h : (imgReader c.env c.cb f.asid (img, maps) size f.ip).2 = .ok (isid, bs)) : f.From c isid := by
  change (imageRead c.env c.cb (maps.headD (.ok ())) img size f.asid f.ip).2 = _ at h
  have cbk : readCallback c.cb size f.asid f.ip = .ok (isid, bs) → f.From c isid := by
    intro h
    unfold readCallback at h
    rcases hcb : c.cb with _ | g <;> simp only [hcb] at h
    · cases h
    · rcases hg : g size f.asid f.ip with bs' | e | _ <;> simp only [hg] at h
      · cases h; exact .inr ⟨rfl, by rw [hcb]; rfl⟩
      · cases h
      · cases h
  unfold imageRead at h
  have hp := fetch_perm img f.asid f.ip
  have hf := @fetch_ok_space img f.asid f.ip
  rcases hq : imageFetch img f.asid f.ip with ⟨j, m | e | _⟩ <;> rw [hq] at h hp hf
  · dsimp only at h hp hf
    obtain ⟨hcv, hsp⟩ := hf rfl
    have hin : f.sections m := by
      rw [← hg m]
      have hj : m ∈ j.secs := by
        unfold imageFetch at hq
        split at hq <;> cases hq
        simp
      exact hp.1.mem_iff.1 hj
    rcases ho : maps.headD (.ok ()) with _ | _ | _ <;> rw [ho] at h
    · dsimp only at h
      rcases hr : m.read c.env size f.ip with bs' | e | _ <;> rw [hr] at h
      · cases h
        have he := wf_end henv (hwf m hin) hcv
        exact .inl ⟨m, hin, hsp, hcv.1, by rw [← he.1]; exact hcv.2, rfl⟩
      · cases e <;> first | (cases h; done) | exact cbk h
      · cases h
    · cases h
    · cases h
  · cases e <;> first | (cases h; done) | exact cbk h
  · cases h

/-! ### The state while adding instructions to a block -/

/-- The instructions executed so far. -/
structure Sofar (c : BlkCfg) (f0 : Flow) (n0 : Int) (is : List Insn) (its : List Item) (s : Bdec) (f : Flow) : Prop where
  walk : f0.Walk (Flow.Known c.toInsnCfg s.blk.isid) is its f
  stands : Stands s f
  count : s.blk.ninsn = is.length
  lt : is.length < 2 ^ 16
  icnt : s.hasIcnt = true → s.icnt = n0 + is.length
  ends : Ends s.blk is f.ip
  trunc : s.blk.truncated = true → is ≠ []
  wf : ∀ m, f.sections m → m.WF c.env
  inv : ScInv s.sc
  mode : s.blk.mode = f.mode

/-- The instruction `i` was added to the block but not executed. -/
structure Mid (c : BlkCfg) (f0 : Flow) (n0 : Int) (is : List Insn) (its : List Item) (s : Bdec) (f : Flow) (i : Insn) :
    Prop where
  walk : f0.Walk (Flow.Known c.toInsnCfg s.blk.isid) is its f
  known : f.Known c.toInsnCfg s.blk.isid i
  ip : f.ip = s.ip
  fmode : f.mode = s.mode
  asid : f.asid = s.sc.asid
  sections : ∀ m, m ∈ s.sc.img.secs ↔ f.sections m
  calls : s.retstack.Holds (calling i f.calls ((i.ip + i.size) % 2 ^ 64))
  count : s.blk.ninsn = is.length + 1
  lt : is.length + 1 < 2 ^ 16
  icnt : s.hasIcnt = true → s.icnt = n0 + is.length + 1
  ends : EndsAt s.blk i
  wf : ∀ m, f.sections m → m.WF c.env
  inv : ScInv s.sc
  mode : s.blk.mode = f.mode

/-- The block caches are not touched. -/
def SameCache (s s' : Bdec) : Prop := s'.bc = s.bc ∧ s'.others = s.others

variable {c : BlkCfg} {f0 f : Flow} {n0 : Int} {is : List Insn} {its : List Item} {s s' : Bdec} {i : Insn}

/-- Reading the image. -/
structure Looked (s s' : Bdec) (f : Flow) : Prop where
  state : s' = { s with sc := { s.sc with img := s'.sc.img }, maps := s'.maps }
  sections : ∀ m, m ∈ s'.sc.img.secs ↔ f.sections m

theorem decodeAt_eq {ip : Nat} {mode : Mode} : decodeAt c ip mode s =
    ({ s with
        sc := { s.sc with img := (insnDecode (c.reader s) (s.sc.img, s.maps) { ip := ip, mode := mode }).1.1 }
        maps := (insnDecode (c.reader s) (s.sc.img, s.maps) { ip := ip, mode := mode }).1.2 },
      (insnDecode (c.reader s) (s.sc.img, s.maps) { ip := ip, mode := mode }).2) := rfl

theorem decodeAt_flow {ip : Nat} {mode : Mode} (henv : c.env.Ok) (ha : f.asid = s.sc.asid)
    (hg : ∀ m, m ∈ s.sc.img.secs ↔ f.sections m) (hwf : ∀ m, f.sections m → m.WF c.env) :
    wp (decodeAt c ip mode)
      (fun i s' => Looked s s' f ∧ Decoded (f.Byte c.toInsnCfg) ip mode i ∧
        ({ f with ip := ip } : Flow).From c.toInsnCfg i.isid)
      (fun _ s' => Looked s s' f) s := by
  have hr := image_rel (c := c.toInsnCfg) (f := f) henv hwf
  have hd := decode_rel hr (s.sc.img, s.maps) { ip := ip, mode := mode } hg rfl
  have hi := @decode_isid _ (imgReader c.env c.cb f.asid) (s.sc.img, s.maps) { ip := ip, mode := mode }
  rw [ha] at hd hi
  rw [← ha] at hi
  rcases h' : insnDecode (imgReader c.env c.cb s.sc.asid) (s.sc.img, s.maps) { ip := ip, mode := mode } with ⟨st, r⟩
  rw [← ha] at h'
  rw [h'] at hi
  rw [ha] at h'
  rw [h'] at hd
  have h2 : decodeAt c ip mode s = ({ s with sc := { s.sc with img := st.1 }, maps := st.2 }, r) := by
    rw [decodeAt_eq]
    unfold BlkCfg.reader
    rw [h']
  unfold wp
  rw [h2]
  rcases r with i | e | _
  · obtain ⟨bs, hbs⟩ := hi rfl
    refine ⟨⟨rfl, hd.1⟩, hd.2 i rfl, ?_⟩
    exact read_isid (f := { f with ip := ip }) henv hwf hg hbs
  · exact ⟨rfl, hd.1⟩
  · trivial

theorem wp_push {l : List Nat} {x : Nat} {Q : Unit → Bdec → Prop} {E : Err → Bdec → Prop} (h : s.retstack.Holds l)
    (hq : ∀ r : RetStack, r.Holds ((x :: l).take 64) → Q () { s with retstack := r }) : wp (blkPush x) Q E s := by
  obtain ⟨r, h1, h2⟩ := push_holds h x
  unfold wp blkPush
  simp only [h1]
  exact hq r h2

theorem wp_logCall {l : List Nat} {Q : Unit → Bdec → Prop} {E : Err → Bdec → Prop} (h : s.retstack.Holds l)
    (hq : ∀ r : RetStack, r.Holds (calling i l ((i.ip + i.size) % 2 ^ 64)) → Q () { s with retstack := r }) :
    wp (logCall i) Q E s := by
  unfold logCall
  rw [wp_ite, wp_ite]
  refine ⟨fun h1 => ?_, fun h1 => ⟨fun h2 => ?_, fun h2 => ?_⟩⟩
  · have := hq s.retstack (by rw [calling_of_ne h1]; exact h)
    exact this
  · have := hq s.retstack (by unfold calling; rw [if_neg (by simp [h2])]; exact h)
    exact this
  · refine wp_push h fun r hr => hq r ?_
    unfold calling
    rwa [if_pos ⟨by simpa using h1, h2⟩]

theorem wp_count {n : Nat} {Q : Unit → Bdec → Prop} {E : Err → Bdec → Prop} (he : E .overflow s)
    (hq : ∀ k, (s.hasIcnt = true → k = s.icnt + n) → Q () { s with icnt := k }) : wp (countInsn n) Q E s := by
  unfold countInsn
  rw [wp_bind, wp_get, wp_ite, wp_ite]
  refine ⟨fun h1 => ?_, fun h1 => ⟨fun h2 => he, fun h2 => ?_⟩⟩
  · have := hq s.icnt (by simp [h1])
    exact this
  · exact hq (s.icnt + n) fun _ => rfl

/-- `pt_blk_proceed_one_insn`. -/
theorem oneInsn_flow (henv : c.env.Ok) (h : Sofar c f0 n0 is its s f) :
    wp (oneInsn c)
      (fun b s' => s'.still = s.still ∧ s'.bc = s.bc ∧ s'.others = s.others ∧
        if b = true then ∃ i, s'.out = some i ∧ Mid c f0 n0 is its s' f i ∧ i.mode = s.mode
        else Sofar c f0 n0 is its s' f ∧ is ≠ [] ∧ s'.out = s.out)
      (fun e s' => SameCache s s' ∧ s'.still = s.still ∧ (e = .badQuery → s'.out = s.out)) s := by
  unfold oneInsn
  rw [wp_bind, wp_get, wp_ite]
  have hne : s.blk.ninsn ≠ 0 → is ≠ [] := by
    intro h1 h2; rw [h.count, h2] at h1; exact h1 rfl
  refine ⟨fun h1 => ?_, fun h1 => ?_⟩
  · rw [wp_pure]
    refine ⟨rfl, rfl, rfl, ?_⟩
    rw [if_neg (by decide)]
    exact ⟨h, hne (by have := h.lt; have := h.count; omega), rfl⟩
  rw [wp_ite]
  refine ⟨fun h2 => ?_, fun h2 => ?_⟩
  · rw [wp_pure]
    refine ⟨rfl, rfl, rfl, ?_⟩
    rw [if_neg (by decide)]
    exact ⟨h, h.trunc h2, rfl⟩
  rw [wp_bind]
  refine wp_mono (decodeAt_flow henv h.stands.asid h.stands.sections h.wf) (fun i s1 hi => ?_) fun e s1 hl => ?_
  · obtain ⟨hl, hd, hf⟩ := hi
    have hst := hl.state
    have hsec := hl.sections
    generalize hI : s1.sc.img = img at hst hsec
    generalize s1.maps = mp at hst
    subst hst
    rw [wp_ite]
    refine ⟨fun h3 => ?_, fun h3 => ?_⟩
    · rw [wp_pure]
      refine ⟨rfl, rfl, rfl, ?_⟩
      rw [if_neg (by decide)]
      refine ⟨⟨h.walk, ⟨h.stands.ip, h.stands.mode, h.stands.asid, hsec, h.stands.calls⟩, h.count, h.lt, h.icnt, h.ends,
        h.trunc, h.wf, h.inv, h.mode⟩, hne h3.2, rfl⟩
    · have hat : f.At c.toInsnCfg i := by
        rw [← h.stands.ip, ← h.stands.mode] at hd
        exact hd.at
      rw [← h.stands.ip] at hf
      have hlt := h.lt
      have hcnt := h.count
      rw [wp_bind, wp_block, wp_bind]
      unfold addInsn
      rw [wp_bind, wp_when]
      have hip : i.ip = f.ip := hat.ip
      have hmode : i.mode = s.mode := by rw [hat.mode]; exact h.stands.mode
      have hwalk : f0.Walk (Flow.Known c.toInsnCfg i.isid) is its f := by
        by_cases h4 : is = []
        · subst h4
          have := h.walk
          cases this
          exact .nil _
        · have : i.isid = s.blk.isid := by
            have h5 : s.blk.ninsn ≠ 0 := by
              intro h5; rw [h5] at hcnt; exact h4 (List.length_eq_zero_iff.1 hcnt.symm)
            apply Decidable.byContradiction
            intro h6
            exact h3 ⟨h6, h5⟩
          rw [this]; exact h.walk
      refine ⟨fun h4 => ?_, fun h4 => ?_⟩
      · rw [wp_block, wp_bind]
        refine wp_logCall h.stands.calls fun r hr => ?_
        rw [wp_bind, wp_block, wp_bind]
        refine wp_count ⟨⟨rfl, rfl⟩, rfl, fun he => by cases he⟩ fun k hk => ?_
        rw [wp_modify, wp_pure]
        refine ⟨rfl, rfl, rfl, ?_⟩
        rw [if_pos rfl]
        refine ⟨i, rfl, ⟨hwalk, ⟨.inl hat, hf⟩, h.stands.ip, h.stands.mode, h.stands.asid, hsec, hr, ?_, by omega, ?_,
          ⟨rfl, .inl rfl, fun _ => ⟨rfl, ?_⟩⟩, h.wf, h.inv, h.mode⟩, hmode⟩
        · show s.blk.ninsn + 1 = _
          omega
        · intro h5
          have := hk h5
          have := h.icnt h5
          dsimp only at *
          omega
        · show (i.raw.take i.size ++ s.blk.raw.drop i.size).take i.size = _
          have hsz := hat.size
          have hlen := hd.len
          rw [List.take_append_of_le_length (by simp; omega), List.take_take, Nat.min_self]
      · rw [wp_bind]
        refine wp_logCall h.stands.calls fun r hr => ?_
        rw [wp_bind, wp_block, wp_bind]
        refine wp_count ⟨⟨rfl, rfl⟩, rfl, fun he => by cases he⟩ fun k hk => ?_
        rw [wp_modify, wp_pure]
        refine ⟨rfl, rfl, rfl, ?_⟩
        rw [if_pos rfl]
        refine ⟨i, rfl, ⟨hwalk, ⟨.inl hat, hf⟩, h.stands.ip, h.stands.mode, h.stands.asid, hsec, hr, ?_, by omega, ?_,
          ⟨rfl, .inl rfl, fun h5 => absurd h5 h2⟩, h.wf, h.inv, h.mode⟩, hmode⟩
        · show s.blk.ninsn + 1 = _
          omega
        · intro h5
          have := hk h5
          have := h.icnt h5
          dsimp only at *
          omega
  · have := hl.state
    rw [this]
    exact ⟨⟨rfl, rfl⟩, rfl, fun _ => rfl⟩

end Ipt
