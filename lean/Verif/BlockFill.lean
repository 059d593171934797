import Verif.BlockLoop

/-!
# Helper lemmas: filling the block cache
-/

set_option linter.unusedSimpArgs false

namespace Ipt

open Ild Spec Props BM

variable {c : BlkCfg} {f0 f : Flow} {n0 : Int} {is : List Insn} {its : List Item} {s s' : Bdec} {i : Insn} {m : Msec}
  {env : SecEnv} {allowed : Nat → Mode → Prop}

/-! ### Decoding in a section -/

/-- Bytes of a section. -/
def secBytes (env : SecEnv) (sec off n : Nat) : List UInt8 := (List.range n).map fun k => env.byte sec (off + k)

theorem secBytes_take {sec off n k : Nat} (h : k ≤ n) : (secBytes env sec off n).take k = secBytes env sec off k := by
  unfold secBytes
  rw [← List.map_take, List.take_range, Nat.min_eq_left h]

theorem secBytes_length {sec off n : Nat} : (secBytes env sec off n).length = n := by simp [secBytes]

/-- There is one instruction at an offset. -/
theorem within_unique {sec off n n' : Nat} {mode : Mode} {x x' : Iext} (h : Within env sec mode off n x)
    (h' : Within env sec mode off n' x') : n = n' ∧ x = x' := by
  have key : ∀ {n n' : Nat} {x x' : Iext}, Within env sec mode off n x → Within env sec mode off n' x' → n ≤ n' →
      n = n' ∧ x = x' := by
    intro n n' x x' h h' hn
    have := C39_depends_on_instruction_only _ (secBytes env sec off n') n n' mode n x (by simp) hn h.decodes
      (by
        show (secBytes env sec off n').take n = (secBytes env sec off n).take n
        rw [secBytes_take hn, secBytes_take (Nat.le_refl _)])
    have h2 := h'.decodes
    rw [show ((List.range n').map fun k => env.byte sec (off + k)) = secBytes env sec off n' from rfl, this] at h2
    cases h2
    exact ⟨rfl, rfl⟩
  rcases Nat.le_total n n' with hn | hn
  · exact key h h' hn
  · have := key h' h hn
    exact ⟨this.1.symm, this.2.symm⟩

theorem sec_read (henv : env.Ok) (hwf : m.WF env) {ip : Nat} (hc : m.Covers ip) :
    m.read env 15 ip = .ok (secBytes env m.sec (m.offset + (ip - m.vaddr)) (min 15 (m.end_ - ip))) := by
  obtain ⟨h1, h2⟩ := msec_read henv hwf (size := 15) (by decide) hc
  rw [h1]
  refine congrArg Res.ok ?_
  unfold secBytes
  refine List.map_congr_left fun k hk => ?_
  have hk' := List.mem_range.mp hk
  rw [unmap_eq henv hwf (h2 k hk')]
  have := hc.1
  congr 1
  omega

theorem sec_decode (henv : env.Ok) (hwf : m.WF env) {ip : Nat} (hc : m.Covers ip) {raw bs : List UInt8} {mode : Mode}
    (hr : m.read env 15 ip = .ok bs) (hs : store (List.replicate 15 0) 0 bs = .ok raw) {n : Nat} {x : Iext}
    (h : ildDecode raw bs.length mode = (n, .ok x)) :
    Fits env m mode ip n x ∧ raw.take n = secBytes env m.sec (m.offset + (ip - m.vaddr)) n ∧ raw.length = 15 := by
  rw [sec_read henv hwf hc] at hr
  cases hr
  rw [secBytes_length] at h
  obtain ⟨e1, e2, e3, e4⟩ := wf_end henv hwf hc
  obtain ⟨hl, hraw⟩ := store_inv hs
  rw [secBytes_length] at hl hraw
  have hsz := C39_size _ _ _ _ _ h
  have hlen : raw.length = 15 := by
    rw [hraw]
    simp [secBytes_length]
    omega
  have htake : raw.take n = secBytes env m.sec (m.offset + (ip - m.vaddr)) n := by
    rw [hraw, List.take_zero, List.nil_append, List.take_append_of_le_length (by rw [secBytes_length]; exact hsz.2),
      secBytes_take hsz.2]
  have h1 := hc.1
  refine ⟨⟨⟨⟨hsz.1, by omega⟩, by omega, ?_⟩, h1, by omega⟩, htake, hlen⟩
  refine C39_depends_on_instruction_only raw _ _ n mode n x (by omega) (Nat.le_refl _) h ?_
  show (secBytes env m.sec (m.offset + (ip - m.vaddr)) n).take n = _
  rw [htake, secBytes_take (Nat.le_refl _)]

theorem inSection_ok (henv : env.Ok) (hwf : m.WF env) {ip : Nat} (hc : m.Covers ip) {mode : Mode}
    (h : decodeInSection env m ip mode = .ok i) :
    i.ip = ip ∧ i.mode = mode ∧ Fits env m mode ip i.size i.ext ∧
      i.raw.take i.size = secBytes env m.sec (m.offset + (ip - m.vaddr)) i.size ∧ i.raw.length = 15 ∧ i.truncated = false := by
  unfold decodeInSection at h
  rcases hr : m.read env 15 ip with bs | e | _ <;> rw [hr] at h
  · change (store (List.replicate 15 0) 0 bs >>= _) = _ at h
    rcases hs : store (List.replicate 15 (0 : UInt8)) 0 bs with raw | e | _ <;> rw [hs] at h
    · change (match ildDecode raw bs.length mode with
        | (n, .ok x) => Res.ok ({ ip := ip, mode := mode, raw := raw, size := n, ext := x } : Insn)
        | (_, .err e) => .err e
        | (_, .ub) => .ub) = _ at h
      rcases hd : ildDecode raw bs.length mode with ⟨n, x | e | _⟩ <;> rw [hd] at h
      · cases h
        have := sec_decode henv hwf hc hr hs hd
        exact ⟨rfl, rfl, this.1, this.2.1, this.2.2, rfl⟩
      · cases h
      · cases h
    · cases h
    · cases h
  · cases h
  · cases h

theorem inSection_at {c : InsnCfg} (henv : c.env.Ok) (hm : f.sections m) (hwf : m.WF c.env) (hs : SameSpace m.asid f.asid)
    (he : m.vaddr + m.size < 2 ^ 64) (h1 : i.ip = f.ip) (h2 : i.mode = f.mode) (h3 : Fits c.env m f.mode f.ip i.size i.ext)
    (h4 : i.raw.take i.size = secBytes c.env m.sec (m.offset + (f.ip - m.vaddr)) i.size) :
    f.At c i := by
  have h := fits_at henv hm hwf hs he h3
  have hsz := h3.1.size
  refine ⟨h1, h2, hsz, fun k hk => ?_, ?_⟩
  · obtain ⟨b, hb, hb'⟩ := h.bytes k hk
    refine ⟨b, ?_, by rw [h1]; exact hb'⟩
    rw [← List.getElem?_take_of_lt hk, h4]
    exact hb
  · rw [h2]
    refine C39_depends_on_instruction_only _ _ _ _ _ _ _ ?_ (Nat.le_refl _) h3.1.decodes ?_
    · simp
    · rw [h4]
      show _ = (secBytes c.env m.sec (m.offset + (f.ip - m.vaddr)) i.size).take i.size
      rw [secBytes_take (Nat.le_refl _)]

/-! ### The first section of the image -/

theorem wp_and {α : Type} {p : BM α} {Q Q' : α → Bdec → Prop} {E E' : Err → Bdec → Prop} (h : wp p Q E s)
    (h' : wp p Q' E' s) : wp p (fun a s' => Q a s' ∧ Q' a s') (fun e s' => E e s' ∧ E' e s') s :=
  wp_of (fun _ _ hm => ⟨wp_ok h hm, wp_ok h' hm⟩) fun _ _ hm => ⟨wp_err h hm, wp_err h' hm⟩

theorem decodeAt_state {ip : Nat} {mode : Mode} :
    wp (decodeAt c ip mode) (fun _ s' => s' = { s with sc := { s.sc with img := s'.sc.img }, maps := s'.maps })
      (fun _ s' => s' = { s with sc := { s.sc with img := s'.sc.img }, maps := s'.maps }) s := by
  unfold wp
  rw [decodeAt_eq]
  rcases (insnDecode (c.reader s) (s.sc.img, s.maps) { ip := ip, mode := mode }) with ⟨st, i | e | _⟩
  · rfl
  · rfl
  · trivial

theorem logCall_state : wp (logCall i) (fun _ s' => ∃ r, s' = { s with retstack := r }) (fun _ _ => True) s := by
  unfold logCall
  rw [wp_ite, wp_ite]
  refine ⟨fun _ => ⟨s.retstack, rfl⟩, fun _ => ⟨fun _ => ⟨s.retstack, rfl⟩, fun _ => ?_⟩⟩
  unfold wp blkPush
  dsimp only
  rcases (s.retstack.push ((i.ip + i.size) % 2 ^ 64)) with ⟨r, a | e | _⟩
  · exact ⟨r, rfl⟩
  · trivial
  · trivial

/-- The section is the first one in the image and contains the current instruction. -/
def Headed (m : Msec) (s : Bdec) : Prop := (∃ l, s.sc.img.secs = m :: l) ∧ m.check s.sc.asid s.ip = true

theorem fetch_head {img : Img} {a : Asid} {x : Nat} {l : List Msec} (h1 : img.secs = m :: l) (h2 : m.check a x = true) :
    imageFetch img a x = (img, .ok m) := by
  unfold imageFetch takeFirst
  rw [h1]
  dsimp only
  rw [if_pos h2]
  dsimp only
  rw [← h1]

theorem decodeAt_head (henv : c.env.Ok) (hwf : m.WF c.env) (h : Headed m s) :
    wp (decodeAt c s.ip s.mode)
      (fun i s' => i.truncated = true ∨ (i.truncated = false ∧ s'.sc.img.secs = s.sc.img.secs ∧
        Fits c.env m s.mode s.ip i.size i.ext))
      (fun _ _ => True) s := by
  obtain ⟨⟨l, h1⟩, h2⟩ := h
  have hc := ((check_iff _ _ _).1 h2).1
  have hf := fetch_head (img := s.sc.img) h1 h2
  have hread : ∃ img' mp, img'.secs = s.sc.img.secs ∧ (imgReader c.env c.cb s.sc.asid (s.sc.img, s.maps) 15 s.ip =
      ((img', mp), .ok (m.isid, secBytes c.env m.sec (m.offset + (s.ip - m.vaddr)) (min 15 (m.end_ - s.ip)))) ∨
      (∃ e, imgReader c.env c.cb s.sc.asid (s.sc.img, s.maps) 15 s.ip = ((img', mp), .err e)) ∨
      imgReader c.env c.cb s.sc.asid (s.sc.img, s.maps) 15 s.ip = ((img', mp), .ub)) := by
    refine ⟨s.sc.img, s.maps.tail, rfl, ?_⟩
    unfold imgReader imageRead
    rw [hf]
    dsimp only
    rcases s.maps.headD (.ok ()) with _ | e | _ <;> dsimp only
    · rw [sec_read henv hwf hc]
      exact .inl rfl
    · exact .inr (.inl ⟨_, rfl⟩)
    · exact .inr (.inr rfl)
  obtain ⟨img', mp, himg, hread⟩ := hread
  unfold wp
  rw [decodeAt_eq]
  unfold BlkCfg.reader
  rcases hI : insnDecode (imgReader c.env c.cb s.sc.asid) (s.sc.img, s.maps) { ip := s.ip, mode := s.mode } with
    ⟨st, i | e | _⟩ <;> dsimp only
  unfold insnDecode at hI
  dsimp only at hI
  rcases hread with hr | ⟨e, hr⟩ | hr <;> rw [hr] at hI <;> dsimp only at hI
  · rcases hs : store (List.replicate 15 (0 : UInt8)) 0
      (secBytes c.env m.sec (m.offset + (s.ip - m.vaddr)) (min 15 (m.end_ - s.ip))) with raw | e | _ <;>
      simp only [hs] at hI
    · rcases hd : ildDecode raw
        (secBytes c.env m.sec (m.offset + (s.ip - m.vaddr)) (min 15 (m.end_ - s.ip))).length s.mode with ⟨n, x | e | _⟩ <;>
        simp only [hd] at hI
      · cases hI
        exact .inr ⟨rfl, himg, (sec_decode henv hwf hc (sec_read henv hwf hc) hs hd).1⟩
      · cases e <;> dsimp only at hI <;> (try (cases hI; done))
        split at hI
        · cases hI
        · left
          exact (retry_isid _ _ _ _ _ (congrArg Prod.snd hI)).2
      · cases hI
    · cases hI
    · cases hI
  · cases hI
  · cases hI

/-- `pt_blk_proceed_one_insn` in the first section of the image. -/
theorem oneInsn_head (henv : c.env.Ok) (hwf : m.WF c.env) (h : Headed m s) :
    wp (oneInsn c)
      (fun b s' => b = true → ∀ i, s'.out = some i → s'.blk.truncated = true ∨
        (s'.blk.truncated = false ∧ s'.sc.img.secs = s.sc.img.secs ∧ Fits c.env m s.mode s.ip i.size i.ext))
      (fun _ _ => True) s := by
  unfold oneInsn
  rw [wp_bind, wp_get, wp_ite]
  refine ⟨fun h1 hb => (by cases hb), fun h1 => ?_⟩
  rw [wp_ite]
  refine ⟨fun h2 hb => (by cases hb), fun h2 => ?_⟩
  rw [wp_bind]
  refine wp_mono (wp_and (decodeAt_head henv hwf h) (decodeAt_state (c := c) (s := s))) (fun i s1 hi => ?_)
    fun _ _ _ => trivial
  obtain ⟨hi, hst⟩ := hi
  have h2' : s1.blk.truncated = false := by rw [hst]; simpa using h2
  rw [wp_ite]
  refine ⟨fun h3 hb => (by cases hb), fun h3 => ?_⟩
  rw [wp_bind, wp_block, wp_bind]
  unfold addInsn
  rw [wp_bind, wp_when]
  refine ⟨fun h4 => ?_, fun h4 => ?_⟩
  · rw [wp_block, wp_bind]
    refine wp_mono (logCall_state (i := i)) (fun _ s2 hs2 => ?_) fun _ _ _ => trivial
    obtain ⟨r, rfl⟩ := hs2
    rw [wp_bind, wp_block, wp_bind]
    refine wp_count trivial fun k hk => ?_
    rw [wp_modify, wp_pure]
    exact fun _ _ _ => .inl rfl
  · rw [wp_bind]
    refine wp_mono (logCall_state (i := i)) (fun _ s2 hs2 => ?_) fun _ _ _ => trivial
    obtain ⟨r, rfl⟩ := hs2
    rw [wp_bind, wp_block, wp_bind]
    refine wp_count trivial fun k hk => ?_
    rw [wp_modify, wp_pure]
    intro _ j hj
    cases hj
    rcases hi with hi | ⟨-, hi, hf⟩
    · rw [hi] at h4; cases h4
    · exact .inr ⟨h2', hi, hf⟩

/-! ### Entries -/

/-- The block caches are correct and so are the entries other decoders will write. -/
def Good (env : SecEnv) (allowed : Nat → Mode → Prop) (s : Bdec) : Prop :=
  CacheOk env allowed s.bc ∧ WritesOk env allowed s.others

theorem cacheOk_writes {b : Bcache} {ws : List BceWrite} (h : CacheOk env allowed b)
    (hw : ∀ w ∈ ws, EntryFor env allowed w.sec w.index w.entry) : CacheOk env allowed (b.writes ws) := by
  unfold Bcache.writes
  induction ws generalizing b with
  | nil => exact h
  | cons w ws ih =>
    rw [List.foldl_cons]
    refine ih ?_ fun w' hw' => hw w' (by simp [hw'])
    intro sec off
    dsimp only
    split
    · rename_i h1
      rw [h1.1, h1.2]
      exact hw w (by simp)
    · exact h sec off

theorem wp_bcLookup {idx : Nat} {Q : Bce → Bdec → Prop} {E : Err → Bdec → Prop} (h : Good c.env allowed s)
    (he : ∀ b l, CacheOk c.env allowed b → WritesOk c.env allowed l → E .internal { s with bc := b, others := l })
    (hq : ∀ e b l, EntryFor c.env allowed m.sec idx e → CacheOk c.env allowed b → WritesOk c.env allowed l →
      Q e { s with bc := b, others := l }) : wp (bcLookup c m idx) Q E s := by
  have h1 : CacheOk c.env allowed (s.bc.writes (s.others.headD [])) := by
    refine cacheOk_writes h.1 fun w hw => ?_
    rcases ho : s.others with _ | ⟨ws, l⟩ <;> rw [ho] at hw
    · cases hw
    · exact h.2 ws (by rw [ho]; simp) w hw
  have h2 : WritesOk c.env allowed s.others.tail := fun ws hws => h.2 ws (List.mem_of_mem_tail hws)
  unfold wp bcLookup Bcache.lookup
  dsimp only
  split
  · rename_i heq
    split at heq
    · cases heq
    · cases heq
      exact hq _ _ _ (h1 _ _) h1 h2
  · rename_i heq
    split at heq
    · cases heq
      exact he _ _ h1 h2
    · cases heq
  · trivial

theorem wp_bcAdd {idx : Nat} {e : Bce} {Q : Unit → Bdec → Prop} {E : Err → Bdec → Prop} (h : CacheOk c.env allowed s.bc)
    (hf : EntryFor c.env allowed m.sec idx e) (he : E .internal s)
    (hq : ∀ b, CacheOk c.env allowed b → Q () { s with bc := b }) : wp (bcAdd c m idx e) Q E s := by
  unfold wp bcAdd Bcache.add
  by_cases hi : c.env.size m.sec ≤ idx
  · simp only [if_pos hi]
    exact he
  · simp only [if_neg hi]
    refine hq _ fun sec off => ?_
    split
    · rename_i h1
      rw [h1.1, h1.2]
      exact hf
    · exact h sec off

theorem straight_mono {sec k off off' : Nat} {mode : Mode} (h : Straight env sec mode off k off') : off ≤ off' := by
  induction h with
  | nil => exact Nat.le_refl _
  | fall _ _ _ ih => omega
  | jump _ _ _ _ _ _ _ ih => omega

/-- Execution continues at the next instruction, or at the target of a direct jump forward. -/
theorem link (henv : env.Ok) (hwf : m.WF env) (hc : m.Covers i.ip) {b : Block} {t : Nat} {mode : Mode}
    (hf : Fits env m mode i.ip i.size i.ext) (hn : nextIp i = .ok t) (hs : stopsAt c m b i t = .ok false) :
    m.Covers t ∧ m.unmap i.ip ≤ m.unmap t ∧ t = i.ip + (m.unmap t - m.unmap i.ip) ∧
      ∀ k off', Straight env m.sec mode (m.unmap t) k off' → Straight env m.sec mode (m.unmap i.ip) (k + 1) off' := by
  obtain ⟨e1, e2, e3, e4⟩ := wf_end henv hwf hc
  have hu := unmap_eq henv hwf hc
  obtain ⟨h1, h2, h3⟩ := hf
  have hsz := h1.size
  have c1 := hc.1
  have fall : i.ext.cls = .other ∨ i.ext.cls = .ptwrite → t = (i.ip + i.size) % 2 ^ 64 → m.isIn t = true →
      m.Covers t ∧ m.unmap i.ip ≤ m.unmap t ∧ t = i.ip + (m.unmap t - m.unmap i.ip) ∧
      ∀ k off', Straight env m.sec mode (m.unmap t) k off' → Straight env m.sec mode (m.unmap i.ip) (k + 1) off' := by
    intro hcl ht hin
    have hct : m.Covers t := by
      unfold Msec.isIn at hin
      simpa [Msec.Covers] using hin
    have ht' : t = i.ip + i.size := by omega
    have hut := unmap_eq henv hwf hct
    have : m.unmap t = m.unmap i.ip + i.size := by rw [hut, hu]; omega
    refine ⟨hct, by omega, by omega, fun k off' hst => ?_⟩
    rw [this] at hst
    rw [hu] at hst ⊢
    exact .fall h1 hcl hst
  have both : (!m.isIn t || b.truncated) = false → m.isIn t = true := by
    intro h
    cases hi : m.isIn t <;> simp [hi] at h ⊢
  unfold nextIp at hn
  unfold stopsAt at hs
  dsimp only at hn
  rcases hcl : i.ext.cls <;> simp only [hcl] at hn hs <;> (try (cases hn; done)) <;> (try (cases hs; done))
  · cases hn
    exact fall (.inl hcl) rfl (both (by injection hs))
  · rw [if_neg (by rintro h; rw [if_pos h] at hn; cases hn)] at hn
    split at hn
    · rename_i hd
      cases hn
      split at hs
      · cases hs
      · rename_i hj
        split at hs
        · cases hs
        · rename_i hneg
          have hin := both (by injection hs)
          have hnj : i.ext.inst ≠ .jmpabs := fun h => hj (.inr h)
          have hsh := (Spec.Within.shape h1).2 hd hnj
          have hlo : 0 ≤ i.ext.displacement := by
            have : ¬ i.ext.displacement < 0 := fun h => hneg (.inl h)
            omega
          have hhi := hsh.2.2
          generalize ht : addDisp ((i.ip + i.size) % 2 ^ 64) i.ext.displacement = t at *
          have hct : m.Covers t := by
            unfold Msec.isIn at hin
            simpa [Msec.Covers] using hin
          have c2 := hct.1
          have c3 := hct.2
          have ht' : (t : Int) = i.ip + i.size + i.ext.displacement := by
            unfold addDisp at ht
            omega
          have hut := unmap_eq henv hwf hct
          have hd' : i.ext.displacement = (i.ext.displacement.toNat : Nat) := by omega
          have : m.unmap t = m.unmap i.ip + i.size + i.ext.displacement.toNat := by rw [hut, hu]; omega
          refine ⟨hct, by omega, by omega, fun k off' hst => ?_⟩
          rw [this] at hst
          rw [hu] at hst ⊢
          exact .jump _ h1 hcl hd hnj hd' hst
    · cases hn
  · cases hn
    exact fall (.inr hcl) rfl (both (by injection hs))

theorem toDisp_range (d : Int) : toDisp d < 2 ^ 15 ∧ -2 ^ 15 ≤ toDisp d := by
  unfold toDisp
  omega

theorem fine_decode {sec off : Nat} {mode : Mode} (h : allowed sec mode) : EntryFor env allowed sec off (decodeBce mode) := by
  refine ⟨fun _ => ⟨by simp [decodeBce], by simp [decodeBce], 0, off, .nil _, by simp [decodeBce], rfl⟩, fun _ => h⟩

theorem fine_trampoline {sec off off' : Nat} {mode : Mode} (h : allowed sec mode) (hle : off ≤ off') (hlt : off' < 2 ^ 63)
    (hst : Straight env sec mode off 1 off') : EntryFor env allowed sec off (trampolineBce off off' mode) := by
  unfold trampolineBce
  split
  · exact fine_decode h
  · rename_i hd
    have hd : toDisp (sdiff off' off) = sdiff off' off := by simpa using hd
    refine ⟨fun _ => ⟨by simp, (toDisp_range _).1, 1, off', hst, ?_, rfl, by decide⟩, fun _ => h⟩
    show (off' : Int) = off + toDisp (sdiff off' off)
    rw [hd]
    unfold sdiff
    omega

theorem fine_trace {b : Block} {e : Bce} (h : allowed m.sec i.mode) {off : Nat}
    (hf : b.truncated = true ∨ Within env m.sec i.mode off i.size i.ext) (he : traceBce b i = .ok e) :
    EntryFor env allowed m.sec off e := by
  unfold traceBce at he
  dsimp only at he
  have hisz : (if toIsize i.size ≠ i.size then 0 else toIsize i.size) = 0 ∨
      (if toIsize i.size ≠ i.size then 0 else toIsize i.size) = i.size := by
    split
    · exact .inl rfl
    · rename_i h
      exact .inr (by simpa using h)
  have key : ∀ q : Qual, (Within env m.sec i.mode off i.size i.ext → Asks q i.ext) → q ≠ .again → q ≠ .decode →
      Res.ok { ({ ninsn := 1, mode := i.mode, isize := if toIsize i.size ≠ i.size then 0 else toIsize i.size } : Bce) with
        qualifier := if b.truncated = true then .decode else q } = .ok e → EntryFor env allowed m.sec off e := by
    intro q hq h1 h2 he
    injection he with he
    subst he
    refine ⟨fun _ => ⟨by dsimp only; decide, by dsimp only; decide, 0, off, .nil _, by simp, ?_⟩, fun _ => h⟩
    dsimp only
    by_cases hb : b.truncated = true
    · simp only [if_pos hb]
    · rw [if_neg hb]
      have hw := hf.resolve_left hb
      cases q <;> first | exact absurd rfl h1 | exact absurd rfl h2 | exact ⟨rfl, i.size, i.ext, hw, hq hw, hisz⟩
  rcases hcl : i.ext.cls <;> simp only [hcl] at he <;> (try (cases he; done))
  · by_cases hd : i.ext.isDirect = true
    · rw [if_pos hd] at he; cases he
    · rw [if_neg hd] at he
      exact key .indCall (fun _ => ⟨hcl, by simpa using hd⟩) (by decide) (by decide) he
  · exact key .return (fun _ => hcl) (by decide) (by decide) he
  · by_cases hd : i.ext.isDirect = true ∧ i.ext.inst ≠ .jmpabs
    · rw [if_pos hd] at he; cases he
    · rw [if_neg hd] at he
      refine key .indirect (fun _ => ⟨by simp [hcl], fun h => ?_⟩) (by decide) (by decide) he
      apply Decidable.byContradiction
      exact fun h2 => hd ⟨h, h2⟩
  · exact key .cond (fun _ => hcl) (by decide) (by decide) he
  all_goals
    refine key .indirect (fun hw => ⟨by simp [hcl], fun h => ?_⟩) (by decide) (by decide) he
    apply Decidable.byContradiction
    intro h2
    have := ((Spec.Within.shape hw).2 h h2).1
    simp [hcl] at this

/-! ### Filling the cache -/

theorem Sofar.cache (h : Sofar c f0 n0 is its s f) (b : Bcache) (l : List (List BceWrite)) :
    Sofar c f0 n0 is its { s with bc := b, others := l } f :=
  ⟨h.walk, ⟨h.stands.ip, h.stands.mode, h.stands.asid, h.stands.sections, h.stands.calls⟩, h.count, h.lt, h.icnt, h.ends,
    h.trunc, h.wf, h.inv, h.mode⟩

theorem Mid.cache (h : Mid c f0 n0 is its s f i) (b : Bcache) (l : List (List BceWrite)) :
    Mid c f0 n0 is its { s with bc := b, others := l } f i :=
  ⟨h.walk, h.known, h.ip, h.fmode, h.asid, h.sections, h.calls, h.count, h.lt, h.icnt, h.ends, h.wf, h.inv, h.mode⟩

theorem Ran.cache (h : Ran c f0 is its s s') (b : Bcache) (l : List (List BceWrite)) :
    Ran c f0 is its s { s' with bc := b, others := l } := by
  obtain ⟨is', its', n1, g, h1, h2, h3, h4, h5⟩ := h
  exact ⟨is', its', n1, g, h1, h2, h3, h4.cache b l, h5⟩

theorem Sofar.ran {is0 : List Insn} {s0 : Bdec} (h : Sofar c f0 n0 is its s f) (hp : is0 <+: is) (hne : is ≠ [])
    (hs : s.still = s0.still) : Ran c f0 is0 its s0 s :=
  ⟨is, [], n0, f, hp, hne, by rw [trace_of_still hs]; exact .nothing _, by rw [List.append_nil]; exact h, calm_of_still hs, .inl rfl⟩

theorem Ran.from {is0 : List Insn} {s0 : Bdec} (h : Ran c f0 is its s s') (hp : is0 <+: is) (hs : s.still = s0.still) :
    Ran c f0 is0 its s0 s' := by
  obtain ⟨is', its', n1, g, h1, h2, h3, h4, h5⟩ := h
  exact ⟨is', its', n1, g, hp.trans h1, h2, trace_of_still hs ▸ h3, h4, h5.1.trans (calm_of_still hs), h5.2⟩

/-- The last part of `pt_blk_proceed_no_event_fill_cache`. -/
theorem extend_flow (henv : c.env.Ok) (hwf : m.WF c.env) (hc : m.Covers i.ip) {b : Block} {t : Nat}
    (hf : Fits c.env m i.mode i.ip i.size i.ext) (hn : nextIp i = .ok t) (hs : stopsAt c m b i t = .ok false)
    (hm : allowed m.sec i.mode) {e : Bce} (he : EntryFor c.env allowed m.sec (m.unmap t) e) (hv : e.isValid = true)
    (hg : Good c.env allowed s) :
    wp (extendEntry c m i t e) (fun _ s' => ∃ b, CacheOk c.env allowed b ∧ s' = { s with bc := b })
      (fun _ s' => s' = s) s := by
  obtain ⟨l1, l2, l3, l4⟩ := link henv hwf hc hf hn hs
  obtain ⟨e1, e2, e3, e4⟩ := wf_end henv hwf hc
  have hu := unmap_eq henv hwf hc
  have hut := unmap_eq henv hwf l1
  unfold extendEntry
  rw [wp_ite]
  refine ⟨fun _ => rfl, fun hmode => ?_⟩
  have hmode : e.mode = i.mode := by simpa using hmode
  dsimp only
  rw [wp_ite]
  refine ⟨fun _ => ⟨s.bc, hg.1, rfl⟩, fun hin => ?_⟩
  have hc1 := hc.1
  have hc2 := hc.2
  have ht1 := l1.1
  have ht2 := l1.2
  rw [wp_ite]
  refine ⟨fun _ => ?_, fun h1 => ?_⟩
  · refine wp_bcAdd hg.1 (fine_trampoline hm l2 (by omega) (l4 0 _ (.nil _))) rfl fun b hb => ⟨b, hb, rfl⟩
  · refine wp_bcAdd hg.1 ⟨fun _ => ?_, fun _ => by rw [← hmode] at hm; exact hm⟩ rfl fun b hb => ⟨b, hb, rfl⟩
    obtain ⟨a1, a2, k, off', a3, a4, a5⟩ := he.1 hv
    have hmn := straight_mono a3
    have hnin : toNinsn (e.ninsn + 1) = e.ninsn + 1 := by
      have : ¬ toNinsn (e.ninsn + 1) = 0 := fun h => h1 (.inl h)
      unfold toNinsn at *
      omega
    have hin1 : m.vaddr ≤ addDisp t e.displacement ∧ addDisp t e.displacement < m.end_ := by
      have hin' : m.isIn (addDisp t e.displacement) = true := by simpa using hin
      exact of_decide_eq_true hin'
    have hdip : addDisp t e.displacement = t + e.displacement.toNat := by
      unfold addDisp at hin1 ⊢
      omega
    have hdd : toDisp (sdiff (addDisp t e.displacement) i.ip) = sdiff (addDisp t e.displacement) i.ip := by
      apply Decidable.byContradiction
      exact fun h => h1 (.inr h)
    have hsd : sdiff (addDisp t e.displacement) i.ip = (m.unmap t - m.unmap i.ip : Nat) + e.displacement := by
      rw [hdip]
      unfold sdiff
      omega
    refine ⟨?_, (toDisp_range _).1, k + 1, off', ?_, ?_, ?_⟩
    · dsimp only
      unfold toNinsn
      omega
    · dsimp only
      rw [hmode] at a3 ⊢
      exact l4 k off' a3
    · dsimp only
      rw [hdd, hsd]
      omega
    · dsimp only
      rw [hnin]
      rcases hq : e.qualifier <;> rw [hq] at a5 <;> dsimp only at a5 ⊢ <;> first | exact ⟨by omega, by omega⟩ | omega |
        exact ⟨by omega, a5.2⟩

/-- `pt_blk_proceed_no_event_fill_cache` -/
theorem fill_flow (henv : c.env.Ok) (hwf : m.WF c.env) : ∀ (steps : Nat) (is : List Insn) (s : Bdec) (f : Flow),
    Sofar c f0 n0 is its s f → Headed m s → allowed m.sec s.mode → Good c.env allowed s →
    wp (fillCache c m steps) (fun _ s' => Ran c f0 is its s s' ∧ Good c.env allowed s')
      (fun _ s' => Good c.env allowed s') s
  | 0, is, s, f, h, hh, hm, hg => hg
  | steps + 1, is, s, f, h, hh, hm, hg => by
    unfold fillCache
    rw [wp_bind]
    refine wp_mono (wp_and (oneInsn_flow henv h) (oneInsn_head henv hwf hh)) (fun b s1 hb => ?_) fun e s1 he => ?_
    swap
    · unfold Good; rw [he.1.1.1, he.1.1.2]; exact hg
    obtain ⟨⟨h1, h2, h3, h4⟩, h5⟩ := hb
    have hg1 : Good c.env allowed s1 := by unfold Good; rw [h2, h3]; exact hg
    rcases b with _ | _
    · rw [if_neg (by decide), wp_pure]
      rw [if_neg (by decide)] at h4
      exact ⟨h4.1.ran List.prefix_rfl h4.2.1 h1, hg1⟩
    rw [if_pos rfl] at h4
    obtain ⟨i, hi, hmid, him⟩ := h4
    rw [if_pos rfl, wp_bind]
    refine wp_insn fun j hj => ?_
    have : j = i := by rw [hi] at hj; cases hj; rfl
    subst this
    have h5 := h5 rfl j hi
    have hip : j.ip = s.ip := (Spec.Flow.Known.ip hmid.known).trans h.stands.ip
    have hck := (check_iff _ _ _).1 hh.2
    have hc : m.Covers j.ip := by rw [hip]; exact hck.1
    rw [← him] at hm
    rw [← him, ← hip] at h5
    have hu := unmap_eq henv hwf hc
    rw [wp_bind, wp_try]
    refine wp_mono (nextInsn_flow hmid) (fun _ s2 hs2 => ?_) fun e s2 hs2 => ?_
    · obtain ⟨t, calls, hx, rfl, hso, hn⟩ := hs2
      dsimp only
      rw [wp_bind, wp_get, wp_bind, wp_lift]
      rcases hst : stopsAt c m s1.blk j t with b | e | _ <;> dsimp only
      · rcases b with _ | _
        · rw [if_neg (by decide)]
          have htr : s1.blk.truncated = false := by
            unfold stopsAt at hst
            have both : ∀ b, (!m.isIn t || b) = false → b = false := by
              intro b h
              cases b <;> simp at h ⊢
            split at hst
            · cases hst
            · split at hst
              · cases hst
              · split at hst
                · cases hst
                · exact both _ (by injection hst)
            · exact both _ (by injection hst)
          have h5 := h5.resolve_left (by simp [htr])
          have hsec := h5.2.1
          have hfit := h5.2.2
          obtain ⟨l1, l2, l3, l4⟩ := link henv hwf hc hfit hn hst
          have hut := unmap_eq henv hwf l1
          obtain ⟨e1, e2, e3, e4⟩ := wf_end henv hwf hc
          have hc1 := hc.1
          have ht1 := l1.1
          have ht2 := l1.2
          rw [wp_bind]
          refine wp_bcLookup (allowed := allowed) hg1 (fun b l hb hl => ⟨hb, hl⟩) fun e b l he hb hl => ?_
          have hran : ∀ b l, Ran c f0 is its s { s1 with ip := t, bc := b, others := l } := fun b l =>
            (hso.cache b l).ran (List.prefix_append _ _) (by simp) h1
          rw [wp_ite, wp_ite]
          refine ⟨fun hv => ?_, fun _ => ⟨fun _ => ?_, fun _ => ?_⟩⟩
          · refine wp_mono (extend_flow (b := s1.blk) henv hwf hc hfit hn hst hm he hv ⟨hb, hl⟩) (fun _ s3 h3 => ?_)
              fun _ s3 h3 => ?_
            · obtain ⟨b', hb', rfl⟩ := h3
              exact ⟨hran b' l, hb', hl⟩
            · rw [h3]; exact ⟨hb, hl⟩
          · refine wp_bcAdd (s := { s1 with ip := t, bc := b, others := l }) hb
              (fine_trampoline hm l2 (by omega) (l4 0 _ (.nil _))) ⟨hb, hl⟩ fun b' hb' => ⟨hran b' l, hb', hl⟩
          · rw [wp_bind]
            have hms : s1.mode = s.mode := (still_inv h1).1
            refine wp_mono (fill_flow henv hwf steps _ _ _ (hso.cache b l) ?_ (by
              show allowed m.sec s1.mode
              rw [hms, ← him]; exact hm) ⟨hb, hl⟩)
              (fun _ s3 h3 => ?_) fun _ s3 h3 => h3
            · obtain ⟨⟨l', hl'⟩, h8⟩ := hh
              refine ⟨⟨l', hsec.trans hl'⟩, (check_iff _ _ _).2 ⟨l1, ?_⟩⟩
              show SameSpace m.asid s1.sc.asid
              rw [(still_inv h1).2.1]
              exact hck.2
            · obtain ⟨r3, g3⟩ := h3
              have r4 : Ran c f0 is its s s3 := r3.from (List.prefix_append _ _) h1
              rw [wp_bind]
              refine wp_bcLookup (allowed := allowed) g3 (fun b l hb hl => ⟨hb, hl⟩) fun e b l he hb hl => ?_
              rw [wp_ite]
              refine ⟨fun hv => ?_, fun _ => ⟨r4.cache b l, hb, hl⟩⟩
              refine wp_mono (extend_flow (b := s1.blk) henv hwf hc hfit hn hst hm he hv ⟨hb, hl⟩) (fun _ s3 h3 => ?_)
                fun _ s3 h3 => ?_
              · obtain ⟨b', hb', rfl⟩ := h3
                exact ⟨r4.cache b' l, hb', hl⟩
              · rw [h3]; exact ⟨hb, hl⟩
        · rw [if_pos rfl]
          refine wp_bcAdd (s := { s1 with ip := t }) hg1.1 (fine_decode hm) hg1 fun b hb => ⟨?_, hb, hg1.2⟩
          exact (hso.cache b s1.others).ran (List.prefix_append _ _) (by simp) h1
      · exact hg1
    · obtain ⟨rfl, -⟩ := hs2
      cases e <;> dsimp only <;> (try exact hg1)
      rw [wp_bind, wp_get, wp_bind, wp_lift]
      rcases htb : traceBce s2.blk j with e | e | _ <;> dsimp only
      · rw [wp_bind]
        refine wp_bcAdd hg1.1 (fine_trace (env := c.env) hm ?_ htb) hg1 fun b hb => ?_
        · rcases h5 with h5 | h5
          · exact .inl h5
          · refine .inr ?_
            rw [hu]
            exact h5.2.2.1
        · refine wp_mono (withTrace_flow (hmid.cache b s2.others)) (fun _ s3 h3 => ?_) fun _ s3 h3 => ?_
          · refine ⟨h3.ran List.prefix_rfl (trace_of_still h1) (calm_of_still h1), ?_⟩
            obtain ⟨_, _, _, _, _, _, _, _, _, b1, b2⟩ := h3
            unfold Good; rw [b1, b2]; exact ⟨hb, hg1.2⟩
          · unfold Good; rw [h3.1, h3.2]; exact ⟨hb, hg1.2⟩
      · exact hg1

end Ipt
