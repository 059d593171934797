import Verif.BlockFill

/-!
# Helper lemmas: using the block cache
-/

set_option linter.unusedSimpArgs false

namespace Ipt

open Ild Spec Props BM

variable {c : BlkCfg} {f0 f : Flow} {n0 : Int} {is : List Insn} {its : List Item} {s s' : Bdec} {i : Insn} {m : Msec}
  {env : SecEnv} {allowed : Nat → Mode → Prop}

/-- The section is visible and contains the current instruction. -/
structure Visible (m : Msec) (f : Flow) : Prop where
  sections : f.sections m
  space : SameSpace m.asid f.asid
  covers : m.Covers f.ip

/-! ### Instructions an entry stands for -/

/-- The instructions up to the one at the end of an entry are executed without trace. -/
theorem straight_walk {c : InsnCfg} (henv : c.env.Ok) (hwf : m.WF c.env) {k off off' : Nat} {mode : Mode}
    (h : Straight c.env m.sec mode off k off') : ∀ (f : Flow) (t : Nat), f.mode = mode → Visible m f → off = m.unmap f.ip →
    m.Covers t → off' = m.unmap t →
    ∃ js, f.Walk (Flow.Known c m.isid) js [] { f with ip := t } ∧ js.length = k ∧ (k ≠ 0 → js ≠ []) := by
  induction h with
  | nil off =>
    intro f t hmd hv ho hc ho'
    have h1 := unmap_eq henv hwf hv.covers
    have h2 := unmap_eq henv hwf hc
    have a1 := hv.covers.1
    have a2 := hc.1
    have : t = f.ip := by omega
    subst this
    exact ⟨[], .nil _, rfl, fun h => absurd rfl h⟩
  | @fall off n x k off' hw hcl hst ih =>
    intro f t hmd hv ho hc ho'
    have h1 := unmap_eq henv hwf hv.covers
    have h2 := unmap_eq henv hwf hc
    obtain ⟨e1, e2, e3, e4⟩ := wf_end henv hwf hv.covers
    have a1 := hv.covers.1
    have a2 := hc.1
    have a3 := hc.2
    have hmn := straight_mono hst
    have hsz := hw.size
    rw [ho, h1, ← hmd] at hw
    have hfit : Fits c.env m f.mode f.ip n x := ⟨hw, a1, by omega⟩
    have hat := fits_at henv hv.sections hwf hv.space e2 hfit
    have hx : Exec (secInsn c.env m f.mode f.ip n x) f.calls [] (f.ip + n) f.calls := by
      refine .fall _ hcl ?_
      refine ⟨by omega, 0, ?_⟩
      show ((f.ip + n : Nat) : Int) = ((f.ip : Nat) : Int) + (n : Nat) + _
      omega
    have hv' : Visible m { f with ip := f.ip + n } := ⟨hv.sections, hv.space, ⟨by show m.vaddr ≤ f.ip + n; omega, by
      show f.ip + n < m.end_; omega⟩⟩
    obtain ⟨js, w, l, -⟩ := ih { f with ip := f.ip + n } t hmd hv' (by
      have := unmap_eq henv hwf hv'.covers
      change m.unmap (f.ip + n) = m.offset + (f.ip + n - m.vaddr) at this
      show off + n = m.unmap (f.ip + n)
      omega) hc ho'
    refine ⟨secInsn c.env m f.mode f.ip n x :: js, ?_, by simp [l], by simp⟩
    exact .cons ⟨.inl hat, fits_from hv.sections hv.space a1 (by omega)⟩ hx w
  | @jump off n x k off' d hw hcl hd hj hdd hst ih =>
    intro f t hmd hv ho hc ho'
    have h1 := unmap_eq henv hwf hv.covers
    have h2 := unmap_eq henv hwf hc
    obtain ⟨e1, e2, e3, e4⟩ := wf_end henv hwf hv.covers
    have a1 := hv.covers.1
    have a2 := hc.1
    have a3 := hc.2
    have hmn := straight_mono hst
    have hsz := hw.size
    rw [ho, h1, ← hmd] at hw
    have hfit : Fits c.env m f.mode f.ip n x := ⟨hw, a1, by omega⟩
    have hat := fits_at henv hv.sections hwf hv.space e2 hfit
    have hx : Exec (secInsn c.env m f.mode f.ip n x) f.calls [] (f.ip + n + d) f.calls := by
      have := Exec.direct (i := secInsn c.env m f.mode f.ip n x) (calls := f.calls) (f.ip + n + d) (f.ip + n)
        (by show x.cls ∉ _; simp [hcl]) ⟨hd, hj⟩ ?_ ?_
      · rwa [calling_of_ne (by show x.cls ≠ _; simp [hcl])] at this
      · refine ⟨by omega, 0, ?_⟩
        show ((f.ip + n + d : Nat) : Int) = ((f.ip : Nat) : Int) + (n : Nat) + x.displacement + _
        omega
      · refine ⟨by omega, 0, ?_⟩
        show ((f.ip + n : Nat) : Int) = ((f.ip : Nat) : Int) + (n : Nat) + _
        omega
    have hv' : Visible m { f with ip := f.ip + n + d } := ⟨hv.sections, hv.space, ⟨by show m.vaddr ≤ f.ip + n + d; omega, by
      show f.ip + n + d < m.end_; omega⟩⟩
    obtain ⟨js, w, l, -⟩ := ih { f with ip := f.ip + n + d } t hmd hv' (by
      have := unmap_eq henv hwf hv'.covers
      change m.unmap (f.ip + n + d) = m.offset + (f.ip + n + d - m.vaddr) at this
      show off + n + d = m.unmap (f.ip + n + d)
      omega) hc ho'
    refine ⟨secInsn c.env m f.mode f.ip n x :: js, ?_, by simp [l], by simp⟩
    exact .cons ⟨.inl hat, fits_from hv.sections hv.space a1 (by omega)⟩ hx w

/-- The instruction an entry ends at. -/
theorem within_known {c : InsnCfg} (henv : c.env.Ok) (hwf : m.WF c.env) (hv : Visible m f) {n : Nat} {x : Iext}
    (hw : Within c.env m.sec f.mode (m.unmap f.ip) n x) (hn : NeedsTrace (secInsn c.env m f.mode f.ip n x)) :
    f.Known c m.isid (secInsn c.env m f.mode f.ip n x) := by
  have h1 := unmap_eq henv hwf hv.covers
  obtain ⟨e1, e2, e3, e4⟩ := wf_end henv hwf hv.covers
  have a1 := hv.covers.1
  have a2 := hv.covers.2
  refine ⟨?_, fits_from hv.sections hv.space a1 (by omega)⟩
  rw [h1] at hw
  by_cases h : f.ip + n ≤ m.vaddr + m.size
  · exact .inl (fits_at henv hv.sections hwf hv.space e2 ⟨hw, a1, h⟩)
  · exact .inr ⟨rfl, rfl, hn.1, hn.2, m, hv.sections, hv.space, a1, by omega, by
      show _ < f.ip + n
      omega, hw⟩

/-! ### The state at the end of an entry -/

/-- The instruction at the end of an entry was counted but not looked at. -/
structure Ahead (c : BlkCfg) (f0 : Flow) (n0 : Int) (is : List Insn) (its : List Item) (s : Bdec) (f : Flow) : Prop where
  walk : f0.Walk (Flow.Known c.toInsnCfg s.blk.isid) is its f
  stands : Stands s f
  count : s.blk.ninsn = is.length + 1
  lt : is.length + 1 < 2 ^ 16
  icnt : s.hasIcnt = true → s.icnt = n0 + is.length + 1
  endIp : s.blk.endIp = f.ip
  trunc : s.blk.truncated = false
  wf : ∀ m, f.sections m → m.WF c.env
  inv : ScInv s.sc
  mode : s.blk.mode = f.mode

theorem Ahead.mid (h : Ahead c f0 n0 is its s f) (hk : f.Known c.toInsnCfg s.blk.isid i) {k : Iclass} {r : RetStack}
    (hr : r.Holds (calling i f.calls ((i.ip + i.size) % 2 ^ 64)))
    (hc : k = i.ext.cls ∨ (k = .indirect ∧ i.ext.cls ∈ [.jump, .farCall, .farReturn, .farJump] ∧ ¬ Direct i)) :
    Mid c f0 n0 is its { s with retstack := r, blk := { s.blk with iclass := k } } f i :=
  ⟨h.walk, hk, h.stands.ip, h.stands.mode, h.stands.asid, h.stands.sections, hr, h.count, h.lt, h.icnt,
    ⟨by rw [Spec.Flow.Known.ip hk]; exact h.endIp, hc, fun ht => absurd (h.trunc.symm.trans ht) (by simp)⟩,
    h.wf, h.inv, h.mode⟩

theorem wp_told {is0 : List Insn} {s0 : Bdec} {p : BM Unit}
    (h : wp p (fun _ s' => Told c f0 is its s f i s') (fun _ s' => SameCache s s') s) (hp : is0 <+: is)
    (hs : s.still = s0.still) (hg : Good c.env allowed s) :
    wp p (fun _ s' => Ran c f0 is0 its s0 s' ∧ Good c.env allowed s') (fun _ s' => Good c.env allowed s') s := by
  refine wp_mono h (fun _ s1 h1 => ⟨h1.ran hp (trace_of_still hs) (calm_of_still hs), ?_⟩) fun _ s1 h1 => ?_
  · obtain ⟨_, _, _, _, _, _, _, _, _, b1, b2⟩ := h1
    unfold Good; rw [b1, b2]; exact hg
  · unfold Good; rw [h1.1, h1.2]; exact hg

section

variable {is0 : List Insn} {s0 : Bdec}

/-- `pt_blk_proceed_truncated` -/
theorem truncated_flow (henv : c.env.Ok) (hv : Visible m f) (hwf : m.WF c.env) (hid : s.blk.isid = m.isid)
    (h : Ahead c f0 n0 is its s f)
    (hp : is0 <+: is) (hs : s.still = s0.still) (hg : Good c.env allowed s) :
    wp (proceedTruncated c) (fun _ s' => Ran c f0 is0 its s0 s' ∧ Good c.env allowed s')
      (fun _ s' => Good c.env allowed s') s := by
  unfold proceedTruncated
  rw [wp_bind, wp_get, wp_bind]
  refine wp_mono (decodeAt_flow henv h.stands.asid h.stands.sections h.wf) (fun i s1 hi => ?_) fun e s1 hl => ?_
  swap
  · have := hl.state
    rw [this]
    exact hg
  obtain ⟨hl, hd, -⟩ := hi
  have hst := hl.state
  have hsec := hl.sections
  generalize hI : s1.sc.img = img at hst hsec
  generalize s1.maps = mp at hst
  subst hst
  obtain ⟨e1, e2, e3, e4⟩ := wf_end henv hwf hv.covers
  have a1 := hv.covers.1
  have a2 := hv.covers.2
  rw [wp_ite]
  refine ⟨fun _ => hg, fun _ => ?_⟩
  have hat : f.At c.toInsnCfg i := by
    rw [← h.stands.ip, ← h.stands.mode] at hd
    exact hd.at
  have hk : f.Known c.toInsnCfg m.isid i := ⟨.inl hat, fits_from hv.sections hv.space a1 (by omega)⟩
  rw [wp_bind, wp_block, wp_bind]
  refine wp_logCall h.stands.calls fun r hr => ?_
  have hraw : (i.raw.take i.size ++ s.blk.raw.drop i.size).take i.size = i.raw.take i.size := by
    have hsz := hat.size
    have hlen := hd.len
    rw [List.take_append_of_le_length (by simp; omega), List.take_take, Nat.min_self]
  dsimp only
  have hmid : Mid c f0 n0 is its
      { s with
        sc := { s.sc with img := img }, maps := mp, retstack := r
        blk := { s.blk with raw := i.raw.take i.size ++ s.blk.raw.drop i.size, iclass := i.ext.cls, size := i.size
                            truncated := true } } f i := by
    refine ⟨h.walk, ?_, h.stands.ip, h.stands.mode, h.stands.asid, hsec, hr, h.count, h.lt, h.icnt,
      ⟨h.endIp.trans hat.ip.symm, .inl rfl, fun _ => ⟨rfl, hraw⟩⟩, h.wf, h.inv, h.mode⟩
    show f.Known c.toInsnCfg s.blk.isid i
    rw [hid]; exact hk
  rw [wp_orQuery]
  refine wp_mono (nextInsn_flow hmid) (fun _ s2 hs2 => ?_) fun e s2 hs2 => ?_
  · obtain ⟨t, calls, hx, rfl, hso, hn⟩ := hs2
    exact ⟨hso.ran (hp.trans (List.prefix_append _ _)) (by simp) hs, hg⟩
  · obtain ⟨rfl, -⟩ := hs2
    exact ⟨fun _ => wp_told (withTrace_flow hmid) hp hs hg, fun _ => hg⟩

/-- A conditional branch of a known size. -/
theorem cond_cached (henv : c.env.Ok) (hv : Visible m f) (hwf : m.WF c.env) (hid : s.blk.isid = m.isid)
    (h : Ahead c f0 n0 is its s f) (hp : is0 <+: is) (hs : s.still = s0.still) (hg : Good c.env allowed s)
    {e : Bce} {n : Nat} {x : Iext} (hmode : e.mode = f.mode) (hw : Within c.env m.sec f.mode (m.unmap f.ip) n x)
    (hcl : x.cls = .condJump) (hn : e.isize = n) :
    wp (condCached c m e) (fun _ s' => Ran c f0 is0 its s0 s' ∧ Good c.env allowed s')
      (fun _ s' => Good c.env allowed s') { s with blk := { s.blk with iclass := .condJump } } := by
  obtain ⟨e1, e2, e3, e4⟩ := wf_end henv hwf hv.covers
  have a1 := hv.covers.1
  have a2 := hv.covers.2
  have hu := unmap_eq henv hwf hv.covers
  unfold condCached
  rw [wp_bind, wp_get, wp_bind]
  refine wp_cond (fun _ => hg) fun b ev ev' hev hit => ?_
  have fin : ∀ {i : Insn} {t : Nat}, Mid c f0 n0 is its { s with blk := { s.blk with iclass := .condJump } } f i →
      i.ext.cls = .condJump → Addr t (i.ip + i.size + if b = true then i.ext.displacement else 0) →
      Ran c f0 is0 its s0 { s with blk := { s.blk with iclass := .condJump }, event := some ev', ip := t } ∧
      Good c.env allowed { s with blk := { s.blk with iclass := .condJump }, event := some ev', ip := t } := by
    intro i t hm hcl ht
    have := cond_flow hm hcl (e' := ev') hev hit ht
    exact ⟨this.ran hp (trace_of_still hs) (calm_of_still hs), hg⟩
  rcases b with _ | _
  · rw [if_neg (by decide), wp_modify]
    have hk := within_known (c := c.toInsnCfg) henv hwf hv hw ⟨by show x.cls ∉ _; simp [hcl], .inl hcl⟩
    rw [← hid] at hk
    refine fin (h.mid (k := .condJump) (r := s.retstack) hk ?_ (.inl hcl.symm)) hcl ?_
    · rw [calling_of_ne (by show x.cls ≠ _; simp [hcl])]; exact h.stands.calls
    · rw [if_neg (by decide)]
      have := addr_fall (secInsn c.env m f.mode f.ip n x)
      rw [Int.add_zero]
      show Addr ((s.ip + e.isize) % 2 ^ 64) _
      rw [hn, ← h.stands.ip]
      exact this
  · rw [if_pos rfl, wp_bind, wp_lift]
    dsimp only
    rcases hd : decodeInSection c.env m s.ip e.mode with i | e | _ <;> dsimp only
    · rw [hmode, ← h.stands.ip] at hd
      obtain ⟨d1, d2, d3, d4, d5, d6⟩ := inSection_ok henv hwf hv.covers hd
      have hat := inSection_at (c := c.toInsnCfg) henv hv.sections hwf hv.space e2 d1 d2 d3 d4
      have hw' := d3.1
      rw [← hu] at hw'
      obtain ⟨u1, u2⟩ := within_unique hw' hw
      rw [wp_modify]
      have hk : f.Known c.toInsnCfg s.blk.isid i :=
        ⟨.inl hat, by rw [hid]; exact fits_from hv.sections hv.space a1 (by omega)⟩
      refine fin (h.mid (k := .condJump) (r := s.retstack) hk ?_ (.inl (by rw [u2, hcl]))) (by rw [u2, hcl]) ?_
      · rw [calling_of_ne (by rw [u2, hcl]; simp)]; exact h.stands.calls
      · rw [if_pos rfl]
        show Addr (addDisp s.ip (i.ext.displacement + e.isize)) _
        rw [hn, ← u1, ← h.stands.ip, d1]
        have := addr_disp f.ip (i.ext.displacement + i.size)
        rwa [show (f.ip : Int) + (i.ext.displacement + i.size) = f.ip + i.size + i.ext.displacement by omega] at this
    · exact hg

/-- A near indirect call. -/
theorem indCall_cached (henv : c.env.Ok) (hv : Visible m f) (hwf : m.WF c.env) (hid : s.blk.isid = m.isid)
    (h : Ahead c f0 n0 is its s f) (hp : is0 <+: is) (hs : s.still = s0.still) (hg : Good c.env allowed s)
    {e : Bce} {n : Nat} {x : Iext} (hmode : e.mode = f.mode) (hw : Within c.env m.sec f.mode (m.unmap f.ip) n x)
    (hcl : x.cls = .call) (hdir : x.isDirect = false) (hn : e.isize = 0 ∨ e.isize = n) :
    wp (indCallCached c m e) (fun _ s' => Ran c f0 is0 its s0 s' ∧ Good c.env allowed s')
      (fun _ s' => Good c.env allowed s') { s with blk := { s.blk with iclass := .call } } := by
  obtain ⟨e1, e2, e3, e4⟩ := wf_end henv hwf hv.covers
  have a1 := hv.covers.1
  have a2 := hv.covers.2
  have hu := unmap_eq henv hwf hv.covers
  have fin : ∀ {i : Insn}, f.Known c.toInsnCfg s.blk.isid i → i.ext = x →
      wp (do blkPush ((s.ip + i.size) % 2 ^ 64); proceedIndirect c)
        (fun _ s' => Ran c f0 is0 its s0 s' ∧ Good c.env allowed s') (fun _ s' => Good c.env allowed s')
        { s with blk := { s.blk with iclass := .call } } := by
    intro i hk hx
    rw [wp_bind]
    refine wp_push (s := { s with blk := { s.blk with iclass := .call } }) h.stands.calls fun r hr => ?_
    have hm := h.mid (k := .call) (r := r) hk (by
      unfold calling
      rw [if_pos ⟨by rw [hx, hcl], by rw [hx, hdir]; simp⟩, Spec.Flow.Known.ip hk, h.stands.ip]
      exact hr) (.inl (by rw [hx, hcl]))
    exact wp_told (proceedIndirect_flow hm (by rw [hx, hcl]; decide) fun hd => by
      have := hd.1; rw [hx, hdir] at this; cases this) hp hs hg
  unfold indCallCached
  rw [wp_bind, wp_get, wp_ite]
  refine ⟨fun hsz => ?_, fun hsz => ?_⟩
  · have hn := hn.resolve_left hsz
    have hk := within_known (c := c.toInsnCfg) henv hwf hv hw ⟨by show x.cls ∉ _; simp [hcl], .inr fun hd => by
      have := hd.1; rw [show (secInsn c.env m f.mode f.ip n x).ext.isDirect = x.isDirect from rfl, hdir] at this; cases this⟩
    rw [← hid] at hk
    rw [hn]
    exact fin hk rfl
  · rw [wp_bind, wp_lift]
    dsimp only
    rcases hd : decodeInSection c.env m s.ip e.mode with i | e | _ <;> dsimp only
    · rw [hmode, ← h.stands.ip] at hd
      obtain ⟨d1, d2, d3, d4, d5, d6⟩ := inSection_ok henv hwf hv.covers hd
      have hat := inSection_at (c := c.toInsnCfg) henv hv.sections hwf hv.space e2 d1 d2 d3 d4
      have hw' := d3.1
      rw [← hu] at hw'
      obtain ⟨u1, u2⟩ := within_unique hw' hw
      have hk : f.Known c.toInsnCfg s.blk.isid i :=
        ⟨.inl hat, by rw [hid]; exact fits_from hv.sections hv.space a1 (by omega)⟩
      exact fin hk u2
    · exact hg

/-- Decode the instruction. -/
theorem decode_cached (henv : c.env.Ok) (hv : Visible m f) (hwf : m.WF c.env) (hid : s.blk.isid = m.isid)
    (h : Ahead c f0 n0 is its s f) (hp : is0 <+: is) (hs : s.still = s0.still) (hg : Good c.env allowed s)
    {mode : Mode} (hmode : mode = f.mode) (k : Iclass) {again : BM Unit}
    (ha : ∀ i s' f', Sofar c f0 n0 (is ++ [i]) its s' f' → Visible m f' → s'.blk.isid = m.isid → s'.still = s.still →
      s'.sc = s.sc → s'.blk.truncated = false → Good c.env allowed s' →
      wp again (fun _ s' => Ran c f0 is0 its s0 s' ∧ Good c.env allowed s') (fun _ s' => Good c.env allowed s') s') :
    wp (decodeCached c m mode again) (fun _ s' => Ran c f0 is0 its s0 s' ∧ Good c.env allowed s')
      (fun _ s' => Good c.env allowed s') { s with blk := { s.blk with iclass := k } } := by
  obtain ⟨e1, e2, e3, e4⟩ := wf_end henv hwf hv.covers
  have a1 := hv.covers.1
  have a2 := hv.covers.2
  unfold decodeCached
  rw [wp_bind, wp_get]
  dsimp only
  rcases hd : decodeInSection c.env m s.ip mode with i | e | _
  · dsimp only
    rw [hmode, ← h.stands.ip] at hd
    obtain ⟨d1, d2, d3, d4, d5, d6⟩ := inSection_ok henv hwf hv.covers hd
    have hat := inSection_at (c := c.toInsnCfg) henv hv.sections hwf hv.space e2 d1 d2 d3 d4
    have hk : f.Known c.toInsnCfg s.blk.isid i :=
      ⟨.inl hat, by rw [hid]; exact fits_from hv.sections hv.space a1 (by omega)⟩
    rw [wp_bind, wp_block, wp_bind]
    refine wp_logCall (s := { s with blk := { s.blk with iclass := i.ext.cls } }) h.stands.calls fun r hr => ?_
    have hm := h.mid (k := i.ext.cls) (r := r) hk hr (.inl rfl)
    rw [wp_bind, wp_try]
    refine wp_mono (nextInsn_flow hm) (fun _ s2 hs2 => ?_) fun e s2 hs2 => ?_
    · obtain ⟨t, calls, hx, rfl, hso, hn⟩ := hs2
      dsimp only
      have hr := hso.ran (is0 := is0) (s0 := s0) (hp.trans (List.prefix_append _ _)) (by simp) hs
      rw [wp_bind, wp_get, wp_ite, wp_ite]
      refine ⟨fun _ => ⟨hr, hg⟩, fun _ => ⟨fun _ => ⟨hr, hg⟩, fun hin => ?_⟩⟩
      refine ha i _ _ hso ⟨hv.sections, hv.space, ?_⟩ hid rfl rfl h.trunc hg
      have hin : m.isIn t = true := by simpa using hin
      have hin : m.vaddr ≤ t ∧ t < m.end_ := of_decide_eq_true hin
      exact hin
    · obtain ⟨rfl, -⟩ := hs2
      cases e <;> dsimp only <;> (try exact hg)
      exact wp_told (withTrace_flow hm) hp hs hg
  · cases e <;> dsimp only <;> (try exact hg)
    refine truncated_flow (n0 := n0) (s := { s with blk := { s.blk with iclass := k } }) henv hv hwf hid ?_ hp hs hg
    exact ⟨h.walk, ⟨h.stands.ip, h.stands.mode, h.stands.asid, h.stands.sections, h.stands.calls⟩, h.count, h.lt, h.icnt,
      h.endIp, h.trunc, h.wf, h.inv, h.mode⟩
  · exact True.intro

end

theorem Visible.head (h : Visible m f) (hs : Stands s f) (hl : ∃ l, s.sc.img.secs = m :: l) : Headed m s :=
  ⟨hl, (check_iff _ _ _).2 ⟨by rw [← hs.ip]; exact h.covers, by rw [← hs.asid]; exact h.space⟩⟩

/-- `pt_blk_proceed_no_event_cached` -/
theorem cached_flow (henv : c.env.Ok) (hwf : m.WF c.env) : ∀ (n : Nat) (is : List Insn) (s : Bdec) (f : Flow),
    Sofar c f0 n0 is its s f → Visible m f → (∃ l, s.sc.img.secs = m :: l) → s.blk.isid = m.isid →
    s.blk.truncated = false → (∀ md, allowed m.sec md ↔ md = s.mode) → Good c.env allowed s →
    wp (noEventCached c m n) (fun _ s' => Ran c f0 is its s s' ∧ Good c.env allowed s')
      (fun _ s' => Good c.env allowed s') s
  | 0, is, s, f, h, hv, hl, hid, htr, hm, hg => True.intro
  | n + 1, is, s, f, h, hv, hl, hid, htr, hm, hg => by
    unfold noEventCached
    rw [wp_bind, wp_get, wp_bind]
    refine wp_bcLookup hg (fun b l hb hl => ⟨hb, hl⟩) fun e b l' he hb hl' => ?_
    have hso : Sofar c f0 n0 is its { s with bc := b, others := l' } f := h.cache b l'
    have hg' : Good c.env allowed { s with bc := b, others := l' } := ⟨hb, hl'⟩
    rw [wp_ite]
    refine ⟨fun _ => ?_, fun hval => ?_⟩
    · refine wp_mono (fill_flow henv hwf _ _ _ _ hso (hv.head hso.stands hl) ((hm _).2 rfl) hg') (fun _ s1 h1 => ?_)
        fun _ _ h1 => h1
      exact ⟨h1.1.from List.prefix_rfl rfl, h1.2⟩
    have hval : e.isValid = true := by simpa using hval
    dsimp only
    rw [wp_ite]
    refine ⟨fun _ => ?_, fun hin => ?_⟩
    · refine wp_mono (uncached_flow henv hso) (fun _ s1 h1 => ?_) fun _ s1 h1 => ?_
      · refine ⟨h1.1.from List.prefix_rfl rfl, ?_⟩
        unfold Good; rw [h1.2.1, h1.2.2]; exact hg'
      · unfold Good; rw [h1.1, h1.2]; exact hg'
    rw [wp_ite]
    have hcnt := h.count
    have hlt := h.lt
    refine ⟨fun hfull => ?_, fun hroom => ?_⟩
    · refine ⟨hso.ran List.prefix_rfl ?_ rfl, hg'⟩
      rintro rfl
      rw [List.length_nil] at hcnt
      omega
    obtain ⟨v1, v2, k, off', v3, v4, v5⟩ := he.1 hval
    have hmode : e.mode = f.mode := by rw [h.stands.mode]; exact (hm _).1 (he.2 hval)
    have hmn := straight_mono v3
    have hu := unmap_eq henv hwf hv.covers
    obtain ⟨e1, e2, e3, e4⟩ := wf_end henv hwf hv.covers
    have a1 := hv.covers.1
    have a2 := hv.covers.2
    rw [← h.stands.ip] at v4 hmn v3
    have hin1 : m.vaddr ≤ addDisp s.ip e.displacement ∧ addDisp s.ip e.displacement < m.end_ := by
      have hin' : m.isIn (addDisp s.ip e.displacement) = true := by simpa using hin
      exact of_decide_eq_true hin'
    have hdip : addDisp s.ip e.displacement = f.ip + e.displacement.toNat := by
      rw [← h.stands.ip] at hin1 ⊢
      unfold addDisp at hin1 ⊢
      omega
    generalize addDisp s.ip e.displacement = nip at hin1 hdip
    have hcov : m.Covers nip := hin1
    have hun := unmap_eq henv hwf hcov
    have hoff : off' = m.unmap nip := by omega
    rw [hmode] at v3
    obtain ⟨js, w, hjl, hjne⟩ := straight_walk (c := c.toInsnCfg) henv hwf v3 f nip rfl hv rfl hcov hoff
    have hmod : (s.blk.ninsn + e.ninsn) % 2 ^ 16 = s.blk.ninsn + e.ninsn := by
      change ¬ (s.blk.ninsn + e.ninsn) % 2 ^ 16 < s.blk.ninsn at hroom
      omega
    rw [wp_bind]
    refine wp_count hg' fun ic hic => ?_
    rw [wp_bind, wp_modify, wp_bind, wp_block]
    dsimp only
    rw [hmod]
    have hw2 : f0.Walk (Flow.Known c.toInsnCfg s.blk.isid) (is ++ js) its { f with ip := nip } := by
      have := h.walk.append (hid ▸ w)
      rwa [List.append_nil] at this
    have hst : ∀ b' : Block, Stands
        { s with bc := b, others := l', icnt := ic, ip := nip, blk := b' } { f with ip := nip } := fun b' =>
      ⟨rfl, h.stands.mode, h.stands.asid, h.stands.sections, h.stands.calls⟩
    have hv2 : Visible m { f with ip := nip } := ⟨hv.sections, hv.space, hcov⟩
    have hp2 : is <+: is ++ js := List.prefix_append _ _
    have ahead : e.ninsn = k + 1 → ∀ cl, Ahead c f0 n0 (is ++ js) its
        { s with
          bc := b, others := l', icnt := ic, ip := nip
          blk := { s.blk with endIp := nip, ninsn := s.blk.ninsn + e.ninsn, mode := e.mode, iclass := cl } }
        { f with ip := nip } := by
      intro hk cl
      have hlen : (is ++ js).length = is.length + k := by rw [List.length_append, hjl]
      refine ⟨hw2, hst _, ?_, ?_, ?_, rfl, htr, h.wf, h.inv, hmode⟩
      · show s.blk.ninsn + e.ninsn = _
        omega
      · rw [hlen]
        change ¬ (s.blk.ninsn + e.ninsn) % 2 ^ 16 < s.blk.ninsn at hroom
        omega
      · intro hi
        have q1 := hic hi
        have q2 := h.icnt hi
        change ic = s.icnt + _ at q1
        rw [hlen]
        show (ic : Int) = _
        omega
    have recur : ∀ is' s' f', Sofar c f0 n0 is' its s' f' → Visible m f' → s'.blk.isid = m.isid → s'.still = s.still →
        s'.sc = s.sc → s'.blk.truncated = false → Good c.env allowed s' → is <+: is' →
        wp (noEventCached c m n) (fun _ s' => Ran c f0 is its s s' ∧ Good c.env allowed s')
          (fun _ s' => Good c.env allowed s') s' := by
      intro is' s' f' r1 r2 r3 r4 r5 r6 r7 r8
      refine wp_mono (cached_flow henv hwf n is' s' f' r1 r2 (by rw [r5]; exact hl) r3 r6
        (by rw [show s'.mode = s.mode from congrArg (·.mode) r4]; exact hm) r7) (fun _ s2 h2 => ?_) fun _ _ h2 => h2
      exact ⟨h2.1.from r8 r4, h2.2⟩
    have dec : e.ninsn = k + 1 → ∀ cl, wp (decodeCached c m e.mode (noEventCached c m n))
        (fun _ s' => Ran c f0 is its s s' ∧ Good c.env allowed s') (fun _ s' => Good c.env allowed s')
        { s with
          bc := b, others := l', icnt := ic, ip := nip
          blk := { s.blk with endIp := nip, ninsn := s.blk.ninsn + e.ninsn, mode := e.mode, iclass := cl } } := by
      intro hk cl
      have hA := ahead hk s.blk.iclass
      refine decode_cached (s := { s with
          bc := b, others := l', icnt := ic, ip := nip
          blk := { s.blk with endIp := nip, ninsn := s.blk.ninsn + e.ninsn, mode := e.mode, iclass := s.blk.iclass } })
        henv hv2 hwf hid hA hp2 rfl hg' hmode cl fun i s' f' r1 r2 r3 r4 r5 r6 r7 => ?_
      exact recur _ _ _ r1 r2 r3 (r4.trans rfl) (r5.trans rfl) r6 r7 (hp2.trans (List.prefix_append _ _))
    have noncall : ∀ {i : Insn}, i.ext.cls ≠ .call →
        s.retstack.Holds (calling i f.calls ((i.ip + i.size) % 2 ^ 64)) := by
      intro i hi
      rw [calling_of_ne hi]; exact h.stands.calls
    rcases hq : e.qualifier <;> rw [hq] at v5 <;> dsimp only at v5 ⊢
    · rw [wp_bind, wp_block]
      have hlen : (is ++ js).length = is.length + k := by rw [List.length_append, hjl]
      refine recur (is ++ js) _ { f with ip := nip } ⟨hw2, hst _, ?_, ?_, ?_, fun _ _ => .inr ⟨rfl, rfl, htr⟩, fun ht => ?_,
        h.wf, h.inv, hmode⟩ hv2 hid rfl rfl htr hg' hp2
      · show s.blk.ninsn + e.ninsn = _
        omega
      · rw [hlen]
        change ¬ (s.blk.ninsn + e.ninsn) % 2 ^ 16 < s.blk.ninsn at hroom
        omega
      · intro hi
        have q1 := hic hi
        have q2 := h.icnt hi
        change ic = s.icnt + _ at q1
        rw [hlen]
        show (ic : Int) = _
        omega
      · exact absurd (htr.symm.trans ht) (by simp)
    · obtain ⟨hk, sz, x, hwi, has, hsz⟩ := v5
      rw [wp_bind, wp_block, wp_ite]
      refine ⟨fun hnz => ?_, fun _ => dec hk _⟩
      rw [hmode, hoff] at hwi
      exact cond_cached (s0 := s) (s := { s with
          bc := b, others := l', icnt := ic, ip := nip
          blk := { s.blk with endIp := nip, ninsn := s.blk.ninsn + e.ninsn, mode := e.mode, iclass := s.blk.iclass } })
        henv hv2 hwf hid (ahead hk s.blk.iclass) hp2 rfl hg' hmode hwi has (hsz.resolve_left hnz)
    · obtain ⟨hk, sz, x, hwi, has, hsz⟩ := v5
      rw [wp_bind, wp_block]
      rw [hmode, hoff] at hwi
      exact indCall_cached (s0 := s) (s := { s with
          bc := b, others := l', icnt := ic, ip := nip
          blk := { s.blk with endIp := nip, ninsn := s.blk.ninsn + e.ninsn, mode := e.mode, iclass := s.blk.iclass } })
        henv hv2 hwf hid (ahead hk s.blk.iclass) hp2 rfl hg' hmode hwi has.1 has.2 hsz
    · obtain ⟨hk, sz, x, hwi, has, hsz⟩ := v5
      rw [wp_bind, wp_block]
      rw [hmode, hoff] at hwi
      have has : x.cls = .return := has
      have hkn := within_known (c := c.toInsnCfg) henv hwf hv2 hwi ⟨by show x.cls ∉ _; simp [has], .inr fun hd => by
        have := (hwi.shape.2 hd.1 hd.2).1
        simp [has] at this⟩
      rw [← hid] at hkn
      exact wp_told (return_flow ((ahead hk s.blk.iclass).mid (k := .return) (r := s.retstack) hkn
        (noncall (by show x.cls ≠ _; simp [has])) (.inl has.symm)) has) hp2 rfl hg'
    · obtain ⟨hk, sz, x, hwi, has, hsz⟩ := v5
      rw [wp_bind, wp_block]
      rw [hmode, hoff] at hwi
      have hcl : x.cls ∈ [Iclass.jump, .farCall, .farReturn, .farJump, .indirect] := has.1
      have hnd : ¬ Direct (secInsn c.env m f.mode nip sz x) := fun hd => hd.2 (has.2 hd.1)
      have hkn := within_known (c := c.toInsnCfg) henv hwf hv2 hwi
        ⟨by show x.cls ∉ _; simp at hcl ⊢; rcases hcl with h | h | h | h | h <;> simp [h], .inr hnd⟩
      rw [← hid] at hkn
      refine wp_told (proceedIndirect_flow ((ahead hk s.blk.iclass).mid (k := .indirect) (r := s.retstack) hkn
        (noncall (by show x.cls ≠ _; simp at hcl; rcases hcl with h | h | h | h | h <;> simp [h])) ?_)
        (by show x.cls ∉ _; simp at hcl ⊢; rcases hcl with h | h | h | h | h <;> simp [h]) hnd) hp2 rfl hg'
      by_cases hx : x.cls = .indirect
      · exact .inl hx.symm
      · refine .inr ⟨rfl, ?_, hnd⟩
        show x.cls ∈ _
        simp at hcl ⊢
        rcases hcl with h | h | h | h | h <;> first | exact absurd h hx | simp [h]
    · exact dec v5 _

/-! ### Finding the section -/

/-- What executing instructions does not change. -/
def Bdec.frame (s : Bdec) : Bdec := { s.calm with sc := { s.calm.sc with cache := none } }

theorem frame_of_calm (h : s'.calm = s.calm) : s'.frame = s.frame := by
  unfold Bdec.frame; rw [h]

theorem fetch_first {img img' : Img} {a : Asid} {x : Nat} (h : imageFetch img a x = (img', .ok m)) :
    ∃ l, img'.secs = m :: l := by
  unfold imageFetch at h
  rcases ht : takeFirst (fun m => m.check a x) img.secs with _ | ⟨m', l⟩ <;> rw [ht] at h
  · cases h
  · cases h; exact ⟨_, rfl⟩

theorem fill_first {sc : ScSt} {u p : Res Unit} {x : Nat} (h : (cacheFill sc u p x).2 = .ok m) :
    ∃ l, (cacheFill sc u p x).1.img.secs = m :: l := by
  unfold cacheFill at h ⊢
  rcases hc : cacheInvalidate sc u with ⟨s1, _ | e | _⟩ <;> rw [hc] at h <;> dsimp only at h ⊢
  · rcases hf : imageFind s1.img s1.asid x with ⟨j, m' | e | _⟩ <;> rw [hf] at h <;> dsimp only at h ⊢
    · unfold imageFind at hf
      rcases hi : imageFetch s1.img s1.asid x with ⟨j', m2 | e | _⟩ <;> rw [hi] at hf <;> dsimp only at hf
      · split at hf
        · cases hf
        · rcases p with _ | e | _ <;> dsimp only at h ⊢
          · cases h
            cases hf
            have := fetch_first hi
            exact this
          · cases h
          · cases h
      · cases hf
      · cases hf
    · cases h
    · cases h
  · cases h
  · cases h

theorem lookup_first {sc : ScSt} {u p : Res Unit} {x : Nat} (h : (msecLookup sc u p x).2 = .ok m) :
    ∃ l, (msecLookup sc u p x).1.img.secs = m :: l := by
  unfold msecLookup at h ⊢
  rcases hc : sc.cache with _ | m' <;> rw [hc] at h <;> dsimp only at h ⊢
  · exact fill_first h
  · split at h
    · rename_i hv
      rw [if_pos hv]
      cases h
      unfold imageValidate at hv
      rcases hs : sc.img.secs with _ | ⟨top, l⟩ <;> rw [hs] at hv <;> dsimp only at hv
      · cases hv
      · split at hv
        · cases hv
        · exact ⟨l, by rw [of_decide_eq_true hv]⟩
    · rename_i hv
      rw [if_neg hv]
      exact fill_first h

/-- `pt_blk_msec_lookup` -/
theorem lookup_flow (h : Sofar c f0 n0 is its s f) :
    wp blkLookup
      (fun m s' => ∃ sc mp rq, s' = { s with sc := sc, maps := mp, reqs := rq } ∧ sc.asid = s.sc.asid ∧
        Sofar c f0 n0 is its s' f ∧ Visible m f ∧ ∃ l, sc.img.secs = m :: l)
      (fun _ s' => ∃ sc mp rq, s' = { s with sc := sc, maps := mp, reqs := rq } ∧ sc.asid = s.sc.asid ∧
        Sofar c f0 n0 is its s' f) s := by
  unfold blkLookup
  have hl := fun u p => msecLookup_rel s.sc u p s.ip h.inv
  have hso : ∀ (u p : Res Unit) mp rq, Sofar c f0 n0 is its
      { s with sc := (msecLookup s.sc u p s.ip).1, maps := mp, reqs := rq } f := fun u p mp rq =>
    ⟨h.walk, ⟨h.stands.ip, h.stands.mode, h.stands.asid.trans (hl u p).2.1.symm,
      fun m => ((hl u p).2.2.1 m).trans (h.stands.sections m), h.stands.calls⟩, h.count, h.lt, h.icnt, h.ends,
      h.trunc, h.wf, (hl u p).1, h.mode⟩
  rw [wp_bind]
  show wp _ _ _ { s with maps := s.maps.tail }
  rw [wp_bind]
  show wp _ _ _ { s with maps := s.maps.tail.tail }
  rw [wp_bind, wp_get, wp_bind]
  dsimp only
  generalize s.maps.headD (.ok ()) = u
  generalize ({ s with maps := s.maps.tail } : Bdec).maps.headD (.ok ()) = p
  unfold wp BM.cache
  dsimp only
  rcases hm : msecLookup s.sc u p s.ip with ⟨sc, m | e | _⟩
  · dsimp only
    have h1 := hl u p
    have h2 := lookup_first (sc := s.sc) (u := u) (p := p) (x := s.ip) (m := m) (by rw [hm])
    have h3 := hso u p s.maps.tail.tail
    have h4 := (lookup_spec s.sc u p s.ip h.inv).2 m (by rw [hm])
    rw [hm] at h1 h2 h3
    have hv : Visible m f := ⟨(h.stands.sections m).1 (h1.2.2.2 m rfl).1,
      by rw [h.stands.asid]; exact (h1.2.2.2 m rfl).2, by rw [h.stands.ip]; exact (fetch_ok_space h4).1⟩
    show wp _ _ _ _
    rw [wp_bind, wp_when]
    refine ⟨fun _ => ?_, fun _ => ?_⟩
    · unfold wp BM.request
      dsimp only
      rcases s.reqs.headD (.ok ()) with _ | e | _
      · exact ⟨_, _, _, rfl, h1.2.1, h3 _, hv, h2⟩
      · exact ⟨_, _, _, rfl, h1.2.1, h3 _⟩
      · trivial
    · exact ⟨_, _, _, rfl, h1.2.1, h3 _, hv, h2⟩
  · have h1 := hl u p
    have h3 := hso u p s.maps.tail.tail s.reqs
    rw [hm] at h1 h3
    exact ⟨_, _, _, rfl, h1.2.1, h3⟩
  · trivial

/-- Executing instructions. -/
def Went (c : BlkCfg) (f0 : Flow) (is : List Insn) (its : List Item) (s s' : Bdec) : Prop :=
  ∃ is' its' n1 g, is <+: is' ∧ is' ≠ [] ∧ Takes c s.trace its' s'.trace ∧ Sofar c f0 n1 is' (its ++ its') s' g ∧
    s'.frame = s.frame ∧ Lasts c s'.blk.isid f0 is' its its' g

theorem Ran.went {s0 : Bdec} (h : Ran c f0 is its s s') (h1 : s.trace = s0.trace) (h2 : s.frame = s0.frame) :
    Went c f0 is its s0 s' := by
  obtain ⟨is', its', n1, g, a1, a2, a3, a4, a5⟩ := h
  exact ⟨is', its', n1, g, a1, a2, h1 ▸ a3, a4, (frame_of_calm a5.1).trans h2, a5.2⟩

/-- `pt_blk_proceed_no_event` -/
theorem noEvent_flow (henv : c.env.Ok) (h : Sofar c f0 n0 is its s f) (htr : s.blk.truncated = false)
    (hm : ∀ m, Visible m f → ∀ md, allowed m.sec md ↔ md = f.mode) (hg : Good c.env allowed s) :
    wp (noEvent c) (fun _ s' => Went c f0 is its s s' ∧ Good c.env allowed s') (fun _ s' => Good c.env allowed s') s := by
  unfold noEvent
  have unc : ∀ {s1 : Bdec}, Sofar c f0 n0 is its s1 f → Good c.env allowed s1 → s1.trace = s.trace → s1.frame = s.frame →
      wp (noEventUncached c) (fun _ s' => Went c f0 is its s s' ∧ Good c.env allowed s')
        (fun _ s' => Good c.env allowed s') s1 := by
    intro s1 h1 h2 h3 h4
    refine wp_mono (uncached_flow henv h1) (fun _ s2 h5 => ?_) fun _ s2 h5 => ?_
    · refine ⟨h5.1.went h3 h4, ?_⟩
      unfold Good; rw [h5.2.1, h5.2.2]; exact h2
    · unfold Good; rw [h5.1, h5.2]; exact h2
  have fr : ∀ {sc : ScSt} {mp rq} {b : Block} {av}, sc.asid = s.sc.asid →
      ({ s with sc := sc, maps := mp, reqs := rq, blk := b, avail := av } : Bdec).frame = s.frame := by
    intro sc mp rq b av ha
    unfold Bdec.frame Bdec.calm Bdec.still
    dsimp only
    rw [ha]
  rw [wp_bind, wp_try]
  refine wp_mono (lookup_flow h) (fun m s1 h1 => ?_) fun e s1 h1 => ?_
  swap
  · obtain ⟨sc, mp, rq, rfl, h2, h3⟩ := h1
    cases e <;> dsimp only <;> (try exact hg)
    exact unc h3 hg rfl (fr h2)
  obtain ⟨sc, mp, rq, rfl, h2, h3, hv, hl⟩ := h1
  dsimp only
  rw [wp_bind, wp_get, wp_ite]
  refine ⟨fun hne => ?_, fun hne => ?_⟩
  · refine ⟨⟨is, [], n0, f, List.prefix_rfl, ?_, .nothing _, by rw [List.append_nil]; exact h3, fr h2, .inl rfl⟩, hg⟩
    rintro rfl
    exact hne.2 h.count
  rw [wp_bind, wp_block, wp_bind, wp_available]
  have hwf := h.wf m hv.sections
  have h4 : Sofar c f0 n0 is its
      { s with sc := sc, maps := mp, reqs := rq, blk := { s.blk with isid := m.isid }, avail := s.avail.tail } f := by
    refine ⟨?_, ⟨h3.stands.ip, h3.stands.mode, h3.stands.asid, h3.stands.sections, h3.stands.calls⟩, h3.count, h3.lt, h3.icnt,
      h3.ends, h3.trunc, h3.wf, h3.inv, h3.mode⟩
    by_cases hid : m.isid = s.blk.isid
    · have := h3.walk
      show f0.Walk (Flow.Known c.toInsnCfg m.isid) is its f
      rw [hid]
      exact this
    · have h0 : s.blk.ninsn = 0 := Decidable.byContradiction fun h0 => hne ⟨hid, h0⟩
      have hl := h.count
      rw [h0] at hl
      have : is = [] := by cases is with | nil => rfl | cons a l => simp at hl
      subst this
      cases h.walk
      exact .nil _
  rw [wp_ite]
  refine ⟨fun _ => ?_, fun _ => unc h4 hg rfl (fr h2)⟩
  refine wp_mono (cached_flow henv hwf _ is _ f h4 hv hl rfl htr (fun md => by
    have := hm m hv md
    rwa [h.stands.mode] at this) hg) (fun _ s2 h5 => ?_) fun _ _ h5 => h5
  exact ⟨h5.1.went rfl (fr h2), h5.2⟩

end Ipt
