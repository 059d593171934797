import Verif.BlockHead
import Verif.BlockFill
import Verif.Spec.BlockFlow
import Verif.Props.Ild

/-!
# Helper lemmas: proceeding to an event
-/

set_option linter.unusedSimpArgs false

namespace Ipt

open Ild Spec Props BM

/-! ### Reading memory does not fail with `-pte_bad_query` -/

/-- Mapping sections does not fail with `-pte_bad_query`. -/
def NoBq (l : List (Res Unit)) : Prop := ∀ r ∈ l, r ≠ .err .badQuery

/-- Nor does the user's callback. -/
def CbNoBq (c : BlkCfg) : Prop := ∀ g, c.cb = some g → ∀ n a x, g n a x ≠ .err .badQuery

variable {c : BlkCfg} {f0 f : Flow} {n0 : Int} {is : List Insn} {its : List Item} {s s' : Bdec} {i : Insn} {e0 e : Event}

theorem NoBq.head {l : List (Res Unit)} (h : NoBq l) : l.headD (.ok ()) ≠ .err .badQuery := by
  cases l with
  | nil => simp
  | cons a l => exact h a (by simp)

theorem NoBq.tail {l : List (Res Unit)} (h : NoBq l) : NoBq l.tail := fun r hr => h r (List.mem_of_mem_tail hr)

theorem callback_bq (hcb : CbNoBq c) {size x : Nat} {a : Asid} : readCallback c.cb size a x ≠ .err .badQuery := by
  unfold readCallback
  rcases hg : c.cb with _ | g
  · simp
  · have := hcb g hg size a x
    dsimp only
    rcases h : g size a x with bs | e | _
    · intro h'; cases h'
    · rw [h] at this
      intro h'
      cases h'
      exact this rfl
    · intro h'; cases h'

theorem sectionRead_bq {env : SecEnv} {sec off size : Nat} : sectionRead env sec off size ≠ .err .badQuery := by
  unfold sectionRead
  intro h
  repeat' split at h
  all_goals cases h

theorem msecRead_bq {env : SecEnv} {m : Msec} {size x : Nat} : m.read env size x ≠ .err .badQuery := by
  unfold Msec.read
  dsimp only
  split
  · simp
  · exact sectionRead_bq

theorem reader_bq (hcb : CbNoBq c) {a : Asid} {st : Img × List (Res Unit)} (h : NoBq st.2) {size x : Nat} :
    (imgReader c.env c.cb a st size x).2 ≠ .err .badQuery ∧ NoBq (imgReader c.env c.cb a st size x).1.2 := by
  refine ⟨?_, h.tail⟩
  show (imageRead c.env c.cb (st.2.headD (.ok ())) st.1 size a x).2 ≠ _
  have h1 := h.head
  unfold imageRead
  rcases hf : imageFetch st.1 a x with ⟨j, m | e | _⟩
  · dsimp only
    rcases hr : st.2.headD (.ok ()) with _ | e | _ <;> rw [hr] at h1
    · dsimp only
      rcases hm : m.read c.env size x with bs | e | _
      · simp
      · have := msecRead_bq (env := c.env) (m := m) (size := size) (x := x)
        rw [hm] at this
        cases e <;> first | exact callback_bq hcb | (intro h; cases h; done) | (exact absurd rfl this)
      · simp
    · intro h; cases h; exact h1 rfl
    · simp
  · have : e = .nomap := by
      unfold imageFetch at hf
      split at hf <;> cases hf
      rfl
    subst this
    exact callback_bq hcb
  · simp

theorem store_room {raw bs raw' : List UInt8} {pos : Nat} (h : store raw pos bs = .ok raw') : pos + bs.length ≤ raw'.length := by
  unfold store at h
  split at h
  · cases h
  · cases h
    simp
    omega

theorem retry_bq (hcb : CbNoBq c) {a : Asid} : ∀ (fuel : Nat) (st : Img × List (Res Unit)) (i : Insn), NoBq st.2 →
    (insnRetry (imgReader c.env c.cb a) fuel st i).2 ≠ .err .badQuery ∧
    NoBq (insnRetry (imgReader c.env c.cb a) fuel st i).1.2
  | 0, st, i, h => ⟨by unfold insnRetry; simp, h⟩
  | fuel + 1, st, i, h => by
    unfold insnRetry
    dsimp only
    split
    · exact ⟨by simp, h⟩
    have h1 := reader_bq hcb (a := a) h (size := 15 - i.size) (x := (i.ip + i.size) % 2 ^ 64)
    rcases hq : imgReader c.env c.cb a st (15 - i.size) ((i.ip + i.size) % 2 ^ 64) with ⟨s', ⟨isid, bs⟩ | e | _⟩ <;>
      rw [hq] at h1 <;> dsimp only at h1 ⊢
    · split
      · exact ⟨by simp, h1.2⟩
      rcases hst : store i.raw i.size bs with raw' | e | _ <;> dsimp only
      · rcases hil : ildDecode raw' (i.size + bs.length) i.mode with ⟨n, x | e | _⟩
        · exact ⟨by simp, h1.2⟩
        · have := (C39_error raw' (i.size + bs.length) i.mode n e (store_room hst) hil).1
          subst this
          dsimp only
          split
          · exact ⟨by simp, h1.2⟩
          · exact retry_bq hcb fuel s' _ h1.2
        · exact ⟨by simp, h1.2⟩
      · exact ⟨by simp, h1.2⟩
      · exact ⟨by simp, h1.2⟩
    · cases e <;> first | exact absurd rfl h1.1 | exact ⟨by simp, h1.2⟩
    · exact ⟨by simp, h1.2⟩

theorem decode_bq (hcb : CbNoBq c) {a : Asid} {st : Img × List (Res Unit)} (h : NoBq st.2) (i : Insn) :
    (insnDecode (imgReader c.env c.cb a) st i).2 ≠ .err .badQuery ∧
    NoBq (insnDecode (imgReader c.env c.cb a) st i).1.2 := by
  unfold insnDecode
  have h1 := reader_bq hcb (a := a) h (size := 15) (x := i.ip)
  rcases hq : imgReader c.env c.cb a st 15 i.ip with ⟨s', ⟨isid, bs⟩ | e | _⟩ <;> rw [hq] at h1 <;> dsimp only at h1 ⊢
  · rcases hst : store i.raw 0 bs with raw' | e | _ <;> dsimp only
    · rcases hil : ildDecode raw' bs.length i.mode with ⟨n, x | e | _⟩
      · exact ⟨by simp, h1.2⟩
      · have := (C39_error raw' bs.length i.mode n e (by have := store_room hst; omega) hil).1
        subst this
        dsimp only
        split
        · exact ⟨by simp, h1.2⟩
        · exact retry_bq hcb 16 s' _ h1.2
      · exact ⟨by simp, h1.2⟩
    · exact ⟨by simp, h1.2⟩
    · exact ⟨by simp, h1.2⟩
  · exact ⟨fun h => h1.1 (by cases h; rfl), h1.2⟩
  · exact ⟨by simp, h1.2⟩

theorem decodeAt_bq (hcb : CbNoBq c) (h : NoBq s.maps) {ip : Nat} {mode : Mode} :
    wp (decodeAt c ip mode) (fun _ s' => NoBq s'.maps) (fun er s' => er ≠ .badQuery ∧ NoBq s'.maps) s := by
  unfold wp
  rw [decodeAt_eq]
  have := decode_bq hcb (a := s.sc.asid) (st := (s.sc.img, s.maps)) h { ip := ip, mode := mode }
  unfold BlkCfg.reader
  rcases hd : insnDecode (imgReader c.env c.cb s.sc.asid) (s.sc.img, s.maps) { ip := ip, mode := mode } with ⟨st, x | e | _⟩ <;>
    rw [hd] at this <;> dsimp only at this ⊢
  · exact this.2
  · exact ⟨fun h => this.1 (by rw [h]), this.2⟩

theorem addInsn_maps {i : Insn} {K : List (Res Unit)} (h : s.maps = K) :
    wp (addInsn i) (fun _ s' => s'.maps = K ∧ s'.blk.isid = s.blk.isid) (fun er _ => er ≠ .badQuery) s := by
  unfold addInsn
  have hlog : ∀ t : Bdec, wp (logCall i) (fun _ t' => t'.maps = t.maps ∧ t'.blk = t.blk) (fun er _ => er ≠ .badQuery) t := by
    intro t
    unfold logCall
    rw [wp_ite, wp_ite]
    refine ⟨fun _ => ⟨rfl, rfl⟩, fun _ => ⟨fun _ => ⟨rfl, rfl⟩, fun _ => ?_⟩⟩
    unfold wp blkPush
    dsimp only
    rcases hp : t.retstack.push ((i.ip + i.size) % 2 ^ 64) with ⟨r, _ | e | _⟩
    · exact ⟨rfl, rfl⟩
    · unfold RetStack.push at hp
      have := congrArg Prod.snd hp
      dsimp only at this
      split at this <;> cases this
    · trivial
  have hcnt : ∀ t : Bdec, wp (countInsn 1) (fun _ t' => t'.maps = t.maps ∧ t'.blk = t.blk) (fun er _ => er ≠ .badQuery) t := by
    intro t
    exact wp_count (by simp) fun k _ => ⟨rfl, rfl⟩
  have tail : ∀ t : Bdec, t.maps = K → t.blk.isid = s.blk.isid → wp (do
      logCall i
      BM.block fun b => { b with iclass := i.ext.cls, endIp := i.ip, ninsn := b.ninsn + 1 }
      countInsn 1
      BM.modify fun s => { s with out := some i }) (fun _ s' => s'.maps = K ∧ s'.blk.isid = s.blk.isid)
      (fun er _ => er ≠ .badQuery) t := by
    intro t h1 h2
    rw [wp_bind]
    refine wp_mono (hlog t) (fun _ t1 h3 => ?_) fun _ _ h => h
    rw [wp_bind, wp_block, wp_bind]
    refine wp_mono (hcnt _) (fun _ t2 h4 => ?_) fun _ _ h => h
    rw [wp_modify]
    refine ⟨h4.1.trans (h3.1.trans h1), ?_⟩
    show t2.blk.isid = _
    rw [h4.2]
    show t1.blk.isid = _
    rw [h3.2]
    exact h2
  rw [wp_bind, wp_when]
  refine ⟨fun _ => ?_, fun _ => tail s h rfl⟩
  rw [wp_block]
  exact tail _ h rfl

theorem oneInsn_bq (hcb : CbNoBq c) (h : NoBq s.maps) :
    wp (oneInsn c) (fun _ s' => NoBq s'.maps ∧ (s.blk.ninsn ≠ 0 → s'.blk.isid = s.blk.isid)) (fun er _ => er ≠ .badQuery) s := by
  unfold oneInsn
  rw [wp_bind, wp_get, wp_ite, wp_ite]
  refine ⟨fun _ => ⟨h, fun _ => rfl⟩, fun _ => ⟨fun _ => ⟨h, fun _ => rfl⟩, fun _ => ?_⟩⟩
  rw [wp_bind]
  refine wp_mono (wp_and (decodeAt_bq hcb h) decodeAt_state) (fun i s1 h1 => ?_) fun _ _ h => h.1.1
  obtain ⟨h1, h2⟩ := h1
  have hb : s1.blk = s.blk := by
    rw [h2]
  rw [wp_ite]
  refine ⟨fun _ => ⟨h1, fun _ => by rw [hb]⟩, fun hne => ?_⟩
  rw [wp_bind, wp_block, wp_bind]
  refine wp_mono (addInsn_maps (K := s1.maps) rfl) (fun _ s2 h3 => ?_) fun _ _ h => h
  rw [wp_pure, h3.1, h3.2]
  refine ⟨h1, fun hn => ?_⟩
  show i.isid = s.blk.isid
  apply Decidable.byContradiction
  intro h4
  exact hne ⟨h4, hn⟩

/-! ### Executing instructions while an event waits -/

theorem _root_.Ipt.Spec.Flow.Waits.append {isid : Nat} {f g h : Flow} {e e1 e2 : Event} {is js : List Insn}
    (h1 : f.Waits c isid e is g e1) (h2 : g.Waits c isid e1 js h e2) : f.Waits c isid e (is ++ js) h e2 := by
  induction h1 with
  | nil => exact h2
  | cons a b d x _ ih => exact .cons a b d x (ih h2)
  | locate a n m k x y z _ ih => exact .locate a n m k x y z (ih h2)
  | skd022 a b i x y z u v _ ih => exact .skd022 a b i x y z u v (ih h2)

theorem _root_.Ipt.Spec.Flow.Waits.isid {isid isid' : Nat} {f g : Flow} {e e1 : Event} {is : List Insn}
    (h1 : f.Waits c isid e is g e1) (h2 : is = []) : f.Waits c isid' e is g e1 := by
  induction h1 with
  | nil => exact .nil _ _
  | cons a b d x _ ih => cases h2
  | locate a n m k x y z _ ih => exact .locate a n m k x y z (ih h2)
  | skd022 a b i x y z u v _ ih => exact .skd022 a b i x y z u v (ih h2)

/-- Everything but what is needed to execute instructions, and the event. -/
def Bdec.quiet (s : Bdec) : Bdec := { s.still with event := none }

/-- Instructions were executed while an event waits. -/
structure Wait (c : BlkCfg) (f0 : Flow) (e0 : Event) (n0 : Int) (is : List Insn) (s : Bdec) (f : Flow) (e : Event) : Prop where
  so : Sofar c f0 n0 is [] s f
  waits : f0.Waits c s.blk.isid e0 is f e
  event : s.event = some e
  maps : NoBq s.maps

/-- Another one was added to the block but not executed. -/
structure Held (c : BlkCfg) (f0 : Flow) (e0 : Event) (n0 : Int) (is : List Insn) (s : Bdec) (f : Flow) (e : Event) (i : Insn) :
    Prop where
  mid : Mid c f0 n0 is [] s f i
  waits : f0.Waits c s.blk.isid e0 is f e
  event : s.event = some e
  maps : NoBq s.maps
  out : s.out = some i

theorem quiet_of_still (h : s'.still = s.still) : s'.quiet = s.quiet := by
  unfold Bdec.quiet
  rw [h]

theorem one_wait (henv : c.env.Ok) (hcb : CbNoBq c) (h : Wait c f0 e0 n0 is s f e) :
    wp (oneInsn c) (fun b s' => s'.still = s.still ∧
        if b = true then ∃ i, Held c f0 e0 n0 is s' f e i else Wait c f0 e0 n0 is s' f e ∧ is ≠ [])
      (fun er s' => er ≠ .badQuery) s := by
  refine wp_mono (wp_and (oneInsn_flow henv h.so) (oneInsn_bq hcb h.maps)) (fun b s' hb => ?_) fun _ _ h => h.2
  obtain ⟨⟨h1, -, -, h2⟩, h3, h4⟩ := hb
  have hw : f0.Waits c s'.blk.isid e0 is f e := by
    by_cases hn : is = []
    · exact h.waits.isid hn
    · rw [h4 (by rw [h.so.count]; simpa using hn)]
      exact h.waits
  have he : s'.event = some e := by
    have := congrArg (·.event) h1
    exact this.trans h.event
  refine ⟨h1, ?_⟩
  rcases b with _ | _
  · rw [if_neg (by decide)] at h2 ⊢
    exact ⟨⟨h2.1, hw, he, h3⟩, h2.2.1⟩
  · rw [if_pos rfl] at h2 ⊢
    obtain ⟨i, a1, a2, -⟩ := h2
    exact ⟨i, a2, hw, he, h3, a1⟩

theorem next_wait (h : Held c f0 e0 n0 is s f e i) (hat : ¬ f.IsAt e) (hon : ¬ IsOn c e i) :
    wp (nextInsn i) (fun _ s' => ∃ t calls, s' = { s with ip := t } ∧ nextIp i = .ok t ∧
        Sofar c f0 n0 (is ++ [i]) [] s' { f with ip := t, calls := calls } ∧
        f0.Waits c s.blk.isid e0 (is ++ [i]) { f with ip := t, calls := calls } (nearer f.ip t e))
      (fun er s' => s' = s ∧ (er = .badQuery → Asking i)) s := by
  refine wp_mono (nextInsn_flow h.mid) (fun _ s' hs => ?_) fun _ _ h => h
  obtain ⟨t, calls, hx, rfl, hso, hn⟩ := hs
  exact ⟨t, calls, rfl, hn, hso, h.waits.append (.cons hat hon h.mid.known hx (.nil _ _))⟩

/-- Stopping at an instruction that needs trace. -/
def Stops (c : BlkCfg) (f0 : Flow) (e0 e : Event) (n0 : Int) (q : Bdec) (er : Err) (s' : Bdec) : Prop :=
  er = .badQuery → s'.quiet = q ∧ ∃ is' f' i, Held c f0 e0 n0 is' s' f' e i ∧ Asking i

/-- `pt_blk_proceed_to_insn` -/
theorem toInsn_wait (henv : c.env.Ok) (hcb : CbNoBq c) (p : Iext → Bool)
    (H : ∀ (g : Flow) (i : Insn), p i.ext = false → ¬ g.IsAt e ∧ ¬ IsOn c e i ∧ ∀ x t, nearer x t e = e) :
    ∀ (n : Nat) (is : List Insn) (s : Bdec) (f : Flow), Wait c f0 e0 n0 is s f e →
    wp (toInsnLoop c p n) (fun b s' => s'.quiet = s.quiet ∧ ∃ is' f',
        if b = true then ∃ i, Held c f0 e0 n0 is' s' f' e i ∧ p i.ext = true else Wait c f0 e0 n0 is' s' f' e)
      (Stops c f0 e0 e n0 s.quiet) s
  | 0, is, s, f, h => trivial
  | n + 1, is, s, f, h => by
    unfold toInsnLoop
    rw [wp_bind]
    refine wp_mono (one_wait henv hcb h) (fun b s1 hb => ?_) fun er s1 he hq => absurd hq he
    obtain ⟨h1, h4⟩ := hb
    have hq := quiet_of_still h1
    rcases b with _ | _
    · rw [if_neg (by decide), wp_pure]
      rw [if_neg (by decide)] at h4
      refine ⟨hq, is, f, ?_⟩
      rw [if_neg (by decide)]
      exact h4.1
    · rw [if_pos rfl] at h4
      obtain ⟨i, h5⟩ := h4
      rw [if_pos rfl, wp_bind]
      refine wp_insn fun j hj => ?_
      have : j = i := by rw [h5.out] at hj; cases hj; rfl
      subst this
      rw [wp_ite]
      refine ⟨fun hp => ?_, fun hp => ?_⟩
      · rw [wp_pure]
        refine ⟨hq, is, f, ?_⟩
        rw [if_pos rfl]
        exact ⟨j, h5, hp⟩
      · obtain ⟨hat, hon, hne⟩ := H f j (by simpa using hp)
        rw [wp_bind]
        refine wp_mono (next_wait h5 hat hon) (fun _ s2 hs => ?_) fun er s2 he hb => ?_
        · obtain ⟨t, calls, rfl, -, hso, hw⟩ := hs
          rw [hne] at hw
          rw [wp_ite]
          refine ⟨fun hc => ?_, fun hc => ?_⟩
          · rw [wp_pure]
            exact ⟨hq, is ++ [j], _, hso, hw, h5.event, h5.maps⟩
          · refine wp_mono (toInsn_wait henv hcb p H n _ _ _ ⟨hso, hw, h5.event, h5.maps⟩) (fun b s3 hs => ?_) fun er s3 he hb => ?_
            · exact ⟨hs.1.trans hq, hs.2⟩
            · exact ⟨(he hb).1.trans hq, (he hb).2⟩
        · obtain ⟨rfl, he⟩ := he
          exact ⟨hq, is, f, j, h5, he hb⟩

/-- `pt_blk_proceed_to_ip` -/
theorem toIp_wait (henv : c.env.Ok) (hcb : CbNoBq c) (x : Nat)
    (H : ∀ (g : Flow) (i : Insn), g.ip ≠ x → i.ip = g.ip → ¬ g.IsAt e ∧ ¬ IsOn c e i ∧ ∀ t, nearer g.ip t e = e) :
    ∀ (n : Nat) (is : List Insn) (s : Bdec) (f : Flow), Wait c f0 e0 n0 is s f e →
    wp (toIpLoop c x n) (fun b s' => s'.quiet = s.quiet ∧ ∃ is' f', Wait c f0 e0 n0 is' s' f' e ∧ (b = true → s'.ip = x))
      (Stops c f0 e0 e n0 s.quiet) s
  | 0, is, s, f, h => trivial
  | n + 1, is, s, f, h => by
    unfold toIpLoop
    rw [wp_bind, wp_get, wp_ite]
    refine ⟨fun hx => ⟨rfl, is, f, h, fun _ => hx⟩, fun hx => ?_⟩
    rw [wp_bind]
    refine wp_mono (one_wait henv hcb h) (fun b s1 hb => ?_) fun er s1 he hq => absurd hq he
    obtain ⟨h1, h4⟩ := hb
    have hq := quiet_of_still h1
    rcases b with _ | _
    · rw [if_neg (by decide), wp_pure]
      rw [if_neg (by decide)] at h4
      exact ⟨hq, is, f, h4.1, by simp⟩
    · rw [if_pos rfl] at h4
      obtain ⟨i, h5⟩ := h4
      rw [if_pos rfl, wp_bind]
      refine wp_insn fun j hj => ?_
      have : j = i := by rw [h5.out] at hj; cases hj; rfl
      subst this
      obtain ⟨hat, hon, hne⟩ := H f j (by rw [h.so.stands.ip]; exact hx) (Spec.Flow.Known.ip h5.mid.known)
      rw [wp_bind]
      refine wp_mono (next_wait h5 hat hon) (fun _ s2 hs => ?_) fun er s2 he hb => ?_
      · obtain ⟨t, calls, rfl, -, hso, hw⟩ := hs
        rw [hne] at hw
        rw [wp_ite]
        refine ⟨fun hc => ?_, fun hc => ?_⟩
        · rw [wp_bind, wp_get, wp_pure]
          exact ⟨hq, is ++ [j], _, ⟨hso, hw, h5.event, h5.maps⟩, fun h => by simpa using h⟩
        · refine wp_mono (toIp_wait henv hcb x H n _ _ _ ⟨hso, hw, h5.event, h5.maps⟩) (fun b s3 hs => ?_) fun er s3 he hb => ?_
          · exact ⟨hs.1.trans hq, hs.2⟩
          · exact ⟨(he hb).1.trans hq, (he hb).2⟩
      · obtain ⟨rfl, he⟩ := he
        exact ⟨hq, is, f, j, h5, he hb⟩

end Ipt
