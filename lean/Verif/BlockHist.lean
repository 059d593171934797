import Verif.BlockCached

/-!
# Helper lemmas: what the block decoder does to block caches
-/

set_option linter.unusedSimpArgs false
set_option linter.unusedVariables false

namespace Ipt

open Ild Spec Props BM

/-- Any execution mode. -/
def anyMode : Nat → Mode → Prop := fun _ _ => True

/-- The sections in the image do not change, and block cache entries are correct. -/
structure Hist (c : BlkCfg) (secs : Msec → Prop) (s : Bdec) : Prop where
  sections : ∀ m, m ∈ s.sc.img.secs ↔ secs m
  wf : ∀ m, secs m → m.WF c.env
  inv : ScInv s.sc
  good : Good c.env anyMode s
  ok : c.env.Ok

/-- A function keeps block cache entries correct. -/
def Keeps {α : Type} (c : BlkCfg) (secs : Msec → Prop) (p : BM α) : Prop :=
  ∀ s, Hist c secs s → wp p (fun _ s' => Hist c secs s') (fun _ s' => Hist c secs s') s

variable {c : BlkCfg} {secs : Msec → Prop} {s : Bdec} {m : Msec} {α β : Type}

theorem Hist.of {s' : Bdec} (h : Hist c secs s) (h1 : s'.sc = s.sc) (h2 : s'.bc = s.bc) (h3 : s'.others = s.others) :
    Hist c secs s' :=
  ⟨by rw [h1]; exact h.sections, h.wf, by rw [h1]; exact h.inv, by unfold Good; rw [h2, h3]; exact h.good, h.ok⟩

theorem Hist.img {s' : Bdec} (h : Hist c secs s) {img : Img} (hi : ∀ m, m ∈ img.secs ↔ secs m)
    (h1 : s'.sc = { s.sc with img := img }) (h2 : s'.bc = s.bc) (h3 : s'.others = s.others) : Hist c secs s' :=
  ⟨by rw [h1]; exact hi, h.wf, by rw [h1]; exact h.inv, by unfold Good; rw [h2, h3]; exact h.good, h.ok⟩

/-! ### Composition -/

theorem keeps_pure {a : α} : Keeps c secs (pure a) := fun _ h => h
theorem keeps_fail {e : Err} : Keeps c secs (BM.fail (α := α) e) := fun _ h => h
theorem keeps_undef : Keeps c secs (BM.undef (α := α)) := fun _ _ => trivial
theorem keeps_get : Keeps c secs BM.get := fun _ h => h
theorem keeps_lift {r : Res α} : Keeps c secs (BM.lift r) := by
  intro s h
  rw [wp_lift]
  rcases r with _ | _ | _
  · exact h
  · exact h
  · trivial
theorem keeps_modify {f : Bdec → Bdec} (h : ∀ s, (f s).sc = s.sc ∧ (f s).bc = s.bc ∧ (f s).others = s.others) :
    Keeps c secs (BM.modify f) := fun s hs => hs.of (h s).1 (h s).2.1 (h s).2.2
theorem keeps_block {f : Block → Block} : Keeps c secs (BM.block f) := fun s hs => hs.of rfl rfl rfl
theorem keeps_evt {f : EM α} : Keeps c secs (BM.evt f) := by
  intro s h
  unfold wp BM.evt
  rcases (f s.ev) with ⟨d, _ | _ | _⟩
  · exact h.of rfl rfl rfl
  · exact h.of rfl rfl rfl
  · trivial
theorem keeps_mapped : Keeps c secs BM.mapped := fun _ h => h.of rfl rfl rfl
theorem keeps_available : Keeps c secs BM.available := fun _ h => h.of rfl rfl rfl
theorem keeps_request : Keeps c secs BM.request := by
  intro s h
  unfold wp BM.request
  rcases s.reqs.headD (.ok ()) with _ | _ | _
  · exact h.of rfl rfl rfl
  · exact h.of rfl rfl rfl
  · trivial
theorem keeps_bind {p : BM α} {q : α → BM β} (h1 : Keeps c secs p) (h2 : ∀ a, Keeps c secs (q a)) :
    Keeps c secs (p >>= q) := by
  intro s h
  rw [wp_bind]
  exact wp_mono (h1 s h) (fun a s1 hs1 => h2 a s1 hs1) fun _ _ h => h
theorem keeps_try {p : BM α} (h1 : Keeps c secs p) : Keeps c secs (BM.try_ p) := by
  intro s h
  rw [wp_try]
  exact h1 s h
theorem keeps_orQuery {p q : BM α} (h1 : Keeps c secs p) (h2 : Keeps c secs q) : Keeps c secs (BM.orQuery p q) := by
  intro s h
  rw [wp_orQuery]
  exact wp_mono (h1 s h) (fun _ _ h => h) fun e s1 hs1 => ⟨fun _ => h2 s1 hs1, fun _ => hs1⟩
theorem keeps_when {b : Bool} {p : BM Unit} (h1 : Keeps c secs p) : Keeps c secs (BM.when b p) := by
  intro s h
  rw [wp_when]
  exact ⟨fun _ => h1 s h, fun _ => h⟩
theorem keeps_push {ip : Nat} : Keeps c secs (blkPush ip) := by
  intro s h
  unfold wp blkPush
  rcases (s.retstack.push ip) with ⟨d, _ | _ | _⟩
  · exact h.of rfl rfl rfl
  · exact h.of rfl rfl rfl
  · trivial

theorem keeps_fun {p : BM α} (hp : ∀ s, (p s).1.sc = s.sc ∧ (p s).1.bc = s.bc ∧ (p s).1.others = s.others) :
    Keeps c secs p := by
  intro s h
  have := hp s
  unfold wp
  rcases hs : p s with ⟨d, _ | _ | _⟩ <;> rw [hs] at this
  · exact h.of this.1 this.2.1 this.2.2
  · exact h.of this.1 this.2.1 this.2.2
  · trivial

/-- One step of `keep`. -/
syntax "keep1" : tactic
macro_rules | `(tactic| keep1) => `(tactic| split)
macro_rules | `(tactic| keep1) => `(tactic| dsimp only)
macro_rules | `(tactic| keep1) => `(tactic| with_reducible refine keeps_bind ?_ fun _ => ?_)
macro_rules | `(tactic| keep1) => `(tactic| with_reducible refine keeps_try ?_)
macro_rules | `(tactic| keep1) => `(tactic| with_reducible refine keeps_orQuery ?_ ?_)
macro_rules | `(tactic| keep1) => `(tactic| with_reducible refine keeps_when ?_)
macro_rules | `(tactic| keep1) => `(tactic| with_reducible exact keeps_pure)
macro_rules | `(tactic| keep1) => `(tactic| with_reducible exact keeps_fail)
macro_rules | `(tactic| keep1) => `(tactic| with_reducible exact keeps_undef)
macro_rules | `(tactic| keep1) => `(tactic| with_reducible exact keeps_get)
macro_rules | `(tactic| keep1) => `(tactic| with_reducible exact keeps_lift)
macro_rules | `(tactic| keep1) => `(tactic| (with_reducible refine keeps_modify fun _ => ?_); exact ⟨rfl, rfl, rfl⟩)
macro_rules | `(tactic| keep1) => `(tactic| with_reducible exact keeps_block)
macro_rules | `(tactic| keep1) => `(tactic| with_reducible exact keeps_evt)
macro_rules | `(tactic| keep1) => `(tactic| with_reducible exact keeps_mapped)
macro_rules | `(tactic| keep1) => `(tactic| with_reducible exact keeps_available)
macro_rules | `(tactic| keep1) => `(tactic| with_reducible exact keeps_request)
macro_rules | `(tactic| keep1) => `(tactic| with_reducible exact keeps_push)
macro_rules | `(tactic| keep1) => `(tactic| exact keeps_fun fun _ => ⟨rfl, rfl, rfl⟩)
macro_rules | `(tactic| keep1) => `(tactic| assumption)

/-- Prove that a function keeps block cache entries correct, from what the functions it calls do. -/
macro "keep" : tactic => `(tactic| repeat' keep1)

theorem keeps_findTrigAnchor {ev : Event} : Keeps c secs (findTrigAnchor ev) := by unfold findTrigAnchor; keep
macro_rules | `(tactic| keep1) => `(tactic| with_reducible exact keeps_findTrigAnchor)
theorem keeps_fetchEvent : Keeps c secs (fetchEvent c) := by unfold fetchEvent; keep
macro_rules | `(tactic| keep1) => `(tactic| with_reducible exact keeps_fetchEvent)
theorem keeps_blkStatus {b : Bool} : Keeps c secs (blkStatus b) := by unfold blkStatus; keep
macro_rules | `(tactic| keep1) => `(tactic| with_reducible exact keeps_blkStatus)
theorem keeps_blkTick {ip : Nat} : Keeps c secs (blkTick c ip) := by unfold blkTick; keep
macro_rules | `(tactic| keep1) => `(tactic| with_reducible exact keeps_blkTick)
theorem keeps_proceedIndirect : Keeps c secs (proceedIndirect c) := by unfold proceedIndirect; keep
macro_rules | `(tactic| keep1) => `(tactic| with_reducible exact keeps_proceedIndirect)
theorem keeps_blkCond : Keeps c secs blkCond := by unfold blkCond; keep
macro_rules | `(tactic| keep1) => `(tactic| with_reducible exact keeps_blkCond)
theorem keeps_blkPop : Keeps c secs blkPop := by
  unfold blkPop
  exact keeps_bind (keeps_fun fun _ => ⟨rfl, rfl, rfl⟩) fun _ => keeps_modify fun _ => ⟨rfl, rfl, rfl⟩
macro_rules | `(tactic| keep1) => `(tactic| with_reducible exact keeps_blkPop)
theorem keeps_compressedReturn : Keeps c secs (compressedReturn (proceedIndirect c)) := by unfold compressedReturn; keep
macro_rules | `(tactic| keep1) => `(tactic| with_reducible exact keeps_compressedReturn)
theorem keeps_proceedWithTrace {i : Insn} : Keeps c secs (proceedWithTrace c i) := by unfold proceedWithTrace; keep
macro_rules | `(tactic| keep1) => `(tactic| with_reducible exact keeps_proceedWithTrace)
theorem keeps_proceedOut : Keeps c secs (proceedOut c) := by unfold proceedOut; keep
macro_rules | `(tactic| keep1) => `(tactic| with_reducible exact keeps_proceedOut)
theorem keeps_logCall {i : Insn} : Keeps c secs (logCall i) := by unfold logCall; keep
macro_rules | `(tactic| keep1) => `(tactic| with_reducible exact keeps_logCall)
theorem keeps_countInsn {n : Nat} : Keeps c secs (countInsn n) := by unfold countInsn; keep
macro_rules | `(tactic| keep1) => `(tactic| with_reducible exact keeps_countInsn)
theorem keeps_addInsn {i : Insn} : Keeps c secs (addInsn i) := by unfold addInsn; keep
macro_rules | `(tactic| keep1) => `(tactic| with_reducible exact keeps_addInsn)

/-! ### Reading the image -/

/-- The sections in the image. -/
def Bdec.flow (s : Bdec) (secs : Msec → Prop) : Flow :=
  { enabled := false, ip := s.ip, mode := s.mode, speculative := false, asid := s.sc.asid, sections := secs, calls := []
    cur := none, bound := [], pend := none, count := none }

theorem decodeAt_hist {ip : Nat} {mode : Mode} (h : Hist c secs s) :
    wp (decodeAt c ip mode)
      (fun i s' => Hist c secs s' ∧ s' = { s with sc := { s.sc with img := s'.sc.img }, maps := s'.maps } ∧
        i.ip = ip ∧ i.mode = mode)
      (fun _ s' => Hist c secs s' ∧ s' = { s with sc := { s.sc with img := s'.sc.img }, maps := s'.maps }) s := by
  refine wp_mono (decodeAt_flow (f := s.flow secs) h.ok rfl h.sections h.wf) (fun i s1 hi => ?_) fun e s1 hl => ?_
  · obtain ⟨hl, hd, -⟩ := hi
    exact ⟨h.img hl.sections (by rw [hl.state]) (by rw [hl.state]) (by rw [hl.state]), hl.state, hd.ip, hd.mode⟩
  · exact ⟨h.img hl.sections (by rw [hl.state]) (by rw [hl.state]) (by rw [hl.state]), hl.state⟩

theorem keeps_decodeAt {ip : Nat} {mode : Mode} : Keeps c secs (decodeAt c ip mode) := fun s h =>
  wp_mono (decodeAt_hist h) (fun _ _ h => h.1) fun _ _ h => h.1
macro_rules | `(tactic| keep1) => `(tactic| with_reducible exact keeps_decodeAt)

theorem oneInsn_hist (h : Hist c secs s) :
    wp (oneInsn c)
      (fun b s' => Hist c secs s' ∧ s'.sc.asid = s.sc.asid ∧ s'.mode = s.mode ∧ s'.ip = s.ip ∧
        (b = true → ∃ i, s'.out = some i ∧ i.ip = s.ip ∧ i.mode = s.mode))
      (fun _ s' => Hist c secs s') s := by
  unfold oneInsn
  rw [wp_bind, wp_get, wp_ite]
  refine ⟨fun h1 => ⟨h, rfl, rfl, rfl, fun hb => (by cases hb)⟩, fun h1 => ?_⟩
  rw [wp_ite]
  refine ⟨fun h1 => ⟨h, rfl, rfl, rfl, fun hb => (by cases hb)⟩, fun h2 => ?_⟩
  rw [wp_bind]
  refine wp_mono (decodeAt_hist h) (fun i s1 hi => ?_) fun _ _ h => h.1
  obtain ⟨h3, h4, h5, h6⟩ := hi
  rw [wp_ite]
  refine ⟨fun _ => ⟨h3, by rw [h4], by rw [h4], by rw [h4], fun hb => (by cases hb)⟩, fun _ => ?_⟩
  rw [wp_bind, wp_block, wp_bind]
  refine wp_mono (wp_and (keeps_addInsn (i := i) _ (h3.of (s' := { s1 with blk := { s1.blk with isid := i.isid } }) rfl rfl rfl))
    (Q' := fun _ s2 => s2.sc = s1.sc ∧ s2.mode = s1.mode ∧ s2.ip = s1.ip ∧ s2.out = some i) (E' := fun _ _ => True) ?_)
    (fun _ s2 hs2 => ?_) fun _ _ h => h.1
  · unfold addInsn
    have rest : ∀ s2 : Bdec, s2.sc = s1.sc ∧ s2.mode = s1.mode ∧ s2.ip = s1.ip →
        wp (do logCall i
               BM.block fun b => { b with iclass := i.ext.cls, endIp := i.ip, ninsn := b.ninsn + 1 }
               countInsn 1
               BM.modify fun s => { s with out := some i })
          (fun _ s2 => s2.sc = s1.sc ∧ s2.mode = s1.mode ∧ s2.ip = s1.ip ∧ s2.out = some i) (fun _ _ => True) s2 := by
      intro s2 hs2
      rw [wp_bind]
      refine wp_mono (logCall_state (i := i)) (fun _ s3 hs3 => ?_) fun _ _ _ => trivial
      obtain ⟨r, rfl⟩ := hs3
      rw [wp_bind, wp_block, wp_bind]
      refine wp_count trivial fun k hk => ?_
      exact ⟨hs2.1, hs2.2.1, hs2.2.2, rfl⟩
    rw [wp_bind, wp_when]
    exact ⟨fun _ => rest _ ⟨rfl, rfl, rfl⟩, fun _ => rest _ ⟨rfl, rfl, rfl⟩⟩
  · obtain ⟨a1, a2, a3, a4, a5⟩ := hs2
    rw [wp_pure]
    exact ⟨a1, by rw [a2, h4], by rw [a3, h4], by rw [a4, h4], fun _ => ⟨i, a5, h5, h6⟩⟩

theorem keeps_oneInsn : Keeps c secs (oneInsn c) := fun s h => wp_mono (oneInsn_hist h) (fun _ _ h => h.1) fun _ _ h => h
macro_rules | `(tactic| keep1) => `(tactic| with_reducible exact keeps_oneInsn)

theorem keeps_insn : Keeps c secs BM.insn := by unfold BM.insn; keep
macro_rules | `(tactic| keep1) => `(tactic| with_reducible exact keeps_insn)
theorem keeps_nextInsn {i : Insn} : Keeps c secs (nextInsn i) := by unfold nextInsn; keep
macro_rules | `(tactic| keep1) => `(tactic| with_reducible exact keeps_nextInsn)

theorem nextInsn_state {i : Insn} : wp (nextInsn i) (fun _ s' => ∃ t, s' = { s with ip := t } ∧ nextIp i = .ok t)
    (fun _ s' => s' = s) s := by
  unfold nextInsn
  rw [wp_bind, wp_lift]
  rcases nextIp i with t | e | _
  · exact ⟨t, rfl, rfl⟩
  · rfl
  · trivial

/-! ### Using and filling the block cache -/

theorem Headed.wf (hh : Headed m s) (h : Hist c secs s) : m.WF c.env := by
  obtain ⟨⟨l, hl⟩, -⟩ := hh
  exact h.wf m ((h.sections m).1 (by rw [hl]; simp))

theorem wp_bcLookup_hist {idx : Nat} (h : Hist c secs s) {Q : Bce → Bdec → Prop} {E : Err → Bdec → Prop}
    (he : ∀ b l, Hist c secs { s with bc := b, others := l } → E .internal { s with bc := b, others := l })
    (hq : ∀ e b l, EntryFor c.env anyMode m.sec idx e → Hist c secs { s with bc := b, others := l } →
      Q e { s with bc := b, others := l }) : wp (bcLookup c m idx) Q E s :=
  wp_bcLookup h.good (fun b l hb hl => he b l ⟨h.sections, h.wf, h.inv, ⟨hb, hl⟩, h.ok⟩)
    fun e b l he hb hl => hq e b l he ⟨h.sections, h.wf, h.inv, ⟨hb, hl⟩, h.ok⟩

theorem wp_bcAdd_hist {idx : Nat} {e : Bce} (h : Hist c secs s) (he : EntryFor c.env anyMode m.sec idx e)
    {Q : Unit → Bdec → Prop} {E : Err → Bdec → Prop} (h1 : E .internal s)
    (h2 : ∀ b, Hist c secs { s with bc := b } → Q () { s with bc := b }) : wp (bcAdd c m idx e) Q E s :=
  wp_bcAdd h.good.1 he h1 fun b hb => h2 b ⟨h.sections, h.wf, h.inv, ⟨hb, h.good.2⟩, h.ok⟩

theorem fill_hist : ∀ (steps : Nat) (s : Bdec), Hist c secs s → Headed m s →
    wp (fillCache c m steps) (fun _ s' => Hist c secs s') (fun _ s' => Hist c secs s') s
  | 0, s, h, hh => h
  | steps + 1, s, h, hh => by
    have henv := h.ok
    have hwf := hh.wf h
    unfold fillCache
    rw [wp_bind]
    refine wp_mono (wp_and (oneInsn_hist h) (oneInsn_head henv hwf hh)) (fun b s1 hb => ?_) fun e s1 he => he.1
    obtain ⟨⟨h1, h2, h3, h3', h4⟩, h5⟩ := hb
    rcases b with _ | _
    · rw [if_neg (by decide), wp_pure]
      exact h1
    obtain ⟨i, hi, hip, him⟩ := h4 rfl
    rw [if_pos rfl, wp_bind]
    refine wp_insn fun j hj => ?_
    have : j = i := by rw [hi] at hj; cases hj; rfl
    subst this
    have h5 := h5 rfl j hi
    have hck := (check_iff _ _ _).1 hh.2
    have hc : m.Covers j.ip := by rw [hip]; exact hck.1
    rw [← him, ← hip] at h5
    have hu := unmap_eq henv hwf hc
    have hm : anyMode m.sec j.mode := trivial
    rw [wp_bind, wp_try]
    refine wp_mono nextInsn_state (fun _ s2 hs2 => ?_) fun e s2 hs2 => ?_
    · obtain ⟨t, rfl, hn⟩ := hs2
      dsimp only
      have h1t : Hist c secs { s1 with ip := t } := h1.of rfl rfl rfl
      rw [wp_bind, wp_get, wp_bind, wp_lift]
      rcases hst : stopsAt c m s1.blk j t with b | e | _ <;> dsimp only
      · rcases b with _ | _
        · rw [if_neg (by decide)]
          have htr : s1.blk.truncated = false := by
            unfold stopsAt at hst
            have both : ∀ b, (!m.isIn t || b) = false → b = false := by
              intro b h
              cases b <;> simp at h ⊢
            split at hst
            · cases hst
            · split at hst
              · cases hst
              · split at hst
                · cases hst
                · exact both _ (by injection hst)
            · exact both _ (by injection hst)
          have h5 := h5.resolve_left (by simp [htr])
          have hsec := h5.2.1
          have hfit := h5.2.2
          obtain ⟨l1, l2, l3, l4⟩ := link henv hwf hc hfit hn hst
          have hut := unmap_eq henv hwf l1
          obtain ⟨e1, e2, e3, e4⟩ := wf_end henv hwf hc
          have hc1 := hc.1
          have ht1 := l1.1
          have ht2 := l1.2
          have ext : ∀ (s2 : Bdec) e, Hist c secs s2 → EntryFor c.env anyMode m.sec (m.unmap t) e → e.isValid = true →
              wp (extendEntry c m j t e) (fun _ s' => Hist c secs s') (fun _ s' => Hist c secs s') s2 := by
            intro s2 e hs2 he hv
            refine wp_mono (extend_flow (b := s1.blk) henv hwf hc hfit hn hst hm he hv hs2.good) (fun _ s3 h3 => ?_)
              fun _ s3 h3 => ?_
            · obtain ⟨b', hb', rfl⟩ := h3
              exact ⟨hs2.sections, hs2.wf, hs2.inv, ⟨hb', hs2.good.2⟩, hs2.ok⟩
            · rw [h3]; exact hs2
          rw [wp_bind]
          refine wp_bcLookup_hist h1t (fun b l h => h) fun e b l he hb => ?_
          rw [wp_ite, wp_ite]
          refine ⟨fun hv => ext _ _ hb he hv, fun _ => ⟨fun _ => ?_, fun _ => ?_⟩⟩
          · exact wp_bcAdd_hist hb (fine_trampoline hm l2 (by omega) (l4 0 _ (.nil _))) hb fun b h => h
          · rw [wp_bind]
            refine wp_mono (fill_hist steps _ hb ?_) (fun _ s3 h3 => ?_) fun _ s3 h3 => h3
            · obtain ⟨⟨l', hl'⟩, h8⟩ := hh
              refine ⟨⟨l', hsec.trans hl'⟩, (check_iff _ _ _).2 ⟨l1, ?_⟩⟩
              show SameSpace m.asid s1.sc.asid
              rw [h2]
              exact hck.2
            · rw [wp_bind]
              refine wp_bcLookup_hist h3 (fun b l h => h) fun e b l he hb => ?_
              rw [wp_ite]
              exact ⟨fun hv => ext _ _ hb he hv, fun _ => hb⟩
        · rw [if_pos rfl]
          exact wp_bcAdd_hist h1t (fine_decode hm) h1t fun b h => h
      · exact h1t
    · cases hs2
      cases e <;> dsimp only <;> (try exact h1)
      rw [wp_bind, wp_get, wp_bind, wp_lift]
      rcases htb : traceBce s1.blk j with e | e | _ <;> dsimp only
      · rw [wp_bind]
        refine wp_bcAdd_hist h1 (fine_trace (env := c.env) hm ?_ htb) h1 fun b hb => ?_
        · rcases h5 with h5 | h5
          · exact .inl h5
          · refine .inr ?_
            rw [hu]
            exact h5.2.2.1
        · exact keeps_proceedWithTrace _ hb
      · exact h1

theorem keeps_proceedTruncated : Keeps c secs (proceedTruncated c) := by unfold proceedTruncated; keep
macro_rules | `(tactic| keep1) => `(tactic| with_reducible exact keeps_proceedTruncated)
theorem keeps_condCached {e : Bce} : Keeps c secs (condCached c m e) := by unfold condCached; keep
macro_rules | `(tactic| keep1) => `(tactic| with_reducible exact keeps_condCached)
theorem keeps_indCallCached {e : Bce} : Keeps c secs (indCallCached c m e) := by unfold indCallCached; keep
macro_rules | `(tactic| keep1) => `(tactic| with_reducible exact keeps_indCallCached)
theorem keeps_toInsnLoop {p : Iext → Bool} : ∀ n, Keeps c secs (toInsnLoop c p n)
  | 0 => by unfold toInsnLoop; keep
  | n + 1 => by
    have ih := keeps_toInsnLoop (p := p) n
    unfold toInsnLoop; keep
macro_rules | `(tactic| keep1) => `(tactic| with_reducible exact keeps_toInsnLoop _)
theorem keeps_toInsn {p : Iext → Bool} : Keeps c secs (toInsn c p) := by unfold toInsn; keep
macro_rules | `(tactic| keep1) => `(tactic| with_reducible exact keeps_toInsn)
theorem keeps_noEventUncached : Keeps c secs (noEventUncached c) := by unfold noEventUncached; keep
macro_rules | `(tactic| keep1) => `(tactic| with_reducible exact keeps_noEventUncached)

theorem cached_hist : ∀ (n : Nat) (s : Bdec), Hist c secs s → Headed m s →
    wp (noEventCached c m n) (fun _ s' => Hist c secs s') (fun _ s' => Hist c secs s') s
  | 0, s, h, hh => trivial
  | n + 1, s, h, hh => by
    have hck := (check_iff _ _ _).1 hh.2
    have hin : ∀ s' : Bdec, s'.sc = s.sc → m.isIn s'.ip = true → Headed m s' := by
      intro s' h1 h2
      have h2 : m.vaddr ≤ s'.ip ∧ s'.ip < m.end_ := of_decide_eq_true h2
      exact ⟨by rw [h1]; exact hh.1, (check_iff _ _ _).2 ⟨h2, by rw [h1]; exact hck.2⟩⟩
    have dec : ∀ mode (s' : Bdec), s'.sc = s.sc → Hist c secs s' →
        wp (decodeCached c m mode (noEventCached c m n)) (fun _ s' => Hist c secs s') (fun _ s' => Hist c secs s') s' := by
      intro mode s' h1 h2
      unfold decodeCached
      rw [wp_bind, wp_get]
      rcases decodeInSection c.env m s'.ip mode with i | e | _
      · rw [wp_bind, wp_block, wp_bind]
        refine wp_mono (wp_and (keeps_logCall (i := i) _ (h2.of rfl rfl rfl)) logCall_state) (fun _ s2 h3 => ?_)
          fun _ _ h => h.1
        obtain ⟨h3, r, rfl⟩ := h3
        rw [wp_bind, wp_try]
        refine wp_mono nextInsn_state (fun _ s2 hs2 => ?_) fun e s2 hs2 => ?_
        · obtain ⟨t, rfl, hn⟩ := hs2
          have h4 := h3.of (s' := { s' with blk := { s'.blk with iclass := i.ext.cls }, retstack := r, ip := t }) rfl rfl rfl
          dsimp only
          rw [wp_bind, wp_get, wp_ite, wp_ite]
          exact ⟨fun _ => h4, fun _ => ⟨fun _ => h4, fun hi => cached_hist n _ h4 (hin _ h1 (by simpa using hi))⟩⟩
        · cases hs2
          cases e <;> dsimp only <;> (try exact h3)
          exact keeps_proceedWithTrace _ h3
      · cases e <;> (try exact h2)
        exact keeps_proceedTruncated _ h2
      · trivial
    unfold noEventCached
    rw [wp_bind, wp_get, wp_bind]
    refine wp_bcLookup_hist h (fun b l h => h) fun e b l he hb => ?_
    rw [wp_ite]
    refine ⟨fun _ => fill_hist _ _ hb hh, fun _ => ?_⟩
    dsimp only
    rw [wp_ite, wp_ite]
    refine ⟨fun _ => keeps_noEventUncached _ hb, fun hi => ⟨fun _ => hb, fun _ => ?_⟩⟩
    rw [wp_bind]
    refine wp_count hb fun k _ => ?_
    rw [wp_bind, wp_modify, wp_bind, wp_block]
    have hi : m.isIn (addDisp s.ip e.displacement) = true := by simpa using hi
    rcases e.qualifier <;> dsimp only
    · rw [wp_bind, wp_block]
      exact cached_hist n _ (hb.of rfl rfl rfl) (hin _ rfl hi)
    · rw [wp_bind, wp_block, wp_ite]
      exact ⟨fun _ => keeps_condCached _ (hb.of rfl rfl rfl), fun _ => dec _ _ rfl (hb.of rfl rfl rfl)⟩
    · rw [wp_bind, wp_block]
      exact keeps_indCallCached _ (hb.of rfl rfl rfl)
    · rw [wp_bind, wp_block]
      exact keeps_compressedReturn _ (hb.of rfl rfl rfl)
    · rw [wp_bind, wp_block]
      exact keeps_proceedIndirect _ (hb.of rfl rfl rfl)
    · exact dec _ _ rfl (hb.of rfl rfl rfl)

theorem lookup_hist (h : Hist c secs s) :
    wp blkLookup (fun m s' => Hist c secs s' ∧ s'.ip = s.ip ∧ Headed m s') (fun _ s' => Hist c secs s') s := by
  unfold blkLookup
  have hl := fun u p => msecLookup_rel s.sc u p s.ip h.inv
  have hso : ∀ (u p : Res Unit) mp rq, Hist c secs
      { s with sc := (msecLookup s.sc u p s.ip).1, maps := mp, reqs := rq } := fun u p mp rq =>
    ⟨fun m => ((hl u p).2.2.1 m).trans (h.sections m), h.wf, (hl u p).1, h.good, h.ok⟩
  rw [wp_bind]
  show wp _ _ _ { s with maps := s.maps.tail }
  rw [wp_bind]
  show wp _ _ _ { s with maps := s.maps.tail.tail }
  rw [wp_bind, wp_get, wp_bind]
  dsimp only
  generalize s.maps.headD (.ok ()) = u
  generalize ({ s with maps := s.maps.tail } : Bdec).maps.headD (.ok ()) = p
  unfold wp BM.cache
  dsimp only
  rcases hm : msecLookup s.sc u p s.ip with ⟨sc, m | e | _⟩
  · dsimp only
    have h1 := hl u p
    have h2 := lookup_first (sc := s.sc) (u := u) (p := p) (x := s.ip) (m := m) (by rw [hm])
    have h3 := hso u p s.maps.tail.tail
    have h4 := (lookup_spec s.sc u p s.ip h.inv).2 m (by rw [hm])
    rw [hm] at h1 h2 h3
    have hck : m.check sc.asid s.ip = true := (check_iff _ _ _).2 ⟨(fetch_ok_space h4).1, by
      rw [show sc.asid = _ from h1.2.1]; exact (h1.2.2.2 m rfl).2⟩
    show wp _ _ _ _
    rw [wp_bind, wp_when]
    refine ⟨fun _ => ?_, fun _ => ?_⟩
    · unfold wp BM.request
      dsimp only
      rcases s.reqs.headD (.ok ()) with _ | e | _
      · exact ⟨h3 _, rfl, h2, hck⟩
      · exact h3 _
      · trivial
    · exact ⟨h3 _, rfl, h2, hck⟩
  · have h3 := hso u p s.maps.tail.tail s.reqs
    rw [hm] at h3
    exact h3
  · trivial

theorem keeps_noEvent : Keeps c secs (noEvent c) := by
  intro s h
  unfold noEvent
  rw [wp_bind, wp_try]
  refine wp_mono (lookup_hist h) (fun m s1 h1 => ?_) fun e s1 h1 => ?_
  · obtain ⟨h1, h2, h3⟩ := h1
    dsimp only
    rw [wp_bind, wp_get, wp_ite]
    refine ⟨fun _ => h1, fun _ => ?_⟩
    rw [wp_bind, wp_block, wp_bind, wp_available, wp_ite]
    exact ⟨fun _ => cached_hist _ _ (h1.of rfl rfl rfl) h3, fun _ => keeps_noEventUncached _ (h1.of rfl rfl rfl)⟩
  · cases e <;> dsimp only <;> (try exact h1)
    exact keeps_noEventUncached _ h1
macro_rules | `(tactic| keep1) => `(tactic| with_reducible exact keeps_noEvent)

/-! ### Events -/

theorem keeps_toIpLoop {ip : Nat} : ∀ n, Keeps c secs (toIpLoop c ip n)
  | 0 => by unfold toIpLoop; keep
  | n + 1 => by
    have ih := keeps_toIpLoop (ip := ip) n
    unfold toIpLoop; keep
macro_rules | `(tactic| keep1) => `(tactic| with_reducible exact keeps_toIpLoop _)
theorem keeps_toIp {ip : Nat} : Keeps c secs (toIp c ip) := by unfold toIp; keep
macro_rules | `(tactic| keep1) => `(tactic| with_reducible exact keeps_toIp)
theorem keeps_skl014Loop : ∀ n, Keeps c secs (skl014Loop c n)
  | 0 => by unfold skl014Loop; keep
  | n + 1 => by
    have ih := keeps_skl014Loop n
    unfold skl014Loop; keep
macro_rules | `(tactic| keep1) => `(tactic| with_reducible exact keeps_skl014Loop _)
theorem keeps_toDisabled {ev : Event} {ip : Nat} : Keeps c secs (toDisabled c ev ip) := by unfold toDisabled; keep
macro_rules | `(tactic| keep1) => `(tactic| with_reducible exact keeps_toDisabled)
theorem keeps_toKind {ev : Event} {p : Iext → Bool} {ip : Nat} : Keeps c secs (toKind c ev p ip) := by unfold toKind; keep
macro_rules | `(tactic| keep1) => `(tactic| with_reducible exact keeps_toKind)
theorem keeps_provideTrigAnchor {ev : Event} {trbv n : Nat} {mult : Bool} {ip : Nat} :
    Keeps c secs (provideTrigAnchor ev trbv n mult ip) := by unfold provideTrigAnchor; keep
macro_rules | `(tactic| keep1) => `(tactic| with_reducible exact keeps_provideTrigAnchor)
theorem keeps_trigLoop {ev : Event} {trbv : Nat} {mult : Bool} : ∀ n, Keeps c secs (trigLoop c ev trbv mult n)
  | 0 => by unfold trigLoop; keep
  | n + 1 => by
    have ih := keeps_trigLoop (ev := ev) (trbv := trbv) (mult := mult) n
    unfold trigLoop; keep
macro_rules | `(tactic| keep1) => `(tactic| with_reducible exact keeps_trigLoop _)
theorem keeps_toTrig {ev : Event} {trbv n : Nat} {mult : Bool} {ip : Nat} : Keeps c secs (toTrig c ev trbv n mult ip) := by
  unfold toTrig; keep
macro_rules | `(tactic| keep1) => `(tactic| with_reducible exact keeps_toTrig)
theorem keeps_blkSkd022 {at_ : Nat} : Keeps c secs (blkSkd022 c at_) := by unfold blkSkd022; keep
macro_rules | `(tactic| keep1) => `(tactic| with_reducible exact keeps_blkSkd022)
theorem keeps_postponeInsn : Keeps c secs postponeInsn := by unfold postponeInsn; keep
macro_rules | `(tactic| keep1) => `(tactic| with_reducible exact keeps_postponeInsn)
theorem keeps_proceedPostponedInsn : Keeps c secs (proceedPostponedInsn c) := by unfold proceedPostponedInsn; keep
macro_rules | `(tactic| keep1) => `(tactic| with_reducible exact keeps_proceedPostponedInsn)
theorem keeps_reachIp {ip : Nat} : Keeps c secs (reachIp c ip) := by unfold reachIp; keep
macro_rules | `(tactic| keep1) => `(tactic| with_reducible exact keeps_reachIp)
theorem keeps_reachInsn {p : BM Bool} {mark : Bdec → Bdec} (h : Keeps c secs p)
    (hm : ∀ s, (mark s).sc = s.sc ∧ (mark s).bc = s.bc ∧ (mark s).others = s.others) : Keeps c secs (reachInsn p mark) := by
  have := keeps_modify (c := c) (secs := secs) hm
  unfold reachInsn; keep
macro_rules | `(tactic| keep1) => `(tactic| (with_reducible refine keeps_reachInsn ?_ fun _ => ?_); rotate_left; exact ⟨rfl, rfl, rfl⟩)
theorem keeps_setDisableResumeIp {i : Insn} : Keeps c secs (BM.modify (setDisableResumeIp i)) := by
  refine keeps_modify fun s => ?_
  unfold setDisableResumeIp
  split <;> exact ⟨rfl, rfl, rfl⟩
macro_rules | `(tactic| keep1) => `(tactic| with_reducible exact keeps_setDisableResumeIp)
theorem keeps_reachDisabled {ev : Event} {ip : Nat} : Keeps c secs (reachDisabled c ev ip) := by unfold reachDisabled; keep
macro_rules | `(tactic| keep1) => `(tactic| with_reducible exact keeps_reachDisabled)
theorem keeps_proceedEvent : Keeps c secs (proceedEvent c) := by unfold proceedEvent; keep
macro_rules | `(tactic| keep1) => `(tactic| with_reducible exact keeps_proceedEvent)

theorem keeps_range {evip n : Nat} {k : Option Bool × Option Err → BM Unit} (hk : ∀ r, Keeps c secs (k r)) :
    Keeps c secs (do
      let s ← BM.get
      let r ← BM.try_ (BM.image fun m => rangeContiguous (c.reader s) evip n m { ip := s.ip, mode := s.mode })
      k r) := by
  intro s h
  rw [wp_bind, wp_get, wp_bind, wp_try]
  have hr := image_rel (c := c.toInsnCfg) (f := s.flow secs) h.ok h.wf
  have := range_rel hr evip n (s.sc.img, s.maps) { ip := s.ip, mode := s.mode } h.sections (by simp)
  refine wp_mono (Q := fun _ s' => Hist c secs s') (E := fun _ s' => Hist c secs s') ?_ (fun a s1 h1 => hk _ _ h1)
    fun e s1 h1 => hk _ _ h1
  unfold wp BM.image
  dsimp only
  change ∀ m, m ∈ (rangeContiguous (c.reader s) evip n (s.sc.img, s.maps) { ip := s.ip, mode := s.mode }).1.1.secs ↔ _ at this
  rcases hq : rangeContiguous (c.reader s) evip n (s.sc.img, s.maps) { ip := s.ip, mode := s.mode } with ⟨st, b | e | _⟩ <;>
    rw [hq] at this
  · exact h.img this rfl rfl rfl
  · exact h.img this rfl rfl rfl
  · trivial

theorem keeps_blkBdm64 {aborted : Bool} {evip : Nat} : Keeps c secs (blkBdm64 c aborted evip) := by
  unfold blkBdm64
  refine keeps_bind keeps_get fun s => ?_
  split
  · keep
  · split
    · keep
    · refine keeps_bind (keeps_try keeps_decodeAt) fun r => ?_
      split
      · keep
      · split
        · keep
        · exact keeps_range fun r => by keep
macro_rules | `(tactic| keep1) => `(tactic| with_reducible exact keeps_blkBdm64)
theorem keeps_postponeTrailingTsx {blk : Bool} {ev : Event} {aborted : Bool} {evip : Nat} :
    Keeps c secs (postponeTrailingTsx c blk ev aborted evip) := by unfold postponeTrailingTsx; keep
macro_rules | `(tactic| keep1) => `(tactic| with_reducible exact keeps_postponeTrailingTsx)
theorem keeps_noTrailing : Keeps c secs (noTrailing c) := by unfold noTrailing; keep
macro_rules | `(tactic| keep1) => `(tactic| with_reducible exact keeps_noTrailing)
theorem keeps_trailingAt {p : Bdec → Bool} : Keeps c secs (trailingAt c p) := by unfold trailingAt; keep
macro_rules | `(tactic| keep1) => `(tactic| with_reducible exact keeps_trailingAt)
theorem keeps_trailingBind {bound : Bdec → Bool} {p : Iext → Bool} {mark : Bdec → Bdec}
    (hm : ∀ s, (mark s).sc = s.sc ∧ (mark s).bc = s.bc ∧ (mark s).others = s.others) :
    Keeps c secs (trailingBind c bound p mark) := by
  have := keeps_modify (c := c) (secs := secs) hm
  unfold trailingBind; keep
macro_rules | `(tactic| keep1) => `(tactic| (with_reducible refine keeps_trailingBind fun _ => ?_); exact ⟨rfl, rfl, rfl⟩)
theorem keeps_trailingDisabled {ev : Event} {ip : Nat} : Keeps c secs (trailingDisabled c ev ip) := by
  unfold trailingDisabled; keep
macro_rules | `(tactic| keep1) => `(tactic| with_reducible exact keeps_trailingDisabled)
theorem keeps_trailingAsyncDisabled {ev : Event} {at_ ip : Nat} : Keeps c secs (trailingAsyncDisabled c ev at_ ip) := by
  unfold trailingAsyncDisabled; keep
macro_rules | `(tactic| keep1) => `(tactic| with_reducible exact keeps_trailingAsyncDisabled)
theorem keeps_trailingTrig {ev : Event} {trbv n : Nat} {mult : Bool} {ip : Nat} :
    Keeps c secs (trailingTrig c ev trbv n mult ip) := by unfold trailingTrig; keep
macro_rules | `(tactic| keep1) => `(tactic| with_reducible exact keeps_trailingTrig)
theorem keeps_trailingEvent {blk : Bool} : ∀ n, Keeps c secs (trailingEvent c blk n)
  | 0 => by unfold trailingEvent; keep
  | n + 1 => by
    have ih := keeps_trailingEvent (blk := blk) n
    unfold trailingEvent; keep
macro_rules | `(tactic| keep1) => `(tactic| with_reducible exact keeps_trailingEvent _)
theorem keeps_blkProceed : Keeps c secs (blkProceed c) := by unfold blkProceed; keep
macro_rules | `(tactic| keep1) => `(tactic| with_reducible exact keeps_blkProceed)
theorem keeps_blkNext : Keeps c secs (blkNext c) := by unfold blkNext; keep

theorem keeps_paging {cr3 : Nat} : Keeps c secs (blkProcessPaging cr3) := by
  unfold blkProcessPaging
  refine keeps_bind keeps_mapped fun u => ?_
  intro s h
  have h1 := sc_step h.inv (.cr3 u cr3)
  have h2 : (setCr3 s.sc u cr3).1.img.secs = s.sc.img.secs := by
    have := (invalidate_spec s.sc u).2.2.1
    unfold setCr3
    split
    · split
      · rename_i hq; rw [hq] at this; exact this
      · exact this
    · rfl
  change ScInv (setCr3 s.sc u cr3).1 at h1
  unfold wp BM.cache
  dsimp only
  rcases hq : setCr3 s.sc u cr3 with ⟨sc, _ | e | _⟩ <;> rw [hq] at h1 h2
  · exact ⟨fun m => by show m ∈ sc.img.secs ↔ _; rw [h2]; exact h.sections m, h.wf, h1, h.good, h.ok⟩
  · exact ⟨fun m => by show m ∈ sc.img.secs ↔ _; rw [h2]; exact h.sections m, h.wf, h1, h.good, h.ok⟩
  · trivial
macro_rules | `(tactic| keep1) => `(tactic| with_reducible exact keeps_paging)
theorem keeps_vmcs {base : Nat} : Keeps c secs (blkProcessVmcs base) := by
  unfold blkProcessVmcs
  refine keeps_bind keeps_mapped fun u => ?_
  intro s h
  have h1 := sc_step h.inv (.vmcs u base)
  have h2 : (setVmcs s.sc u base).1.img.secs = s.sc.img.secs := by
    have := (invalidate_spec s.sc u).2.2.1
    unfold setVmcs
    split
    · split
      · rename_i hq; rw [hq] at this; exact this
      · exact this
    · rfl
  change ScInv (setVmcs s.sc u base).1 at h1
  unfold wp BM.cache
  dsimp only
  rcases hq : setVmcs s.sc u base with ⟨sc, _ | e | _⟩ <;> rw [hq] at h1 h2
  · exact ⟨fun m => by show m ∈ sc.img.secs ↔ _; rw [h2]; exact h.sections m, h.wf, h1, h.good, h.ok⟩
  · exact ⟨fun m => by show m ∈ sc.img.secs ↔ _; rw [h2]; exact h.sections m, h.wf, h1, h.good, h.ok⟩
  · trivial
macro_rules | `(tactic| keep1) => `(tactic| with_reducible exact keeps_vmcs)
theorem keeps_enabled {ev : Event} {ip : Nat} : Keeps c secs (blkProcessEnabled ev ip) := by unfold blkProcessEnabled; keep
macro_rules | `(tactic| keep1) => `(tactic| with_reducible exact keeps_enabled)
theorem keeps_disabled {ev : Event} : Keeps c secs (blkProcessDisabled ev) := by unfold blkProcessDisabled; keep
macro_rules | `(tactic| keep1) => `(tactic| with_reducible exact keeps_disabled)
theorem keeps_asyncBranch {ev : Event} {to_ : Nat} : Keeps c secs (blkProcessAsyncBranch ev to_) := by
  unfold blkProcessAsyncBranch; keep
macro_rules | `(tactic| keep1) => `(tactic| with_reducible exact keeps_asyncBranch)
theorem keeps_overflow {ev : Event} {ip : Nat} : Keeps c secs (blkProcessOverflow ev ip) := by
  unfold blkProcessOverflow
  split
  · exact keeps_fail
  · refine keeps_modify fun s => ?_
    split <;> exact ⟨rfl, rfl, rfl⟩
macro_rules | `(tactic| keep1) => `(tactic| with_reducible exact keeps_overflow)
theorem keeps_execMode {ev : Event} {mode : Mode} : Keeps c secs (blkProcessExecMode ev mode) := by
  unfold blkProcessExecMode; keep
macro_rules | `(tactic| keep1) => `(tactic| with_reducible exact keeps_execMode)
theorem keeps_stop {ev : Event} : Keeps c secs (blkProcessStop ev) := by unfold blkProcessStop; keep
macro_rules | `(tactic| keep1) => `(tactic| with_reducible exact keeps_stop)
theorem keeps_unlessAt {b : Bool} {p : BM Unit} (h : Keeps c secs p) : Keeps c secs (unlessAt b p) := by
  unfold unlessAt; keep
macro_rules | `(tactic| keep1) => `(tactic| with_reducible refine keeps_unlessAt ?_)
theorem keeps_processEvent {ev : Event} : Keeps c secs (blkProcessEvent ev) := by unfold blkProcessEvent; keep
macro_rules | `(tactic| keep1) => `(tactic| with_reducible exact keeps_processEvent)
theorem keeps_tickEvent {ev : Event} {size : Nat} : Keeps c secs (blkTickEvent c ev size) := by unfold blkTickEvent; keep
macro_rules | `(tactic| keep1) => `(tactic| with_reducible exact keeps_tickEvent)
theorem keeps_blkEvent : Keeps c secs (blkEvent c) := by unfold blkEvent; keep

/-! ### Synchronization -/

theorem keeps_blkReset : Keeps c secs (BM.modify blkReset) := fun s h =>
  ⟨h.sections, h.wf, fun m _ => sameSpace_unknown _, h.good, h.ok⟩
macro_rules | `(tactic| keep1) => `(tactic| with_reducible exact keeps_blkReset)
theorem keeps_blkStart : Keeps c secs (blkStart c) := by
  unfold blkStart
  refine keeps_bind keeps_get fun s => keeps_bind keeps_lift fun ip => keeps_bind ?_ fun _ => ?_
  · refine keeps_modify fun s => ?_
    split <;> exact ⟨rfl, rfl, rfl⟩
  · keep
macro_rules | `(tactic| keep1) => `(tactic| with_reducible exact keeps_blkStart)
theorem keeps_blkSyncForward : Keeps c secs (blkSyncForward c) := by unfold blkSyncForward; keep
theorem keeps_blkSyncSet {o : Nat} : Keeps c secs (blkSyncSet c o) := by unfold blkSyncSet; keep
theorem keeps_blkSyncBackInner {sync : Nat} : ∀ n, Keeps c secs (blkSyncBackInner c sync n)
  | 0 => by unfold blkSyncBackInner; keep
  | n + 1 => by
    have ih := keeps_blkSyncBackInner (sync := sync) n
    unfold blkSyncBackInner; keep
macro_rules | `(tactic| keep1) => `(tactic| with_reducible exact keeps_blkSyncBackInner _)
theorem keeps_blkSyncBackLoop {start : Nat} : ∀ n sync, Keeps c secs (blkSyncBackLoop c start n sync)
  | 0, sync => by unfold blkSyncBackLoop; keep
  | n + 1, sync => by
    have ih := fun sync => keeps_blkSyncBackLoop (start := start) n sync
    unfold blkSyncBackLoop
    refine keeps_bind keeps_blkReset fun _ => keeps_bind (keeps_blkSyncBackInner _) fun sync' =>
      keeps_bind (keeps_try keeps_blkStart) fun r => ?_
    split
    · exact ih _
    · keep
    · keep
    · refine keeps_bind keeps_get fun s => ?_
      split
      · keep
      · exact ih _
theorem keeps_blkSyncBackward : Keeps c secs (blkSyncBackward c) := by
  unfold blkSyncBackward
  exact keeps_bind keeps_get fun s => keeps_blkSyncBackLoop _ _

end Ipt
