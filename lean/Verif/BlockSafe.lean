import Verif.InsnSafe
import Verif.BlockBase

/-!
# Helper lemmas: the block decoder is defined
-/

set_option linter.unusedSimpArgs false
set_option linter.unusedVariables false

namespace Ipt.Blk

open Ild Spec Props BM

/-! ### Fetching instructions does not fail with -pte_bad_query -/

section
variable {σ : Type} {rdr : MemReader σ} {good : σ → Prop}

theorem retry_query (hg : ∀ s n a, good s → good (rdr s n a).1 ∧ (rdr s n a).2 ≠ .err .badQuery) :
    ∀ (fuel : Nat) (s : σ) (i : Insn), good s → i.raw.length = 15 → (insnRetry rdr fuel s i).2 ≠ .err .badQuery
  | 0, s, i, h, hl => by simp [insnRetry]
  | fuel + 1, s, i, h, hl => by
    unfold insnRetry
    dsimp only
    split
    · simp
    have h1 := hg s (15 - i.size) ((i.ip + i.size) % 2 ^ 64) h
    rcases hq : rdr s (15 - i.size) ((i.ip + i.size) % 2 ^ 64) with ⟨s', ⟨isid, bs⟩ | e | _⟩ <;> rw [hq] at h1
    · dsimp only
      split
      · simp
      by_cases hst : i.size + bs.length ≤ i.raw.length
      · rw [store_ok (by omega)]
        dsimp only
        have hlen := store_length (raw := i.raw) (bs := bs) (pos := i.size) (by omega)
        generalize i.raw.take i.size ++ bs ++ i.raw.drop (i.size + bs.length) = raw' at hlen
        rcases hil : ildDecode raw' (i.size + bs.length) i.mode with ⟨n, x | e | _⟩
        · simp
        · obtain ⟨rfl, rfl⟩ := C39_error _ _ _ _ _ (by omega) hil
          simp only [ne_eq, not_true_eq_false, if_false]
          exact retry_query hg fuel s' { i with raw := raw', size := i.size + bs.length } h1.1 (hlen.trans hl)
        · simp
      · have : store i.raw i.size bs = .ub := by unfold store; rw [if_pos (by omega)]
        rw [this]; simp
    · have := h1.2
      cases e <;> first | (exact absurd rfl this) | simp
    · simp

theorem decode_query (hg : ∀ s n a, good s → good (rdr s n a).1 ∧ (rdr s n a).2 ≠ .err .badQuery) (s : σ) (i : Insn)
    (h : good s) (hl : i.raw.length = 15) : (insnDecode rdr s i).2 ≠ .err .badQuery := by
  unfold insnDecode
  have h1 := hg s 15 i.ip h
  rcases hq : rdr s 15 i.ip with ⟨s', ⟨isid, bs⟩ | e | _⟩ <;> rw [hq] at h1
  · dsimp only
    by_cases hst : bs.length ≤ i.raw.length
    · rw [store_ok (by omega)]
      dsimp only
      have hlen := store_length (raw := i.raw) (bs := bs) (pos := 0) (by omega)
      generalize i.raw.take 0 ++ bs ++ i.raw.drop (0 + bs.length) = raw' at hlen
      rcases hil : ildDecode raw' bs.length i.mode with ⟨n, x | e | _⟩
      · simp
      · obtain ⟨rfl, rfl⟩ := C39_error _ _ _ _ _ (by omega) hil
        simp only [ne_eq, not_true_eq_false, if_false]
        exact retry_query hg 16 s' { i with isid := isid, raw := raw', size := bs.length } h1.1 (hlen.trans hl)
      · simp
    · have : store i.raw 0 bs = .ub := by unfold store; rw [if_pos (by omega)]
      rw [this]; simp
  · exact fun h => h1.2 (by dsimp only at h; cases h; rfl)
  · simp

end

/-- The results of mapping sections. -/
def MapsOk (l : List (Res Unit)) : Prop := ∀ r ∈ l, r ≠ .ub ∧ r ≠ .err .badQuery

theorem MapsOk.safe {l : List (Res Unit)} (h : MapsOk l) : ∀ r ∈ l, r ≠ .ub := fun r hr => (h r hr).1
theorem MapsOk.tail {l : List (Res Unit)} (h : MapsOk l) : MapsOk l.tail := fun r hr => h r (List.mem_of_mem_tail hr)
theorem MapsOk.head {l : List (Res Unit)} (h : MapsOk l) : l.headD (.ok ()) ≠ .ub ∧ l.headD (.ok ()) ≠ .err .badQuery := by
  cases l with
  | nil => simp
  | cons a l => exact h a (by simp)

theorem reader_query {c : InsnCfg} (hcb : ∀ g, c.cb = some g → ∀ n a x, g n a x ≠ .err .badQuery) (asid : Asid)
    (s : Img × List (Res Unit)) (n a : Nat) (h : MapsOk s.2) :
    MapsOk (imgReader c.env c.cb asid s n a).1.2 ∧ (imgReader c.env c.cb asid s n a).2 ≠ .err .badQuery := by
  refine ⟨h.tail, ?_⟩
  show (imageRead c.env c.cb (s.2.headD (.ok ())) s.1 n asid a).2 ≠ _
  have hc : readCallback c.cb n asid a ≠ .err .badQuery := by
    unfold readCallback
    cases hcc : c.cb with
    | none => simp
    | some g =>
      have := hcb g hcc n asid a
      show (Res.bind (g n asid a) _) ≠ _
      rcases hg : g n asid a with b | e | _
      · simp [Res.bind]
      · rw [hg] at this; intro h; apply this; simp only [Res.bind] at h; cases h; rfl
      · simp [Res.bind]
  have hm := h.head.2
  unfold imageRead imageFetch
  rcases takeFirst (fun m => m.check asid a) s.1.secs with _ | ⟨m, l⟩
  · exact hc
  · dsimp only
    rcases hh : s.2.headD (.ok ()) with _ | e | _ <;> rw [hh] at hm
    · dsimp only
      have hr : ∀ e, m.read c.env n a = .err e → e = .nomap := by
        intro e
        unfold Msec.read sectionRead
        dsimp only
        split
        · intro h; cases h; rfl
        · split <;> intro h <;> cases h
          rfl
      rcases hrr : m.read c.env n a with b | e | _
      · simp
      · have := hr e hrr
        subst this
        exact hc
      · simp
    · intro h; apply hm; dsimp only at h; cases h; rfl
    · simp

/-! ### The invariant -/

/-- An event decoder that can go on. -/
def EvOk (c : EvtCfg) (s : Evd) : Prop := ∃ t, Inv c t s ∧ s.event = none

/-- A block cache entry that was written by a decoder, or was not written. -/
def EntryOk (e : Bce) : Prop := e.isValid = true → 1 ≤ e.ninsn ∧ e.ninsn < 2 ^ 8

/-- What holds between the calls.  The current event is the one in `K`, if there is one. -/
structure BSafe (c : BlkCfg) (secs : Msec → Prop) (K : Option Event) (s : Bdec) : Prop where
  ev : s.event.isSome = true → EvOk c.evt s.ev
  img : ∀ m ∈ s.sc.img.secs, secs m
  maps : MapsOk s.maps
  reqs : ∀ r ∈ s.reqs, r ≠ .ub
  bc : ∀ sec i, EntryOk (s.bc sec i)
  others : ∀ l ∈ s.others, ∀ w ∈ l, EntryOk w.entry
  ret : ∃ l, s.retstack.Holds l
  cnt : s.blk.ninsn < 2 ^ 16
  kept : ∀ e, K = some e → s.event = some e ∧ Spec.isBranch e = false

/-- What the configuration must be like. -/
structure BCfgSafe (c : BlkCfg) (secs : Msec → Prop) : Prop where
  base : CfgSafe c.toInsnCfg secs
  query : ∀ g, c.cb = some g → ∀ n a x, g n a x ≠ .err .badQuery

/-- From a state, a function is defined and the invariant holds after it. -/
def At {α : Type} (c : BlkCfg) (secs : Msec → Prop) (K : Option Event) (p : BM α) (s : Bdec) : Prop :=
  (p s).2 ≠ .ub ∧ BSafe c secs K (p s).1

/-- A function is defined and keeps the invariant. -/
def Keep {α : Type} (c : BlkCfg) (secs : Msec → Prop) (K : Option Event) (p : BM α) : Prop :=
  ∀ s, BSafe c secs K s → At c secs K p s

variable {c : BlkCfg} {secs : Msec → Prop} {K : Option Event} {s : Bdec} {α β : Type}

theorem BSafe.none (h : BSafe c secs K s) : BSafe c secs none s :=
  ⟨h.ev, h.img, h.maps, h.reqs, h.bc, h.others, h.ret, h.cnt, fun _ h => by cases h⟩
theorem BSafe.some {e : Event} (h : BSafe c secs K s) (he : s.event = .some e) (hb : Spec.isBranch e = false) :
    BSafe c secs (.some e) s :=
  ⟨h.ev, h.img, h.maps, h.reqs, h.bc, h.others, h.ret, h.cnt, fun e' h => by cases h; exact ⟨he, hb⟩⟩
theorem BSafe.event {e e' : Event} (h : BSafe c secs (.some e) s) (hb : Spec.isBranch e' = false) :
    BSafe c secs (.some e') { s with event := .some e' } :=
  ⟨fun _ => h.ev (by rw [(h.kept e rfl).1]; rfl), h.img, h.maps, h.reqs, h.bc, h.others, h.ret, h.cnt,
    fun e' h => by cases h; exact ⟨rfl, hb⟩⟩

theorem At.none {p : BM α} (h : At c secs K p s) : At c secs none p s := ⟨h.1, h.2.none⟩

theorem keep_pure {a : α} : Keep c secs K (pure a) := fun _ h => ⟨fun h => (by cases h), h⟩
theorem keep_fail {e : Err} : Keep c secs K (BM.fail (α := α) e) := fun _ h => ⟨fun h => (by cases h), h⟩
theorem keep_get : Keep c secs K BM.get := fun _ h => ⟨fun h => (by cases h), h⟩
theorem keep_lift {r : Res α} (hr : r ≠ .ub) : Keep c secs K (BM.lift r) := fun _ h => ⟨hr, h⟩
theorem keep_modify {f : Bdec → Bdec} (hf : ∀ s, BSafe c secs K s → BSafe c secs K (f s)) : Keep c secs K (BM.modify f) :=
  fun s h => ⟨fun h => (by cases h), hf s h⟩
theorem keep_block {f : Block → Block} (hf : ∀ b : Block, b.ninsn < 2 ^ 16 → (f b).ninsn < 2 ^ 16) :
    Keep c secs K (BM.block f) :=
  keep_modify fun s h => ⟨h.ev, h.img, h.maps, h.reqs, h.bc, h.others, h.ret, hf _ h.cnt, h.kept⟩

/-- Sequencing, with what is known about the first function. -/
theorem at_bind {K' : Option Event} {p : BM α} {q : α → BM β} {Q : α → Bdec → Prop} {E : Err → Bdec → Prop}
    (h1 : At c secs K p s) (hw : wp p Q E s) (h2 : ∀ a s', Q a s' → BSafe c secs K s' → At c secs K' (q a) s')
    (h3 : ∀ s', BSafe c secs K s' → BSafe c secs K' s') : At c secs K' (p >>= q) s := by
  show (BM.bind p q s).2 ≠ .ub ∧ BSafe c secs K' (BM.bind p q s).1
  unfold BM.bind
  unfold At at h1
  unfold wp at hw
  rcases hp : p s with ⟨s', a | e | _⟩ <;> rw [hp] at h1 hw
  · exact h2 a s' hw h1.2
  · exact ⟨fun h => (by cases h), h3 _ h1.2⟩
  · exact absurd rfl h1.1

theorem wp_any {p : BM α} : wp p (fun _ _ => True) (fun _ _ => True) s := wp_of (fun _ _ _ => trivial) fun _ _ _ => trivial

theorem At.then {p : BM α} {q : α → BM β} (h1 : At c secs K p s) (h2 : ∀ a, Keep c secs K (q a)) :
    At c secs K (p >>= q) s := at_bind h1 wp_any (fun a s' _ h => h2 a s' h) fun _ h => h

theorem keep_bind {p : BM α} {q : α → BM β} (h1 : Keep c secs K p) (h2 : ∀ a, Keep c secs K (q a)) :
    Keep c secs K (p >>= q) := fun s h => (h1 s h).then h2

theorem at_get {f : Bdec → BM α} (hf : At c secs K (f s) s) : At c secs K (BM.get >>= f) s := hf
theorem and_get {f : Bdec → BM α} {P : Prop} (hf : At c secs K (f s) s ∧ P) : At c secs K (BM.get >>= f) s ∧ P := hf
theorem keep_getAt {f : Bdec → BM α} (hf : ∀ s, BSafe c secs K s → At c secs K (f s) s) : Keep c secs K (BM.get >>= f) :=
  fun s h => hf s h

theorem at_tryBind {p : BM α} {q : Option α × Option Err → BM β} {Q : α → Bdec → Prop} {E : Err → Bdec → Prop}
    (h1 : At c secs K p s) (hw : wp p Q E s)
    (h2 : ∀ a s', Q a s' → BSafe c secs K s' → At c secs K (q (.some a, .none)) s')
    (h3 : ∀ e s', E e s' → BSafe c secs K s' → At c secs K (q (.none, .some e)) s') : At c secs K (BM.try_ p >>= q) s := by
  show (BM.bind (BM.try_ p) q s).2 ≠ .ub ∧ BSafe c secs K (BM.bind (BM.try_ p) q s).1
  unfold BM.bind BM.try_
  unfold At at h1
  unfold wp at hw
  rcases hp : p s with ⟨s', a | e | _⟩ <;> rw [hp] at h1 hw
  · exact h2 a s' hw h1.2
  · exact h3 e s' hw h1.2
  · exact absurd rfl h1.1

theorem keep_tryBind {p : BM α} {q : Option α × Option Err → BM β} (h1 : Keep c secs K p)
    (h2 : ∀ a, Keep c secs K (q (.some a, .none))) (h3 : ∀ e, Keep c secs K (q (.none, .some e))) :
    Keep c secs K (BM.try_ p >>= q) :=
  fun s h => at_tryBind (h1 s h) wp_any (fun a s' _ h => h2 a s' h) fun e s' _ h => h3 e s' h

theorem keep_orQuery {p q : BM α} (h1 : Keep c secs K p) (h2 : Keep c secs K q) : Keep c secs K (BM.orQuery p q) := by
  intro s h
  have := h1 s h
  unfold At at this ⊢
  unfold BM.orQuery
  rcases hp : p s with ⟨s', a | e | _⟩ <;> rw [hp] at this
  · exact this
  · cases e <;> first | exact h2 s' this.2 | exact this
  · exact this

theorem keep_when {b : Bool} {p : BM Unit} (h1 : Keep c secs K p) : Keep c secs K (BM.when b p) := by
  unfold BM.when
  split
  · exact h1
  · exact keep_pure
theorem keep_mapped : Keep c secs K BM.mapped := fun s h =>
  ⟨fun h => (by cases h), ⟨h.ev, h.img, h.maps.tail, h.reqs, h.bc, h.others, h.ret, h.cnt, h.kept⟩⟩
theorem keep_available : Keep c secs K BM.available := fun s h =>
  ⟨fun h => (by cases h), ⟨h.ev, h.img, h.maps, h.reqs, h.bc, h.others, h.ret, h.cnt, h.kept⟩⟩
theorem keep_request : Keep c secs K BM.request := fun s h =>
  ⟨headD_safe h.reqs, ⟨h.ev, h.img, h.maps, tail_safe h.reqs, h.bc, h.others, h.ret, h.cnt, h.kept⟩⟩
theorem keep_cache {f : ScSt → ScSt × Res α}
    (hf : ∀ sc, (∀ m ∈ sc.img.secs, secs m) → (f sc).2 ≠ .ub ∧ ∀ m ∈ (f sc).1.img.secs, secs m) :
    Keep c secs K (BM.cache f) := fun s h =>
  ⟨(hf s.sc h.img).1, ⟨h.ev, (hf s.sc h.img).2, h.maps, h.reqs, h.bc, h.others, h.ret, h.cnt, h.kept⟩⟩
theorem keep_image {f : Img × List (Res Unit) → (Img × List (Res Unit)) × Res α}
    (hf : ∀ st, ImgSafe secs st → ImgSafe secs (f st).1 ∧ (f st).2 ≠ .ub) (hm : ∀ st, MapsOk st.2 → MapsOk (f st).1.2) :
    Keep c secs K (BM.image f) := fun s h =>
  have := hf (s.sc.img, s.maps) ⟨h.img, h.maps.safe⟩
  ⟨this.2, ⟨h.ev, this.1.1, hm _ h.maps, h.reqs, h.bc, h.others, h.ret, h.cnt, h.kept⟩⟩

/-- One step of `keep`. -/
syntax "keep1" : tactic
macro_rules | `(tactic| keep1) => `(tactic| split)
macro_rules | `(tactic| keep1) => `(tactic| dsimp only)
macro_rules | `(tactic| keep1) => `(tactic| with_reducible refine keep_bind ?_ fun _ => ?_)
macro_rules | `(tactic| keep1) => `(tactic| with_reducible refine keep_tryBind ?_ (fun _ => ?_) fun _ => ?_)
macro_rules | `(tactic| keep1) => `(tactic| with_reducible refine keep_orQuery ?_ ?_)
macro_rules | `(tactic| keep1) => `(tactic| with_reducible refine keep_when ?_)
macro_rules | `(tactic| keep1) => `(tactic| with_reducible exact keep_pure)
macro_rules | `(tactic| keep1) => `(tactic| with_reducible exact keep_fail)
macro_rules | `(tactic| keep1) => `(tactic| with_reducible exact keep_get)
macro_rules | `(tactic| keep1) => `(tactic| with_reducible exact keep_mapped)
macro_rules | `(tactic| keep1) => `(tactic| with_reducible exact keep_available)
macro_rules | `(tactic| keep1) => `(tactic| with_reducible exact keep_request)
macro_rules | `(tactic| keep1) => `(tactic| with_reducible exact keep_lift (nextIp_safe _))
macro_rules | `(tactic| keep1) => `(tactic| (with_reducible refine keep_block fun _ h => ?_); exact h)
macro_rules | `(tactic| keep1) => `(tactic| (with_reducible refine keep_modify fun _ h => ?_); exact ⟨h.ev, h.img, h.maps, h.reqs, h.bc, h.others, h.ret, h.cnt, h.kept⟩)
macro_rules | `(tactic| keep1) => `(tactic| with_reducible assumption)

/-- Prove that a function is defined, from the functions it calls. -/
macro "keep" : tactic => `(tactic| repeat' keep1)

/-! ### Memory -/

theorem maps_retry {asid : Asid} : ∀ (n : Nat) (st : Img × List (Res Unit)) (i : Insn), MapsOk st.2 →
    MapsOk (insnRetry (imgReader c.env c.cb asid) n st i).1.2
  | 0, st, i, h => h
  | n + 1, st, i, h => by
    unfold insnRetry
    dsimp only
    split
    · exact h
    have h1 : MapsOk (imgReader c.env c.cb asid st (15 - i.size) ((i.ip + i.size) % 2 ^ 64)).1.2 := h.tail
    rcases hq : imgReader c.env c.cb asid st (15 - i.size) ((i.ip + i.size) % 2 ^ 64) with ⟨s', ⟨isid, bs⟩ | e | _⟩ <;>
      rw [hq] at h1
    · dsimp only
      split
      · exact h1
      split
      · split
        · exact h1
        · split
          · exact h1
          · exact maps_retry n s' _ h1
        · exact h1
        · exact h1
      · exact h1
    · cases e <;> exact h1
    · exact h1

theorem maps_decode {asid : Asid} (st : Img × List (Res Unit)) (i : Insn) (h : MapsOk st.2) :
    MapsOk (insnDecode (imgReader c.env c.cb asid) st i).1.2 := by
  unfold insnDecode
  have h1 : MapsOk (imgReader c.env c.cb asid st 15 i.ip).1.2 := h.tail
  rcases hq : imgReader c.env c.cb asid st 15 i.ip with ⟨s', ⟨isid, bs⟩ | e | _⟩ <;> rw [hq] at h1
  · dsimp only
    split
    · split
      · exact h1
      · split
        · exact h1
        · exact maps_retry 16 s' _ h1
      · exact h1
      · exact h1
    · exact h1
  · exact h1
  · exact h1

theorem maps_range {asid : Asid} (end_ : Nat) : ∀ (n : Nat) (st : Img × List (Res Unit)) (i : Insn), MapsOk st.2 →
    MapsOk (rangeContiguous (imgReader c.env c.cb asid) end_ n st i).1.2
  | n, st, i, h => by
    unfold rangeContiguous
    split
    · exact h
    · split
      · exact h
      · rename_i n
        have h1 := maps_decode (c := c) (asid := asid) st i h
        rcases hq : insnDecode (imgReader c.env c.cb asid) st i with ⟨s', j | e | _⟩ <;> rw [hq] at h1
        · dsimp only
          split
          · exact maps_range end_ n s' _ h1
          · exact h1
          · exact h1
        · exact h1
        · exact h1

theorem keep_decodeAt (hc : BCfgSafe c secs) {ip : Nat} {mode : Mode} : Keep c secs K (decodeAt c ip mode) := by
  unfold decodeAt
  refine keep_bind keep_get fun s => keep_image (fun st h => ?_) fun st h => maps_decode st _ h
  exact ⟨(decode_rel (image_safe hc.base.mem _).toReadsRel st _ h (by simp)).1,
    decode_safe (image_safe hc.base.mem _) hc.base.mem.rex2 st _ h (by simp)⟩
macro_rules | `(tactic| keep1) => `(tactic| with_reducible exact keep_decodeAt ‹BCfgSafe _ _›)

theorem keep_range (hc : BCfgSafe c secs) {asid : Asid} {i : Insn} {n e : Nat} (hl : i.raw.length = 15) :
    Keep c secs K (BM.image fun m => rangeContiguous (imgReader c.env c.cb asid) e n m i) :=
  keep_image (fun st h => ⟨range_good hc.base e n st i h hl,
    range_safe (image_safe hc.base.mem asid) hc.base.mem.rex2 e n st i h hl⟩) fun st h => maps_range e n st i h

theorem decodeAt_wp (hc : BCfgSafe c secs) (h : BSafe c secs K s) {ip : Nat} {mode : Mode} :
    wp (decodeAt c ip mode) (fun _ s' => s'.blk = s.blk) (fun e _ => e ≠ .badQuery) s := by
  refine wp_of (fun a s' hm => ?_) fun e s' hm he => ?_
  · have : s' = (decodeAt c ip mode s).1 := by rw [hm]
    rw [this]
    rfl
  · have := congrArg Prod.snd hm
    subst he
    refine decode_query (rdr := c.reader s) (good := fun st => MapsOk st.2)
      (fun st n a hst => reader_query hc.query _ st n a hst) (s.sc.img, s.maps) { ip := ip, mode := mode } h.maps (by simp) ?_
    exact this

/-! ### The trace -/

theorem evtNext_ok (hc : BCfgSafe c secs) {d : Evd} (h : EvOk c.evt d) :
    (evtNext c.evt d).2 ≠ .ub ∧ ∀ d' e, evtNext c.evt d = (d', .ok e) → EvOk c.evt d' ∧ Fine True e.data := by
  obtain ⟨t, h1, h2⟩ := h
  refine ⟨(evtNext_pres hc.base.use.sane d (inv_wf h1)).1, fun d' e he => ⟨?_, ?_⟩⟩
  · have := EM.wlp_ok (evtNext_inv hc.base.use.time h1 h2) he
    exact ⟨_, this.2.1, this.2.2⟩
  · exact EM.wlp_ok (evtNext_tnt hc.base.use.time h1 h2) he

theorem keep_findTrigAnchor {ev : Event} : Keep c secs K (findTrigAnchor ev) := by
  have h1 : Keep c secs K (BM.modify setTrigAnchor) := by unfold setTrigAnchor; keep
  have h2 : Keep c secs K (BM.modify clearTrigAnchor) := by unfold clearTrigAnchor; keep
  have h3 : Keep c secs K (BM.modify (if ev.ipSuppressed = true then clearTrigAnchor else setTrigAnchor)) := by
    split <;> assumption
  unfold findTrigAnchor
  repeat' first | assumption | keep1
macro_rules | `(tactic| keep1) => `(tactic| with_reducible exact keep_findTrigAnchor)

theorem findTrigAnchor_wp {ev : Event} :
    wp (findTrigAnchor ev) (fun _ s' => s'.event = s.event ∧ s'.ev = s.ev) (fun _ _ => True) s := by
  unfold findTrigAnchor
  split
  all_goals (try split)
  all_goals first | exact ⟨rfl, rfl⟩ | exact trivial

theorem at_ok {p : BM α} {q : α → BM β} {a : α} {s' : Bdec} (h : p s = (s', .ok a)) (h2 : At c secs K (q a) s') :
    At c secs K (p >>= q) s := by
  show (BM.bind p q s).2 ≠ .ub ∧ BSafe c secs K (BM.bind p q s).1
  unfold BM.bind
  rw [h]
  exact h2

theorem wp_step {p : BM α} {q : α → BM β} {a : α} {s' : Bdec} (h : p s = (s', .ok a)) {Q : β → Bdec → Prop}
    {E : Err → Bdec → Prop} (h2 : wp (q a) Q E s') : wp (p >>= q) Q E s := by
  rw [wp_bind]
  unfold wp
  rw [h]
  exact h2

theorem try_next (hc : BCfgSafe c secs) (he : EvOk c.evt s.ev) :
    (∃ d e, BM.try_ (BM.evt (evtNext c.evt)) s = ({ s with ev := d }, .ok (some e, none)) ∧ EvOk c.evt d ∧ Fine True e.data) ∨
    ∃ d x, BM.try_ (BM.evt (evtNext c.evt)) s = ({ s with ev := d }, .ok (none, some x)) := by
  obtain ⟨h1, h2⟩ := evtNext_ok hc he
  unfold BM.try_ BM.evt
  rcases hr : evtNext c.evt s.ev with ⟨d, e | x | _⟩ <;> rw [hr] at h1
  · exact .inl ⟨d, e, rfl, h2 d e hr⟩
  · exact .inr ⟨d, x, rfl⟩
  · exact absurd rfl h1

/-- `fetchEvent`, and the event it leaves. -/
theorem fetch_at (hc : BCfgSafe c secs) (h : BSafe c secs K s) :
    At c secs none (fetchEvent c) s ∧
    wp (fetchEvent c) (fun _ s' => s'.status ≠ none ∨ ∃ e, s'.event = some e ∧ Fine True e.data) (fun _ _ => True) s := by
  unfold fetchEvent
  rw [wp_bind, wp_get]
  refine and_get ?_
  rcases he : s.event with _ | ev
  · exact ⟨keep_fail s h.none, trivial⟩
  · dsimp only
    have hev := h.ev (by rw [he]; rfl)
    have h1 : BSafe c secs none
        { s with tsc := ev.tsc, hasTsc := ev.hasTsc, lostMtc := ev.lostMtc, lostCyc := ev.lostCyc } :=
      ⟨h.ev, h.img, h.maps, h.reqs, h.bc, h.others, h.ret, h.cnt, fun _ h => by cases h⟩
    have key : ∀ s', s'.event = s.event ∧ s'.ev = s.ev → BSafe c secs none s' → 
        At c secs none (do
          match ← BM.try_ (BM.evt (evtNext c.evt)) with
          | (some e, _) => BM.modify fun s => { s with event := some e }
          | (none, e) => BM.modify fun s => { s with status := e, event := none }) s' ∧
        wp (do
          match ← BM.try_ (BM.evt (evtNext c.evt)) with
          | (some e, _) => BM.modify fun s => { s with event := some e }
          | (none, e) => BM.modify fun s => { s with status := e, event := none })
          (fun _ s' => s'.status ≠ none ∨ ∃ e, s'.event = some e ∧ Fine True e.data) (fun _ _ => True) s' := by
      intro s' hs' h'
      rcases try_next hc (s := s') (by rw [hs'.2]; exact hev) with ⟨d, e, hr, h2, h3⟩ | ⟨d, x, hr⟩
      · exact ⟨at_ok hr ⟨fun h => (by cases h), ⟨fun _ => h2, h'.img, h'.maps, h'.reqs, h'.bc, h'.others, h'.ret, h'.cnt,
          fun _ h => by cases h⟩⟩, wp_step hr (.inr ⟨e, rfl, h3⟩)⟩
      · exact ⟨at_ok hr ⟨fun h => (by cases h), ⟨fun h => (by cases h), h'.img, h'.maps, h'.reqs, h'.bc, h'.others, h'.ret,
          h'.cnt, fun _ h => by cases h⟩⟩, wp_step hr (.inl (by simp))⟩
    constructor
    · refine at_ok (p := BM.modify _) rfl ?_
      refine at_bind (keep_findTrigAnchor _ h1) findTrigAnchor_wp (fun _ s' hs' hb => ?_) fun _ h => h
      exact (key s' hs' hb).1
    · rw [wp_bind, wp_modify, wp_bind]
      have hw := findTrigAnchor_wp (ev := ev)
        (s := { s with tsc := ev.tsc, hasTsc := ev.hasTsc, lostMtc := ev.lostMtc, lostCyc := ev.lostCyc })
      have hk := (keep_findTrigAnchor (ev := ev) _ h1)
      refine wp_of (fun a s' hm => ?_) fun _ _ _ => trivial
      refine (key s' (wp_ok hw hm) ?_).2
      have := hk.2
      rwa [hm] at this

theorem keep_fetch (hc : BCfgSafe c secs) : Keep c secs none (fetchEvent c) := fun s h => (fetch_at hc h).1
macro_rules | `(tactic| keep1) => `(tactic| with_reducible exact keep_fetch ‹BCfgSafe _ _›)

theorem keep_blkTick (hc : BCfgSafe c secs) {ip : Nat} : Keep c secs none (blkTick c ip) := by
  unfold blkTick
  refine keep_getAt fun s h => ?_
  split
  · exact keep_fetch hc s h
  · rename_i ev he
    split
    · exact ⟨fun h => (by cases h), ⟨fun _ => h.ev (by rw [he]; rfl), h.img, h.maps, h.reqs, h.bc, h.others, h.ret, h.cnt,
        fun _ h => by cases h⟩⟩
    · exact keep_fetch hc s h
macro_rules | `(tactic| keep1) => `(tactic| with_reducible exact keep_blkTick ‹BCfgSafe _ _›)

theorem BSafe.branch {e : Event} (h : BSafe c secs K s) (he : s.event = .some e) (hb : Spec.isBranch e = true) : K = .none := by
  cases K with
  | none => rfl
  | some e' =>
    have := h.kept e' rfl
    rw [he] at this
    obtain ⟨h1, h2⟩ := this
    cases h1
    rw [hb] at h2
    cases h2

theorem keep_proceedIndirect (hc : BCfgSafe c secs) : Keep c secs K (proceedIndirect c) := by
  unfold proceedIndirect
  refine keep_getAt fun s h => ?_
  split
  · exact keep_fail s h
  · rename_i ev he
    split
    · rename_i ip hd
      obtain rfl := h.branch he (isBranch_tip hd)
      refine (?_ : Keep c secs none _) s h
      keep
    · rename_i p n hd
      obtain rfl := h.branch he (isBranch_tnt hd)
      have hev := h.ev (by rw [he]; rfl)
      have bad : ∀ d, At c secs none (do BM.modify fun t => { t with ev := s.ev }; BM.fail (α := Unit) .badQuery)
          { s with ev := d } := fun d => at_ok (p := BM.modify _) rfl (keep_fail _ h)
      rcases try_next hc hev with ⟨d, e, hr, h2, h3⟩ | ⟨d, x, hr⟩
      · refine at_ok hr ?_
        dsimp only
        split
        · exact ⟨fun h => (by cases h), ⟨fun _ => h2, h.img, h.maps, h.reqs, h.bc, h.others, h.ret, h.cnt,
            fun _ h => by cases h⟩⟩
        · exact bad d
      · exact at_ok hr (bad d)
    · exact keep_fail s h
macro_rules | `(tactic| keep1) => `(tactic| with_reducible exact keep_proceedIndirect ‹BCfgSafe _ _›)

theorem keep_blkCond : Keep c secs K blkCond := by
  unfold blkCond
  refine keep_getAt fun s h => ?_
  split
  · exact keep_fail s h
  · rename_i ev he
    split
    · rename_i p n hd
      obtain rfl := h.branch he (isBranch_tnt hd)
      split
      · exact keep_fail s h
      · exact at_ok (p := BM.modify _) rfl ⟨fun h => (by cases h), ⟨fun _ => h.ev (by rw [he]; rfl), h.img, h.maps, h.reqs,
          h.bc, h.others, h.ret, h.cnt, fun _ h => by cases h⟩⟩
    · exact keep_fail s h
macro_rules | `(tactic| keep1) => `(tactic| with_reducible exact keep_blkCond)

theorem keep_blkPush {ip : Nat} : Keep c secs K (blkPush ip) := by
  intro s h
  obtain ⟨l, hl⟩ := h.ret
  obtain ⟨r, h1, h2⟩ := push_holds hl ip
  unfold At blkPush
  rw [h1]
  exact ⟨fun h => (by cases h), ⟨h.ev, h.img, h.maps, h.reqs, h.bc, h.others, ⟨_, h2⟩, h.cnt, h.kept⟩⟩
macro_rules | `(tactic| keep1) => `(tactic| with_reducible exact keep_blkPush)

theorem keep_blkPop : Keep c secs K blkPop := by
  unfold blkPop
  refine keep_bind (fun s h => ?_) fun _ => by keep
  obtain ⟨l, hl⟩ := h.ret
  have := pop_holds hl
  unfold At
  dsimp only
  cases l with
  | nil =>
    dsimp only at this
    rw [this]
    exact ⟨fun h => (by cases h), ⟨h.ev, h.img, h.maps, h.reqs, h.bc, h.others, ⟨_, hl⟩, h.cnt, h.kept⟩⟩
  | cons a l =>
    obtain ⟨r, h1, h2⟩ := this
    rw [h1]
    exact ⟨fun h => (by cases h), ⟨h.ev, h.img, h.maps, h.reqs, h.bc, h.others, ⟨_, h2⟩, h.cnt, h.kept⟩⟩
macro_rules | `(tactic| keep1) => `(tactic| with_reducible exact keep_blkPop)

theorem keep_compressedReturn {p : BM Unit} (hp : Keep c secs K p) : Keep c secs K (compressedReturn p) := by
  unfold compressedReturn
  refine keep_tryBind keep_blkCond (fun b => ?_) fun e => ?_
  · cases b <;> keep
  · cases e <;> (dsimp only; keep)
macro_rules | `(tactic| keep1) => `(tactic| with_reducible refine keep_compressedReturn ?_)

theorem keep_proceedWithTrace (hc : BCfgSafe c secs) {i : Insn} : Keep c secs K (proceedWithTrace c i) := by
  unfold proceedWithTrace; keep
macro_rules | `(tactic| keep1) => `(tactic| with_reducible exact keep_proceedWithTrace ‹BCfgSafe _ _›)

/-! ### Instructions -/

theorem keep_logCall {i : Insn} : Keep c secs K (logCall i) := by unfold logCall; keep
macro_rules | `(tactic| keep1) => `(tactic| with_reducible exact keep_logCall)
theorem keep_countInsn {n : Nat} : Keep c secs K (countInsn n) := by unfold countInsn; keep
macro_rules | `(tactic| keep1) => `(tactic| with_reducible exact keep_countInsn)
theorem keep_nextInsn {i : Insn} : Keep c secs K (nextInsn i) := by unfold nextInsn; keep
macro_rules | `(tactic| keep1) => `(tactic| with_reducible exact keep_nextInsn)

theorem logCall_wp {i : Insn} (h : BSafe c secs K s) :
    wp (logCall i) (fun _ s' => s'.blk = s.blk) (fun _ _ => False) s := by
  obtain ⟨l, hl⟩ := h.ret
  obtain ⟨r, h1, h2⟩ := push_holds hl ((i.ip + i.size) % 2 ^ 64)
  unfold logCall
  split
  · rfl
  split
  · rfl
  · unfold wp blkPush
    rw [h1]

theorem countInsn_wp {n : Nat} :
    wp (countInsn n) (fun _ s' => s'.blk = s.blk) (fun e _ => e ≠ .badQuery) s := by
  unfold countInsn
  rw [wp_bind, wp_get, wp_ite]
  refine ⟨fun _ => rfl, fun _ => ?_⟩
  rw [wp_ite]
  exact ⟨fun _ => by rw [wp_fail]; decide, fun _ => rfl⟩

/-- A function is defined, the invariant holds after it, and so does what is said about its result. -/
def Has {α : Type} (c : BlkCfg) (secs : Msec → Prop) (K : Option Event) (p : BM α) (Q : α → Bdec → Prop)
    (E : Err → Bdec → Prop) (s : Bdec) : Prop := At c secs K p s ∧ wp p Q E s

variable {Q : α → Bdec → Prop} {E : Err → Bdec → Prop} {R : β → Bdec → Prop}

theorem has_bind {Q' : α → Bdec → Prop} {E' : Err → Bdec → Prop} {p : BM α} {q : α → BM β}
    (h1 : Has c secs K p Q' E' s) (h2 : ∀ a s', BSafe c secs K s' → Q' a s' → Has c secs K (q a) R E s')
    (h3 : ∀ e s', E' e s' → E e s') : Has c secs K (p >>= q) R E s := by
  refine ⟨at_bind h1.1 h1.2 (fun a s' h h' => (h2 a s' h' h).1) fun _ h => h, ?_⟩
  rw [wp_bind]
  refine wp_of (fun a s' hm => ?_) fun e s' hm => h3 e s' (wp_err h1.2 hm)
  have := h1.1.2
  rw [hm] at this
  exact (h2 a s' this (wp_ok h1.2 hm)).2

theorem has_keep {p : BM α} (h : BSafe c secs K s) (h1 : Keep c secs K p) (h2 : wp p Q E s) : Has c secs K p Q E s :=
  ⟨h1 s h, h2⟩
theorem has_get {f : Bdec → BM α} (h : Has c secs K (f s) Q E s) : Has c secs K (BM.get >>= f) Q E s := h
theorem has_pure {a : α} (h : BSafe c secs K s) (h1 : Q a s) : Has c secs K (pure a) Q E s := ⟨keep_pure s h, h1⟩
theorem has_fail {e : Err} (h : BSafe c secs K s) (h1 : E e s) : Has c secs K (BM.fail e) Q E s := ⟨keep_fail s h, h1⟩
theorem has_ite {p : Prop} [Decidable p] {m n : BM α} (h1 : p → Has c secs K m Q E s) (h2 : ¬ p → Has c secs K n Q E s) :
    Has c secs K (if p then m else n) Q E s := by
  by_cases h : p
  · rw [if_pos h]; exact h1 h
  · rw [if_neg h]; exact h2 h
theorem Has.mono {p : BM α} {Q' : α → Bdec → Prop} {E' : Err → Bdec → Prop} (h : Has c secs K p Q E s)
    (h1 : ∀ a s', Q a s' → Q' a s') (h2 : ∀ e s', E e s' → E' e s') : Has c secs K p Q' E' s :=
  ⟨h.1, wp_mono h.2 h1 h2⟩

/-- Adding an instruction. -/
theorem addInsn_has {i : Insn} (h : BSafe c secs K s) (hn : s.blk.ninsn + 1 < 2 ^ 16) :
    Has c secs K (addInsn i) (fun _ s' => s'.out = some i ∧ s'.blk.ninsn = s.blk.ninsn + 1) (fun e _ => e ≠ .badQuery) s := by
  unfold addInsn
  refine has_bind (Q' := fun _ s' => s'.blk.ninsn = s.blk.ninsn) (E' := fun _ _ => False)
    (has_keep h (by keep) (by rw [wp_when]; exact ⟨fun _ => rfl, fun _ => rfl⟩)) (fun _ s1 h1 e1 => ?_) fun _ _ h => h.elim
  refine has_bind (has_keep h1 keep_logCall (logCall_wp h1)) (fun _ s2 h2 e2 => ?_) fun _ _ h => h.elim
  have e2 : s2.blk.ninsn = s.blk.ninsn := by rw [e2]; exact e1
  refine has_bind (p := BM.block _) (Q' := fun _ s' => s'.blk.ninsn = s.blk.ninsn + 1) (E' := fun _ _ => False)
    ⟨⟨fun h => (by cases h), ⟨h2.ev, h2.img, h2.maps, h2.reqs, h2.bc, h2.others, h2.ret,
      (by show s2.blk.ninsn + 1 < _; rw [e2]; exact hn), h2.kept⟩⟩,
      (by rw [wp_block]; show s2.blk.ninsn + 1 = _; rw [e2])⟩ (fun _ s3 h3 e3 => ?_) fun _ _ h => h.elim
  refine has_bind (has_keep h3 keep_countInsn countInsn_wp) (fun _ s4 h4 e4 => ?_) fun _ _ h => h
  refine has_keep h4 (by keep) ?_
  rw [wp_modify]
  exact ⟨rfl, by show s4.blk.ninsn = _; rw [e4]; exact e3⟩

/-- `pt_blk_proceed_one_insn` -/
theorem oneInsn_has (hc : BCfgSafe c secs) (h : BSafe c secs K s) : Has c secs K (oneInsn c)
    (fun b s' => b = true → s'.out.isSome = true ∧ s'.blk.ninsn = s.blk.ninsn + 1) (fun e _ => e ≠ .badQuery) s := by
  unfold oneInsn
  refine has_get (has_ite (fun _ => has_pure h (by simp)) fun hn => has_ite (fun _ => has_pure h (by simp)) fun _ => ?_)
  have hn : s.blk.ninsn + 1 < 2 ^ 16 := by have := h.cnt; omega
  refine has_bind (has_keep h (keep_decodeAt hc) (decodeAt_wp hc h)) (fun i s1 h1 e1 => ?_) fun _ _ h => h
  refine has_ite (fun _ => has_pure h1 (by simp)) fun _ => ?_
  refine has_bind (Q' := fun _ s' => s'.blk.ninsn = s.blk.ninsn) (E' := fun _ _ => False)
    (has_keep h1 (by keep) (by rw [wp_block]; show s1.blk.ninsn = _; rw [e1])) (fun _ s2 h2 e2 => ?_) fun _ _ h => h.elim
  refine has_bind (addInsn_has h2 (by rw [e2]; exact hn)) (fun _ s3 h3 e3 => ?_) fun _ _ h => h
  exact has_pure h3 fun _ => ⟨by rw [e3.1]; rfl, by rw [e3.2, e2]⟩

theorem keep_oneInsn (hc : BCfgSafe c secs) : Keep c secs K (oneInsn c) := fun s h => (oneInsn_has hc h).1
macro_rules | `(tactic| keep1) => `(tactic| with_reducible exact keep_oneInsn ‹BCfgSafe _ _›)

theorem insn_has (h : BSafe c secs K s) (ho : s.out.isSome = true) :
    Has c secs K BM.insn (fun i s' => s' = s ∧ s.out = some i) (fun _ _ => False) s := by
  unfold BM.insn
  refine has_get ?_
  cases hs : s.out with
  | none => rw [hs] at ho; cases ho
  | some i => exact has_pure h ⟨rfl, rfl⟩

theorem nextInsn_has {i : Insn} (h : BSafe c secs K s) :
    Has c secs K (nextInsn i) (fun _ s' => s'.out = s.out ∧ s'.blk = s.blk) (fun _ s' => s' = s) s := by
  refine has_keep h keep_nextInsn ?_
  unfold nextInsn
  rw [wp_bind, wp_lift]
  have := nextIp_safe i
  rcases hn : nextIp i with _ | _ | _
  · exact ⟨rfl, rfl⟩
  · rfl
  · exact absurd hn this

/-- `pt_blk_proceed_to_insn` -/
theorem toInsnLoop_has (hc : BCfgSafe c secs) {p : Iext → Bool} : ∀ (n : Nat) (s : Bdec), BSafe c secs K s →
    2 ^ 16 ≤ n + s.blk.ninsn → Has c secs K (toInsnLoop c p n)
      (fun b s' => b = true → s'.out.isSome = true ∧ s.blk.ninsn < s'.blk.ninsn)
      (fun e s' => e = .badQuery → s'.out.isSome = true) s
  | 0, s, h, hn => by have := h.cnt; omega
  | n + 1, s, h, hn => by
    unfold toInsnLoop
    refine has_bind (oneInsn_has hc h) (fun b s1 h1 e1 => ?_) fun e _ h1 h2 => absurd h2 h1
    refine has_ite (fun hb => ?_) fun _ => has_pure h1 (by simp)
    obtain ⟨e1, e2⟩ := e1 hb
    refine has_bind (insn_has h1 e1) (fun i s2 h2 e3 => ?_) fun _ _ h => h.elim
    obtain ⟨rfl, e3⟩ := e3
    refine has_ite (fun _ => has_pure h1 fun _ => ⟨e1, by omega⟩) fun _ => ?_
    refine has_bind (nextInsn_has h1) (fun _ s3 h3 e4 => ?_) fun e s' h _ => by rw [h]; exact e1
    refine has_ite (fun _ => has_pure h3 (by simp)) fun _ => ?_
    refine (toInsnLoop_has hc n s3 h3 (by rw [e4.2]; omega)).mono (fun b s' h hb => ⟨(h hb).1, ?_⟩) fun _ _ h => h
    have := (h hb).2
    rw [e4.2] at this
    omega

theorem toInsn_has (hc : BCfgSafe c secs) {p : Iext → Bool} (h : BSafe c secs K s) : Has c secs K (toInsn c p)
      (fun b s' => b = true → s'.out.isSome = true ∧ s.blk.ninsn < s'.blk.ninsn)
      (fun e s' => e = .badQuery → s'.out.isSome = true) s :=
  toInsnLoop_has hc blkFuel s h (by unfold blkFuel; omega)

theorem keep_toInsn (hc : BCfgSafe c secs) {p : Iext → Bool} : Keep c secs K (toInsn c p) := fun s h => (toInsn_has hc h).1
macro_rules | `(tactic| keep1) => `(tactic| with_reducible exact keep_toInsn ‹BCfgSafe _ _›)

/-- `pt_blk_proceed_to_ip` -/
theorem toIpLoop_has (hc : BCfgSafe c secs) {ip : Nat} : ∀ (n : Nat) (s : Bdec), BSafe c secs K s →
    2 ^ 16 ≤ n + s.blk.ninsn → Has c secs K (toIpLoop c ip n) (fun _ _ => True)
      (fun e s' => e = .badQuery → s'.out.isSome = true) s
  | 0, s, h, hn => by have := h.cnt; omega
  | n + 1, s, h, hn => by
    unfold toIpLoop
    refine has_get (has_ite (fun _ => has_pure h trivial) fun _ => ?_)
    refine has_bind (oneInsn_has hc h) (fun b s1 h1 e1 => ?_) fun e _ h1 h2 => absurd h2 h1
    refine has_ite (fun hb => ?_) fun _ => has_pure h1 trivial
    obtain ⟨e1, e2⟩ := e1 hb
    refine has_bind (insn_has h1 e1) (fun i s2 h2 e3 => ?_) fun _ _ h => h.elim
    obtain ⟨rfl, e3⟩ := e3
    refine has_bind (nextInsn_has h1) (fun _ s3 h3 e4 => ?_) fun e s' h _ => by rw [h]; exact e1
    refine has_ite (fun _ => has_get (has_pure h3 trivial)) fun _ => ?_
    exact toIpLoop_has hc n s3 h3 (by rw [e4.2]; omega)

theorem toIp_has (hc : BCfgSafe c secs) {ip : Nat} (h : BSafe c secs K s) : Has c secs K (toIp c ip) (fun _ _ => True)
      (fun e s' => e = .badQuery → s'.out.isSome = true) s :=
  toIpLoop_has hc (blkFuel + 1) s h (by unfold blkFuel; omega)

theorem keep_toIp (hc : BCfgSafe c secs) {ip : Nat} : Keep c secs K (toIp c ip) := fun s h => (toIp_has hc h).1
macro_rules | `(tactic| keep1) => `(tactic| with_reducible exact keep_toIp ‹BCfgSafe _ _›)

theorem lift_has {r : Res α} (h : BSafe c secs K s) (hr : r ≠ .ub) (h1 : ∀ a, r = .ok a → Q a s) (h2 : ∀ e, r = .err e → E e s) :
    Has c secs K (BM.lift r) Q E s := by
  refine has_keep h (keep_lift hr) ?_
  rw [wp_lift]
  rcases r with a | e | _
  · exact h1 a rfl
  · exact h2 e rfl
  · exact absurd rfl hr

/-- `pt_blk_proceed_skl014` -/
theorem skl014Loop_has (hc : BCfgSafe c secs) : ∀ (n : Nat) (s : Bdec), BSafe c secs K s →
    2 ^ 16 ≤ n + s.blk.ninsn → Has c secs K (skl014Loop c n) (fun _ _ => True)
      (fun e s' => e = .badQuery → s'.out.isSome = true) s
  | 0, s, h, hn => by have := h.cnt; omega
  | n + 1, s, h, hn => by
    unfold skl014Loop
    refine has_bind (toInsn_has hc h) (fun b s1 h1 e1 => ?_) fun _ _ h => h
    refine has_ite (fun hb => ?_) fun _ => has_pure h1 trivial
    obtain ⟨e1, e2⟩ := e1 hb
    refine has_bind (insn_has h1 e1) (fun i s2 h2 e3 => ?_) fun _ _ h => h.elim
    obtain ⟨rfl, e3⟩ := e3
    refine has_ite (fun _ => has_pure h1 trivial) fun _ => ?_
    refine has_bind (Q' := fun _ s' => s' = s2) (lift_has h1 (nextIp_safe i) (fun _ _ => rfl) (fun _ _ _ => e1))
      (fun ip s3 h3 e4 => ?_) fun _ _ h => h
    subst e4
    refine has_bind (Q' := fun _ s' => s' = s3) (lift_has h1 (filter_safe hc.base ip) (fun _ _ => rfl) (fun _ _ _ => e1))
      (fun f s4 h4 e4 => ?_) fun _ _ h => h
    subst e4
    refine has_ite (fun _ => ?_) fun _ => has_pure h1 trivial
    refine has_bind (Q' := fun _ s' => s'.blk = s4.blk) (E' := fun _ _ => False) (has_keep h1 (by keep) (by rw [wp_modify]))
      (fun _ s5 h5 e5 => ?_) fun _ _ h => h.elim
    refine has_ite (fun _ => has_pure h5 trivial) fun _ => ?_
    exact skl014Loop_has hc n s5 h5 (by rw [e5]; omega)

/-- `pt_blk_proceed_to_disabled` -/
theorem toDisabled_has (hc : BCfgSafe c secs) {ev : Event} {ip : Nat} (h : BSafe c secs K s) :
    Has c secs K (toDisabled c ev ip) (fun _ _ => True) (fun e s' => e = .badQuery → s'.out.isSome = true) s := by
  unfold toDisabled
  refine has_ite (fun _ => has_ite (fun _ => ?_) fun _ => ?_) fun _ => toIp_has hc h
  · exact skl014Loop_has hc _ s h (by unfold blkFuel; omega)
  · exact (toInsn_has hc h).mono (fun _ _ _ => trivial) fun _ _ h => h

/-! ### Events -/

theorem keep_blkStatus {b : Bool} : Keep c secs K (blkStatus b) := by unfold blkStatus; keep
macro_rules | `(tactic| keep1) => `(tactic| with_reducible exact keep_blkStatus)

/-- `pt_blk_proceed_to_ptwrite` and others -/
theorem toKind_has (hc : BCfgSafe c secs) {ev : Event} {p : Iext → Bool} {ip : Nat} (h : BSafe c secs K s) :
    Has c secs K (toKind c ev p ip) (fun b s' => b = true → s'.out.isSome = true) (fun _ _ => True) s := by
  unfold toKind
  refine has_ite (fun _ => (toInsn_has hc h).mono (fun _ _ h hb => (h hb).1) fun _ _ _ => trivial) fun _ => ?_
  refine has_bind (toIp_has hc h) (fun b s1 h1 _ => ?_) fun _ _ _ => trivial
  refine has_ite (fun _ => ?_) fun _ => has_pure h1 (by simp)
  exact (oneInsn_has hc h1).mono (fun _ _ h hb => (h hb).1) fun _ _ _ => trivial

theorem reachInsn_at {p : BM Bool} {mark : Bdec → Bdec} {E : Err → Bdec → Prop} (h : BSafe c secs K s)
    (hp : Has c secs K p (fun b s' => b = true → s'.out.isSome = true) E s)
    (hm : Keep c secs K (BM.modify mark)) (ho : ∀ s, (mark s).out = s.out) : At c secs K (reachInsn p mark) s := by
  unfold reachInsn
  refine at_bind hp.1 hp.2 (fun b s1 e1 h1 => ?_) fun _ h => h
  split
  · rename_i hb
    refine at_bind (Q := fun _ s' => s'.out.isSome = true) (E := fun _ _ => True) (hm s1 h1)
      (by rw [wp_modify, ho]; exact e1 hb) (fun _ s2 e2 h2 => ?_) fun _ h => h
    unfold postponeInsn
    have := insn_has h2 e2
    exact this.1.then fun i => by keep
  · exact keep_pure s1 h1

theorem trig_branch {ev : Event} {a b : Nat} {m : Bool} {ip : Nat} : Spec.isBranch { ev with data := .trig a b m ip } = false := rfl

theorem trigLoop_at (hc : BCfgSafe c secs) {ev : Event} {trbv : Nat} {mult : Bool} : ∀ (n : Nat) (s : Bdec) (e : Event),
    BSafe c secs (some e) s → At c secs none (trigLoop c ev trbv mult n) s
  | 0, s, e, h => keep_pure s h.none
  | n + 1, s, e, h => by
    unfold trigLoop
    have h0 := oneInsn_has hc h
    refine at_bind h0.1 h0.2 (fun b s1 e1 h1 => ?_) fun _ h => h.none
    split
    · rename_i hb
      have h2 := insn_has h1 (e1 hb).1
      refine at_bind h2.1 h2.2 (fun i s2 e2 h2 => ?_) fun _ h => h.none
      refine at_bind (keep_nextInsn s2 h2) wp_any (fun _ s3 _ h3 => ?_) fun _ h => h.none
      exact at_ok (p := BM.modify _) rfl (trigLoop_at hc n _ _ (h3.event trig_branch))
    · exact keep_pure s1 h1.none

theorem provide_at {ev : Event} {trbv n ip : Nat} {mult : Bool} {q : Nat × Nat → BM β} (h : BSafe c secs (some ev) s)
    (hb : Spec.isBranch ev = false) (hq : ∀ x s e, BSafe c secs (some e) s → At c secs none (q x) s) :
    At c secs none (provideTrigAnchor ev trbv n mult ip >>= q) s := by
  unfold provideTrigAnchor
  by_cases h1 : ip ≠ 0
  · refine at_ok (s' := s) (a := (n, ip)) ?_ (hq _ s ev h)
    show (if _ then _ else _ : BM (Nat × Nat)) s = _
    rw [if_pos h1]
    rfl
  · by_cases h2 : s.hasIcnt = false
    · have : ∀ p : BM (Nat × Nat), p s = (s, .err .badPacket) → At c secs none (p >>= q) s := by
        intro p hp
        show (BM.bind p q s).2 ≠ .ub ∧ BSafe c secs none (BM.bind p q s).1
        unfold BM.bind
        rw [hp]
        exact ⟨fun h => (by cases h), h.none⟩
      apply this
      show (if _ then _ else _ : BM (Nat × Nat)) s = _
      rw [if_neg h1, if_pos h2]
      rfl
    · by_cases h3 : n < s.icnt
      · have : ∀ p : BM (Nat × Nat), p s = (s, .err .badPacket) → At c secs none (p >>= q) s := by
          intro p hp
          show (BM.bind p q s).2 ≠ .ub ∧ BSafe c secs none (BM.bind p q s).1
          unfold BM.bind
          rw [hp]
          exact ⟨fun h => (by cases h), h.none⟩
        apply this
        show (if _ then _ else _ : BM (Nat × Nat)) s = _
        rw [if_neg h1, if_neg h2, if_pos h3]
        rfl
      · refine at_ok (s' := { s with event := some { ev with data := .trig trbv (n - s.icnt) mult s.ip } })
          (a := (n - s.icnt, s.ip)) ?_ (hq _ _ _ (h.event trig_branch))
        show (if _ then _ else _ : BM (Nat × Nat)) s = _
        rw [if_neg h1, if_neg h2, if_neg h3]
        rfl

theorem toTrig_at (hc : BCfgSafe c secs) {ev : Event} {trbv n ip : Nat} {mult : Bool} (h : BSafe c secs (some ev) s)
    (hb : Spec.isBranch ev = false) : At c secs none (toTrig c ev trbv n mult ip) s := by
  unfold toTrig
  split
  · exact keep_pure s h.none
  · refine provide_at h hb fun x s1 e h1 => ?_
    dsimp only
    refine at_get ?_
    split
    · split
      · exact keep_fail _ h1.none
      · exact keep_pure _ h1.none
    · refine at_bind (keep_toIp hc s1 h1) wp_any (fun b s2 _ h2 => ?_) fun _ h => h.none
      split
      · exact trigLoop_at hc _ s2 e h2
      · exact keep_pure _ h2.none

theorem keep_blkSkd022 (hc : BCfgSafe c secs) {a : Nat} : Keep c secs K (blkSkd022 c a) := by unfold blkSkd022; keep
macro_rules | `(tactic| keep1) => `(tactic| with_reducible exact keep_blkSkd022 ‹BCfgSafe _ _›)

theorem keep_clearPostponedInsn : Keep c secs K (BM.modify clearPostponedInsn) := by unfold clearPostponedInsn; keep
macro_rules | `(tactic| keep1) => `(tactic| with_reducible exact keep_clearPostponedInsn)

theorem keep_proceedPostponedInsn (hc : BCfgSafe c secs) : Keep c secs K (proceedPostponedInsn c) := by
  unfold proceedPostponedInsn; keep
macro_rules | `(tactic| keep1) => `(tactic| with_reducible exact keep_proceedPostponedInsn ‹BCfgSafe _ _›)

theorem keep_setDisableResumeIp {i : Insn} : Keep c secs K (BM.modify (setDisableResumeIp i)) :=
  keep_modify fun s h => by
    unfold setDisableResumeIp
    split <;> exact ⟨h.ev, h.img, h.maps, h.reqs, h.bc, h.others, h.ret, h.cnt, h.kept⟩
macro_rules | `(tactic| keep1) => `(tactic| with_reducible exact keep_setDisableResumeIp)

theorem keep_reachIp (hc : BCfgSafe c secs) {ip : Nat} : Keep c secs K (reachIp c ip) := by unfold reachIp; keep
macro_rules | `(tactic| keep1) => `(tactic| with_reducible exact keep_reachIp ‹BCfgSafe _ _›)

theorem keep_reachDisabled (hc : BCfgSafe c secs) {ev : Event} {ip : Nat} : Keep c secs K (reachDisabled c ev ip) := by
  intro s h
  unfold reachDisabled
  split
  · exact keep_blkStatus s h
  · have h0 := toDisabled_has hc (ev := ev) (ip := ip) h
    refine at_tryBind h0.1 h0.2 (fun b s1 _ h1 => ?_) fun e s1 e1 h1 => ?_
    · cases b <;> (dsimp only; refine (?_ : Keep c secs K _) s1 h1; keep)
    · cases e <;> dsimp only
      case badQuery =>
        exact (insn_has h1 (e1 rfl)).1.then fun i => by keep
      all_goals exact keep_fail s1 h1
macro_rules | `(tactic| keep1) => `(tactic| with_reducible exact keep_reachDisabled ‹BCfgSafe _ _›)

theorem keep_out {f : Option Insn} : Keep c secs K (BM.modify fun s => { s with out := f }) := by keep

/-- `pt_blk_proceed_event` -/
theorem keep_proceedEvent (hc : BCfgSafe c secs) : Keep c secs none (proceedEvent c) := by
  intro s h
  unfold proceedEvent
  refine at_ok (p := BM.modify _) rfl ?_
  refine at_get ?_
  have h : BSafe c secs none { s with out := none } := ⟨h.ev, h.img, h.maps, h.reqs, h.bc, h.others, h.ret, h.cnt, h.kept⟩
  split
  · exact keep_blkStatus _ h
  · rename_i ev he
    have kind : ∀ (p : Iext → Bool) (ip : Nat) (mark : Bdec → Bdec), Keep c secs none (BM.modify mark) →
        (∀ s, (mark s).out = s.out) → At c secs none (reachInsn (toKind c ev p ip) mark) { s with out := none } :=
      fun p ip mark hm ho => reachInsn_at h (toKind_has hc h) hm ho
    have insn : ∀ (p : Iext → Bool) (mark : Bdec → Bdec), Keep c secs none (BM.modify mark) →
        (∀ s, (mark s).out = s.out) → At c secs none (reachInsn (toInsn c p) mark) { s with out := none } :=
      fun p mark hm ho => reachInsn_at h ((toInsn_has hc h).mono (fun _ _ h hb => (h hb).1) fun _ _ h => h) hm ho
    split
    all_goals first
      | exact keep_blkStatus _ h
      | exact keep_reachDisabled hc _ h
      | exact keep_reachIp hc _ h
      | exact keep_fail _ h
      | (split
         · exact keep_blkStatus _ h
         · first
           | exact keep_reachIp hc _ h
           | exact insn _ _ (by keep) fun _ => rfl
           | exact kind _ _ _ (by keep) fun _ => rfl)
      | skip
    · rename_i at_ ip hd
      have hb : Spec.isBranch ev = false := by simp [Spec.isBranch, hd]
      have hk := h.some he hb
      refine at_bind (keep_toIp hc _ hk) wp_any (fun b s1 _ h1 => ?_) fun _ h => h.none
      split
      · split
        · refine at_bind (keep_blkSkd022 hc s1 h1) wp_any (fun b s2 _ h2 => ?_) fun _ h => h.none
          split
          · have h3 := h2.event (e' := { ev with data := .disabled ip }) rfl
            exact at_ok (p := BM.modify _) rfl (keep_reachDisabled hc _
              ⟨h3.ev, h3.img, h3.maps, h3.reqs, h3.bc, h3.others, h3.ret, h3.cnt, fun _ h => by cases h⟩)
          · exact keep_blkStatus _ h2.none
        · exact keep_blkStatus _ h1.none
      · exact keep_pure _ h1.none
    · rename_i hd
      have hb : Spec.isBranch ev = false := by simp [Spec.isBranch, hd]
      exact (toTrig_at hc (h.some he hb) hb).then fun _ => by keep

end Ipt.Blk
