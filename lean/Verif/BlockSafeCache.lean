import Verif.BlockSafe

/-!
# Helper lemmas: the block decoder is defined: the block cache
-/

set_option linter.unusedSimpArgs false
set_option linter.unusedVariables false

namespace Ipt.Blk

open Ild Spec Props BM

variable {c : BlkCfg} {secs : Msec → Prop} {K : Option Event} {s : Bdec} {α β : Type}
variable {Q : α → Bdec → Prop} {E : Err → Bdec → Prop} {R : β → Bdec → Prop}

/-! ### The block cache -/

theorem keep_proceedOut (hc : BCfgSafe c secs) (h : BSafe c secs K s) (ho : s.out.isSome = true) :
    At c secs K (proceedOut c) s := by
  unfold proceedOut
  refine at_get ?_
  split
  · exact keep_proceedWithTrace hc s h
  · rename_i hs
    rw [hs] at ho
    cases ho

theorem at_orQuery {p q : BM α} {E : Err → Bdec → Prop} (h1 : At c secs K p s) (hw : wp p Q E s)
    (h2 : ∀ s', E .badQuery s' → BSafe c secs K s' → At c secs K q s') : At c secs K (BM.orQuery p q) s := by
  unfold At at h1 ⊢
  unfold wp at hw
  unfold BM.orQuery
  rcases hp : p s with ⟨s', a | e | _⟩ <;> rw [hp] at h1 hw
  · exact h1
  · cases e <;> first | exact h2 s' hw h1.2 | exact h1
  · exact h1

theorem keep_noEventUncached (hc : BCfgSafe c secs) : Keep c secs K (noEventUncached c) := by
  intro s h
  unfold noEventUncached
  refine at_ok (p := BM.modify _) rfl ?_
  have h : BSafe c secs K { s with out := some { ip := 0, mode := .unknown, ext := { cls := .unknown } } } :=
    ⟨h.ev, h.img, h.maps, h.reqs, h.bc, h.others, h.ret, h.cnt, h.kept⟩
  have h0 := has_bind (R := fun (_ : Unit) _ => True) (E := fun e s' => e = .badQuery → s'.out.isSome = true)
    (toInsn_has hc (p := fun _ => false) h) (q := fun _ => pure ()) (fun _ s' h1 _ => has_pure h1 trivial) fun _ _ h => h
  exact at_orQuery h0.1 h0.2 fun s' h1 h2 => keep_proceedOut hc h2 (h1 rfl)
macro_rules | `(tactic| keep1) => `(tactic| with_reducible exact keep_noEventUncached ‹BCfgSafe _ _›)

theorem keep_bcAdd {m : Msec} {index : Nat} {e : Bce} (he : EntryOk e) : Keep c secs K (bcAdd c m index e) := by
  intro s h
  unfold At bcAdd Bcache.add
  split
  · exact ⟨by simp, ⟨h.ev, h.img, h.maps, h.reqs, h.bc, h.others, h.ret, h.cnt, h.kept⟩⟩
  · refine ⟨by simp, ⟨h.ev, h.img, h.maps, h.reqs, fun sec i => ?_, h.others, h.ret, h.cnt, h.kept⟩⟩
    dsimp only
    split
    · exact he
    · exact h.bc sec i

theorem writes_ok : ∀ (l : List BceWrite) (b : Bcache), (∀ sec i, EntryOk (b sec i)) → (∀ w ∈ l, EntryOk w.entry) →
    ∀ sec i, EntryOk (b.writes l sec i)
  | [], b, h, _, sec, i => h sec i
  | w :: l, b, h, hl, sec, i => by
    refine writes_ok l _ (fun sec i => ?_) (fun w hw => hl w (by simp [hw])) sec i
    dsimp only
    split
    · exact hl w (by simp)
    · exact h sec i

theorem bcLookup_has {m : Msec} {index : Nat} (h : BSafe c secs K s) :
    Has c secs K (bcLookup c m index) (fun e s' => EntryOk e ∧ s'.blk = s.blk ∧ s'.out = s.out) (fun _ _ => True) s := by
  have hb : ∀ sec i, EntryOk (s.bc.writes (s.others.headD []) sec i) := by
    refine writes_ok _ _ h.bc fun w hw => ?_
    cases ho : s.others with
    | nil => rw [ho] at hw; cases hw
    | cons l o => rw [ho] at hw; exact h.others l (by rw [ho]; simp) w hw
  have h1 : BSafe c secs K { s with bc := s.bc.writes (s.others.headD []), others := s.others.tail } :=
    ⟨h.ev, h.img, h.maps, h.reqs, hb, fun l hl => h.others l (List.mem_of_mem_tail hl), h.ret, h.cnt, h.kept⟩
  unfold Has At wp bcLookup Bcache.lookup
  dsimp only
  split
  · exact ⟨⟨by simp, h1⟩, trivial⟩
  · exact ⟨⟨by simp, h1⟩, hb _ _, rfl, rfl⟩

theorem decodeBce_ok {mode : Mode} : EntryOk (decodeBce mode) := fun _ => by simp [decodeBce]
theorem trampolineBce_ok {ip nip : Nat} {mode : Mode} : EntryOk (trampolineBce ip nip mode) := fun _ => by
  unfold trampolineBce
  split <;> simp [decodeBce]

theorem traceBce_ok {b : Block} {i : Insn} : traceBce b i ≠ .ub ∧ ∀ e, traceBce b i = .ok e → EntryOk e := by
  have aux : ∀ (q : Res Qual) (e : Bce) (t : Bool), q ≠ .ub → 1 ≤ e.ninsn ∧ e.ninsn < 2 ^ 8 →
      (match q with
        | .ok q => Res.ok { e with qualifier := if t = true then .decode else q }
        | .err e => .err e
        | .ub => .ub) ≠ .ub ∧ ∀ e', (match q with
        | .ok q => Res.ok { e with qualifier := if t = true then .decode else q }
        | .err e => .err e
        | .ub => .ub) = .ok e' → EntryOk e' := by
    intro q e t hn he
    rcases q with q | x | _
    · exact ⟨by simp, fun e h => by cases h; exact fun _ => he⟩
    · exact ⟨by simp, fun e h => by cases h⟩
    · exact absurd rfl hn
  unfold traceBce
  refine aux _ _ _ ?_ (by simp)
  repeat' split
  all_goals simp

theorem stopsAt_safe {m : Msec} {b : Block} {i : Insn} {nip : Nat} : stopsAt c m b i nip ≠ .ub := by
  unfold stopsAt
  repeat' split
  all_goals simp

theorem keep_extendEntry {m : Msec} {i : Insn} {nip : Nat} {e : Bce} : Keep c secs K (extendEntry c m i nip e) := by
  unfold extendEntry
  dsimp only
  split
  · exact keep_fail
  split
  · exact keep_pure
  split
  · exact keep_bcAdd trampolineBce_ok
  · rename_i hh
    refine keep_bcAdd fun _ => ?_
    have : toNinsn (e.ninsn + 1) ≠ 0 := fun h => hh (.inl h)
    have h2 : toNinsn (e.ninsn + 1) < 2 ^ 8 := Nat.mod_lt _ (by decide)
    exact ⟨by dsimp only; omega, h2⟩

theorem keep_bcLookup {m : Msec} {index : Nat} : Keep c secs K (bcLookup c m index) := fun s h => (bcLookup_has h).1
macro_rules | `(tactic| keep1) => `(tactic| with_reducible exact keep_bcLookup)
macro_rules | `(tactic| keep1) => `(tactic| with_reducible exact keep_extendEntry)
theorem keep_addTrampoline {m : Msec} {index ip nip : Nat} {mode : Mode} :
    Keep c secs K (bcAdd c m index (trampolineBce ip nip mode)) := keep_bcAdd trampolineBce_ok
macro_rules | `(tactic| keep1) => `(tactic| with_reducible exact keep_addTrampoline)
theorem keep_addDecode {m : Msec} {index : Nat} {mode : Mode} :
    Keep c secs K (bcAdd c m index (decodeBce mode)) := keep_bcAdd decodeBce_ok
macro_rules | `(tactic| keep1) => `(tactic| with_reducible exact keep_addDecode)
macro_rules | `(tactic| keep1) => `(tactic| with_reducible exact keep_lift stopsAt_safe)

/-- `pt_blk_proceed_no_event_fill_cache` -/
theorem keep_fillCache (hc : BCfgSafe c secs) {m : Msec} : ∀ n, Keep c secs K (fillCache c m n)
  | 0 => keep_fail
  | n + 1 => by
    intro s h
    have ih := keep_fillCache hc (m := m) n
    unfold fillCache
    have h0 := oneInsn_has hc h
    refine at_bind h0.1 h0.2 (fun b s1 e1 h1 => ?_) fun _ h => h
    split
    · rename_i hb
      refine (insn_has h1 (e1 hb).1).1.then fun i => ?_
      refine keep_tryBind keep_nextInsn (fun _ => ?_) fun e => ?_
      · dsimp only
        keep
      · cases e <;> dsimp only
        case badQuery =>
          refine keep_bind keep_get fun s => ?_
          intro s2 h2
          refine at_bind (Q := fun e _ => EntryOk e) (E := fun _ _ => True) (keep_lift traceBce_ok.1 s2 h2) ?_
            (fun e s3 he h3 => ((keep_bcAdd he) s3 h3).then fun _ => by keep) fun _ h => h
          rw [wp_lift]
          rcases ht : traceBce s.blk i with e | _ | _
          · exact traceBce_ok.2 e ht
          · trivial
          · exact absurd ht traceBce_ok.1
        all_goals exact keep_fail
    · exact keep_pure s1 h1
macro_rules | `(tactic| keep1) => `(tactic| with_reducible exact keep_fillCache ‹BCfgSafe _ _› _)

theorem keep_proceedTruncated (hc : BCfgSafe c secs) : Keep c secs K (proceedTruncated c) := by unfold proceedTruncated; keep
macro_rules | `(tactic| keep1) => `(tactic| with_reducible exact keep_proceedTruncated ‹BCfgSafe _ _›)

theorem decodeInSection_safe (hc : BCfgSafe c secs) {m : Msec} (hm : secs m) {ip : Nat} {mode : Mode} :
    decodeInSection c.env m ip mode ≠ .ub := by
  unfold decodeInSection
  show Res.bind (m.read c.env 15 ip) _ ≠ _
  have hq := (msecRead_safe hc.base.mem hm (x := ip) (Nat.le_refl 15)).1
  rcases hrd : m.read c.env 15 ip with bs | e | _
  · obtain ⟨raw', h1, h2, h3, h4⟩ := store_safe hc.base.mem hm (mode := mode) (raw := List.replicate 15 0) (by simp) hrd
    show Res.bind (store _ 0 bs) _ ≠ _
    rw [h1]
    show (match ildDecode raw' bs.length mode with | (n, .ok x) => _ | (_, .err e) => _ | (_, .ub) => _) ≠ _
    rcases hil : ildDecode raw' bs.length mode with ⟨n, x | e | _⟩ <;> rw [hil] at h3
    · simp
    · simp
    · exact absurd rfl h3
  · simp [Res.bind]
  · exact absurd hrd hq

theorem keep_condCached (hc : BCfgSafe c secs) {m : Msec} (hm : secs m) {e : Bce} : Keep c secs K (condCached c m e) := by
  unfold condCached
  have := fun ip mode => keep_lift (c := c) (secs := secs) (K := K) (decodeInSection_safe hc hm (ip := ip) (mode := mode))
  repeat' first | exact this _ _ | keep1

theorem keep_indCallCached (hc : BCfgSafe c secs) {m : Msec} (hm : secs m) {e : Bce} : Keep c secs K (indCallCached c m e) := by
  unfold indCallCached
  have := fun ip mode => keep_lift (c := c) (secs := secs) (K := K) (decodeInSection_safe hc hm (ip := ip) (mode := mode))
  repeat' first | exact this _ _ | keep1

theorem decodeCached_at (hc : BCfgSafe c secs) {m : Msec} (hm : secs m) {mode : Mode} {again : BM Unit} (h : BSafe c secs K s)
    (ha : ∀ s', BSafe c secs K s' → s'.blk.ninsn = s.blk.ninsn → At c secs K again s') :
    At c secs K (decodeCached c m mode again) s := by
  unfold decodeCached
  refine at_get ?_
  have h0 := decodeInSection_safe hc hm (ip := s.ip) (mode := mode)
  rcases hd : decodeInSection c.env m s.ip mode with i | e | _
  · dsimp only
    refine at_ok (p := BM.block _) rfl ?_
    have h1 : BSafe c secs K { s with blk := { s.blk with iclass := i.ext.cls } } :=
      ⟨h.ev, h.img, h.maps, h.reqs, h.bc, h.others, h.ret, h.cnt, h.kept⟩
    refine at_bind (keep_logCall _ h1) (logCall_wp h1) (fun _ s2 e2 h2 => ?_) fun _ h => h
    have h3 := nextInsn_has (i := i) h2
    refine at_tryBind h3.1 h3.2 (fun _ s3 e3 h3 => ?_) fun e s3 _ h3 => ?_
    · dsimp only
      refine at_get ?_
      split
      · exact keep_pure _ h3
      split
      · exact keep_pure _ h3
      · exact ha s3 h3 (by rw [e3.2, e2])
    · cases e <;> dsimp only
      case badQuery => exact keep_proceedWithTrace hc _ h3
      all_goals exact keep_fail _ h3
  · cases e <;> dsimp only
    case badInsn => exact keep_proceedTruncated hc s h
    all_goals exact keep_fail s h
  · exact absurd hd h0

/-- `pt_blk_proceed_no_event_cached` -/
theorem noEventCached_at (hc : BCfgSafe c secs) {m : Msec} (hm : secs m) : ∀ (n : Nat) (s : Bdec), BSafe c secs K s →
    2 ^ 16 ≤ n + s.blk.ninsn → At c secs K (noEventCached c m n) s
  | 0, s, h, hn => by have := h.cnt; omega
  | n + 1, s, h, hn => by
    unfold noEventCached
    refine at_get ?_
    have h0 := bcLookup_has (m := m) (index := m.unmap s.ip) h
    refine at_bind h0.1 h0.2 (fun e s1 e1 h1 => ?_) fun _ h => h
    obtain ⟨e1, e2, -⟩ := e1
    split
    · exact keep_fillCache hc _ s1 h1
    rename_i hv
    have he := e1 (by simpa using hv)
    dsimp only
    split
    · exact keep_noEventUncached hc s1 h1
    split
    · exact keep_pure s1 h1
    rename_i hw
    have hcnt := h.cnt
    refine at_bind (keep_countInsn s1 h1) countInsn_wp (fun _ s2 e3 h2 => ?_) fun _ h => h
    refine at_ok (p := BM.modify _) rfl (at_ok (p := BM.block _) rfl ?_)
    have hb : s2.blk.ninsn = s.blk.ninsn := by rw [e3, e2]
    have h3 : ∀ f : Block → Block, (∀ b, (f b).ninsn = b.ninsn) → BSafe c secs K { s2 with
        ip := addDisp s.ip e.displacement
        blk := f { s2.blk with endIp := addDisp s.ip e.displacement, ninsn := (s2.blk.ninsn + e.ninsn) % 2 ^ 16, mode := e.mode } } :=
      fun f hf => ⟨h2.ev, h2.img, h2.maps, h2.reqs, h2.bc, h2.others, h2.ret, (by rw [hf]; exact Nat.mod_lt _ (by decide)), h2.kept⟩
    have hless : 2 ^ 16 ≤ n + (s2.blk.ninsn + e.ninsn) % 2 ^ 16 := by rw [hb]; omega
    split
    · exact at_ok (p := BM.block _) rfl (noEventCached_at hc hm n _ (h3 (fun b => { b with iclass := .unknown }) fun _ => rfl) hless)
    · refine at_ok (p := BM.block _) rfl ?_
      have h4 := h3 (fun b => { b with iclass := .condJump }) fun _ => rfl
      split
      · exact keep_condCached hc hm _ h4
      · exact decodeCached_at hc hm h4 fun s' h5 h6 => noEventCached_at hc hm n s' h5 (by rw [h6]; exact hless)
    · exact decodeCached_at hc hm (h3 id fun _ => rfl) fun s' h5 h6 => noEventCached_at hc hm n s' h5 (by rw [h6]; exact hless)
    · exact at_ok (p := BM.block _) rfl (keep_indCallCached hc hm _ (h3 (fun b => { b with iclass := .call }) fun _ => rfl))
    · exact at_ok (p := BM.block _) rfl (keep_compressedReturn (keep_proceedIndirect hc) _ (h3 (fun b => { b with iclass := .return }) fun _ => rfl))
    · exact at_ok (p := BM.block _) rfl (keep_proceedIndirect hc _ (h3 (fun b => { b with iclass := .indirect }) fun _ => rfl))

theorem mapped_has (h : BSafe c secs K s) : Has c secs K BM.mapped (fun r _ => r ≠ .ub) (fun _ _ => True) s := by
  refine ⟨keep_mapped s h, ?_⟩
  unfold wp BM.mapped
  exact h.maps.head.1

theorem blkLookup_has (h : BSafe c secs K s) :
    Has c secs K blkLookup (fun m _ => secs m) (fun _ _ => True) s := by
  unfold blkLookup
  refine has_bind (mapped_has h) (fun u s1 h1 e1 => ?_)
    fun _ _ h => h
  refine has_bind (mapped_has h1) (fun p s2 h2 e2 => ?_) fun _ _ h => h
  refine has_get ?_
  have := msecLookup_safe (secs := secs) s2.sc u p s2.ip e1 e2 h2.img
  refine has_bind (Q' := fun m _ => secs m) (E' := fun _ _ => True)
    (has_keep h2 (keep_cache fun sc hsc => ?_) ?_) (fun m s3 h3 e3 => ?_) fun _ _ h => h
  · have := msecLookup_safe (secs := secs) sc u p s2.ip e1 e2 hsc
    exact ⟨this.2.1, this.1⟩
  · show wp (BM.cache _) _ _ _
    unfold wp BM.cache
    dsimp only
    rcases hl : (msecLookup s2.sc u p s2.ip).2 with m | e | _
    · exact this.2.2 m hl
    · trivial
    · trivial
  · refine has_bind (Q' := fun _ _ => True) (E' := fun _ _ => True) (has_keep h3 (by keep) wp_any) (fun _ s4 h4 _ => ?_)
      fun _ _ h => h
    exact has_pure h4 e3

/-- `pt_blk_proceed_no_event` -/
theorem keep_noEvent (hc : BCfgSafe c secs) : Keep c secs K (noEvent c) := by
  intro s h
  unfold noEvent
  have h0 := blkLookup_has h
  refine at_tryBind h0.1 h0.2 (fun m s1 hm h1 => ?_) fun e s1 _ h1 => ?_
  · dsimp only
    refine at_get ?_
    split
    · exact keep_pure _ h1
    · refine at_ok (p := BM.block _) rfl ?_
      have h2 : BSafe c secs K { s1 with blk := { s1.blk with isid := m.isid } } :=
        ⟨h1.ev, h1.img, h1.maps, h1.reqs, h1.bc, h1.others, h1.ret, h1.cnt, h1.kept⟩
      refine at_ok (p := BM.available) rfl ?_
      have h3 := (keep_available (c := c) (secs := secs) (K := K) _ h2).2
      split
      · exact noEventCached_at hc hm _ _ h3 (by unfold blkFuel; omega)
      · exact keep_noEventUncached hc _ h3
  · cases e <;> dsimp only
    case nomap => exact keep_noEventUncached hc _ h1
    all_goals exact keep_fail _ h1
macro_rules | `(tactic| keep1) => `(tactic| with_reducible exact keep_noEvent ‹BCfgSafe _ _›)

end Ipt.Blk
