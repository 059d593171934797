import Verif.BlockReach
import Verif.QueryInv

/-!
# Helper lemmas: steps of the machine
-/

set_option linter.unusedSimpArgs false

namespace Ipt

open Ild Spec Props BM

variable {c : BlkCfg} {f0 f g : Flow} {n0 : Int} {is : List Insn} {its : List Item} {s s' : Bdec} {i : Insn} {e0 e : Event}
  {d : Evd} {out o : List BlkSeen}

/-! ### Executing an instruction with trace -/

/-- What is known about instructions. -/
def InsnShape (i : Insn) : Prop :=
  (i.ext.inst = .jmpabs → i.ext.cls = .jump) ∧
  (i.ext.isDirect = true → i.ext.inst ≠ .jmpabs → (i.ext.cls = .call ∨ i.ext.cls = .jump ∨ i.ext.cls = .condJump))

/-- The instruction was executed with trace. -/
def TookOne (c : BlkCfg) (calls : List Nat) (i : Insn) (s s' : Bdec) : Prop :=
  ∃ it t calls', Exec i calls [it] t calls' ∧ Takes c s.trace [it] s'.trace ∧ s'.calm = s.calm ∧ s'.sc = s.sc ∧ s'.ip = t ∧
    s'.retstack.Holds calls'

variable {calls : List Nat}

theorem indirect_took (h : s.retstack.Holds (calling i calls ((i.ip + i.size) % 2 ^ 64)))
    (hcl : i.ext.cls ∉ [.other, .ptwrite, .unknown, .condJump]) (hd : ¬ Direct i) :
    wp (proceedIndirect c) (fun _ s' => TookOne c calls i s s') (fun _ _ => True) s := by
  have hx : ∀ t, Exec i calls [.target (some t)] t (calling i calls ((i.ip + i.size) % 2 ^ 64)) :=
    fun t => .target t _ hcl hd (addr_fall i)
  unfold proceedIndirect
  rw [wp_bind, wp_get]
  rcases he : s.event with _ | e
  · trivial
  dsimp only
  rcases hda : e.data <;> dsimp only <;> (try trivial)
  · rename_i ip
    rw [wp_ite]
    refine ⟨fun _ => trivial, fun hs => ?_⟩
    rw [wp_bind, wp_modify]
    unfold blkTick
    rw [wp_bind, wp_get]
    dsimp only
    rw [he]
    dsimp only
    rw [wp_ite]
    have hit := items_tip' hda hs
    refine ⟨fun ht => ?_, fun ht => ?_⟩
    · rw [wp_modify]
      refine ⟨_, ip, _, hx ip, ?_, rfl, rfl, rfl, h⟩
      have := Takes.tick (c := c) s.ev e ip s.ip s.status ht.1 hit
      unfold Bdec.trace
      rwa [he]
    · refine wp_fetch (e := e) rfl (fun _ _ _ => trivial) ?_
      intro s' h1 h2 h3 h4 h5 h6 h7 h8 h9 h10 _
      refine ⟨_, ip, _, hx ip, ?_, ?_, h6, h4, by rw [h5]; exact h⟩
      · unfold Bdec.trace
        rw [he]
        rcases h10 with ⟨e', a, b, d⟩ | ⟨x, a, b, d⟩
        · rw [b, d]; exact .target _ _ _ _ _ _ hit a
        · rw [b, d]; exact .last _ _ _ _ _ _ hit a
      · rw [h1]; rfl
  · rename_i bits n
    rw [wp_bind, wp_try]
    unfold wp
    rw [show BM.evt (evtNext c.evt) s = ({ s with ev := (evtNext c.evt s.ev).1 }, (evtNext c.evt s.ev).2) from rfl]
    dsimp only
    rcases hn : evtNext c.evt s.ev with ⟨d, e' | x | _⟩ <;> dsimp only
    · rcases hda' : e'.data <;> dsimp only
      all_goals first
        | exact trivial
        | skip
      rename_i ip
      refine ⟨_, ip, _, hx ip, ?_, rfl, rfl, rfl, h⟩
      unfold Bdec.trace
      dsimp only
      rw [he]
      exact .deferred _ _ _ _ _ _ _ _ hda hn hda'
    · trivial

theorem return_took (hsh : InsnShape i) (h : s.retstack.Holds (calling i calls ((i.ip + i.size) % 2 ^ 64)))
    (hcl : i.ext.cls = .return) :
    wp (compressedReturn (proceedIndirect c)) (fun _ s' => TookOne c calls i s s') (fun _ _ => True) s := by
  have hd : ¬ Direct i := by
    rintro ⟨h1, h2⟩
    have := hsh.2 h1 h2
    simp [hcl] at this
  unfold compressedReturn
  rw [wp_bind, wp_try]
  refine wp_cond (fun e => ?_) fun b e e' hs hit => ?_
  · cases e <;> dsimp only <;> first | exact indirect_took h (by simp [hcl]) hd | trivial
  · rcases b with _ | _ <;> dsimp only
    · trivial
    · have hc := h
      rw [calling_of_ne (by simp [hcl])] at hc
      rw [wp_pop]
      dsimp only
      rcases calls with _ | ⟨t, rest⟩
      · have hp := pop_holds hc
        dsimp only at hp
        rw [hp]
        trivial
      · have hp := pop_holds hc
        dsimp only at hp
        obtain ⟨r, hr, hh⟩ := hp
        rw [hr]
        dsimp only
        refine ⟨_, t, rest, .ret t rest hcl rfl, ?_, rfl, rfl, rfl, hh⟩
        unfold Bdec.trace
        rw [hs]
        exact .bit _ _ _ _ _ hit

/-- `pt_blk_proceed_with_trace`. -/
theorem withTrace_took (hsh : InsnShape i) (h : s.retstack.Holds (calling i calls ((i.ip + i.size) % 2 ^ 64))) :
    wp (proceedWithTrace c i) (fun _ s' => TookOne c calls i s s') (fun _ _ => True) s := by
  have far : i.ext.cls = .farCall ∨ i.ext.cls = .farReturn ∨ i.ext.cls = .farJump ∨ i.ext.cls = .indirect →
      wp (proceedIndirect c) (fun _ s' => TookOne c calls i s s') (fun _ _ => True) s := by
    intro hcl
    refine indirect_took h (by rcases hcl with h | h | h | h <;> simp [h]) ?_
    rintro ⟨h1, h2⟩
    have := hsh.2 h1 h2
    rcases hcl with h | h | h | h <;> simp [h] at this
  unfold proceedWithTrace
  rcases hcl : i.ext.cls <;> dsimp only <;> (try trivial)
  · rw [wp_ite]
    exact ⟨fun _ => trivial, fun hd => indirect_took h (by simp [hcl]) fun h => hd h.1⟩
  · exact return_took hsh h hcl
  · rw [wp_ite, wp_ite]
    exact ⟨fun hj => indirect_took h (by simp [hcl]) fun h => h.2 hj,
      fun hj => ⟨fun _ => trivial, fun hd => indirect_took h (by simp [hcl]) fun h => hd h.1⟩⟩
  · rw [wp_bind]
    refine wp_cond (fun e => trivial) fun b e e' hs hit => ?_
    rw [wp_modify]
    refine ⟨_, _, calls, .cond b _ hcl ?_, ?_, rfl, rfl, rfl, ?_⟩
    · rcases b with _ | _
      · simpa using addr_fall i
      · simpa using addr_target i i.ext.displacement
    · unfold Bdec.trace
      rw [hs]
      exact .bit _ _ _ _ _ hit
    · rwa [calling_of_ne (by simp [hcl])] at h
  · exact far (by simp [hcl])
  · exact far (by simp [hcl])
  · exact far (by simp [hcl])
  · exact far (by simp [hcl])

/-- An instruction without trace. -/
theorem nextInsn_exec (hsh : InsnShape i) :
    wp (nextInsn i) (fun _ s' => ∃ t, Exec i calls [] t (calling i calls ((i.ip + i.size) % 2 ^ 64)) ∧ Resume i t ∧
        s' = { s with ip := t })
      (fun er s' => s' = s ∧ (er = .badQuery → Asking i)) s := by
  unfold nextInsn
  rw [wp_bind, wp_lift]
  have main : ∀ r, nextIp i = r → match r with
      | .ok t => Exec i calls [] t (calling i calls ((i.ip + i.size) % 2 ^ 64)) ∧ Resume i t
      | .err e => e = .badQuery → Asking i
      | .ub => True := by
    intro r hr
    have direct : Direct i → i.ext.cls = .call ∨ i.ext.cls = .jump →
        Exec i calls [] (addDisp ((i.ip + i.size) % 2 ^ 64) i.ext.displacement) (calling i calls ((i.ip + i.size) % 2 ^ 64)) ∧
          Resume i (addDisp ((i.ip + i.size) % 2 ^ 64) i.ext.displacement) := by
      intro hd hcl
      refine ⟨.direct _ _ (by rcases hcl with h | h <;> simp [h]) hd (addr_target i _) (addr_fall i), ?_⟩
      unfold Resume
      rcases hcl with h | h <;> rw [h] <;> dsimp only
      · rw [if_pos hd.1]; exact addr_target i _
      · rw [if_pos (show i.ext.isDirect = true ∧ i.ext.inst ≠ .jmpabs from hd)]; exact addr_target i _
    have fall : i.ext.cls = .other ∨ i.ext.cls = .ptwrite →
        Exec i calls [] ((i.ip + i.size) % 2 ^ 64) (calling i calls ((i.ip + i.size) % 2 ^ 64)) ∧ Resume i ((i.ip + i.size) % 2 ^ 64) := by
      intro hcl
      have hx : Exec i calls [] ((i.ip + i.size) % 2 ^ 64) calls := .fall _ hcl (addr_fall i)
      rw [calling_of_ne (by rcases hcl with h | h <;> simp [h])]
      refine ⟨hx, ?_⟩
      unfold Resume
      rcases hcl with h | h <;> rw [h] <;> exact addr_fall i
    have hno : i.ext.cls = .return ∨ i.ext.cls = .farCall ∨ i.ext.cls = .farReturn ∨ i.ext.cls = .farJump ∨
        i.ext.cls = .indirect → Asking i := by
      intro hcl
      refine ⟨by rcases hcl with h | h | h | h | h <;> simp [h], .inr ?_⟩
      rintro ⟨h1, h2⟩
      have := hsh.2 h1 h2
      rcases hcl with h | h | h | h | h <;> simp [h] at this
    unfold nextIp at hr
    dsimp only at hr
    rcases hcl : i.ext.cls <;> simp only [hcl] at hr <;> (try subst hr)
    · simp
    · exact fall (.inl hcl)
    · by_cases hd : i.ext.isDirect = true
      · rw [if_pos hd]
        refine direct ⟨hd, ?_⟩ (.inl hcl)
        intro hj
        have := hsh.1 hj
        rw [hcl] at this; cases this
      · rw [if_neg hd]
        exact fun _ => ⟨by simp [hcl], .inr fun h => hd h.1⟩
    · exact fun _ => hno (by simp [hcl])
    · by_cases hj : i.ext.inst = .jmpabs
      · rw [if_pos hj]
        exact fun _ => ⟨by simp [hcl], .inr fun h => h.2 hj⟩
      · rw [if_neg hj]
        by_cases hd : i.ext.isDirect = true
        · rw [if_pos hd]
          exact direct ⟨hd, hj⟩ (.inr hcl)
        · rw [if_neg hd]
          exact fun _ => ⟨by simp [hcl], .inr fun h => hd h.1⟩
    · exact fun _ => ⟨by simp [hcl], .inl hcl⟩
    · exact fun _ => hno (by simp [hcl])
    · exact fun _ => hno (by simp [hcl])
    · exact fun _ => hno (by simp [hcl])
    · exact fall (.inr hcl)
    · exact fun _ => hno (by simp [hcl])
  have := main _ rfl
  rcases hr : nextIp i with t | e | _ <;> rw [hr] at this <;> dsimp only at this ⊢
  · exact ⟨t, this.1, this.2, rfl⟩
  · exact ⟨rfl, this⟩

/-! ### Accounting for items -/

/-- An event that the user is shown. -/
def Normal (e : Event) : Prop := (∀ ip, e.data ≠ .tip ip) ∧ ∀ b n, e.data ≠ .tnt b n

theorem blkItems_normal (h : Normal e) : blkItems e = [.event e] := by
  unfold blkItems items
  rcases hx : e.data <;> dsimp only <;> first | exact absurd hx (h.1 _) | exact absurd hx (h.2 _ _)

/-- The items that were not taken yet. -/
def leftover (s : Bdec) (f : Flow) : List Item :=
  match f.pend with
  | some _ => []
  | none => match s.event with
    | some e => blkItems e
    | none => []

/-- Without an event, the event decoder has failed, and the decoder's status says how. -/
def BEnded (c : BlkCfg) (d : Evd) (s : Bdec) (es : List Event) : Prop :=
  s.event = none → ∃ er, s.status = some er ∧ (evtNext c.evt (evtFinal c.evt (nexts es.length) d)).2 = .err er

/-- The items taken so far. -/
def BAcc (c : BlkCfg) (d : Evd) (s : Bdec) (f : Flow) (its : List Item) : Prop :=
  ∃ es, Delivers c.evt d es ∧ (s.event ≠ none → evtFinal c.evt (nexts es.length) d = s.ev) ∧ BEnded c d s es ∧
    SameItems (its ++ leftover s f) (es.flatMap blkItems)

theorem _root_.Ipt.Spec.SameItems.append {a b x y : List Item} (h : SameItems a b) (h' : SameItems x y) : SameItems (a ++ x) (b ++ y) := by
  unfold SameItems at *
  simp only [List.filter_append]
  exact ⟨by rw [h.1, h'.1], by rw [h.2, h'.2]⟩

theorem _root_.Ipt.Spec.SameItems.rfl (a : List Item) : SameItems a a := ⟨Eq.refl _, Eq.refl _⟩

/-- The items that will be taken later do not start with an event, because the current event is not one the user is shown. -/
def Fair (s : Bdec) (f : Flow) (rest : List Item) : Prop :=
  f.pend = none → (s.event = none ∨ ∃ e, s.event = some e ∧ ¬ Normal e ∧ blkItems e ≠ []) → ¬ startsWithEvent rest

/-- The steps so far. -/
def Trail (c : BlkCfg) (d : Evd) (f0 : Flow) (out : List BlkSeen) (s : Bdec) (f : Flow) : Prop :=
  ∃ its, (∀ rest, Fair s f rest → f0.BlkSteps c rest its out f) ∧ BAcc c d s f its

theorem _root_.Ipt.Spec.Flow.BlkSteps.snoc {f0 f g : Flow} {rest its its' : List Item} {out o : List BlkSeen}
    (h : f0.BlkSteps c (its' ++ rest) its out f) (h' : f.BlkStep c rest its' o g) :
    f0.BlkSteps c rest (its ++ its') (out ++ o) g := by
  induction h with
  | nil f =>
    have := Flow.BlkSteps.cons (rest := rest) h' (.nil g)
    simpa using this
  | @cons f1 g1 h1 its1 its2 out1 out2 a b ih =>
    have h2 : Flow.BlkStep c ((its2 ++ its') ++ rest) f1 its1 out1 g1 := by rw [List.append_assoc]; exact a
    have := Flow.BlkSteps.cons h2 (ih h')
    simpa using this

/-- A step that takes nothing. -/
theorem Trail.quiet1 (h : Trail c d f0 out s f) (hs : ∀ rest, Fair s' g rest → f.BlkStep c rest [] o g)
    (hl : leftover s' g = leftover s f)
    (he : s'.event ≠ none → s.event ≠ none ∧ s'.ev = s.ev) (hw : f.pend ≠ none ∨ (g.pend = f.pend ∧ s'.event = s.event))
    (hz : s'.event = none → s.event = none ∧ s'.status = s.status := by first | exact fun h => ⟨h, rfl⟩ | (intro h; cases h)) :
    Trail c d f0 (out ++ o) s' g := by
  obtain ⟨its, h1, es, h2, h3, hE, h4⟩ := h
  refine ⟨its, fun rest hr => ?_, es, h2, fun hn => ?_, fun hn => (by rw [(hz hn).2]; exact hE (hz hn).1), by rw [hl]; exact h4⟩
  · have : Fair s f ([] ++ rest) := by
      intro hp hx
      rcases hw with hw | ⟨hw1, hw2⟩
      · exact absurd hp hw
      · exact hr (hw1.trans hp) (by rw [hw2]; exact hx)
    have := (h1 _ this).snoc (hs rest hr)
    rwa [List.append_nil] at this
  · obtain ⟨a, b⟩ := he hn
    rw [b]
    exact h3 a

theorem Trail.quiet (h : Trail c d f0 out s f) (hs : ∀ rest, f.BlkStep c rest [] o g) (hl : leftover s' g = leftover s f)
    (he : s'.event ≠ none → s.event ≠ none ∧ s'.ev = s.ev)
    (hw : f.pend ≠ none ∨ (g.pend = f.pend ∧ s'.event = s.event) := by exact .inr ⟨rfl, rfl⟩)
    (hz : s'.event = none → s.event = none ∧ s'.status = s.status := by first | exact fun h => ⟨h, rfl⟩ | (intro h; cases h)) :
    Trail c d f0 (out ++ o) s' g := h.quiet1 (fun rest _ => hs rest) hl he hw hz

/-- No step. -/
theorem Trail.still (h : Trail c d f0 out s f) (hl : s'.event = s.event)
    (he : s'.event ≠ none → s.event ≠ none ∧ s'.ev = s.ev)
    (hz : s'.event = none → s.event = none ∧ s'.status = s.status := by first | exact fun h => ⟨h, rfl⟩ | (intro h; cases h)) :
    Trail c d f0 out s' f := by
  obtain ⟨its, h1, es, h2, h3, hE, h4⟩ := h
  refine ⟨its, fun rest hr => h1 rest fun hp hx => hr hp (by rw [hl]; exact hx), es, h2, fun hn => ?_,
    fun hn => (by rw [(hz hn).2]; exact hE (hz hn).1), ?_⟩
  · obtain ⟨a, b⟩ := he hn
    rw [b]
    exact h3 a
  · unfold leftover at h4 ⊢
    rw [hl]; exact h4

/-- Taking an event. -/
theorem Trail.take (h : Trail c d f0 out s f) (hp : f.pend = none) (he : s.event = some e) (hn : Normal e) :
    Trail c d f0 out s { f with pend := some e, late := false } := by
  obtain ⟨its, h1, es, h2, h3, hE, h4⟩ := h
  refine ⟨its ++ [.event e], fun rest _ => ?_, es, h2, h3, hE, ?_⟩
  · have : Fair s f ([.event e] ++ rest) := by
      intro _ hx
      rw [he] at hx
      rcases hx with hx | ⟨e', hx, hx1, -⟩
      · cases hx
      · cases hx; exact absurd hn hx1
    have := (h1 _ this).snoc (.take f e hp)
    rwa [List.append_nil] at this
  unfold leftover at h4 ⊢
  rw [hp, he] at h4
  dsimp only at h4 ⊢
  rw [blkItems_normal hn] at h4
  rw [List.append_nil]
  exact h4

/-- The next event was fetched while nothing was left over. -/
theorem Trail.fetched (h : Trail c d f0 out s f) (hl : leftover s f = []) (hp : f.pend = none) (he : s.event ≠ none)
    (hf : (∃ e', evtNext c.evt s.ev = (s'.ev, .ok e') ∧ s'.event = some e') ∨
      ∃ x, evtNext c.evt s.ev = (s'.ev, .err x) ∧ s'.event = none ∧ s'.status = some x) :
    Trail c d f0 out s' f := by
  obtain ⟨its, h1, es, h2, h3, -, h4⟩ := h
  have hx : ∀ rest, Fair s f rest := by
    intro rest _ hx
    exfalso
    unfold leftover at hl
    rcases hx with hx | ⟨e, hx, -, hx1⟩
    · exact he hx
    · rw [hp, hx] at hl; exact hx1 hl
  have h1 := fun rest (_ : Fair s' f rest) => h1 rest (hx rest)
  rw [hl, List.append_nil] at h4
  have h5 := h3 he
  rcases hf with ⟨e', hf, h6⟩ | ⟨x, hf, h6, h8⟩
  · refine ⟨its, h1, es ++ [e'], h2.snoc (by rw [h5]; exact hf), fun _ => ?_, fun h => (by rw [h6] at h; cases h), ?_⟩
    · rw [List.length_append, List.length_singleton, evtFinal_snoc, h5, next_run hf]
    · unfold leftover
      rw [hp, h6]
      dsimp only
      rw [List.flatMap_append]
      refine h4.append ?_
      simp [SameItems.rfl]
  · refine ⟨its, h1, es, h2, fun h => absurd h6 h, fun _ => ⟨x, h8, by rw [h5, hf]⟩, ?_⟩
    unfold leftover
    rw [hp, h6]
    dsimp only
    rw [List.append_nil]
    exact h4

theorem items_bits {b : Bool} {e' : Event} (h : items e = .bit b :: items e') : blkItems e = .bit b :: blkItems e' := by
  have key : ∀ x : Event, (∀ y ∈ items x, y.isBit = true) → items x = blkItems x := by
    intro x hx
    unfold blkItems
    rcases hd : x.data <;> dsimp only
    rename_i ip
    exfalso
    have := hx (.target (if x.ipSuppressed = true then none else some ip)) (by unfold items; rw [hd]; simp)
    cases this
  have h1 : ∀ y ∈ items e, y.isBit = true := by
    unfold items at h ⊢
    rcases hd : e.data <;> rw [hd] at h <;> dsimp only at h ⊢ <;>
      first
      | (intro y hy; obtain ⟨a, -, rfl⟩ := List.mem_map.1 hy; rfl)
      | (exfalso; cases h; done)
  rw [← key e h1, h, key e']
  intro y hy
  exact h1 y (by rw [h]; simp [hy])

/-- Items were taken from the trace.  A tick event may have been added; then it waits. -/
theorem Trail.takes (h : Trail c d f0 out s f) (hp : f.pend = none)
    (hs : ∀ rest, (its = [] → s'.event = s.event ∧ Fair s' g rest) → f.BlkStep c rest its o g) (hg : g.pend = none)
    (ht : Takes c s.trace its s'.trace) :
    Trail c d f0 (out ++ o) s' g ∨
      ∃ e ip, c.tick = true ∧ s'.event = some e ∧ e.data = .tick ip ∧ Trail c d f0 (out ++ o) s' { g with pend := some e } := by
  obtain ⟨xs, h1, es, h2, h3, hE, h4⟩ := h
  have h0 : ∀ rest it, its = [it] → ¬ startsWithEvent [it] → f0.BlkSteps c rest (xs ++ its) (out ++ o) g := by
    intro rest it hi hne
    refine (h1 _ fun _ _ => ?_).snoc (hs rest fun h => by rw [hi] at h; cases h)
    rw [hi]
    intro hx
    apply hne
    cases it <;> exact hx
  unfold Bdec.trace at ht
  generalize hx : (s.ev, s.event, s.status) = x at ht
  generalize hy : (s'.ev, s'.event, s'.status) = y at ht
  have tgt : ∀ (e : Event) ip, items e = [.target (some ip)] → blkItems e = [.target (some ip)] := by
    intro e ip hi
    unfold blkItems
    rcases hd : e.data <;> dsimp only <;> try exact hi
    unfold items at hi
    rw [hd] at hi
    dsimp only at hi
    simp only [List.cons.injEq, Item.target.injEq, and_true] at hi
    split at hi
    · cases hi
    · rw [hi]
  unfold leftover at h4
  rw [hp] at h4
  dsimp only at h4
  cases ht with
  | nothing =>
    subst hx
    simp only [Prod.mk.injEq] at hy
    obtain ⟨b1, b2, b3⟩ := hy
    have h5 : ∀ rest, Fair s' g rest → f0.BlkSteps c rest (xs ++ []) (out ++ o) g := fun rest hr =>
      (h1 _ fun _ hx => hr hg (by rw [b2]; exact hx)).snoc (hs rest fun _ => ⟨b2, hr⟩)
    refine .inl ⟨_, h5, es, h2, ?_, fun h => (by rw [b3]; rw [b2] at h; exact hE h), ?_⟩
    · intro hn
      rw [b1]; rw [b2] at hn; exact h3 hn
    · unfold leftover
      rw [hg]
      dsimp only
      rw [b2, List.append_nil]; exact h4
  | bit d1 e1 e2 b x1 hi =>
    simp only [Prod.mk.injEq] at hx hy
    obtain ⟨a1, a2, a3⟩ := hx
    obtain ⟨b1, b2, b3⟩ := hy
    refine .inl ⟨_, fun rest _ => h0 rest _ rfl id, es, h2, fun _ => ?_, fun h => (by rw [b2] at h; cases h), ?_⟩
    · rw [b1, ← a1]; exact h3 (by rw [a2]; simp)
    · unfold leftover
      rw [hg, b2]
      dsimp only
      rw [a2] at h4
      dsimp only at h4
      rw [items_bits hi] at h4
      rw [List.append_assoc]
      exact h4
  | target d1 e1 ip d2 e2 x1 hi hn =>
    simp only [Prod.mk.injEq] at hx hy
    obtain ⟨a1, a2, a3⟩ := hx
    obtain ⟨b1, b2, b3⟩ := hy
    have h6 := h3 (by rw [a2]; simp)
    rw [a1] at h6
    refine .inl ⟨_, fun rest _ => h0 rest _ rfl id, es ++ [e2], h2.snoc (by rw [h6]; exact hn), fun _ => ?_,
      fun h => (by rw [b2] at h; cases h), ?_⟩
    · rw [List.length_append, List.length_singleton, evtFinal_snoc, h6, next_run hn, b1]
    · unfold leftover
      rw [hg, b2]
      dsimp only
      rw [a2] at h4
      dsimp only at h4
      rw [tgt _ _ hi] at h4
      rw [List.flatMap_append]
      refine h4.append ?_
      simp [SameItems.rfl]
  | last d1 e1 ip d2 x1 y1 hi hn =>
    simp only [Prod.mk.injEq] at hx hy
    obtain ⟨a1, a2, a3⟩ := hx
    obtain ⟨b1, b2, b3⟩ := hy
    have h6 := h3 (by rw [a2]; simp)
    rw [a1] at h6
    refine .inl ⟨_, fun rest _ => h0 rest _ rfl id, es, h2, fun h => absurd b2 h, fun _ => ⟨y1, b3, by rw [h6, hn]⟩, ?_⟩
    unfold leftover
    rw [hg, b2]
    dsimp only
    rw [a2] at h4
    dsimp only at h4
    rw [tgt _ _ hi] at h4
    rw [List.append_nil]
    exact h4
  | tick d1 e1 ip a x1 hc hi =>
    simp only [Prod.mk.injEq] at hx hy
    obtain ⟨a1, a2, a3⟩ := hx
    obtain ⟨b1, b2, b3⟩ := hy
    refine .inr ⟨_, a, hc, b2, rfl, xs ++ [.target (some ip)], ?_, es, h2, fun _ => ?_,
      fun h => (by rw [b2] at h; cases h), ?_⟩
    · intro rest _
      have := (h0 ([] ++ rest) _ rfl id).snoc (.tick g { e1 with data := .tick a } a hc hg rfl)
      simpa using this
    · rw [b1, ← a1]; exact h3 (by rw [a2]; simp)
    · unfold leftover
      dsimp only
      rw [a2] at h4
      dsimp only at h4
      rw [tgt _ _ hi] at h4
      rw [List.append_nil]
      exact h4
  | deferred d1 e1 d2 e2 bits n ip x1 hda hn hdb =>
    simp only [Prod.mk.injEq] at hx hy
    obtain ⟨a1, a2, a3⟩ := hx
    obtain ⟨b1, b2, b3⟩ := hy
    have h6 := h3 (by rw [a2]; simp)
    rw [a1] at h6
    have hbits : blkItems e1 = (tntBits bits n).map .bit := by
      unfold blkItems items
      rw [hda]
    have htip : blkItems e2 = [.target (some ip)] := by
      unfold blkItems
      rw [hdb]
    refine .inl ⟨_, fun rest _ => h0 rest _ rfl id, es ++ [e2], h2.snoc (by rw [h6]; exact hn), fun _ => ?_,
      fun h => (by rw [b2] at h; cases h), ?_⟩
    · rw [List.length_append, List.length_singleton, evtFinal_snoc, h6, next_run hn, b1]
    · unfold leftover
      rw [hg, b2]
      dsimp only
      rw [a2] at h4
      dsimp only at h4
      rw [List.flatMap_append]
      unfold SameItems at h4 ⊢
      simp only [List.filter_append, List.flatMap_cons, List.flatMap_nil, List.append_nil, htip, hbits] at h4 ⊢
      refine ⟨?_, ?_⟩
      · rw [show [Item.target (some ip)].filter (fun x => !x.isTarget) = [] from Eq.refl _]
        simpa using h4.1
      · rw [filter_nobits] at h4 ⊢
        rw [List.append_nil] at h4 ⊢
        rw [h4.2]

end Ipt
