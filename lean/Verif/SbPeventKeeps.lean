import Verif.SbPeventApply
import Verif.Props.Pevent

/-! # Lemmas: the callbacks of the perf event decoder keep sessions sound -/

namespace Ipt

open Spec Spec.Processes

variable {ι κ : Type} (env : SbEnv ι κ) {l : List PevPriv} {s : SbBoth ι κ}

theorem Moves.active {p p' : PevPriv} (h : Moves p p') (ha : Active p) : Active p' := by
  unfold Moves at h
  rw [h]
  exact ⟨ha.shift, ha.read⟩

theorem Moves.ended {p p' : PevPriv} (h : Moves p p') (ha : Ended p) : Ended p' := by
  unfold Moves at h
  rw [h]
  exact ⟨ha.shift, ha.ended⟩

theorem Moves.rest {p p' : PevPriv} (h : Moves p p') : p'.rest = p.rest := by
  unfold Moves at h
  rw [h]; rfl

/-- The time of the current record, or zero if it has none. -/
def PevPriv.time (p : PevPriv) : Nat := if p.event.sample.time = none then 0 else p.event.sample.tsc

theorem Moves.time {p p' : PevPriv} (h : Moves p p') : p'.time = p.time := by
  unfold Moves at h
  rw [h]; rfl

/-- Whether the current record is to be applied with an event. -/
def PevPriv.due (p : PevPriv) (ev : Event) : Prop := p.current ≠ some p.next ∧ (p.event.sample.time = none ∨ p.event.sample.tsc ≤ ev.tsc)

instance (p : PevPriv) (ev : Event) : Decidable (p.due ev) := by unfold PevPriv.due; exact inferInstance

theorem due_iff {p : PevPriv} (ha : Active p) (ev : Event) : p.due ev ↔ p.time ≤ ev.tsc := by
  obtain ⟨n, _, hc, _⟩ := ha.shape
  unfold PevPriv.due PevPriv.time
  split
  · rename_i h; simp [h, hc]
  · rename_i h; simp [h, hc]

/-- Whether a pending switch is done. -/
def PevPriv.ready (p : PevPriv) (ev : Event) : Prop :=
  p.location.canSwitch = true ∨ (plocFromEvent p.kernelStart p.location ev).canSwitch = true

instance (p : PevPriv) (ev : Event) : Decidable (p.ready ev) := by unfold PevPriv.ready; exact inferInstance

/-- What showing an event does. -/
structure ShownTo (ev : Event) (l : List PevPriv) (s s' : SbBoth ι κ) : Prop where
  after : After l s s' s.world.table
  location : s'.priv.location = plocFromEvent s.priv.kernelStart s.priv.location ev
  control : if s.priv.nextContext ≠ none ∧ s.priv.ready ev then
      s'.priv.context = s.priv.nextContext ∧ s'.priv.nextContext = none ∧ s'.world.image = s.priv.nextContext
    else Still s s'

theorem apply_does {image : Bool} {ev : Event} (h : s.Good l) (ha : Active s.priv ∨ Ended s.priv) :
    (pevApply env image ev).Does s
      (fun _ s' => if s.priv.due ev then Applied env image l s s' else ShownTo ev l s s') (Left l s) := by
  unfold pevApply
  rw [SbM.does_bind, SbM.does_get]
  dsimp only
  by_cases hd : s.priv.due ev
  · have hd' := hd
    unfold PevPriv.due at hd'
    rw [if_pos hd']
    rcases ha with ha | ha
    · exact (applyRecord_does env h ha).mono (fun _ s' h => by rw [if_pos hd]; exact h) fun _ _ h => h
    · exact absurd ha.ended hd.1
  have hd' := hd
  unfold PevPriv.due at hd'
  rw [if_neg hd', SbM.does_bind, SbM.does_modify]
  simp only [if_neg hd]
  have hg : SbBoth.Good l { s with priv := { s.priv with location := plocFromEvent s.priv.kernelStart s.priv.location ev } } :=
    ⟨h.own.congr rfl h.own.nodup fun _ => rfl, h.uniq, fun i hi => by
      obtain ⟨p, hp, hc⟩ := h.image i hi
      rcases List.mem_cons.1 hp with rfl | hp
      · exact ⟨_, List.mem_cons_self, hc⟩
      · exact ⟨p, by simp [hp], hc⟩⟩
  have hstill : (¬ (s.priv.nextContext ≠ none ∧ s.priv.ready ev)) → ShownTo ev l s
      { s with priv := { s.priv with location := plocFromEvent s.priv.kernelStart s.priv.location ev } } := fun hn =>
    ⟨⟨hg, rfl, rfl, rfl⟩, rfl, by rw [if_neg hn]; exact ⟨rfl, rfl, rfl⟩⟩
  by_cases hn : s.priv.nextContext = none
  · rw [if_pos hn]
    by_cases hc : s.priv.current = some s.priv.next
    · rw [if_pos hc]
      exact ⟨hg, rfl, rfl, rfl⟩
    · rw [if_neg hc]
      exact hstill fun h => h.1 hn
  rw [if_neg hn]
  have hsw : s.priv.ready ev → (pevSwitchContexts env image).Does
      { s with priv := { s.priv with location := plocFromEvent s.priv.kernelStart s.priv.location ev } }
      (fun _ s' => ShownTo ev l s s') (Left l s) := by
    intro hr
    refine (switch_alike env hg).mono (fun _ s' ⟨g, al, _, hp, hi⟩ => ?_) fun _ s' ⟨g, hp, hs⟩ => ?_
    · refine ⟨⟨g, by rw [hp]; exact rfl, al.same.kernel, al.table hg.uniq g.own⟩, by rw [hp], ?_⟩
      rw [if_pos ⟨hn, hr⟩]
      exact ⟨by rw [hp], by rw [hp], hi⟩
    · exact ⟨g, by rw [hp]; exact rfl, by rw [hp], hs.image⟩
  by_cases hl : s.priv.location.canSwitch = true
  · rw [if_pos hl]; exact hsw (.inl hl)
  rw [if_neg hl]
  by_cases hl' : (plocFromEvent s.priv.kernelStart s.priv.location ev).canSwitch = true
  · rw [if_pos hl']; exact hsw (.inr hl')
  rw [if_neg hl']
  exact hstill fun h => h.2.elim hl hl'

/-- What is left by all calls. -/
theorem applied_left {image : Bool} {ev : Event} {s' : SbBoth ι κ}
    (h : if s.priv.due ev then Applied env image l s s' else ShownTo ev l s s') : s'.Good l ∧ Moves s.priv s'.priv := by
  split at h
  · exact ⟨h.after.good, h.after.moves⟩
  · exact ⟨h.after.good, h.after.moves⟩

/-- The memory from the next record on. -/
theorem fetch_eq (p : PevPriv) : pevFetch p = match pevRead p.pev (p.buf.drop p.next) with
    | .ok (e, n) => ({ p with current := some p.next, event := adjusted p.tscOffset e, next := p.next + n },
        .ok (if e.sample.time = none then 0 else pevAdjust p.tscOffset e.sample.tsc))
    | .err e => ({ p with current := some p.next }, .err e)
    | .ub => (p, .ub) := by
  unfold pevFetch adjusted
  rcases pevRead p.pev (p.buf.drop p.next) with ⟨e, n⟩ | _ | _
  · dsimp only
    by_cases h : e.sample.time = none
    · rw [if_pos h, if_pos h, if_pos h]
    · rw [if_neg h, if_neg h, if_neg h]
  · rfl
  · rfl

/-- A record was fetched. -/
theorem fetched_active {p : PevPriv} (hs : p.pev.timeShift < 64) (hb : Boundary p.pev p.buf p.next) {e : PevEvent} {n : Nat}
    (hr : pevRead p.pev (p.buf.drop p.next) = .ok (e, n)) :
    Active { p with current := some p.next, event := adjusted p.tscOffset e, next := p.next + n } :=
  ⟨hs, p.next, e, n, rfl, hb, hr, rfl, rfl⟩

theorem sound_reset {w : SbWorld ι κ} {p p' : PevPriv} (h : Sound w (p :: l)) (hc : p'.context = p.context)
    (hn : p'.nextContext = p.nextContext) : Sound w (p' :: l) :=
  ⟨h.own.congr rfl h.own.nodup fun _ => by simp [SbWorld.refs, refsOf, PevPriv.refs, hc, hn], h.uniq, fun i hi => by
    obtain ⟨q, hq, hqc⟩ := h.image i hi
    rcases List.mem_cons.1 hq with rfl | hq
    · exact ⟨_, List.mem_cons_self, hc.trans hqc⟩
    · exact ⟨q, by simp [hq], hqc⟩⟩

theorem pevError_left {note : SbNote} (h : s.Good l) :
    (pevError env note).Does s (fun _ s' => s'.Good l ∧ s'.priv = s.priv) (fun _ s' => s'.Good l ∧ s'.priv = s.priv) :=
  (pevError_does env).mono (fun _ s' he => by subst he; exact ⟨h.ext _, rfl⟩) fun _ s' he => by subst he; exact ⟨h.ext _, rfl⟩

theorem dtor_own {w : SbWorld ι κ} {p : PevPriv} {rs : List Nat} (h : Own w (p.refs ++ rs)) :
    (pevDtor p).Does w (fun _ w' => Own w' rs ∧ SbSame w w' ∧ w'.held = w.held) (fun _ _ => False) := by
  unfold pevDtor
  have put : ∀ (o : Option Nat) (w1 : SbWorld ι κ) (rs' : List Nat) (f : Option Err → SbM (SbWorld ι κ) Unit), Own w1 (o.toList ++ rs') →
      (∀ e, ∀ w', Own w' rs' → SbSame w1 w' → w'.held = w1.held → (f e).Does w'
        (fun _ w' => Own w' rs ∧ SbSame w w' ∧ w'.held = w.held) (fun _ _ => False)) →
      SbM.Does ((match o with | none => return none | some i => (sbCtxPut i).attempt : SbM (SbWorld ι κ) (Option Err)) >>= f) w1
        (fun _ w' => Own w' rs ∧ SbSame w w' ∧ w'.held = w.held) (fun _ _ => False) := by
    intro o w1 rs f ho hf
    rcases o with _ | i
    · rw [SbM.does_bind]
      exact hf none w1 ho .rfl rfl
    · rw [SbM.does_bind]
      dsimp only
      rw [SbM.does_attempt]
      exact (put_does ho).mono (fun _ w' ⟨a, b, c, _⟩ => hf none w' a b c) fun _ _ h => h.elim
  have ho : Own w (p.nextContext.toList ++ (p.context.toList ++ rs)) := by
    rw [PevPriv.refs, List.append_assoc] at h
    exact h
  refine put _ _ _ _ ho fun _ w1 o1 s1 e1 => ?_
  refine put _ _ _ _ o1 fun _ w2 o2 s2 e2 => ?_
  exact ⟨o2, s1.trans s2, e2.trans e1⟩

theorem dtor_does {w : SbWorld ι κ} {p : PevPriv} (h : Sound w (p :: l)) (hi : p.context = none) :
    (pevDtor p).Does w (fun _ w' => Sound w' l) (fun _ _ => False) := by
  refine (dtor_own h.own).mono (fun _ w' ⟨o2, s3, _⟩ => ?_) fun _ _ h => h
  refine ⟨o2, h.uniq.same s3 o2, fun i hm => ?_⟩
  rw [s3.image] at hm
  obtain ⟨q, hq, hc⟩ := h.image i hm
  rcases List.mem_cons.1 hq with rfl | hq
  · rw [hi] at hc; cases hc
  · exact ⟨q, hq, hc⟩

theorem freeDecoders_does : ∀ (ds : List (SbDecoder PevPriv)) {w : SbWorld ι κ} {rs : List Nat},
    Own w (refsOf (ds.map (·.priv)) ++ rs) →
    (sbFreeDecoders ds).Does w (fun _ w' => Own w' rs ∧ SbSame w w' ∧ w'.held = w.held) (fun _ _ => False)
  | [], w, rs, h => ⟨h, .rfl, rfl⟩
  | d :: ds, w, rs, h => by
    unfold sbFreeDecoders
    rw [SbM.does_bind]
    rw [List.map_cons, pevRefs_cons, List.append_assoc] at h
    refine (dtor_own h).mono (fun _ w1 ⟨o1, s1, e1⟩ => ?_) fun _ _ h => h
    exact (freeDecoders_does ds o1).mono (fun _ w2 ⟨o2, s2, e2⟩ => ⟨o2, s1.trans s2, e2.trans e1⟩) fun _ _ h => h

theorem free_does {s : SbSession (SbWorld ι κ) PevPriv} (h : Own s.shared (refsOf s.privs)) :
    SbM.Ends (sbFree s) (fun _ w' => Own w' [] ∧ w'.contexts = [] ∧ w'.held = s.shared.held ∧
      ∀ j x, w'.seen j = some x → s.shared.seen j = some x) (fun _ _ => False) := by
  have h : Own s.shared (refsOf (s.decoders.map (·.priv)) ++ (refsOf (s.waiting.map (·.priv)) ++ (refsOf (s.retired.map (·.priv)) ++
      (refsOf (s.removed.map (·.priv)) ++ [])))) := by
    have e : refsOf s.privs = refsOf (s.decoders.map (·.priv)) ++ (refsOf (s.waiting.map (·.priv)) ++ (refsOf (s.retired.map (·.priv)) ++
      (refsOf (s.removed.map (·.priv)) ++ []))) := by simp [refsOf, SbSession.privs]
    rw [← e]; exact h
  show SbM.Does (sbFreeDecoders s.decoders >>= fun _ => sbFreeDecoders s.waiting >>= fun _ => sbFreeDecoders s.retired >>= fun _ =>
    sbFreeDecoders s.removed >>= fun _ => SbM.get >>= fun w => sbFreeContexts w.contexts : SbM (SbWorld ι κ) Unit) s.shared _ _
  rw [SbM.does_bind]
  refine (freeDecoders_does _ h).mono (fun _ w1 ⟨o1, s1, e1⟩ => ?_) fun _ _ h => h
  rw [SbM.does_bind]
  refine (freeDecoders_does _ o1).mono (fun _ w2 ⟨o2, s2, e2⟩ => ?_) fun _ _ h => h
  rw [SbM.does_bind]
  refine (freeDecoders_does _ o2).mono (fun _ w3 ⟨o3, s3, e3⟩ => ?_) fun _ _ h => h
  rw [SbM.does_bind]
  refine (freeDecoders_does _ o3).mono (fun _ w4 ⟨o4, s4, e4⟩ => ?_) fun _ _ h => h
  rw [SbM.does_bind, SbM.does_get]
  refine (freeContexts_does o4 rfl).mono (fun _ w5 ⟨a, b, c, d⟩ => ⟨a, b, ?_, fun j x hx => ?_⟩) fun _ _ h => h
  · rw [c, e4, e3, e2, e1]
  · exact s1.seen j x (s2.seen j x (s3.seen j x (s4.seen j x (d j x hx))))

theorem ends_match {σ : Type} {r : σ × Res Unit} {P : σ → Prop} (h : SbM.Ends r (fun _ w => P w) (fun _ w => P w)) :
    match (generalizing := false) r with
    | (w, .ok _) => P w
    | (w, .err _) => P w
    | (_, .ub) => False := by
  rcases r with ⟨w, _ | _ | _⟩ <;> exact h

theorem pev_keeps : SbKeeps (pevCallbacks env) (fun w p => pevDtor p w) Sound PevFresh (fun t p => Active p ∧ p.time = t) Ended PevPriv.rest where
  perm := fun h hp => h.perm hp
  fetch := by
    intro w p l hp hw
    have hs : p.pev.timeShift < 64 := by
      rcases hp with h | ⟨_, h, _⟩
      · exact h.shift
      · exact h.shift
    have hb : Boundary p.pev p.buf p.next := by
      rcases hp with h | ⟨_, h, _⟩
      · rw [h.next]; exact .start
      · obtain ⟨c, e, n, hc, hb, hr, hn, he⟩ := h.read
        rw [hn]; exact .next hb hr
    unfold pevCallbacks
    dsimp only
    rw [fetch_eq]
    have hub := Props.C55_read_safe p.pev hs (p.buf.drop p.next)
    rcases hr : pevRead p.pev (p.buf.drop p.next) with ⟨e, n⟩ | e | _
    · dsimp only
      have hsh := (read_shape hr).size
      rw [List.length_drop] at hsh
      refine ⟨sound_reset hw rfl rfl, ⟨fetched_active hs hb hr, ?_⟩, ?_⟩
      · unfold PevPriv.time adjusted
        dsimp only
        by_cases h : e.sample.time = none
        · rw [if_pos h, if_pos h, if_pos h]
        · rw [if_neg h, if_neg h]
      · show p.buf.length - (p.next + n) < p.buf.length - p.next
        omega
    · have hg : SbBoth.Good l ({ world := w, priv := { p with current := some p.next } } : SbBoth ι κ) := sound_reset hw rfl rfl
      have hn : PevFresh p → PevFresh { p with current := some p.next } := fun h => ⟨h.shift, h.next, h.context, h.nextContext⟩
      have key : e ≠ .eos → match (let r := pevError env (.error e) { world := w, priv := { p with current := some p.next } }
          (r.1.world, r.1.priv, (.err e : Res Nat))) with
          | (sh', p', .ok t) => Sound sh' (p' :: l) ∧ (Active p' ∧ p'.time = t) ∧ p'.rest < p.rest
          | (sh', p', .err e) => Sound sh' (p' :: l) ∧ (e = .eos → Ended p') ∧ (PevFresh p → PevFresh p')
          | (_, _, .ub) => False := by
        intro he
        rcases SbM.Ends.cases (pevError_left env (note := .error e) hg) with ⟨_, s', hr, a, b⟩ | ⟨_, s', hr, a, b⟩
        · rw [hr]
          exact ⟨a, fun h => absurd h he, fun h => by dsimp only; rw [b]; exact hn h⟩
        · rw [hr]
          exact ⟨a, fun h => absurd h he, fun h => by dsimp only; rw [b]; exact hn h⟩
      cases e <;> first
        | exact key (by simp)
        | exact ⟨hg, fun _ => ⟨hs, rfl⟩, hn⟩
    · exact absurd hr hub
  print := by
    intro w t p l ha hw
    unfold pevCallbacks
    dsimp only
    rw [pevPrint_ok ha.1]
    exact ⟨hw, ha, Nat.le_refl _⟩
  apply := by
    intro image ev w p l ha hw
    have ha : Active p ∨ Ended p := by
      rcases ha with ⟨_, h, _⟩ | h
      · exact .inl h
      · exact .inr h
    have hd := apply_does (s := { world := w, priv := p }) env (image := image) (ev := ev) hw ha
    unfold pevCallbacks
    dsimp only
    have fin : ∀ s' : SbBoth ι κ, s'.Good l → Moves p s'.priv → Sound s'.world (s'.priv :: l) ∧
        (∀ t, Active p ∧ p.time = t → Active s'.priv ∧ s'.priv.time = t) ∧ (Ended p → Ended s'.priv) ∧ s'.priv.rest ≤ p.rest :=
      fun s' hg hm => ⟨hg, fun t ⟨h1, h2⟩ => ⟨hm.active h1, hm.time.trans h2⟩, hm.ended, Nat.le_of_eq hm.rest⟩
    rcases SbM.Ends.cases hd with ⟨_, s', hr, h⟩ | ⟨e, s', hr, h⟩
    · rw [hr]
      obtain ⟨a, b⟩ := applied_left env h
      exact fin s' a b
    · rw [hr]
      obtain ⟨a, b, _⟩ := h
      rcases SbM.Ends.cases (pevError_left env (note := .error e) a) with ⟨_, s2, hr, a2, b2⟩ | ⟨_, s2, hr, a2, b2⟩
      · have f := fin s2 a2 (by rw [b2]; exact b)
        cases e <;> first
          | exact a
          | (dsimp only; rw [hr]; exact f)
      · cases e <;> first
          | exact a
          | (dsimp only; rw [hr]; exact a2)
  dtor := by
    intro w p l hf hw
    exact ends_match ((dtor_does hw hf.context).mono (fun _ _ h => h) fun _ _ h => h.elim)

/-- The files for `[vdso]`. -/
def PevPriv.vdso (p : PevPriv) : SbAbi → Option (List UInt8)
  | .unknown => none
  | .x64 => p.vdsoX64
  | .x32 => p.vdsoX32
  | .ia32 => p.vdsoIa32

theorem contains_iff (part : List UInt8) : ∀ l : List UInt8, strContains part l = true ↔ part <:+: l
  | [] => by
    unfold strContains
    simp
  | b :: l => by
    unfold strContains
    rw [Bool.or_eq_true, contains_iff part l, List.infix_cons_iff, List.isPrefixOf_iff_prefix]

theorem head_iff (l : List UInt8) : l.head? = some 0x5b ↔ ascii "[" <+: l := by
  have : ascii "[" = [0x5b] := by decide +kernel
  rw [this]
  rcases l with _ | ⟨b, l⟩
  · simp
  · simp [List.cons_prefix_cons, eq_comm]

/-- The files are those that the specification says, unless a name is cut. -/
theorem fileOf_eq {p : PevPriv} {name : List UInt8} (h : ∀ r, p.sysroot = some r → (r ++ name).length < 4096) (abi : SbAbi) :
    fileOf p abi name = fileFor p.sysroot p.vdso abi name := by
  have e1 : ascii "[vdso]" = strVdso := by decide +kernel
  have e2 : ascii "//anon" = strAnon := by decide +kernel
  have e3 : ascii " (deleted)" = strDeleted := by decide +kernel
  have hd := head_iff name
  have hc := contains_iff strDeleted name
  unfold fileOf fileFor pevFile
  rw [e1, e2, e3]
  by_cases hv : name = strVdso
  · rw [if_pos hv, if_pos (by rw [hv]; rfl), if_pos hv]
    unfold pevFindVdso PevPriv.vdso
    cases abi
    · rfl
    · rcases p.vdsoX64 with _ | _ <;> rfl
    · rcases p.vdsoX32 with _ | _ <;> rfl
    · rcases p.vdsoIa32 with _ | _ <;> rfl
  rw [if_neg hv, if_neg hv]
  by_cases hb : name.head? = some 0x5b
  · rw [if_pos hb, if_pos (.inl (hd.1 hb))]
  rw [if_neg hb]
  by_cases ha : name = strAnon
  · rw [if_pos ha, if_pos (.inr (.inl ha))]
  rw [if_neg ha]
  by_cases hdel : strContains strDeleted name = true
  · rw [if_pos hdel, if_pos (.inr (.inr (hc.1 hdel)))]
  rw [if_neg hdel, if_neg (by
    rintro (h | h | h)
    · exact hb (hd.2 h)
    · exact ha h
    · exact hdel (hc.2 h))]
  rcases hs : p.sysroot with _ | r
  · rfl
  · have := h r hs
    dsimp only
    rw [List.take_of_length_le (by omega)]
    rfl

end Ipt
