import Verif.SbPeventKeeps

/-!
# C58, C62: sessions with perf event channels

C58: contexts are alive as long as they are used.  C62: adding a channel.
-/

namespace Ipt.Props

open Spec Spec.Processes

variable {ι κ : Type} {env : SbEnv ι κ}

/-- A session with perf event channels. -/
abbrev PevSession (ι κ : Type) := SbSession (SbWorld ι κ) PevPriv

/-- `pt_sb_pevent_dtor` as a callback. -/
def pevDtorOf (w : SbWorld ι κ) (p : PevPriv) : SbWorld ι κ × Res Unit := pevDtor p w

/-- The references to contexts: those of the session's table, those that the user has taken, and those of all channels. -/
def references (s : PevSession ι κ) : List Nat :=
  s.shared.contexts ++ s.shared.held ++
    (s.decoders ++ s.waiting ++ s.retired ++ s.removed).flatMap fun d => d.priv.nextContext.toList ++ d.priv.context.toList

/-- The sessions a user can get to, by changing the kernel's image, adding channels, starting them, presenting events, dumping,
and by looking up, removing, changing, taking and giving back contexts.  `turn` and `show` are steps of presenting an event:
`turn` is for a record that is due, and `show` is for showing the event to a channel. -/
inductive PevSessions (env : SbEnv ι κ) : PevSession ι κ → Prop
  | new (kernel : ι) (ext : κ) : PevSessions env { shared := { kernel, ext } }
  | kernel {s : PevSession ι κ} (image : ι) (h : PevSessions env s) : PevSessions env { s with shared := { s.shared with kernel := image } }
  | alloc {s s' : PevSession ι κ} (id : Nat) (c : SbPevConf) (h : PevSessions env s) (shift : c.pev.timeShift < 64)
      (r : sbAllocPevent s id c = (s', .ok ())) : PevSessions env s'
  | init {s s' : PevSession ι κ} (h : PevSessions env s) (r : sbInitDecoders (pevCallbacks env) pevDtorOf s = (s', .ok ())) :
      PevSessions env s'
  | event {s s' : PevSession ι κ} (image stream : Bool) (ev : Event) (fuel : Nat) (h : PevSessions env s)
      (r : sbEvent (pevCallbacks env) image stream ev fuel s = (s', .ok ())) : PevSessions env s'
  | turn {s s' : PevSession ι κ} {d : SbDecoder PevPriv} {l : List (SbDecoder PevPriv)} (image stream : Bool) (ev : Event)
      (h : PevSessions env s) (hd : s.decoders = d :: l) (due : d.tsc ≤ ev.tsc)
      (r : sbTurn (pevCallbacks env) image stream ev { s with decoders := l } d = (s', .ok ())) : PevSessions env s'
  | show {s s' : PevSession ι κ} {d d' : SbDecoder PevPriv} {l l' : List (SbDecoder PevPriv)} (image : Bool) (ev : Event)
      (h : PevSessions env s) (hd : s.decoders = l ++ d :: l') (r : sbApply (pevCallbacks env) image ev (.shown d.id ev) s d = (s', d', .ok ())) :
      PevSessions env { s' with decoders := l ++ d' :: l' }
  | showRetired {s s' : PevSession ι κ} {d d' : SbDecoder PevPriv} {l l' : List (SbDecoder PevPriv)} (image : Bool) (ev : Event)
      (h : PevSessions env s) (hd : s.retired = l ++ d :: l') (r : sbApply (pevCallbacks env) image ev (.shown d.id ev) s d = (s', d', .ok ())) :
      PevSessions env { s' with retired := l ++ d' :: l' }
  | dump {s s' : PevSession ι κ} (tsc fuel : Nat) (h : PevSessions env s) (r : sbDump (pevCallbacks env) tsc fuel s = (s', .ok ())) :
      PevSessions env s'
  | lookup {s : PevSession ι κ} (pid : Nat) (h : PevSessions env s) :
      PevSessions env { s with shared := (sbGetContext env pid s.shared).1 }
  | remove {s : PevSession ι κ} (i : Nat) (h : PevSessions env s) (hi : i ∈ s.shared.contexts) :
      PevSessions env { s with shared := (sbRemoveContext i s.shared).1 }
  | mmap {s : PevSession ι κ} (i : Nat) (file : List UInt8) (offset size vaddr : Nat) (h : PevSessions env s) (hi : i ∈ references s) :
      PevSessions env { s with shared := (sbCtxMmap env i file offset size vaddr s.shared).1 }
  | hold {s : PevSession ι κ} (i : Nat) (h : PevSessions env s) (hi : i ∈ references s) :
      PevSessions env { s with shared := (sbHold i s.shared).1 }
  | drop {s : PevSession ι κ} (i : Nat) (h : PevSessions env s) (hi : i ∈ s.shared.held) :
      PevSessions env { s with shared := (sbDrop i s.shared).1 }

/-- The invariant. -/
abbrev PevSafe (s : PevSession ι κ) (out : List PevPriv) : Prop := s.Safe Sound PevFresh (fun t p => Active p ∧ p.time = t) Ended out

theorem references_eq (s : PevSession ι κ) : references s = s.shared.refs (refsOf s.privs) := by
  unfold references SbWorld.refs refsOf SbSession.privs
  rw [List.flatMap_map]
  rfl

theorem keeps (env : SbEnv ι κ) : SbKeeps (pevCallbacks env) pevDtorOf Sound PevFresh (fun t p => Active p ∧ p.time = t) Ended PevPriv.rest :=
  pev_keeps env

theorem PevSafe.world {s : PevSession ι κ} (h : PevSafe s []) {w : SbWorld ι κ} (hw : Sound w s.privs) : PevSafe { s with shared := w } [] :=
  ⟨hw, h.active, h.retired, h.waiting⟩

/-- The state that a function leaves which is neither undefined nor leaves any other. -/
theorem left_world {α : Type} {m : SbM (SbWorld ι κ) α} {w : SbWorld ι κ} {P : SbWorld ι κ → Prop} (h : m.Does w (fun _ w' => P w') fun _ w' => P w') :
    P (m w).1 ∧ (m w).2 ≠ .ub := by
  rcases SbM.Ends.cases h with ⟨a, w', hr, h⟩ | ⟨a, w', hr, h⟩
  · rw [hr]; exact ⟨h, by simp⟩
  · rw [hr]; exact ⟨h, by simp⟩

section

variable {w : SbWorld ι κ} {l : List PevPriv}

theorem lookup_world (h : Sound w l) (pid : Nat) : Sound (sbGetContext env pid w).1 l ∧ (sbGetContext env pid w).2 ≠ .ub :=
  left_world (P := fun w' => Sound w' l) ((getContext_does env h.own pid).mono (fun _ _ hg => h.got env hg) fun _ _ ⟨_, _, e⟩ => by subst e; exact h.waste)

theorem remove_world (h : Sound w l) {i : Nat} (hi : i ∈ w.contexts) : Sound (sbRemoveContext i w).1 l ∧ (sbRemoveContext i w).2 ≠ .ub :=
  left_world (P := fun w' => Sound w' l) ((removeContext_does h.own hi).mono
    (fun _ _ ⟨a, b, _, _⟩ => ⟨a, (h.uniq.drop i).same b a, by rw [b.image]; exact h.image⟩) fun _ _ h => h.elim)

theorem mmap_world (h : Sound w l) {i : Nat} (hi : i ∈ w.refs (refsOf l)) (file : List UInt8) (offset size vaddr : Nat) :
    Sound (sbCtxMmap env i file offset size vaddr w).1 l ∧ (sbCtxMmap env i file offset size vaddr w).2 ≠ .ub := by
  obtain ⟨c, hc⟩ := h.own.live hi
  refine left_world (P := fun w' => Sound w' l) ((SbM.does_of_eq (sbCtxMmap_eq env hc file offset size vaddr)).2 ?_)
  have hs := (h.store (d := { c with image := (env.mmap w.ext c.image file offset size vaddr).2.1 }) hc rfl rfl).ext
    (env.mmap w.ext c.image file offset size vaddr).1
  rcases (env.mmap w.ext c.image file offset size vaddr).2.2 with _ | e
  · exact hs
  · exact hs

theorem hold_world (h : Sound w l) {i : Nat} (hi : i ∈ w.refs (refsOf l)) : Sound (sbHold i w).1 l ∧ (sbHold i w).2 ≠ .ub :=
  left_world (P := fun w' => Sound w' l) ((hold_does h.own hi).mono (fun _ _ ⟨a, b, _⟩ => h.same b a) fun _ _ e => by subst e; exact h)

theorem drop_world (h : Sound w l) {i : Nat} (hi : i ∈ w.held) : Sound (sbDrop i w).1 l ∧ (sbDrop i w).2 ≠ .ub :=
  left_world (P := fun w' => Sound w' l) ((drop_does h.own hi).mono (fun _ _ ⟨a, b, _⟩ => h.same b a) fun _ _ h => h.elim)

end

theorem alloc_inv {s s' : PevSession ι κ} {id : Nat} {c : SbPevConf} (h : PevSafe s []) (shift : c.pev.timeShift < 64)
    (r : sbAllocPevent s id c = (s', .ok ())) : PevSafe s' [] := by
  have key : ∀ p : PevPriv, PevFresh p → PevSafe (sbAllocDecoder s id c.primary p) [] := fun p hf => by
    refine ⟨?_, h.active, h.retired, ?_⟩
    · have hs : Sound s.shared (p :: s.privs) := by
        refine ⟨?_, h.shared.uniq, fun i hi => ?_⟩
        · have := h.shared.own
          simpa [refsOf, PevPriv.refs, hf.context, hf.nextContext] using this
        · obtain ⟨q, hq, hc⟩ := h.shared.image i hi
          exact ⟨q, List.mem_cons_of_mem _ hq, hc⟩
      exact hs.perm (perm_count fun _ p => by
        simp [sbAllocDecoder, SbSession.privs, List.count_append, List.count_cons]; omega)
    · intro d hd
      rcases List.mem_cons.1 hd with rfl | hd
      · exact hf
      · exact h.waiting d hd
  have hi : ∀ b p, pevInit c = (b, .ok p) → PevFresh p := by
    intro b p hp
    unfold pevInit at hp
    split at hp
    · cases hp
    rcases hn : c.name with _ | n <;> rw [hn] at hp
    · cases hp
    rcases hf : c.file with e | buf <;> rw [hf] at hp
    · cases hp
    dsimp only at hp
    split at hp
    · cases hp
    · cases hp
      exact ⟨shift, rfl, rfl, rfl⟩
  unfold sbAllocPevent at r
  rcases hp : pevInit c with ⟨_ | _, e | p⟩ <;> rw [hp] at r
  · cases r
  · cases r
  · cases r
  · injection r with r _
    subst r
    exact key p (hi _ _ hp)

theorem PevSessions.safe {s : PevSession ι κ} (h : PevSessions env s) : PevSafe s [] := by
  induction h with
  | new kernel ext =>
    refine ⟨⟨⟨fun i => rfl, fun i c hc => by simp [SbWorld.at] at hc, List.nodup_nil⟩, ⟨fun i hi => by simp at hi⟩, fun i hi => by cases hi⟩,
      by simp, by simp, by simp⟩
  | kernel image h ih => exact ih.world ⟨ih.shared.own.congr rfl ih.shared.own.nodup fun _ => rfl, ⟨ih.shared.uniq.of⟩, ih.shared.image⟩
  | alloc id c h shift r ih => exact alloc_inv ih shift r
  | @init s s' h r ih =>
    have := init_safe (keeps env) s.waiting s rfl ih
    unfold sbInitDecoders at r
    rw [r] at this
    exact this
  | event image stream ev fuel h r ih =>
    have := event_safe (keeps env) (image := image) (stream := stream) (ev := ev) (fuel := fuel) ih
    rw [r] at this
    exact this
  | turn image stream ev h hd due r ih =>
    obtain ⟨h1, h2⟩ := safe_take ih hd
    have := turn_safe (keeps env) (image := image) (stream := stream) (ev := ev) h1 h2
    rw [r] at this
    exact this.1
  | @«show» s s' d d' l l' image ev h hd r ih =>
    have h0 : PevSafe { s with decoders := l ++ l' } [d.priv] :=
      ⟨ih.shared.perm (perm_count fun _ p => by
          simp [SbSession.privs, hd, List.count_append, List.count_cons]; omega),
        fun e he => ih.active e (by rw [hd]; simp at he ⊢; rcases he with he | he <;> simp [he]), ih.retired, ih.waiting⟩
    have ha := ih.active d (by rw [hd]; simp)
    have h1 := apply_safe (keeps env) (image := image) (ev := ev) (call := .shown d.id ev) h0 (.inl ⟨_, ha⟩)
    have hl : sbApply (pevCallbacks env) image ev (.shown d.id ev) { s with decoders := l ++ l' } d =
        ({ s' with decoders := l ++ l' }, d', .ok ()) := by
      revert r
      unfold sbApply
      dsimp only
      rcases (pevCallbacks env).apply (image && d.primary) ev s.shared d.priv with ⟨sh, pv, _ | _ | _⟩
      · intro r; cases r; rfl
      · intro r; cases r
      · intro r; cases r
    rw [hl] at h1
    obtain ⟨a1, a2, a3, a4, a5, a6, a7, a8⟩ := h1
    refine ⟨a1.shared.perm (perm_count fun _ p => by
        simp [SbSession.privs, List.count_append, List.count_cons]; omega), ?_, a1.retired, a1.waiting⟩
    intro e he
    simp only [List.mem_append, List.mem_cons] at he
    rcases he with he | rfl | he
    · exact a1.active e (by simp [he])
    · exact a2 ha
    · exact a1.active e (by simp [he])
  | @showRetired s s' d d' l l' image ev h hd r ih =>
    have h0 : PevSafe { s with retired := l ++ l' } [d.priv] :=
      ⟨ih.shared.perm (perm_count fun _ p => by
          simp [SbSession.privs, hd, List.count_append, List.count_cons]; omega),
        ih.active, fun e he => ih.retired e (by rw [hd]; simp at he ⊢; rcases he with he | he <;> simp [he]), ih.waiting⟩
    have ha := ih.retired d (by rw [hd]; simp)
    have h1 := apply_safe (keeps env) (image := image) (ev := ev) (call := .shown d.id ev) h0 (.inr ha)
    have hl : sbApply (pevCallbacks env) image ev (.shown d.id ev) { s with retired := l ++ l' } d =
        ({ s' with retired := l ++ l' }, d', .ok ()) := by
      revert r
      unfold sbApply
      dsimp only
      rcases (pevCallbacks env).apply (image && d.primary) ev s.shared d.priv with ⟨sh, pv, _ | _ | _⟩
      · intro r; cases r; rfl
      · intro r; cases r
      · intro r; cases r
    rw [hl] at h1
    obtain ⟨a1, a2, a3, a4, a5, a6, a7, a8⟩ := h1
    refine ⟨a1.shared.perm (perm_count fun _ p => by
        simp [SbSession.privs, List.count_append, List.count_cons]; omega), a1.active, ?_, a1.waiting⟩
    intro e he
    simp only [List.mem_append, List.mem_cons] at he
    rcases he with he | rfl | he
    · exact a1.retired e (by simp [he])
    · exact a3 ha
    · exact a1.retired e (by simp [he])
  | @dump s s' tsc fuel h r ih =>
    have := dump_safe (keeps env) (tsc := tsc) fuel s ih
    rw [r] at this
    exact this
  | lookup pid h ih => exact ih.world (lookup_world ih.shared pid).1
  | remove i h hi ih => exact ih.world (remove_world ih.shared hi).1
  | mmap i file offset size vaddr h hi ih => exact ih.world (mmap_world ih.shared (by rw [references_eq] at hi; exact hi) ..).1
  | hold i h hi ih => exact ih.world (hold_world ih.shared (by rw [references_eq] at hi; exact hi)).1
  | drop i h hi ih => exact ih.world (drop_world ih.shared hi).1

variable {s s' : PevSession ι κ}

/-- A context that has not been freed. -/
def Alive (w : SbWorld ι κ) (i : Nat) : Prop := ∃ c, w.heap[i]? = some (some c)

theorem alive_iff {w : SbWorld ι κ} {rs : List Nat} (h : Own w rs) (i : Nat) : Alive w i ↔ i ∈ w.refs rs := by
  constructor
  · rintro ⟨c, hc⟩
    have hc := SbWorld.at_some.2 hc
    have h1 := h.count i
    have h2 := h.pos i c hc
    rw [SbWorld.uses, hc] at h1
    exact List.count_pos_iff.1 (by rw [← h1]; exact h2)
  · intro hi
    obtain ⟨c, hc⟩ := h.live hi
    exact ⟨c, SbWorld.at_some.1 hc⟩

/-- C58: contexts are alive as long as they are used, that is, referenced by the table, by a channel or by the user, and count
their users.  There is at most one context in the table for each process. -/
theorem C58_alive (h : PevSessions env s) (i : Nat) : (Alive s.shared i ↔ i ∈ references s) ∧
    ∀ c, s.shared.heap[i]? = some (some c) → c.ucount = (references s).count i := by
  rw [references_eq]
  refine ⟨alive_iff h.safe.shared.own i, fun c hc => ?_⟩
  have := h.safe.shared.own.count i
  rw [SbWorld.uses, SbWorld.at_some.2 hc] at this
  exact this

/-- C58: there is at most one context in the table for each process. -/
theorem C58_unique (h : PevSessions env s) {i j : Nat} {c c' : SbCtx ι} (hi : i ∈ s.shared.contexts) (hj : j ∈ s.shared.contexts)
    (hc : s.shared.heap[i]? = some (some c)) (hc' : s.shared.heap[j]? = some (some c')) (he : c.pid = c'.pid) : i = j := by
  refine h.safe.shared.uniq.of i hi j hj ?_
  simp [SbWorld.seen, SbWorld.at_some.2 hc, SbWorld.at_some.2 hc', he]

/-- C58: the image that the caller's pointer refers to belongs to a context that is alive, and that is the context of a
channel. -/
theorem C58_image (h : PevSessions env s) {i : Nat} (hi : s.shared.image = some i) :
    Alive s.shared i ∧ ∃ d ∈ s.decoders ++ s.waiting ++ s.retired ++ s.removed, d.priv.context = some i := by
  obtain ⟨p, hp, hc⟩ := h.safe.shared.image i hi
  have hp : p ∈ s.privs := hp
  obtain ⟨d, hd, rfl⟩ := List.mem_map.1 hp
  refine ⟨((C58_alive h i).1).2 ?_, d, hd, hc⟩
  unfold references
  simp only [List.mem_append, List.mem_flatMap]
  exact .inr ⟨d, by simpa [or_assoc] using hd, .inr (by simp [hc])⟩

/-- A bound for the number of records in all channels. -/
def records (s : PevSession ι κ) : Nat := (s.decoders.map fun d => d.priv.buf.length - d.priv.next + 1).sum

/-- C58: no call is undefined, and all calls return. -/
theorem C58_calls (h : PevSessions env s) :
    (∃ s', sbInitDecoders (pevCallbacks env) pevDtorOf s = (s', .ok ())) ∧
    (∀ image stream ev fuel, records s < fuel → ∃ s', sbEvent (pevCallbacks env) image stream ev fuel s = (s', .ok ())) ∧
    (∀ tsc fuel, records s < fuel → ∃ s', sbDump (pevCallbacks env) tsc fuel s = (s', .ok ())) ∧
    (∀ pid, (sbGetContext env pid s.shared).2 ≠ .ub) ∧
    (∀ i ∈ s.shared.contexts, (sbRemoveContext i s.shared).2 ≠ .ub) ∧
    (∀ i ∈ references s, ∀ file offset size vaddr, (sbCtxMmap env i file offset size vaddr s.shared).2 ≠ .ub) ∧
    (∀ i ∈ references s, (sbHold i s.shared).2 ≠ .ub) ∧
    (∀ i ∈ s.shared.held, (sbDrop i s.shared).2 ≠ .ub) := by
  have hs := h.safe
  refine ⟨?_, fun image stream ev fuel hf => ?_, fun tsc fuel hf => ?_, fun pid => (lookup_world hs.shared pid).2,
    fun i hi => (remove_world hs.shared hi).2, fun i hi file offset size vaddr => ?_, fun i hi => ?_, fun i hi => (drop_world hs.shared hi).2⟩
  · have := init_safe (keeps env) s.waiting s rfl hs
    unfold sbInitDecoders
    revert this
    rcases sbInit (pevCallbacks env) pevDtorOf s.waiting s with ⟨s', _ | _ | _⟩
    · exact fun _ => ⟨s', rfl⟩
    · exact fun h => h.elim
    · exact fun h => h.elim
  · have := event_safe (keeps env) (image := image) (stream := stream) (ev := ev) (fuel := fuel) hs
    revert this
    rcases sbEvent (pevCallbacks env) image stream ev fuel s with ⟨s', _ | _ | _⟩
    · exact fun _ => ⟨s', rfl⟩
    · exact fun h => h.elim
    · exact fun h => absurd h (Nat.not_le.2 hf)
  · have := dump_safe (keeps env) (tsc := tsc) fuel s hs
    revert this
    rcases sbDump (pevCallbacks env) tsc fuel s with ⟨s', _ | _ | _⟩
    · exact fun _ => ⟨s', rfl⟩
    · exact fun h => h.elim
    · exact fun h => absurd h (Nat.not_le.2 hf)
  · exact (mmap_world hs.shared (by rw [references_eq] at hi; exact hi) ..).2
  · exact (hold_world hs.shared (by rw [references_eq] at hi; exact hi)).2

/-- C58: `pt_sb_free` frees all contexts but those that the user has taken, which stay as they are. -/
theorem C58_free (h : PevSessions env s) : ∃ w, sbFree s = (w, .ok ()) ∧ (∀ i, Alive w i ↔ i ∈ s.shared.held) ∧
    ∀ i c, w.heap[i]? = some (some c) → c.ucount = s.shared.held.count i ∧
      ∃ c', s.shared.heap[i]? = some (some c') ∧ c.image = c'.image ∧ c.pid = c'.pid := by
  rcases SbM.Ends.cases (free_does h.safe.shared.own) with ⟨_, w, hr, a, b, c, d⟩ | ⟨_, _, _, h⟩
  · have hrefs : w.refs [] = s.shared.held := by simp [SbWorld.refs, b, c]
    refine ⟨w, hr, fun i => by rw [alive_iff a, hrefs], fun i x hx => ?_⟩
    have hx := SbWorld.at_some.2 hx
    refine ⟨?_, ?_⟩
    · have := a.count i
      rw [SbWorld.uses, hx, hrefs] at this
      exact this
    · have := d i (x.pid, x.image, x.abi) (by simp [SbWorld.seen, hx])
      rcases hc : s.shared.at i with _ | c'
      · simp [SbWorld.seen, hc] at this
      · simp [SbWorld.seen, hc] at this
        exact ⟨c', SbWorld.at_some.1 hc, this.2.1.symm, this.1.symm⟩
  · exact h.elim

/-- C62: adding a channel adds just this channel, which has not been started, or leaves the session as it is.  What is missing is
that it is not undefined, see `C62_alloc_double_free`. -/
theorem C62_alloc_partial (s : PevSession ι κ) (id : Nat) (c : SbPevConf) :
    match sbAllocPevent s id c with
    | (s', .ok ()) => ∃ d, s' = { s with waiting := d :: s.waiting } ∧ d.id = id ∧ d.primary = c.primary ∧ c.file = .ok d.priv.buf ∧
        d.priv.next = 0 ∧ d.priv.pev = c.pev ∧ d.priv.kernelStart = c.kernelStart ∧ d.priv.tscOffset = c.tscOffset ∧
        d.priv.sysroot = c.sysroot ∧ d.priv.vdsoX64 = c.vdsoX64 ∧ d.priv.vdsoX32 = c.vdsoX32 ∧ d.priv.vdsoIa32 = c.vdsoIa32
    | (s', .err _) => s' = s
    | (_, .ub) => True := by
  unfold sbAllocPevent pevInit
  by_cases h1 : c.size < 120
  · rw [if_pos h1]
  rw [if_neg h1]
  rcases hn : c.name with _ | n
  · rfl
  rcases hf : c.file with e | buf
  · rfl
  dsimp only
  by_cases h : 4096 ≤ n ∨ pevPathTooLong c.sysroot = true ∨ pevPathTooLong c.vdsoX64 = true ∨ pevPathTooLong c.vdsoX32 = true ∨
      pevPathTooLong c.vdsoIa32 = true
  · rw [if_pos h]
    trivial
  · rw [if_neg h]
    exact ⟨_, rfl, rfl, rfl, rfl, rfl, rfl, rfl, rfl, rfl, rfl, rfl, rfl⟩

/-- C62: adding a channel is undefined - memory is freed twice - if, and only if, all goes well until a path is found that is
too long. -/
theorem C62_alloc_double_free (s : PevSession ι κ) (id : Nat) (c : SbPevConf) : (sbAllocPevent s id c).2 = .ub ↔
    120 ≤ c.size ∧ (∃ buf, c.file = .ok buf) ∧ ∃ n, c.name = some n ∧
      (4096 ≤ n ∨ ∃ path ∈ [c.sysroot, c.vdsoX64, c.vdsoX32, c.vdsoIa32], ∃ p, path = some p ∧ 4096 ≤ p.length) := by
  have hpath : ∀ o : Option (List UInt8), pevPathTooLong o = true ↔ ∃ p, o = some p ∧ 4096 ≤ p.length := by
    intro o
    rcases o with _ | p <;> simp [pevPathTooLong]
  unfold sbAllocPevent pevInit
  by_cases h1 : c.size < 120
  · rw [if_pos h1]
    simp; omega
  rw [if_neg h1]
  rcases hn : c.name with _ | n
  · simp
  rcases hf : c.file with e | buf
  · simp
  dsimp only
  simp only [List.mem_cons, List.not_mem_nil, or_false, exists_eq_or_imp, exists_eq_left, ← hpath]
  by_cases h : 4096 ≤ n ∨ pevPathTooLong c.sysroot = true ∨ pevPathTooLong c.vdsoX64 = true ∨ pevPathTooLong c.vdsoX32 = true ∨
      pevPathTooLong c.vdsoIa32 = true
  · rw [if_pos h]
    exact ⟨fun _ => ⟨by omega, ⟨buf, rfl⟩, n, rfl, h⟩, fun _ => rfl⟩
  · rw [if_neg h]
    refine ⟨fun h => (by cases h), ?_⟩
    rintro ⟨_, _, m, hm, hx⟩
    cases hm
    exact absurd hx h

end Ipt.Props

/-! ## An example -/

namespace Ipt.Props.SbDemo

open Spec Spec.Processes

/-- Images are lists of mappings: file, offset, size and address. -/
abbrev Image := List (List UInt8 × Nat × Nat × Nat)

/-- The user collects notes.  Files are for x64 if their name ends with `4`. -/
def env : SbEnv Image (List (SbNote × Nat)) where
  empty := []
  copy _ b := (b, none)
  mmap k i f o s v := (k, (f, o, s, v) :: i, none)
  abi _ f := if f.getLast? = some 0x34 then some .x64 else none
  onError k n o := (k ++ [(n, o)], none)
  onSwitch k _ := (k, false, none)

/-- Process and thread, and time. -/
def samples (pid time : Nat) : List UInt8 := toLE 4 pid ++ toLE 4 pid ++ toLE 8 time

/-- A file: tracing starts in process 5, a file is mapped, process 7 runs, process 5 creates process 8, records are lost, process 5
calls exec. -/
def file : List UInt8 :=
  toLE 4 12 ++ toLE 2 0 ++ toLE 2 32 ++ toLE 4 5 ++ toLE 4 5 ++ samples 5 10 ++
  (toLE 4 1 ++ toLE 2 0 ++ toLE 2 64 ++ toLE 4 5 ++ toLE 4 5 ++ toLE 8 0x400000 ++ toLE 8 0x1000 ++ toLE 8 0 ++ ascii "/a4" ++
    toLE 5 0 ++ samples 5 11) ++
  (toLE 4 15 ++ toLE 2 0x2000 ++ toLE 2 32 ++ toLE 4 7 ++ toLE 4 7 ++ samples 5 20) ++
  (toLE 4 7 ++ toLE 2 0 ++ toLE 2 48 ++ toLE 4 8 ++ toLE 4 5 ++ toLE 4 8 ++ toLE 4 5 ++ toLE 8 0 ++ samples 5 21) ++
  (toLE 4 2 ++ toLE 2 0 ++ toLE 2 40 ++ toLE 8 0 ++ toLE 8 3 ++ samples 5 24) ++
  (toLE 4 3 ++ toLE 2 0x2000 ++ toLE 2 40 ++ toLE 4 5 ++ toLE 4 5 ++ ascii "x" ++ toLE 7 0 ++ samples 5 30)

/-- The channel.  Records are applied one tick early. -/
def conf : SbPevConf where
  file := .ok file
  pev := { sampleType := 6, timeMult := 1 }
  kernelStart := 2 ^ 63
  tscOffset := 1

/-- An event. -/
def enabledAt (tsc ip : Nat) : Event := { tsc, data := .enabled ip }

/-- A new session with a channel, before and after it is started. -/
def new : PevSession Image (List (SbNote × Nat)) := { shared := { kernel := [], ext := [] } }
@[inherit_doc new] def added := (sbAllocPevent new 1 conf).1
@[inherit_doc new] def started := (sbInitDecoders (pevCallbacks env) pevDtorOf added).1

/-- The session after some events: the first two records have been applied; process 7 is going to be switched to, and the new
process is known; process 7 is used; all records have been applied. -/
def mapped := (sbEvent (pevCallbacks env) true false (enabledAt 15 0x400000) 20 started).1
@[inherit_doc mapped] def switching := (sbEvent (pevCallbacks env) true true (enabledAt 20 0x400000) 20 mapped).1
@[inherit_doc mapped] def switched := (sbEvent (pevCallbacks env) true false (enabledAt 21 (2 ^ 63)) 20 switching).1
@[inherit_doc mapped] def done := (sbEvent (pevCallbacks env) true false (enabledAt 40 0x400000) 20 switched).1

theorem ok_eq {α β : Type} {x : α × Res β} {b : β} (h : x.2 = .ok b) : x = (x.1, .ok b) := by rw [← h]

theorem new_reached : PevSessions env new := .new [] []
theorem added_reached : PevSessions env added := .alloc 1 conf new_reached (by decide) (ok_eq (by decide +kernel))
theorem started_reached : PevSessions env started := .init added_reached (ok_eq (by decide +kernel))
theorem mapped_reached : PevSessions env mapped := .event _ _ _ _ started_reached (ok_eq (by decide +kernel))
theorem switching_reached : PevSessions env switching := .event _ _ _ _ mapped_reached (ok_eq (by decide +kernel))
theorem switched_reached : PevSessions env switched := .event _ _ _ _ switching_reached (ok_eq (by decide +kernel))
theorem done_reached : PevSessions env done := .event _ _ _ _ switched_reached (ok_eq (by decide +kernel))

/-- There are three contexts, two of which are used by the channel, and one is the caller's. -/
example : switching.shared.contexts = [2, 1, 0] ∧ (switching.decoders.map fun d => (d.priv.context, d.priv.nextContext)) = [(some 0, some 1)] ∧
    switching.shared.image = some 0 ∧ (switching.shared.heap.map fun c => c.map (·.ucount)) = [some 2, some 2, some 1] ∧
    references switching = [2, 1, 0, 1, 0] := by decide +kernel

/-- A context has been freed. -/
example : done.shared.contexts = [3, 2, 1] ∧ (done.retired.map fun d => (d.priv.context, d.priv.nextContext)) = [(some 3, none)] ∧
    done.shared.image = some 3 ∧ (done.shared.heap.map fun c => c.map (·.ucount)) = [none, some 1, some 1, some 2] := by decide +kernel

/-- The user holds a context, which stays when the session is freed. -/
example : PevSessions env { switching with shared := (sbHold 2 switching.shared).1 } :=
  .hold 2 switching_reached (by decide +kernel)
example : (sbFree { switching with shared := (sbHold 2 switching.shared).1 }).2 = .ok () ∧
    ((sbFree { switching with shared := (sbHold 2 switching.shared).1 }).1.heap.map fun c => c.map (·.ucount)) = [none, none, some 1] := by
  decide +kernel

example : records switching < 200 := by decide +kernel

/-- A path that is too long. -/
example : (sbAllocPevent new 1 { conf with sysroot := some (List.replicate 4096 0x2f) }).2 = .ub :=
  (C62_alloc_double_free _ _ _).2 ⟨by decide, ⟨file, rfl⟩, 8, rfl, .inr ⟨_, List.mem_cons_self, List.replicate 4096 0x2f, rfl,
    Nat.le_of_eq List.length_replicate.symm⟩⟩

end Ipt.Props.SbDemo
