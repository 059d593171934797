import Verif.Props.SbRecords

/-!
# C60: channels that are not for the traced processor

They, and all channels if the caller gives no image, do not change the caller's image.
-/

namespace Ipt.Props

open Spec

variable {ι κ : Type} {env : SbEnv ι κ}

/-- A function on contexts leaves the caller's image alone. -/
def Keep {α : Type} (m : SbM (SbWorld ι κ) α) : Prop := ∀ w, (m w).1.image = w.image

namespace Keep

variable {α β : Type}

theorem bind {m : SbM (SbWorld ι κ) α} {f : α → SbM (SbWorld ι κ) β} (hm : Keep m) (hf : ∀ a, Keep (f a)) : Keep (m >>= f) := by
  intro b
  show (SbM.bind m f b).1.image = _
  have := hm b
  unfold SbM.bind
  revert this
  rcases m b with ⟨b', _ | _ | _⟩
  · exact fun h => (hf _ _).trans h
  · exact fun h => h
  · exact fun h => h

theorem get : Keep (SbM.get : SbM (SbWorld ι κ) _) := fun _ => rfl
theorem fail (e : Err) : Keep (SbM.fail e : SbM (SbWorld ι κ) α) := fun _ => rfl
theorem pure (a : α) : Keep (Pure.pure a : SbM (SbWorld ι κ) α) := fun _ => rfl
theorem check (e : Option Err) : Keep (SbM.check e : SbM (SbWorld ι κ) Unit) := by
  intro w
  unfold SbM.check
  cases e <;> rfl
theorem modify (f : SbWorld ι κ → SbWorld ι κ) (h : ∀ w, (f w).image = w.image) : Keep (SbM.modify f) := h

theorem attempt {m : SbM (SbWorld ι κ) α} (h : Keep m) : Keep m.attempt := by
  intro w
  have := h w
  unfold SbM.attempt
  revert this
  rcases m w with ⟨w', _ | _ | _⟩ <;> exact id

theorem deref (i : Nat) : Keep (sbDeref i : SbM (SbWorld ι κ) _) := by
  intro w
  unfold sbDeref
  split <;> rfl

theorem store (i : Nat) (c : SbCtx ι) : Keep (sbStore i c : SbM (SbWorld ι κ) _) := fun _ => rfl

theorem ctxGet (i : Nat) : Keep (sbCtxGet i : SbM (SbWorld ι κ) _) := by
  refine bind (deref _) fun c => ?_
  split
  · exact fail _
  · exact store _ _

theorem ctxPut (i : Nat) : Keep (sbCtxPut i : SbM (SbWorld ι κ) _) := by
  refine bind (deref _) fun c => ?_
  split
  · exact store _ _
  · split
    · exact fail _
    · exact fun _ => rfl

theorem copyImage (i : Nat) (image : ι) : Keep (sbCopyImage env i image : SbM (SbWorld ι κ) _) :=
  bind (deref _) fun _ => bind (store _ _) fun _ => check _

theorem addContext (pid : Nat) : Keep (sbAddContext env pid : SbM (SbWorld ι κ) _) := by
  refine bind (fun _ => rfl) fun i => bind get fun w => bind (attempt (copyImage _ _)) fun o => ?_
  split
  · exact bind (ctxPut _) fun _ => fail _
  · exact bind (deref _) fun _ => bind (store _ _) fun _ => bind (fun _ => rfl) fun _ => pure _

theorem findLoop (pid : Nat) : ∀ l, Keep (sbFindLoop pid l : SbM (SbWorld ι κ) _)
  | [] => pure _
  | i :: l => by
    unfold sbFindLoop
    refine bind (deref _) fun c => ?_
    split
    · exact pure _
    · exact findLoop pid l

theorem findContext (pid : Nat) : Keep (sbFindContext pid : SbM (SbWorld ι κ) _) := bind get fun _ => findLoop _ _

theorem getContext (pid : Nat) : Keep (sbGetContext env pid : SbM (SbWorld ι κ) _) := by
  refine bind (findContext _) fun o => ?_
  split
  · exact pure _
  · exact addContext _

theorem seek (i : Nat) : ∀ l, Keep (sbSeek i l : SbM (SbWorld ι κ) _)
  | [] => pure _
  | j :: l => by
    unfold sbSeek
    split
    · exact pure _
    · exact bind (deref _) fun _ => seek i l

theorem removeContext (i : Nat) : Keep (sbRemoveContext i : SbM (SbWorld ι κ) _) := by
  refine bind get fun w => bind (seek _ _) fun found => ?_
  split
  · exact bind (fun _ => rfl) fun _ => ctxPut _
  · exact fail _

theorem ctxMmap (i : Nat) (file : List UInt8) (offset size vaddr : Nat) :
    Keep (sbCtxMmap env i file offset size vaddr : SbM (SbWorld ι κ) _) :=
  bind (deref _) fun _ => bind get fun _ => bind (store _ _) fun _ => bind (fun _ => rfl) fun _ => check _

theorem error (note : SbNote) (offset : Nat) : Keep (sbError env note offset : SbM (SbWorld ι κ) _) :=
  bind get fun _ => bind (fun _ => rfl) fun _ => check _

theorem removeForPid (pid : Nat) : Keep (pevRemoveContextForPid pid : SbM (SbWorld ι κ) _) := by
  refine bind (findContext _) fun o => ?_
  split
  · exact pure _
  · exact removeContext _

theorem forkProcess (pid ppid : Nat) : Keep (pevForkProcess env pid ppid : SbM (SbWorld ι κ) _) := by
  refine bind (removeForPid _) fun _ => bind (getContext _) fun _ => bind (findContext _) fun o => ?_
  split
  · exact pure _
  · exact bind (deref _) fun _ => copyImage _ _

end Keep

/-- A function of a channel leaves the caller's image and the channel's contexts alone. -/
def Idle {α : Type} (m : SbM (SbBoth ι κ) α) : Prop :=
  ∀ b, (m b).1.world.image = b.world.image ∧ (m b).1.priv.context = b.priv.context ∧ (m b).1.priv.nextContext = b.priv.nextContext

namespace Idle

variable {α β : Type}

theorem bind {m : SbM (SbBoth ι κ) α} {f : α → SbM (SbBoth ι κ) β} (hm : Idle m) (hf : ∀ a, Idle (f a)) : Idle (m >>= f) := by
  intro b
  show (SbM.bind m f b).1.world.image = _ ∧ (SbM.bind m f b).1.priv.context = _ ∧ (SbM.bind m f b).1.priv.nextContext = _
  have := hm b
  unfold SbM.bind
  revert this
  rcases m b with ⟨b', _ | _ | _⟩
  · exact fun ⟨h1, h2, h3⟩ => ⟨(hf _ _).1.trans h1, (hf _ _).2.1.trans h2, (hf _ _).2.2.trans h3⟩
  · exact fun h => h
  · exact fun h => h

theorem world {m : SbM (SbWorld ι κ) α} (h : Keep m) : Idle (onWorld m) := fun b => ⟨h b.world, rfl, rfl⟩
theorem get : Idle (SbM.get : SbM (SbBoth ι κ) _) := fun _ => ⟨rfl, rfl, rfl⟩
theorem lift (r : Res α) : Idle (SbM.lift r : SbM (SbBoth ι κ) _) := fun _ => ⟨rfl, rfl, rfl⟩
theorem fail (e : Err) : Idle (SbM.fail e : SbM (SbBoth ι κ) α) := fun _ => ⟨rfl, rfl, rfl⟩
theorem pure (a : α) : Idle (Pure.pure a : SbM (SbBoth ι κ) α) := fun _ => ⟨rfl, rfl, rfl⟩

theorem ite {c : Prop} [Decidable c] {m m' : SbM (SbBoth ι κ) α} (h : Idle m) (h' : Idle m') : Idle (if c then m else m') := by
  split
  · exact h
  · exact h'

theorem error (note : SbNote) : Idle (pevError env note : SbM (SbBoth ι κ) Unit) := bind get fun _ => world (Keep.error _ _)

theorem switch : Idle (pevSwitchContexts env false : SbM (SbBoth ι κ) Unit) := fun _ => ⟨rfl, rfl, rfl⟩

theorem fork : Idle (pevFork env : SbM (SbBoth ι κ) Unit) := by
  refine bind get fun _ => bind (lift _) fun _ => bind (lift _) fun _ => ?_
  split
  · exact pure _
  · refine bind (lift _) fun _ => ?_
    split
    · exact fail _
    · exact world (Keep.forkProcess _ _)

theorem exec : Idle (pevExec env false : SbM (SbBoth ι κ) Unit) :=
  bind get fun _ => bind (lift _) fun _ => bind (world (Keep.removeForPid _)) fun _ => bind (world (Keep.getContext _)) fun _ => pure _

theorem track (i : Nat) (file : List UInt8) : Idle (pevTrackAbi env i file : SbM (SbBoth ι κ) Unit) := by
  refine bind (world (Keep.deref _)) fun _ => ?_
  split
  · exact pure _
  · refine bind get fun _ => ?_
    split
    · exact pure _
    · exact world (Keep.store _ _)

theorem mmap (n : Nat) : Idle (pevMmap env n : SbM (SbBoth ι κ) Unit) := by
  refine bind get fun _ => bind (lift _) fun _ => bind (lift _) fun _ => bind (lift _) fun _ => bind (lift _) fun _ =>
    bind (lift _) fun _ => bind (world (Keep.getContext _)) fun _ => bind get fun _ => bind (world (Keep.deref _)) fun _ => ?_
  split
  · exact error _
  · exact bind (track _ _) fun _ => world (Keep.ctxMmap _ _ _ _ _)

theorem record : Idle (pevApplyRecord env false : SbM (SbBoth ι κ) Unit) := by
  refine bind get fun b => ?_
  exact ite (pure _) <| ite fork <| ite (ite (pure _) exec) <| ite (pure _) <|
    ite (pure _) <| ite (ite (pure _) (mmap _)) <| ite (ite (pure _) (mmap _)) <|
    ite (error _) <| ite (pure _) (pure _)

theorem apply (ev : Event) : Idle (pevApply env false ev : SbM (SbBoth ι κ) Unit) := by
  refine bind get fun b => ite record <| bind (fun _ => ⟨rfl, rfl, rfl⟩) fun _ => ite (ite (fail _) (pure _)) <|
    ite switch <| ite switch (pure _)

end Idle

variable {s : PevSession ι κ} {d : SbDecoder PevPriv}

theorem fetch_keeps (s : PevSession ι κ) (d : SbDecoder PevPriv) :
    (sbFetch (pevCallbacks env) s d).1.shared.image = s.shared.image ∧ (sbFetch (pevCallbacks env) s d).1.decoders = s.decoders ∧
    (sbFetch (pevCallbacks env) s d).1.retired = s.retired ∧ (sbFetch (pevCallbacks env) s d).2.1.primary = d.primary := by
  have key : ((pevCallbacks env).fetch s.shared d.priv).1.image = s.shared.image := by
    unfold pevCallbacks
    dsimp only
    rcases pevFetch d.priv with ⟨p, _ | e | _⟩
    · rfl
    · cases e <;> first | rfl | exact (Idle.error _ _).1
    · rfl
  unfold sbFetch
  revert key
  rcases (pevCallbacks env).fetch s.shared d.priv with ⟨sh, p, _ | e | _⟩
  · exact fun h => ⟨h, rfl, rfl, rfl⟩
  · intro h
    cases e <;> exact ⟨h, rfl, rfl, rfl⟩
  · exact fun h => ⟨h, rfl, rfl, rfl⟩

theorem print_keeps (s : PevSession ι κ) (d : SbDecoder PevPriv) :
    (sbPrint (pevCallbacks env) s d).1.shared.image = s.shared.image ∧ (sbPrint (pevCallbacks env) s d).1.decoders = s.decoders ∧
    (sbPrint (pevCallbacks env) s d).1.retired = s.retired ∧ (sbPrint (pevCallbacks env) s d).2.1.primary = d.primary := by
  have key : ((pevCallbacks env).print s.shared d.priv).1.image = s.shared.image := by
    unfold pevCallbacks
    dsimp only
    rcases pevPrint d.priv with _ | e | _
    · rfl
    · exact (Idle.error _ _).1
    · rfl
  unfold sbPrint
  revert key
  rcases (pevCallbacks env).print s.shared d.priv with ⟨sh, p, _ | e | _⟩ <;> exact fun h => ⟨h, rfl, rfl, rfl⟩

theorem apply_keeps (image : Bool) (ev : Event) (call : SbCall) (s : PevSession ι κ) (d : SbDecoder PevPriv)
    (h : (image && d.primary) = false) :
    (sbApply (pevCallbacks env) image ev call s d).1.shared.image = s.shared.image ∧
    (sbApply (pevCallbacks env) image ev call s d).2.1.priv.context = d.priv.context ∧
    (sbApply (pevCallbacks env) image ev call s d).2.1.priv.nextContext = d.priv.nextContext ∧
    (sbApply (pevCallbacks env) image ev call s d).1.decoders = s.decoders ∧
    (sbApply (pevCallbacks env) image ev call s d).1.retired = s.retired ∧
    (sbApply (pevCallbacks env) image ev call s d).2.1.primary = d.primary := by
  have key : ((pevCallbacks env).apply (image && d.primary) ev s.shared d.priv).1.image = s.shared.image ∧
      ((pevCallbacks env).apply (image && d.primary) ev s.shared d.priv).2.1.context = d.priv.context ∧
      ((pevCallbacks env).apply (image && d.primary) ev s.shared d.priv).2.1.nextContext = d.priv.nextContext := by
    rw [h]
    unfold pevCallbacks
    dsimp only
    have := Idle.apply (env := env) ev ⟨s.shared, d.priv⟩
    revert this
    rcases pevApply env false ev ⟨s.shared, d.priv⟩ with ⟨b, _ | e | _⟩
    · exact id
    · intro ⟨h1, h2, h3⟩
      cases e <;> first
        | exact ⟨h1, h2, h3⟩
        | exact ⟨(Idle.error (env := env) (.error _) b).1.trans h1, h2, h3⟩
    · exact id
  unfold sbApply
  revert key
  rcases (pevCallbacks env).apply (image && d.primary) ev s.shared d.priv with ⟨sh, p, _ | e | _⟩ <;>
    exact fun h => ⟨h.1, h.2.1, h.2.2, rfl, rfl, rfl⟩

/-- No channel is for the traced processor, or there is no image to change. -/
def Silent (image : Bool) (s : PevSession ι κ) : Prop := ∀ d ∈ s.decoders ++ s.retired, (image && d.primary) = false

theorem mem_sbInsert {π : Type} {d x : SbDecoder π} : ∀ {l : List (SbDecoder π)}, x ∈ sbInsert d l → x = d ∨ x ∈ l
  | [], h => by simpa [sbInsert] using h
  | c :: l, h => by
    unfold sbInsert at h
    split at h
    · simpa using h
    · rcases List.mem_cons.1 h with h | h
      · exact .inr (by simp [h])
      · exact (mem_sbInsert h).imp id fun h => by simp [h]

/-- The session after a call is as silent as before, and has the same image. -/
def Same (image : Bool) (s s' : PevSession ι κ) : Prop := s'.shared.image = s.shared.image ∧ Silent image s'

theorem offer_same {image : Bool} {ev : Event} (h : Silent image s) (hd : (image && d.primary) = false) :
    Same image s (sbOffer (pevCallbacks env) image ev s d).1 := by
  unfold sbOffer
  have h1 := apply_keeps (env := env) image ev (.due d.id d.tsc ev) s d hd
  revert h1
  rcases sbApply (pevCallbacks env) image ev (.due d.id d.tsc ev) s d with ⟨s1, d1, r⟩
  rintro ⟨h1, -, -, h2, h3, h4⟩
  dsimp only at h1 h2 h3 h4
  have hs1 : Silent image s1 := by
    unfold Silent; rw [h2, h3]; exact h
  rcases r with _ | e | _
  · dsimp only
    have h5 := fetch_keeps (env := env) s1 d1
    revert h5
    rcases sbFetch (pevCallbacks env) s1 d1 with ⟨s2, d2, r⟩
    rintro ⟨g1, g2, g3, g4⟩
    dsimp only at g1 g2 g3 g4
    have hp : (image && d2.primary) = false := by rw [g4, h4]; exact hd
    have hs2 : Silent image s2 := by
      unfold Silent; rw [g2, g3]; exact hs1
    rcases r with _ | e | _
    · refine ⟨g1.trans h1, fun x hx => ?_⟩
      rcases List.mem_append.1 hx with hx | hx
      · rcases mem_sbInsert hx with rfl | hx
        · exact hp
        · exact hs2 _ (List.mem_append_left _ hx)
      · exact hs2 _ (List.mem_append_right _ hx)
    · cases e
      case eos =>
        refine ⟨g1.trans h1, fun x hx => ?_⟩
        rcases List.mem_append.1 hx with hx | hx
        · exact hs2 _ (List.mem_append_left _ hx)
        · rcases List.mem_cons.1 hx with rfl | hx
          · exact hp
          · exact hs2 _ (List.mem_append_right _ hx)
      all_goals exact ⟨g1.trans h1, hs2⟩
    · exact ⟨g1.trans h1, hs2⟩
  · exact ⟨h1, hs1⟩
  · exact ⟨h1, hs1⟩

theorem turn_same {image stream : Bool} {ev : Event} (h : Silent image s) (hd : (image && d.primary) = false) :
    Same image s (sbTurn (pevCallbacks env) image stream ev s d).1 := by
  unfold sbTurn
  split
  · have h1 := print_keeps (env := env) s d
    revert h1
    rcases sbPrint (pevCallbacks env) s d with ⟨s1, d1, r⟩
    rintro ⟨h1, h2, h3, h4⟩
    dsimp only at h1 h2 h3 h4
    have hs1 : Silent image s1 := by
      unfold Silent; rw [h2, h3]; exact h
    rcases r with _ | e | _
    · have := offer_same (env := env) (ev := ev) (d := d1) hs1 (by rw [h4]; exact hd)
      exact ⟨this.1.trans h1, this.2⟩
    · exact ⟨h1, hs1⟩
    · exact ⟨h1, hs1⟩
  · exact offer_same h hd

theorem round1_same {image stream : Bool} {ev : Event} : ∀ {fuel : Nat} {s : PevSession ι κ}, Silent image s →
    Same image s (sbRound1 (pevCallbacks env) image stream ev fuel s).1
  | 0, s, h => ⟨rfl, h⟩
  | fuel + 1, s, h => by
    unfold sbRound1
    split
    · exact ⟨rfl, h⟩
    · rename_i d l hl
      split
      · exact ⟨rfl, h⟩
      · have h0 : Silent image { s with decoders := l } := fun x hx => h x (by
          rw [hl]
          rcases List.mem_append.1 hx with hx | hx
          · exact List.mem_append_left _ (List.mem_cons_of_mem _ hx)
          · exact List.mem_append_right _ hx)
        have h1 := turn_same (env := env) (stream := stream) (ev := ev) h0 (h d (by rw [hl]; simp))
        split
        · rename_i hr
          rw [hr] at h1
          have := round1_same (stream := stream) (ev := ev) (fuel := fuel) h1.2
          exact ⟨this.1.trans h1.1, this.2⟩
        · exact h1

theorem present_same {image : Bool} {ev : Event} : ∀ {l : List (SbDecoder PevPriv)} {s : PevSession ι κ},
    (∀ d ∈ l, (image && d.primary) = false) →
    (sbPresent (pevCallbacks env) image ev l s).1.shared.image = s.shared.image ∧
    (sbPresent (pevCallbacks env) image ev l s).1.retired = s.retired
  | [], s, _ => ⟨rfl, rfl⟩
  | d :: l, s, h => by
    unfold sbPresent
    have h1 := apply_keeps (env := env) image ev (.shown d.id ev) s d (h d (by simp))
    revert h1
    rcases sbApply (pevCallbacks env) image ev (.shown d.id ev) s d with ⟨s1, d1, r⟩
    rintro ⟨h1, -, -, h2, h3, h4⟩
    dsimp only at h1 h2 h3 h4
    have ih := fun s => present_same (ev := ev) (l := l) (s := s) fun x hx => h x (by simp [hx])
    rcases r with _ | e | _
    · dsimp only
      have := ih s1
      revert this
      rcases sbPresent (pevCallbacks env) image ev l s1 with ⟨s2, _ | _ | _⟩ <;>
        exact fun h => ⟨h.1.trans h1, h.2.trans h3⟩
    · have := ih { s1 with removed := d1 :: s1.removed }
      exact ⟨this.1.trans h1, this.2.trans h3⟩
    · exact ⟨h1, h3⟩

theorem round2_same {image : Bool} {ev : Event} (h : Silent image s) :
    (sbRound2 (pevCallbacks env) image ev s).1.shared.image = s.shared.image := by
  unfold sbRound2
  have h1 := present_same (env := env) (ev := ev) (l := s.decoders) (s := s) fun d hd => h d (by simp [hd])
  revert h1
  rcases sbPresent (pevCallbacks env) image ev s.decoders s with ⟨s1, l | e | _⟩ <;> rintro ⟨h1, h2⟩
  · dsimp only at h1 h2 ⊢
    have h3 := present_same (env := env) (ev := ev) (l := s1.retired) (s := { s1 with decoders := l }) fun d hd => h d (by
      rw [h2] at hd; simp [hd])
    revert h3
    rcases sbPresent (pevCallbacks env) image ev s1.retired { s1 with decoders := l } with ⟨s2, _ | e | _⟩ <;>
      exact fun h => h.1.trans h1
  · exact h1
  · exact h1

/-- C60: a channel that is not for the traced processor does not change the caller's image, nor does it follow a process, whatever the
record, the event and the state of the session, also if it fails.  The same is true of all channels if the caller gives no image. -/
theorem C60_secondary (image : Bool) (ev : Event) (call : SbCall) (s : PevSession ι κ) (d : SbDecoder PevPriv)
    (h : image = false ∨ d.primary = false) :
    (sbApply (pevCallbacks env) image ev call s d).1.shared.image = s.shared.image ∧
    (sbApply (pevCallbacks env) image ev call s d).2.1.priv.context = d.priv.context ∧
    (sbApply (pevCallbacks env) image ev call s d).2.1.priv.nextContext = d.priv.nextContext := by
  obtain ⟨h1, h2, h3, -⟩ := apply_keeps (env := env) image ev call s d (by rcases h with h | h <;> rw [h] <;> simp)
  exact ⟨h1, h2, h3⟩

/-- C60: so `pt_sb_event` does not change the caller's image if no channel is for the traced processor. -/
theorem C60_event_secondary (image stream : Bool) (ev : Event) (fuel : Nat) (s : PevSession ι κ)
    (h : image = false ∨ ∀ d ∈ s.decoders ++ s.retired, d.primary = false) :
    (sbEvent (pevCallbacks env) image stream ev fuel s).1.shared.image = s.shared.image := by
  have hs : Silent image s := fun d hd => by
    rcases h with h | h
    · rw [h]; rfl
    · rw [h d hd]; simp
  unfold sbEvent
  have h1 := round1_same (env := env) (stream := stream) (ev := ev) (fuel := fuel) hs
  split
  · rename_i hr
    rw [hr] at h1
    exact (round2_same h1.2).trans h1.1
  · exact h1.1

end Ipt.Props

/-! ## An example -/

namespace Ipt.Props.SbDemo

/-- The same channel, when it is not for the traced processor: the start record changes nothing. -/
example : (sbApply (pevCallbacks env) true (enabledAt 15 0x400000) (.due 0 0 (enabledAt 15 0x400000)) started (channel started)).1.shared.image = some 0 ∧
    (sbApply (pevCallbacks env) true (enabledAt 15 0x400000) (.due 0 0 (enabledAt 15 0x400000)) started
      { channel started with primary := false }).1.shared.image = none := by decide +kernel

/-- It does change the processes. -/
example : (sbEvent (pevCallbacks env) true false (enabledAt 15 0x400000) 8
      { started with decoders := [{ channel started with primary := false }] }).1.shared.contexts.length = 1 ∧
    started.shared.contexts.length = 0 := by decide +kernel

end Ipt.Props.SbDemo
