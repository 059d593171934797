import Verif.SbTable
import Verif.SbPeventRead

/-! # Lemmas: applying a perf event record -/

namespace Ipt

open Spec Spec.Processes

variable {ι κ : Type} (env : SbEnv ι κ)

/-- Only reference counts and the image pointer have changed, and contexts may have been freed. -/
structure Alike (w w' : SbWorld ι κ) : Prop where
  same : SbSame { w with image := w'.image } w'

theorem SbSame.alike {w w' : SbWorld ι κ} (h : SbSame w w') : Alike w w' := ⟨⟨h.contexts, h.kernel, Eq.refl _, h.seen⟩⟩

theorem Alike.trans {w w' w'' : SbWorld ι κ} (h : Alike w w') (h' : Alike w' w'') : Alike w w'' :=
  ⟨⟨h'.same.contexts.trans h.same.contexts, h'.same.kernel.trans h.same.kernel, rfl,
    fun j x hx => h.same.seen j x (h'.same.seen j x hx)⟩⟩

theorem Alike.find {w w' : SbWorld ι κ} {rs : List Nat} (h : Alike w w') (hu : w.Uniq) (ho : Own w' rs) (pid : Nat) :
    w'.find pid = w.find pid := same_find (w := { w with image := w'.image }) ⟨hu.of⟩ h.same ho pid

theorem Alike.table {w w' : SbWorld ι κ} {rs : List Nat} (h : Alike w w') (hu : w.Uniq) (ho : Own w' rs) :
    w'.table = w.table := same_table (w := { w with image := w'.image }) ⟨hu.of⟩ h.same ho

/-- The context of the process a channel follows. -/
def PevPriv.target (p : PevPriv) : Option Nat := p.nextContext <|> p.context

theorem nextFor_target (p : PevPriv) (i : Nat) : PevPriv.target { p with nextContext := nextFor p i } = some i := by
  unfold PevPriv.target nextFor
  by_cases h1 : p.nextContext = some i
  · simp [h1]
  · by_cases h2 : p.context = some i
    · simp [h1, h2]
    · simp [h1, h2]

variable {l : List PevPriv} {s : SbBoth ι κ}

/-- What is left by a record that was applied: `t` is the table of processes. -/
structure After (l : List PevPriv) (s s' : SbBoth ι κ) (t : Table ι) : Prop where
  good : s'.Good l
  moves : Moves s.priv s'.priv
  kernel : s'.world.kernel = s.world.kernel
  table : s'.world.table = t

/-- The contexts a channel uses have not changed. -/
structure Still (s s' : SbBoth ι κ) : Prop where
  context : s'.priv.context = s.priv.context
  nextContext : s'.priv.nextContext = s.priv.nextContext
  image : s'.world.image = s.world.image

/-- The channel follows a process from now on. -/
structure Follows (s s' : SbBoth ι κ) (pid : Nat) : Prop where
  context : s'.priv.context = s.priv.context
  target : s'.priv.target = s'.world.find pid ∧ s'.priv.target ≠ none
  image : s'.world.image = s.world.image

/-- The channel uses a process's context from now on. -/
structure Uses (s s' : SbBoth ι κ) (pid : Nat) : Prop where
  context : s'.priv.context = s'.world.find pid ∧ s'.priv.context ≠ none
  nextContext : s'.priv.nextContext = none
  image : s'.world.image = s'.priv.context ∨ s'.world.image = s.world.image ∧ s'.priv.context = s.priv.context

/-- The fresh image only depends on the kernel's. -/
theorem fresh_eq {w w' : SbWorld ι κ} (h : w'.kernel = w.kernel) : w'.fresh env = w.fresh env := by
  unfold SbWorld.fresh; rw [h]

theorem toPid_does {pid : Nat} (h : s.Good l) :
    (pevPrepareSwitchToPid env pid).Does s
      (fun _ s' => After l s s' (s.world.table.set pid (s.world.table.get (s.world.fresh env) pid)) ∧ Follows s s' pid)
      (Left l s) := by
  refine (prepareSwitchToPid_does env h).mono (fun _ s' ⟨g, i, w, hg, hs, hp⟩ => ?_) fun _ _ h => h
  have ho := hg.own env h.own
  have hu := hg.uniq env h.own h.uniq
  have hf : s'.world.find pid = some i := by rw [same_find hu hs g.own, got_find env hg h.own h.uniq]
  have ht : s'.priv.target = some i := by rw [hp]; exact nextFor_target _ _
  refine ⟨⟨g, ?_, ?_, ?_⟩, ⟨?_, ?_, ?_⟩⟩
  · rw [hp]; exact .refl _
  · rw [hs.kernel, (hg.image env).2]
  · rw [same_table hu hs g.own, got_table env hg h.own h.uniq]
  · rw [hp]
  · rw [ht, hf]; exact ⟨rfl, by simp⟩
  · rw [hs.image, (hg.image env).1]

theorem switch_alike (h : s.Good l) {image : Bool} :
    (pevSwitchContexts env image).Does s
      (fun _ s' => s'.Good l ∧ Alike s.world s'.world ∧ s.priv.nextContext ≠ none ∧
        s'.priv = { s.priv with nextContext := none, context := s.priv.nextContext } ∧ s'.world.image = s.priv.nextContext)
      (fun _ s' => s'.Good l ∧ s'.priv = s.priv ∧ SbSame s.world s'.world) := by
  refine (switchContexts_does env h).mono (fun _ s' ⟨g, n, hn, hp, v, h1, h2⟩ => ?_) fun _ _ h => h
  refine ⟨g, ⟨⟨h2.contexts.trans h1.contexts, h2.kernel.trans h1.kernel, rfl, fun j x hx => h1.seen j x (h2.seen j x hx)⟩⟩,
    by rw [hn]; simp, by rw [hp, hn], ?_⟩
  rw [h2.image, hn]

theorem itraceStart_does {image : Bool} {pid : Nat} (h : s.Good l) (hr : pevField s.priv 0 4 = .ok pid) :
    (pevItraceStart env image).Does s
      (fun _ s' => After l s s' (s.world.table.set pid (s.world.table.get (s.world.fresh env) pid)) ∧ Uses s s' pid)
      (Left l s) := by
  unfold pevItraceStart
  rw [SbM.does_bind, SbM.does_get, SbM.does_bind, SbM.does_lift, hr]
  dsimp only
  rw [SbM.does_bind]
  refine (toPid_does env h).mono (fun _ s1 ⟨a, f⟩ => ?_) fun _ _ h => h
  rw [SbM.does_bind, SbM.does_get]
  by_cases hn : s1.priv.nextContext = none
  · rw [if_pos hn]
    have ht : s1.priv.target = s1.priv.context := by simp [PevPriv.target, hn]
    exact ⟨a, ⟨by rw [← ht]; exact f.target, hn, .inr ⟨f.image, f.context⟩⟩⟩
  · rw [if_neg hn]
    refine (switch_alike env a.good).mono (fun _ s2 ⟨g, al, hn, hp, hi⟩ => ?_) fun _ s2 ⟨g, hp, hsm⟩ => ?_
    · have ht : s1.priv.target = s1.priv.nextContext := by
        rcases hq : s1.priv.nextContext with _ | n
        · exact absurd hq hn
        · simp [PevPriv.target, hq]
      refine ⟨⟨g, a.moves.trans ?_, by rw [al.same.kernel]; exact a.kernel, by rw [al.table a.good.uniq g.own]; exact a.table⟩, ?_, ?_, ?_⟩
      · rw [hp]; exact rfl
      · rw [hp, al.find a.good.uniq g.own, ← ht]; exact f.target
      · rw [hp]
      · rw [hp, hi]; exact .inl rfl
    · exact ⟨g, by rw [hp]; exact a.moves, by rw [hp]; exact f.context, by rw [hsm.image]; exact f.image⟩

/-- Without the process. -/
def without (t : Table ι) (pid : Nat) : Table ι := fun q => if q = pid then none else t q

theorem remove_does {pid : Nat} {w : SbWorld ι κ} {q : List PevPriv} (h : Sound w q) :
    (pevRemoveContextForPid pid).Does w
      (fun _ w' => Sound w' q ∧ w'.ext = w.ext ∧ w'.kernel = w.kernel ∧ w'.image = w.image ∧ w'.find pid = none ∧
        w'.table = without w.table pid) (fun _ _ => False) := by
  refine (removeContextForPid_does h).mono (fun _ w' ⟨g, he, hm⟩ => ?_) fun _ _ h => h
  rcases hf : w.find pid with _ | i
  · rw [hf] at hm
    dsimp only at hm
    subst hm
    refine ⟨g, rfl, rfl, rfl, hf, ?_⟩
    funext p
    unfold without
    split
    · rename_i hp; subst hp; simp [SbWorld.table, hf]
    · rfl
  · rw [hf] at hm
    dsimp only at hm
    have hu := h.uniq.drop i
    refine ⟨g, he, hm.kernel, hm.image, ?_, ?_⟩
    · rw [same_find hu hm g.own, drop_find h.own.nodup h.uniq hf, if_pos rfl]
    · rw [same_table hu hm g.own]
      funext p
      rw [drop_table h.own.nodup h.uniq hf]; rfl

theorem without_set (t : Table ι) (pid : Nat) (x : ι × SbAbi) : (without t pid).set pid x = t.set pid x := by
  funext q
  unfold Table.set without
  split <;> rfl

theorem got_ext {w w' : SbWorld ι κ} {pid i : Nat} (hg : Got env w pid i w') : w'.ext = w.ext := by cases hg <;> rfl

/-- A new context for a process. -/
theorem renew_does {pid : Nat} {w : SbWorld ι κ} {q : List PevPriv} (h : Sound w q) :
    (pevRemoveContextForPid pid).Does w
      (fun _ w1 => (sbGetContext env pid).Does w1
        (fun i w' => Sound w' q ∧ w'.kernel = w.kernel ∧ w'.image = w.image ∧ w'.ext = w.ext ∧ w'.find pid = some i ∧
          w'.table = w.table.set pid (w.fresh env, .unknown))
        (fun _ w' => Sound w' q ∧ w'.image = w.image)) (fun _ _ => False) := by
  refine (remove_does h).mono (fun _ w1 ⟨a1, a2, a3, a4, a5, a6⟩ => ?_) fun _ _ h => h
  refine (getContext_does env a1.own pid).mono (fun i w' hg => ?_) fun e w' ⟨_, _, he⟩ => by subst he; exact ⟨a1.waste, a4⟩
  have hx : w'.ext = w1.ext := by cases hg <;> rfl
  refine ⟨a1.got env hg, by rw [(hg.image env).2, a3], by rw [(hg.image env).1, a4], by rw [hx, a2], got_find env hg a1.own a1.uniq, ?_⟩
  rw [got_table env hg a1.own a1.uniq, a6, without_set, fresh_eq env a3]
  congr 1
  simp [Table.get, without]

theorem forkProcess_does {pid ppid : Nat} (hne : ppid ≠ pid) {w : SbWorld ι κ} {q : List PevPriv} (h : Sound w q) :
    (pevForkProcess env pid ppid).Does w
      (fun _ w' => Sound w' q ∧ w'.kernel = w.kernel ∧ w'.image = w.image ∧
        w'.table = match w.table ppid with
          | none => w.table.set pid (w.fresh env, .unknown)
          | some (image, _) => w.table.set pid ((env.copy (w.fresh env) image).1, .unknown))
      (fun _ w' => Sound w' q ∧ w'.image = w.image) := by
  unfold pevForkProcess
  rw [SbM.does_bind]
  refine (renew_does env h).mono (fun _ w1 hd => ?_) fun _ _ h => h.elim
  rw [SbM.does_bind]
  refine hd.mono (fun i w2 ⟨a1, a2, a3, _, a4, a5⟩ => ?_) fun _ _ h => h
  rw [SbM.does_bind, SbM.does_ok (sbFindContext_eq a1.own ppid)]
  have hpt : w2.table ppid = w.table ppid := by rw [a5]; simp [Table.set, hne]
  rcases hf : w2.find ppid with _ | parent
  · have : w.table ppid = none := by rw [← hpt]; simp [SbWorld.table, hf]
    rw [this]
    exact ⟨a1, a2, a3, a5⟩
  · obtain ⟨c, hc⟩ := a1.own.live (i := parent) (by simp [SbWorld.refs, (find_mem hf).1])
    obtain ⟨d, hd⟩ := a1.own.live (i := i) (by simp [SbWorld.refs, (find_mem a4).1])
    have h1 : w.table ppid = some (c.image, c.abi) := by rw [← hpt]; exact table_at hf hc
    have h2 := table_at a4 hd
    rw [a5, Table.set, if_pos rfl] at h2
    simp only [Option.some.injEq, Prod.mk.injEq] at h2
    rw [h1]
    dsimp only
    rw [SbM.does_bind, SbM.does_ok (sbDeref_eq hc), SbM.does_of_eq (sbCopyImage_eq env hd _)]
    have hs : Sound (w2.put i (some { d with image := (env.copy d.image c.image).1 })) q := a1.store hd rfl rfl
    rcases (env.copy d.image c.image).2 with _ | e
    · refine ⟨hs, a2, a3, ?_⟩
      rw [store_table (d := { d with image := (env.copy d.image c.image).1 }) a1.uniq a4 hd rfl, a5, ← h2.1, ← h2.2]
      funext p
      unfold Table.set
      split <;> rfl
    · exact ⟨hs, a3⟩

theorem world_after {s' : SbBoth ι κ} {t : Table ι} (hp : s'.priv = s.priv) (hs : Sound s'.world (s.priv :: l))
    (hk : s'.world.kernel = s.world.kernel) (hi : s'.world.image = s.world.image) (ht : s'.world.table = t) :
    After l s s' t ∧ Still s s' :=
  ⟨⟨by unfold SbBoth.Good; rw [hp]; exact hs, by rw [hp]; exact .refl _, hk, ht⟩, by rw [hp], by rw [hp], hi⟩

theorem fork_does {pid ppid tid : Nat} (h : s.Good l) (h1 : pevField s.priv 0 4 = .ok pid) (h2 : pevField s.priv 4 4 = .ok ppid)
    (h3 : pevField s.priv 8 4 = .ok tid) :
    (pevFork env).Does s
      (fun _ s' => After l s s' (if pid = ppid then s.world.table else match s.world.table ppid with
          | none => s.world.table.set pid (s.world.fresh env, .unknown)
          | some (image, _) => s.world.table.set pid ((env.copy (s.world.fresh env) image).1, .unknown)) ∧ Still s s')
      (Left l s) := by
  unfold pevFork
  rw [SbM.does_bind, SbM.does_get, SbM.does_bind, SbM.does_lift, h2]
  dsimp only
  rw [SbM.does_bind, SbM.does_lift, h1]
  dsimp only
  by_cases hp : ppid = pid
  · rw [if_pos hp, if_pos hp.symm]
    exact world_after rfl h rfl rfl rfl
  rw [if_neg hp, if_neg (fun e => hp e.symm), SbM.does_bind, SbM.does_lift, h3]
  dsimp only
  by_cases ht : pid ≠ tid
  · rw [if_pos ht]
    exact ⟨h, .refl _, rfl, rfl⟩
  rw [if_neg ht, onWorld_does]
  refine (forkProcess_does env hp h).mono (fun _ w' ⟨a1, a2, a3, a4⟩ => ?_) fun _ w' ⟨a1, a2⟩ => ⟨a1, .refl _, rfl, a2⟩
  exact world_after rfl a1 a2 a3 a4

theorem exec_does {image : Bool} {pid : Nat} (h : s.Good l) (h1 : pevField s.priv 0 4 = .ok pid) :
    (pevExec env image).Does s
      (fun _ s' => After l s s' (s.world.table.set pid (s.world.fresh env, .unknown)) ∧
        if image = true then Follows s s' pid else Still s s')
      (Left l s) := by
  unfold pevExec
  rw [SbM.does_bind, SbM.does_get, SbM.does_bind, SbM.does_lift, h1]
  dsimp only
  rw [SbM.does_bind, onWorld_does]
  refine (renew_does env h).mono (fun _ w1 hd => ?_) fun _ _ h => h.elim
  rw [SbM.does_bind, onWorld_does]
  refine hd.mono (fun i w2 ⟨a1, a2, a3, _, a4, a5⟩ => ?_) fun _ w2 ⟨a1, a2⟩ => ⟨a1, .refl _, rfl, a2⟩
  by_cases hi : image = false
  · rw [if_pos hi]
    subst hi
    exact world_after rfl a1 a2 a3 a5
  · rw [if_neg hi]
    have hi' : image = true := by simpa using hi
    subst hi'
    have hm := (find_mem a4).1
    refine (prepareSwitch_does (s := { s with world := w2 }) a1 hm).mono (fun _ s2 ⟨b1, b2, b3⟩ => ?_) fun _ s2 ⟨b1, b2, b3⟩ => ?_
    · have hf : s2.world.find pid = some i := by rw [same_find a1.uniq b3 b1.own]; exact a4
      have ht : s2.priv.target = some i := by rw [b2]; exact nextFor_target _ _
      refine ⟨⟨b1, by rw [b2]; exact rfl, by rw [b3.kernel]; exact a2, by rw [same_table a1.uniq b3 b1.own]; exact a5⟩, ?_, ?_, ?_⟩
      · rw [b2]
      · rw [ht, hf]; exact ⟨rfl, by simp⟩
      · rw [b3.image]; exact a3
    · exact ⟨b1, by rw [b2]; exact rfl, by rw [b2], by rw [b3.image]; exact a3⟩

/-- The user is told. -/
def SbTold (s s' : SbBoth ι κ) (note : SbNote) : Prop :=
  s'.world.ext = (env.onError s.world.ext note (s.priv.current.getD s.priv.next)).1

theorem after_error {s1 : SbBoth ι κ} {t : Table ι} (note : SbNote) (h : After l s s1 t) (hs : Still s s1) :
    (pevError env note).Does s1 (fun _ s' => After l s s' t ∧ Still s s' ∧
      s'.world.ext = (env.onError s1.world.ext note (s1.priv.current.getD s1.priv.next)).1) (Left l s) := by
  refine (pevError_does env).mono (fun _ s' he => ?_) fun _ s' he => ?_
  · subst he
    exact ⟨⟨h.good.ext _, h.moves, h.kernel, h.table⟩, ⟨hs.context, hs.nextContext, hs.image⟩, rfl⟩
  · subst he
    exact ⟨h.good.ext _, h.moves, hs.context, hs.image⟩

theorem trackAbi_eq {i : Nat} {c : SbCtx ι} (file : List UInt8) (hc : s.world.at i = some c) :
    pevTrackAbi env i file s = (⟨if c.abi ≠ .unknown ∨ env.abi s.world.ext file = none then s.world
      else s.world.put i (some { c with abi := (env.abi s.world.ext file).getD .unknown }), s.priv⟩, .ok ()) := by
  unfold pevTrackAbi
  rw [SbM.bind_ok (show onWorld (sbDeref i) s = (s, .ok c) by unfold onWorld; rw [sbDeref_eq hc])]
  by_cases ha : c.abi ≠ .unknown
  · rw [if_pos ha, if_pos (.inl ha)]; rfl
  rw [if_neg ha, SbM.bind_ok (show SbM.get s = (s, .ok s) from rfl)]
  rcases hb : env.abi s.world.ext file with _ | abi
  · rw [if_pos (.inr rfl)]; rfl
  · rw [if_neg (by simpa using ha)]; rfl

/-- The file, as the specification says. -/
def fileOf (p : PevPriv) (abi : SbAbi) (name : List UInt8) : Option (List UInt8) :=
  match pevFile p abi name with
  | .ok f => some f
  | .error _ => none

theorem map_does {pid size offset vaddr : Nat} {file : List UInt8} (h : s.Good l) :
    (pevMap env pid file offset size vaddr).Does s
      (fun _ s' => After l s s' (
          let x := s.world.table.get (s.world.fresh env) pid
          match fileOf s.priv x.2 file with
          | none => s.world.table.set pid x
          | some f => s.world.table.set pid ((env.mmap s.world.ext x.1 f offset size vaddr).2.1,
              if x.2 = .unknown then (env.abi s.world.ext f).getD .unknown else x.2)) ∧ Still s s' ∧
          (fileOf s.priv (s.world.table.get (s.world.fresh env) pid).2 file = none → ∃ note, SbTold env s s' note))
      (Left l s) := by
  unfold pevMap
  rw [SbM.does_bind]
  refine (getContext_good env h).mono (fun i s1 ⟨g1, g2, p1⟩ => ?_) fun _ _ ⟨a, b, c⟩ => ⟨a, by rw [b]; exact .refl _, by rw [b], c⟩
  have hf := got_find env g1 h.own h.uniq
  have ht := got_table env g1 h.own h.uniq
  have hx : s1.world.ext = s.world.ext := got_ext env g1
  obtain ⟨c, hc⟩ := g2.own.live (i := i) (by simp [SbWorld.refs, g1.mem])
  have hcx := table_at hf hc
  rw [ht, Table.set, if_pos rfl] at hcx
  simp only [Option.some.injEq] at hcx
  rw [SbM.does_bind, SbM.does_get, SbM.does_bind, onWorld_does, SbM.does_ok (sbDeref_eq hc)]
  rw [hcx]
  dsimp only
  have hb : After l s s1 (s.world.table.set pid (c.image, c.abi)) ∧ Still s s1 := by
    refine world_after p1 ?_ ((g1.image env).2) ((g1.image env).1) (by rw [ht, hcx])
    unfold SbBoth.Good at g2; rw [p1] at g2; exact g2
  have hpf : pevFile s1.priv c.abi file = pevFile s.priv c.abi file := by rw [p1]
  unfold fileOf
  rcases hfile : pevFile s.priv c.abi file with note | f
  · rw [hpf, hfile]
    refine (after_error env note hb.1 hb.2).mono (fun _ s' ⟨a, b, c⟩ => ⟨a, b, fun _ => ⟨note, ?_⟩⟩) fun _ _ h => h
    rw [SbTold, c, hx, p1]
  · rw [hpf, hfile]
    dsimp only
    rw [SbM.does_bind, SbM.does_ok (trackAbi_eq env f hc), onWorld_does]
    dsimp only
    -- the context with its ABI
    have key : ∃ w d, (if c.abi ≠ .unknown ∨ env.abi s1.world.ext f = none then s1.world
        else s1.world.put i (some { c with abi := (env.abi s1.world.ext f).getD .unknown })) = w ∧ w.at i = some d ∧ d.image = c.image ∧
        d.abi = (if c.abi = .unknown then (env.abi s1.world.ext f).getD .unknown else c.abi) ∧ Sound w (s.priv :: l) ∧
        w.find pid = some i ∧ w.ext = s1.world.ext ∧ w.kernel = s1.world.kernel ∧ w.image = s1.world.image ∧
        ∀ q, q ≠ pid → w.table q = s1.world.table q := by
      by_cases ha : c.abi ≠ .unknown ∨ env.abi s1.world.ext f = none
      · rw [if_pos ha]
        refine ⟨s1.world, c, rfl, hc, rfl, ?_, ?_, hf, rfl, rfl, rfl, fun _ _ => rfl⟩
        · by_cases hu : c.abi = .unknown
          · rw [if_pos hu, hu]
            rcases ha with ha | ha
            · exact absurd hu ha
            · rw [ha]; rfl
          · rw [if_neg hu]
        · rw [← p1]; exact g2
      · rw [if_neg ha]
        have ha1 : c.abi = .unknown := by
          rcases Classical.em (c.abi = .unknown) with h | h
          · exact h
          · exact absurd (.inl h) ha
        refine ⟨_, { c with abi := (env.abi s1.world.ext f).getD .unknown }, rfl, ?_, ?_, ?_, ?_, ?_, rfl, rfl, rfl, ?_⟩
        · rw [SbWorld.at_put hc, if_pos rfl]
        · rfl
        · rw [if_pos ha1]
        · rw [← p1]; exact Sound.store g2 hc rfl rfl
        · rw [store_find (d := { c with abi := (env.abi s1.world.ext f).getD .unknown }) g2.uniq hc rfl]; exact hf
        · intro q hq
          rw [store_table (d := { c with abi := (env.abi s1.world.ext f).getD .unknown }) g2.uniq hf hc rfl, Table.set, if_neg hq]
    obtain ⟨w, d, hw, k1, k2, k3, k4, k5, k6, k7, k8, k9⟩ := key
    rw [hw, SbM.does_of_eq (sbCtxMmap_eq env k1 f offset size vaddr)]
    have hS : Sound { w.put i (some { d with image := (env.mmap w.ext d.image f offset size vaddr).2.1 }) with
        ext := (env.mmap w.ext d.image f offset size vaddr).1 } (s.priv :: l) :=
      (Sound.store (d := { d with image := (env.mmap w.ext d.image f offset size vaddr).2.1 }) k4 k1 rfl rfl).ext _
    rcases hm : (env.mmap w.ext d.image f offset size vaddr).2.2 with _ | e
    · refine (fun h => ⟨h.1, h.2, fun h => by cases h⟩ : After l s _ _ ∧ Still s _ → _) ?_
      refine world_after p1 hS (k7.trans (g1.image env).2) (k8.trans (g1.image env).1) ?_
      funext q
      have h1 := congrFun (store_table (d := { d with image := (env.mmap w.ext d.image f offset size vaddr).2.1 }) k4.uniq k5 k1 rfl) q
      have h2 : ∀ (v : SbWorld ι κ) (x : κ), ({ v with ext := x } : SbWorld ι κ).table = v.table := fun _ _ => rfl
      show (({ w.put i (some { d with image := (env.mmap w.ext d.image f offset size vaddr).2.1 }) with
        ext := (env.mmap w.ext d.image f offset size vaddr).1 } : SbWorld ι κ)).table q = _
      rw [h2, h1]
      unfold Table.set
      by_cases hq : q = pid
      · rw [if_pos hq, if_pos hq, k2, k3, k6, hx]
      · rw [if_neg hq, if_neg hq, k9 q hq, ht, Table.set, if_neg hq]
    · exact ⟨by show Sound _ (s1.priv :: l); rw [p1]; exact hS, by show Moves s.priv s1.priv; rw [p1]; exact .refl _,
        by show s1.priv.context = _; rw [p1], k8.trans (g1.image env).1⟩

/-- What a record has done that was applied. -/
structure Applied (image : Bool) (l : List PevPriv) (s s' : SbBoth ι κ) : Prop where
  after : After l s s' ((says s.priv.data).effect env s.world.ext (s.world.fresh env) (fileOf s.priv) image s.world.table)
  control : match says s.priv.data with
    | .start pid => if image = true then Uses s s' pid else Still s s'
    | .switch (some pid) => if image = true then Follows s s' pid else Still s s'
    | .exec pid => if image = true then Follows s s' pid else Still s s'
    | _ => Still s s'
  told : match says s.priv.data with
    | .lost => SbTold env s s' .lost
    | .traceLost => image = true → SbTold env s s' .traceLost
    | .map pid _ _ _ name =>
      fileOf s.priv (s.world.table.get (s.world.fresh env) pid).2 name = none → ∃ note, SbTold env s s' note
    | _ => True

theorem applied_nothing {image : Bool} (h : s.Good l) (hs : says s.priv.data = .nothing) : Applied env image l s s := by
  refine ⟨?_, ?_, ?_⟩
  · rw [hs]; exact (world_after rfl h rfl rfl rfl).1
  · rw [hs]; exact (world_after rfl h rfl rfl rfl).2
  · rw [hs]; trivial

theorem applied_error {image : Bool} (note : SbNote) (h : s.Good l) 
    (hs : says s.priv.data = .lost ∧ note = .lost ∨ says s.priv.data = .traceLost ∧ note = .traceLost) :
    (pevError env note).Does s (fun _ s' => Applied env image l s s') (Left l s) := by
  have hb := world_after (s := s) (s' := s) (l := l) rfl h rfl rfl rfl
  refine (after_error env note hb.1 hb.2).mono (fun _ s' ⟨a, b, c⟩ => ?_) fun _ _ h => h
  rcases hs with ⟨hs, rfl⟩ | ⟨hs, rfl⟩
  · exact ⟨by rw [hs]; exact a, by rw [hs]; exact b, by rw [hs]; exact c⟩
  · exact ⟨by rw [hs]; exact a, by rw [hs]; exact b, by rw [hs]; exact fun _ => c⟩

theorem mmap_does {image : Bool} (h : s.Good l) (ha : Active s.priv) {n : Nat}
    (hr : pevRecord s.priv.event.type = some (n, true)) (hn : 32 ≤ n)
    (hs : says s.priv.data = .map (field s.priv.data 0 4) (field s.priv.data 8 8) (field s.priv.data 16 8) (field s.priv.data 24 8) s.priv.data.string) :
    (pevMmap env n).Does s (fun _ s' => Applied env image l s s') (Left l s) := by
  unfold pevMmap
  rw [SbM.does_bind, SbM.does_get]
  iterate 4
    rw [SbM.does_bind, SbM.does_lift, pevField_eq ha hr (by omega) (by omega)]
    dsimp only
  rw [SbM.does_bind, SbM.does_lift, pevString_eq ha hr (by omega)]
  dsimp only
  refine (map_does env h).mono (fun _ s' ⟨a, b, c⟩ => ⟨?_, ?_, ?_⟩) fun _ _ h => h
  · rw [hs]; exact a
  · rw [hs]; exact b
  · rw [hs]; exact c

theorem data_type (p : PevPriv) : p.data.type = p.event.type := rfl
theorem data_misc (p : PevPriv) : p.data.misc = p.event.misc := rfl

theorem switch_does {image : Bool} (hi : image = true) (h : s.Good l) (ha : Active s.priv) (hs : says s.priv.data = .switch s.priv.data.pid) :
    (pevSwitch env).Does s (fun _ s' => Applied env image l s s') (Left l s) := by
  unfold pevSwitch
  rw [SbM.does_bind, SbM.does_get]
  rcases hp : s.priv.event.sample.pid with _ | off
  · exact ⟨h, .refl _, rfl, rfl⟩
  · obtain ⟨pid, h1, h2⟩ := pevPid_eq ha hp
    dsimp only
    rw [SbM.does_bind, SbM.does_lift, h1]
    refine (toPid_does env h).mono (fun _ s' ⟨a, b⟩ => ⟨?_, ?_, ?_⟩) fun _ _ h => h
    · rw [hs, h2]; unfold Says.effect; dsimp only; rw [if_pos hi]; exact a
    · rw [hs, h2]; dsimp only; rw [if_pos hi]; exact b
    · rw [hs, h2]; trivial

/-- Applying a record. -/
theorem applyRecord_does {image : Bool} (h : s.Good l) (ha : Active s.priv) :
    (pevApplyRecord env image).Does s (fun _ s' => Applied env image l s s') (Left l s) := by
  have hi : image = false ∨ image = true := by cases image <;> simp
  have hbit : s.priv.event.misc.testBit 13 = false ∨ s.priv.event.misc.testBit 13 = true := by
    cases s.priv.event.misc.testBit 13 <;> simp
  have hst := fun hs : says s.priv.data = .nothing => applied_nothing (image := image) env h hs
  have hsame := world_after (s := s) (s' := s) (l := l) rfl h rfl rfl rfl
  unfold pevApplyRecord
  rw [SbM.does_bind, SbM.does_get]
  dsimp only
  by_cases h12 : s.priv.event.type = 12
  · rw [if_pos h12]
    have hs : says s.priv.data = .start (field s.priv.data 0 4) := by
      unfold says; rw [data_type, h12]; rfl
    rcases hi with hi | hi
    · rw [if_pos hi]
      exact ⟨by rw [hs, hi]; exact hsame.1, by rw [hs, hi]; exact hsame.2, by rw [hs]; trivial⟩
    · rw [if_neg (by simp [hi])]
      have hr : pevRecord s.priv.event.type = some (8, false) := by rw [h12]; rfl
      refine (itraceStart_does env h (pevField_eq ha hr (by omega) (by omega))).mono (fun _ s' ⟨a, b⟩ => ⟨?_, ?_, ?_⟩) fun _ _ h => h
      · rw [hs]; unfold Says.effect; dsimp only; rw [if_pos hi]; exact a
      · rw [hs]; dsimp only; rw [if_pos hi]; exact b
      · rw [hs]; trivial
  rw [if_neg h12]
  by_cases h7 : s.priv.event.type = 7
  · rw [if_pos h7]
    have hs : says s.priv.data = .fork (field s.priv.data 0 4) (field s.priv.data 4 4) (field s.priv.data 8 4) := by
      unfold says; rw [data_type, h7]; rfl
    have hr : pevRecord s.priv.event.type = some (24, false) := by rw [h7]; rfl
    refine (fork_does env h (pevField_eq ha hr (by omega) (by omega)) (pevField_eq ha hr (by omega) (by omega))
      (pevField_eq ha hr (by omega) (by omega))).mono (fun _ s' ⟨a, b⟩ => ⟨?_, ?_, ?_⟩) fun _ _ h => h
    · rw [hs]; exact a
    · rw [hs]; exact b
    · rw [hs]; trivial
  rw [if_neg h7]
  by_cases h3 : s.priv.event.type = 3
  · rw [if_pos h3]
    have hs : says s.priv.data = if s.priv.event.misc.testBit 13 = true then .exec (field s.priv.data 0 4) else .nothing := by
      unfold says; rw [data_type, h3]; rfl
    rcases hbit with hb | hb
    · rw [if_pos hb]
      rw [if_neg (by simp [hb])] at hs
      exact hst hs
    · rw [if_neg (by simp [hb])]
      rw [if_pos hb] at hs
      have hr : pevRecord s.priv.event.type = some (8, true) := by rw [h3]; rfl
      refine (exec_does env h (pevField_eq ha hr (by omega) (by omega))).mono (fun _ s' ⟨a, b⟩ => ⟨?_, ?_, ?_⟩) fun _ _ h => h
      · rw [hs]; exact a
      · rw [hs]; exact b
      · rw [hs]; trivial
  rw [if_neg h3]
  by_cases h14 : s.priv.event.type = 14
  · rw [if_pos h14]
    have hs : says s.priv.data = if s.priv.event.misc.testBit 13 = true then .nothing else .switch s.priv.data.pid := by
      unfold says; rw [data_type, h14]; rfl
    rcases hi with hi | hi
    · rw [if_pos hi]
      rcases hbit with hb | hb
      · rw [if_neg (by simp [hb])] at hs
        rcases hp : s.priv.data.pid with _ | pid
        · exact ⟨by rw [hs, hi, hp]; exact hsame.1, by rw [hs, hi, hp]; exact hsame.2, by rw [hs, hp]; trivial⟩
        · exact ⟨by rw [hs, hi, hp]; exact hsame.1, by rw [hs, hi, hp]; exact hsame.2, by rw [hs, hp]; trivial⟩
      · rw [if_pos hb] at hs
        exact hst hs
    · rw [if_neg (by simp [hi])]
      rcases hbit with hb | hb
      · rw [if_neg (by simp [hb])] at hs ⊢
        exact switch_does env hi h ha hs
      · rw [if_pos hb] at hs ⊢
        exact hst hs
  rw [if_neg h14]
  by_cases h15 : s.priv.event.type = 15
  · rw [if_pos h15]
    have hs : says s.priv.data = if s.priv.event.misc.testBit 13 = true then .switch (some (field s.priv.data 0 4))
        else if s.priv.data.pid = none then .nothing else .switch s.priv.data.pid := by
      unfold says; rw [data_type, h15]; rfl
    rcases hi with hi | hi
    · rw [if_pos hi]
      rcases hbit with hb | hb
      · rw [if_neg (by simp [hb])] at hs
        rcases hp : s.priv.data.pid with _ | pid
        · rw [if_pos hp] at hs
          exact hst hs
        · rw [if_neg (by simp [hp])] at hs
          exact ⟨by rw [hs, hi, hp]; exact hsame.1, by rw [hs, hi, hp]; exact hsame.2, by rw [hs, hp]; trivial⟩
      · rw [if_pos hb] at hs
        exact ⟨by rw [hs, hi]; exact hsame.1, by rw [hs, hi]; exact hsame.2, by rw [hs]; trivial⟩
    · rw [if_neg (by simp [hi])]
      rcases hbit with hb | hb
      · rw [if_neg (by simp [hb])] at hs
        rw [if_pos hb]
        have hdp : s.priv.data.pid = none ↔ s.priv.event.sample.pid = none := by
          rcases hp : s.priv.event.sample.pid with _ | off
          · simp [PevPriv.data, dataOf, hp]
          · simp [PevPriv.data, dataOf, hp]
        by_cases hp : s.priv.event.sample.pid = none
        · rw [if_pos hp]
          rw [if_pos (hdp.2 hp)] at hs
          exact hst hs
        · rw [if_neg hp]
          rw [if_neg (fun h => hp (hdp.1 h))] at hs
          exact switch_does env hi h ha hs
      · rw [if_pos hb] at hs
        rw [if_neg (by simp [hb])]
        have hr : pevRecord s.priv.event.type = some (8, false) := by rw [h15]; rfl
        unfold pevSwitchCpu
        rw [SbM.does_bind, SbM.does_get, SbM.does_bind, SbM.does_lift, pevField_eq ha hr (by omega) (by omega)]
        refine (toPid_does env h).mono (fun _ s' ⟨a, b⟩ => ⟨?_, ?_, ?_⟩) fun _ _ h => h
        · rw [hs]; unfold Says.effect; dsimp only; rw [if_pos hi]; exact a
        · rw [hs]; dsimp only; rw [if_pos hi]; exact b
        · rw [hs]; trivial
  rw [if_neg h15]
  by_cases h1 : s.priv.event.type = 1
  · rw [if_pos h1]
    have hs : says s.priv.data = if s.priv.event.misc % 8 = 1 then .nothing
        else .map (field s.priv.data 0 4) (field s.priv.data 8 8) (field s.priv.data 16 8) (field s.priv.data 24 8) s.priv.data.string := by
      unfold says; rw [data_type, h1]; rfl
    by_cases hm : s.priv.event.misc % 8 = 1
    · rw [if_pos hm] at hs ⊢
      exact hst hs
    · rw [if_neg hm] at hs ⊢
      exact mmap_does env h ha (by rw [h1]; rfl) (by omega) hs
  rw [if_neg h1]
  by_cases h10 : s.priv.event.type = 10
  · rw [if_pos h10]
    have hs : says s.priv.data = if s.priv.event.misc % 8 = 1 then .nothing
        else .map (field s.priv.data 0 4) (field s.priv.data 8 8) (field s.priv.data 16 8) (field s.priv.data 24 8) s.priv.data.string := by
      unfold says; rw [data_type, h10]; rfl
    by_cases hm : s.priv.event.misc % 8 = 1
    · rw [if_pos hm] at hs ⊢
      exact hst hs
    · rw [if_neg hm] at hs ⊢
      exact mmap_does env h ha (by rw [h10]; rfl) (by omega) hs
  rw [if_neg h10]
  by_cases h2 : s.priv.event.type = 2
  · rw [if_pos h2]
    exact applied_error env _ h (.inl ⟨by unfold says; rw [data_type, h2]; rfl, rfl⟩)
  rw [if_neg h2]
  by_cases h11 : s.priv.event.type = 11
  · rw [if_pos h11]
    have hs : says s.priv.data = if (field s.priv.data 16 8).testBit 0 = true then .traceLost else .nothing := by
      unfold says; rw [data_type, h11]; rfl
    rcases hi with hi | hi
    · rw [if_pos hi]
      by_cases hf : (field s.priv.data 16 8).testBit 0 = true
      · rw [if_pos hf] at hs
        exact ⟨by rw [hs]; exact hsame.1, by rw [hs]; exact hsame.2, by rw [hs, hi]; exact nofun⟩
      · rw [if_neg hf] at hs
        exact hst hs
    · rw [if_neg (by simp [hi])]
      have hr : pevRecord s.priv.event.type = some (24, false) := by rw [h11]; rfl
      unfold pevAux
      rw [SbM.does_bind, SbM.does_get, SbM.does_bind, SbM.does_lift, pevField_eq ha hr (by omega) (by omega)]
      dsimp only
      by_cases hf : (field s.priv.data 16 8).testBit 0 = true
      · rw [if_pos hf] at hs
        unfold field at hf
        rw [if_pos hf]
        exact applied_error env _ h (.inr ⟨hs, rfl⟩)
      · rw [if_neg hf] at hs
        unfold field at hf
        rw [if_neg hf]
        exact hst hs
  rw [if_neg h11]
  refine hst ?_
  unfold says
  rw [data_type]
  split <;> first | rfl | (exfalso; omega)

end Ipt
