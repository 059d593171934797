import Verif.Props.SbPevent

/-!
# C59, C60, C61: what perf event records do

C59: the table of processes.  C60: context switches.  C61: the records of a channel and their time.
-/

namespace Ipt.Props

open Spec Spec.Processes

variable {ι κ : Type} {env : SbEnv ι κ} {s : PevSession ι κ} {d : SbDecoder PevPriv}

/-- The current record of a channel. -/
def currentRecord (p : PevPriv) : PevData := dataOf (p.buf.drop (p.current.getD 0)) p.event

theorem currentRecord_eq {p : PevPriv} (h : Active p) : currentRecord p = p.data := by
  obtain ⟨c, _, _, hc, _⟩ := h.read
  unfold currentRecord PevPriv.data PevPriv.mem
  rw [hc]; rfl

/-- The context of a process, found by `pt_sb_find_context_by_pid`. -/
def contextOf (w : SbWorld ι κ) (pid : Nat) : Option Nat :=
  match (sbFindContext pid w).2 with
  | .ok o => o
  | _ => none

/-- The table of processes: the image and the ABI in the context of a process. -/
def processes (w : SbWorld ι κ) : Table ι := fun pid =>
  match contextOf w pid with
  | none => none
  | some i =>
    match w.heap[i]? with
    | some (some c) => some (c.image, c.abi)
    | _ => none

theorem contextOf_eq {w : SbWorld ι κ} {rs : List Nat} (h : Own w rs) (pid : Nat) : contextOf w pid = w.find pid := by
  unfold contextOf
  rw [sbFindContext_eq h]

theorem processes_eq {w : SbWorld ι κ} {rs : List Nat} (h : Own w rs) : processes w = w.table := by
  funext pid
  unfold processes SbWorld.table SbWorld.seen SbWorld.at
  rw [contextOf_eq h]
  rcases w.find pid with _ | i
  · rfl
  · simp only [Option.bind_some]
    rcases w.heap[i]? with _ | _ | c <;> rfl

/-- The image of a new process: the kernel's. -/
def freshImage (env : SbEnv ι κ) (w : SbWorld ι κ) : ι := (env.copy env.empty w.kernel).1

/-- The files for `[vdso]` that the user has given. -/
def vdsoOf (p : PevPriv) : SbAbi → Option (List UInt8)
  | .unknown => none
  | .x64 => p.vdsoX64
  | .x32 => p.vdsoX32
  | .ia32 => p.vdsoIa32

theorem dataOf_adjusted (mem : List UInt8) (offset : Nat) (e : PevEvent) : dataOf mem (adjusted offset e) = dataOf mem e := by
  unfold adjusted
  split
  · rfl
  · rfl

theorem read_size {c : PevConfig} {mem : List UInt8} {e : PevEvent} {n : Nat} (h : pevRead c mem = .ok (e, n)) :
    n = leValue (sliceAt mem 6 2) := by
  obtain ⟨h1, ⟨_, _, h2⟩ | ⟨t, _, ⟨fields, str, string, unused, _, _, _, _, hl, _, _, he⟩, _⟩⟩ := C55_read_sound c mem e n h
  · exact h2
  · have hn : (mem.take n).length = n := by rw [List.length_take]; omega
    have hs := (read_shape h).size
    have hx : sliceAt mem 6 2 = sliceAt (mem.take n) 6 2 := by
      unfold sliceAt
      rw [List.drop_take, List.take_take, Nat.min_eq_left (by omega)]
    have hy : sliceAt (mem.take n) 6 2 = toLE 2 n := by
      rw [he, hn]
      have : ∀ (a b c : List UInt8), a.length = 6 → b.length = 2 → sliceAt (a ++ b ++ c) 6 2 = b := by
        intro a b c ha hb
        unfold sliceAt
        rw [List.append_assoc, List.drop_append_of_le_length (by omega), List.drop_of_length_le (by omega), List.nil_append,
          List.take_append_of_le_length (by omega), List.take_of_length_le (by omega)]
      have := this (toLE 4 (dataOf mem e).type ++ toLE 2 (dataOf mem e).misc) (toLE 2 n)
        ((dataOf mem e).record ++ (string ++ sampleBytes t (dataOf mem e) unused)) (by simp [toLE_length]) (toLE_length _ _)
      simpa [List.append_assoc] using this
    rw [hx, hy, leValue_toLE _ _ (by rw [hn] at hl; omega)]

theorem slice_drop (l : List UInt8) (p q n : Nat) : sliceAt (l.drop p) q n = sliceAt l (p + q) n := by
  unfold sliceAt
  rw [List.drop_drop]

theorem boundary_at {c : PevConfig} {buf : List UInt8} {pos : Nat} (h : Boundary c buf pos) : RecordAt buf pos := by
  induction h with
  | start => exact .first
  | next h r ih =>
    rw [read_size r, slice_drop]
    exact .next ih

/-- C61: the current record of a channel is one of the records of its file, and it has been read in full.  Records of unknown
types are ignored. -/
theorem C61_record (h : PevSessions env s) (hd : d ∈ s.decoders) :
    ∃ pos n, d.priv.current = some pos ∧ RecordAt d.priv.buf pos ∧ n = leValue (sliceAt d.priv.buf (pos + 6) 2) ∧
      pos + n ≤ d.priv.buf.length ∧
      ((currentRecord d.priv).type = leValue (sliceAt d.priv.buf pos 4) ∧ recordFields (currentRecord d.priv).type = none ∧
          says (currentRecord d.priv) = .nothing ∨
        ∃ t, TypeFor d.priv.pev (lastWord t (sliceAt d.priv.buf pos n)) t ∧
          Encodes t (currentRecord d.priv) (sliceAt d.priv.buf pos n)) := by
  obtain ⟨c, e, n, hc, hb, hr, hn, he⟩ := (h.safe.active d hd).1.read
  have hcur : currentRecord d.priv = dataOf (d.priv.buf.drop c) e := by
    unfold currentRecord
    rw [hc, he]
    exact dataOf_adjusted _ _ _
  have hs := C55_read_sound _ _ _ _ hr
  have hl := (read_shape hr).size.2
  have h8 := (read_shape hr).size.1
  rw [List.length_drop] at hl
  refine ⟨c, n, hc, boundary_at hb, by rw [read_size hr, slice_drop], by omega, ?_⟩
  rw [hcur]
  rcases hs.2 with ⟨h1, h2, h3⟩ | ⟨t, h1, h2, h3⟩
  · have ht : (dataOf (d.priv.buf.drop c) e).type = e.type := rfl
    refine .inl ⟨?_, h1, ?_⟩
    · rw [ht, h2]
      show leValue (sliceAt (d.priv.buf.drop c) 0 4) = _
      rw [slice_drop]
      rfl
    · unfold says
      rw [ht]
      have : ∀ k, recordFields e.type = none → recordFields k ≠ none → e.type ≠ k := fun k a b c => b (c ▸ a)
      split <;> first | rfl | (rename_i hq; exact absurd hq (this _ h1 (by simp [recordFields])))
  · exact .inr ⟨t, h1, h2⟩

/-- C61: reading the next record goes on behind the current one, so that no record is left out or read twice, and the next one is
read from the beginning at first. -/
theorem C61_next (h : PevSessions env s) {w : SbWorld ι κ} {p : PevPriv} {t : Nat} :
    (∀ d ∈ s.decoders, (pevCallbacks env).fetch s.shared d.priv = (w, p, .ok t) → ∃ pos, d.priv.current = some pos ∧
      p.current = some (pos + leValue (sliceAt d.priv.buf (pos + 6) 2)) ∧ p.buf = d.priv.buf) ∧
    (∀ d ∈ s.waiting, (pevCallbacks env).fetch s.shared d.priv = (w, p, .ok t) → p.current = some 0 ∧ p.buf = d.priv.buf) := by
  have key : ∀ q : PevPriv, (pevCallbacks env).fetch s.shared q = (w, p, .ok t) → p.current = some q.next ∧ p.buf = q.buf := by
    intro q hq
    unfold pevCallbacks at hq
    dsimp only at hq
    rw [fetch_eq] at hq
    rcases hr : pevRead q.pev (q.buf.drop q.next) with ⟨e, n⟩ | e | _ <;> rw [hr] at hq
    · dsimp only at hq
      injection hq with _ hq
      injection hq with hq _
      rw [← hq]
      exact ⟨rfl, rfl⟩
    · cases e <;> cases hq
    · cases hq
  refine ⟨fun d hd hr => ?_, fun d hd hr => ?_⟩
  · obtain ⟨c, e, n, hc, hb, hr', hn, he⟩ := (h.safe.active d hd).1.read
    obtain ⟨h1, h2⟩ := key _ hr
    refine ⟨c, hc, ?_, h2⟩
    rw [h1, hn, read_size hr', slice_drop]
  · obtain ⟨h1, h2⟩ := key _ hr
    rw [(h.safe.waiting d hd).next] at h1
    exact ⟨h1, h2⟩

theorem adjust_eq {offset tsc : Nat} (ho : offset < 2 ^ 64) (ht : tsc < 2 ^ 64) :
    (0 ≤ signed offset → pevAdjust offset tsc = tsc - offset) ∧
    (signed offset < 0 → (tsc : Int) - signed offset < 2 ^ 64 → (pevAdjust offset tsc : Int) = tsc - signed offset) := by
  unfold signed pevAdjust
  refine ⟨fun h => ?_, fun h h' => ?_⟩
  · split at h
    · rename_i hs
      split
      · rfl
      · omega
    · omega
  · split at h
    · omega
    · rename_i hs
      rw [if_neg hs] at h' ⊢
      split
      · omega
      · rw [if_pos (by omega), Nat.mod_eq_of_lt (by omega)]; omega

/-- C61: the time of a record is the time in its time sample, converted, minus the offset, but not less than zero, or zero if it
has no time sample.  The offset may be negative. -/
theorem C61_time_partial (h : PevSessions env s) (hd : d ∈ s.decoders) (ho : d.priv.tscOffset < 2 ^ 64) :
    match (currentRecord d.priv).time with
    | none => d.tsc = 0
    | some time => ∃ tsc, pevTimeToTsc d.priv.pev time = .ok tsc ∧
        ((tsc : Int) - signed d.priv.tscOffset < 2 ^ 64 → (d.tsc : Int) = max 0 ((tsc : Int) - signed d.priv.tscOffset)) := by
  obtain ⟨ha, ht⟩ := h.safe.active d hd
  obtain ⟨c, e, n, hc, hb, hr, hn, he⟩ := ha.read
  have hcur : currentRecord d.priv = dataOf (d.priv.buf.drop c) e := by
    unfold currentRecord
    rw [hc, he]
    exact dataOf_adjusted _ _ _
  rw [hcur, ← ht]
  have htm : (dataOf (d.priv.buf.drop c) e).time = e.sample.time.map fun p => leValue (sliceAt (d.priv.buf.drop c) p 8) := rfl
  unfold PevPriv.time
  rw [he]
  unfold adjusted
  rcases hq : e.sample.time with _ | q
  · rw [htm, hq]
    simp [hq]
  · have hs := (C55_read_sound _ _ _ _ hr).2
    have hval : pevTimeToTsc d.priv.pev (leValue (sliceAt (d.priv.buf.drop c) q 8)) = .ok e.sample.tsc := by
      rcases hs with ⟨_, h2, _⟩ | ⟨t, _, _, h3⟩
      · rw [h2] at hq; cases hq
      · rw [htm, hq] at h3
        exact h3
    have hlt : e.sample.tsc < 2 ^ 64 := by
      unfold pevTimeToTsc at hval
      split at hval
      · injection hval with hval; omega
      split at hval
      · cases hval
      split at hval
      · cases hval
      split at hval
      · cases hval
      · injection hval with hval
        rw [← hval]
        exact Nat.mod_lt _ (by decide)
    rw [htm, hq]
    refine ⟨e.sample.tsc, hval, fun hb => ?_⟩
    obtain ⟨a, b⟩ := adjust_eq ho hlt
    simp only [reduceCtorEq, if_false, hq]
    by_cases hn : 0 ≤ signed d.priv.tscOffset
    · rw [a hn]
      have : signed d.priv.tscOffset = d.priv.tscOffset := by unfold signed at hn ⊢; split <;> omega
      omega
    · rw [b (by omega) hb]
      omega

/-- C61: this is not true for offsets that are so negative that the time overflows: the time is then too small. -/
theorem C61_time_wraps : ∃ offset tsc : Nat, offset < 2 ^ 64 ∧ tsc < 2 ^ 64 ∧ signed offset = -2 ∧ tsc = 2 ^ 64 - 1 ∧ pevAdjust offset tsc = 1 :=
  ⟨2 ^ 64 - 2, 2 ^ 64 - 1, by decide, by decide, by decide, rfl, by decide⟩

theorem good_of (h : PevSessions env s) {d : SbDecoder PevPriv} (hd : d ∈ s.decoders ++ s.waiting ++ s.retired ++ s.removed) :
    ∃ l, SbBoth.Good l (⟨s.shared, d.priv⟩ : SbBoth ι κ) := by
  obtain ⟨l1, l2, hl⟩ := List.append_of_mem hd
  refine ⟨(l1 ++ l2).map (·.priv), ?_⟩
  refine h.safe.shared.perm (perm_count fun _ p => ?_)
  show List.count p (d.priv :: (l1 ++ l2).map (·.priv)) = List.count p ((s.decoders ++ s.waiting ++ s.retired ++ s.removed).map (·.priv))
  rw [hl]
  simp [List.count_cons, List.count_append]
  omega

/-- What a channel does with a record that is due. -/
theorem record_does (h : PevSessions env s) (hd : d ∈ s.decoders) {ev : Event} (due : d.tsc ≤ ev.tsc) (image : Bool) :
    ∃ l, (pevApply env image ev).Does (⟨s.shared, d.priv⟩ : SbBoth ι κ) (fun _ b => Applied env image l ⟨s.shared, d.priv⟩ b)
      (Left l ⟨s.shared, d.priv⟩) := by
  obtain ⟨l, hg⟩ := good_of h (d := d) (by simp [hd])
  obtain ⟨ha, ht⟩ := h.safe.active d hd
  have hdue : d.priv.due ev := (due_iff ha ev).2 (by rw [ht]; exact due)
  exact ⟨l, (apply_does env hg (.inl ha)).mono (fun _ b hb => by simpa only [if_pos hdue] using hb) fun _ _ h => h⟩

theorem does_ok_of {α : Type} {m : SbM (SbBoth ι κ) α} {b b' : SbBoth ι κ} {a : α} {P : α → SbBoth ι κ → Prop}
    {Q : Err → SbBoth ι κ → Prop} (h : m.Does b P Q) (r : m b = (b', .ok a)) : P a b' := by
  rw [SbM.does_of_eq r] at h
  exact h

theorem does_err_of {α : Type} {m : SbM (SbBoth ι κ) α} {b b' : SbBoth ι κ} {e : Err} {P : α → SbBoth ι κ → Prop}
    {Q : Err → SbBoth ι κ → Prop} (h : m.Does b P Q) (r : m b = (b', .err e)) : Q e b' := by
  rw [SbM.does_of_eq r] at h
  exact h

/-- C59: a record that is due does to the table of processes what it says.  File names must not be too long. -/
theorem C59_table (h : PevSessions env s) (hd : d ∈ s.decoders) {ev : Event} (due : d.tsc ≤ ev.tsc) {image : Bool} {b : SbBoth ι κ}
    (short : ∀ r, d.priv.sysroot = some r → r.length + (currentRecord d.priv).string.length < 4096)
    (r : pevApply env image ev ⟨s.shared, d.priv⟩ = (b, .ok ())) :
    processes b.world = (says (currentRecord d.priv)).effect env s.shared.ext (freshImage env s.shared)
      (fileFor d.priv.sysroot (vdsoOf d.priv)) image (processes s.shared) := by
  obtain ⟨l, hl⟩ := record_does h hd due image
  have ha := does_ok_of hl r
  rw [processes_eq ha.after.good.own, ha.after.table, processes_eq h.safe.shared.own, currentRecord_eq (h.safe.active d hd).1]
  rw [currentRecord_eq (h.safe.active d hd).1] at short
  have hv : d.priv.vdso = vdsoOf d.priv := by funext x; cases x <;> rfl
  have hfile : ∀ pid addr size offset name, says d.priv.data = .map pid addr size offset name → name = d.priv.data.string := by
    intro pid addr size offset name hs
    unfold says at hs
    split at hs <;> (try split at hs) <;> (try split at hs) <;> first | cases hs; done | (cases hs; rfl)
  unfold Says.effect
  rcases hs : says d.priv.data with _ | _ | _ | _ | ⟨pid, addr, size, offset, name⟩ | _ | _ | _
  case map =>
    have hn := hfile _ _ _ _ _ hs
    dsimp only
    rw [fileOf_eq (p := d.priv) (name := name) (fun r hr => by have := short r hr; rw [hn, List.length_append]; exact this), hv]
    rfl
  case switch o => cases o <;> rfl
  all_goals rfl

/-- C59: records that are lost, trace that is lost and mappings that are ignored are reported. -/
theorem C59_reported (h : PevSessions env s) (hd : d ∈ s.decoders) {ev : Event} (due : d.tsc ≤ ev.tsc) {image : Bool} {b : SbBoth ι κ}
    (short : ∀ r, d.priv.sysroot = some r → r.length + (currentRecord d.priv).string.length < 4096)
    (r : pevApply env image ev ⟨s.shared, d.priv⟩ = (b, .ok ())) :
    ∃ pos, d.priv.current = some pos ∧
    match says (currentRecord d.priv) with
    | .lost => b.world.ext = (env.onError s.shared.ext .lost pos).1
    | .traceLost => image = true → b.world.ext = (env.onError s.shared.ext .traceLost pos).1
    | .map pid _ _ _ name =>
      fileFor d.priv.sysroot (vdsoOf d.priv) ((processes s.shared).get (freshImage env s.shared) pid).2 name = none →
        ∃ note, b.world.ext = (env.onError s.shared.ext note pos).1
    | _ => True := by
  obtain ⟨l, hl⟩ := record_does h hd due image
  have ha := (does_ok_of hl r).told
  obtain ⟨c, _, _, hc, _⟩ := (h.safe.active d hd).1.read
  refine ⟨c, hc, ?_⟩
  rw [processes_eq h.safe.shared.own, currentRecord_eq (h.safe.active d hd).1]
  rw [currentRecord_eq (h.safe.active d hd).1] at short
  have hv : d.priv.vdso = vdsoOf d.priv := by funext x; cases x <;> rfl
  have hfile : ∀ pid addr size offset name, says d.priv.data = .map pid addr size offset name → name = d.priv.data.string := by
    intro pid addr size offset name hs
    unfold says at hs
    split at hs <;> (try split at hs) <;> (try split at hs) <;> first | cases hs; done | (cases hs; rfl)
  unfold SbTold at ha
  dsimp only at ha
  rw [hc] at ha
  rcases hs : says d.priv.data with _ | _ | _ | _ | ⟨pid, addr, size, offset, name⟩ | _ | _ | _ <;> rw [hs] at ha
  case map =>
    have hn := hfile _ _ _ _ _ hs
    dsimp only at ha ⊢
    rw [fileOf_eq (p := d.priv) (name := name) (fun r hr => by have := short r hr; rw [hn, List.length_append]; exact this), hv] at ha
    exact ha
  all_goals exact ha

/-- The place of the last event shown to a channel. -/
def placeOfLoc : SbLoc → Place
  | .user | .likelyUser => .user
  | .kernel | .likelyKernel => .kernel
  | .unknown => .unknown

theorem place_eq (kernelStart : Nat) (l : SbLoc) (ev : Event) :
    placeOfLoc (plocFromEvent kernelStart l ev) = placeAfter kernelStart (placeOfLoc l) ev := by
  have hip : ∀ ip, placeOfLoc (plocFromIp kernelStart ip) = placeOf kernelStart ip := by
    intro ip
    unfold plocFromIp placeOf
    split <;> rfl
  have hsup : ∀ l, placeOfLoc (plocFromSuppressedIp l) = (placeOfLoc l).across := by intro l; cases l <;> rfl
  unfold plocFromEvent placeAfter leadsTo
  rcases hs : ev.ipSuppressed <;> rcases hd : ev.data <;> simp [hip, hsup] <;> rfl

theorem canSwitch_iff (l : SbLoc) : l.canSwitch = true ↔ placeOfLoc l ≠ .user := by cases l <;> simp [SbLoc.canSwitch, placeOfLoc]


/-- The context that a channel uses and the one it is going to use. -/
def follows (p : PevPriv) : Option Nat := p.nextContext <|> p.context

theorem follows_eq (p : PevPriv) : follows p = p.target := rfl

/-- A function of the decoder leaves the location alone. -/
def Frame {α : Type} (m : SbM (SbBoth ι κ) α) : Prop := ∀ b, (m b).1.priv.location = b.priv.location

namespace Frame

variable {α β : Type}

theorem bind {m : SbM (SbBoth ι κ) α} {f : α → SbM (SbBoth ι κ) β} (hm : Frame m) (hf : ∀ a, Frame (f a)) : Frame (m >>= f) := by
  intro b
  show (SbM.bind m f b).1.priv.location = _
  have := hm b
  unfold SbM.bind
  revert this
  rcases m b with ⟨b', _ | _ | _⟩
  · exact fun h => (hf _ _).trans h
  · exact fun h => h
  · exact fun h => h

theorem of_world (m : SbM (SbWorld ι κ) α) : Frame (onWorld m) := fun _ => rfl
theorem get : Frame (SbM.get : SbM (SbBoth ι κ) _) := fun _ => rfl
theorem lift (r : Res α) : Frame (SbM.lift r : SbM (SbBoth ι κ) _) := fun _ => rfl
theorem fail (e : Err) : Frame (SbM.fail e : SbM (SbBoth ι κ) α) := fun _ => rfl
theorem pure (a : α) : Frame (Pure.pure a : SbM (SbBoth ι κ) α) := fun _ => rfl

theorem ite {c : Prop} [Decidable c] {m m' : SbM (SbBoth ι κ) α} (h : Frame m) (h' : Frame m') : Frame (if c then m else m') := by
  split
  · exact h
  · exact h'

theorem error (note : SbNote) : Frame (pevError env note : SbM (SbBoth ι κ) Unit) := bind get fun _ => of_world _

theorem cancel : Frame (pevCancelSwitch : SbM (SbBoth ι κ) Unit) := by
  refine bind get fun b => ?_
  split
  · exact pure _
  · exact bind (fun _ => rfl) fun _ => of_world _

theorem prepare (i : Nat) : Frame (pevPrepareSwitch i : SbM (SbBoth ι κ) Unit) := by
  refine bind get fun b => ?_
  split
  · exact pure _
  · refine bind cancel fun _ => ?_
    split
    · exact pure _
    · exact bind (of_world _) fun _ _ => rfl

theorem toPid (pid : Nat) : Frame (pevPrepareSwitchToPid env pid : SbM (SbBoth ι κ) Unit) :=
  bind (of_world _) fun _ => prepare _

theorem switch (image : Bool) : Frame (pevSwitchContexts env image : SbM (SbBoth ι κ) Unit) := by
  unfold pevSwitchContexts
  split
  · exact fail _
  · refine bind get fun b => ?_
    split
    · exact fail _
    · refine bind (of_world _) fun _ => bind (fun _ => rfl) fun _ => ?_
      split
      · exact pure _
      · exact of_world _

theorem start (image : Bool) : Frame (pevItraceStart env image : SbM (SbBoth ι κ) Unit) := by
  refine bind get fun _ => bind (lift _) fun _ => bind (toPid _) fun _ => bind get fun _ => ?_
  split
  · exact pure _
  · exact switch _

theorem fork : Frame (pevFork env : SbM (SbBoth ι κ) Unit) := by
  refine bind get fun _ => bind (lift _) fun _ => bind (lift _) fun _ => ?_
  split
  · exact pure _
  · refine bind (lift _) fun _ => ?_
    split
    · exact fail _
    · exact of_world _

theorem exec (image : Bool) : Frame (pevExec env image : SbM (SbBoth ι κ) Unit) := by
  refine bind get fun _ => bind (lift _) fun _ => bind (of_world _) fun _ => bind (of_world _) fun _ => ?_
  split
  · exact pure _
  · exact prepare _

theorem switchPid : Frame (pevSwitch env : SbM (SbBoth ι κ) Unit) := by
  refine bind get fun _ => ?_
  split
  · exact fail _
  · exact bind (lift _) fun _ => toPid _

theorem switchCpu : Frame (pevSwitchCpu env : SbM (SbBoth ι κ) Unit) :=
  bind get fun _ => bind (lift _) fun _ => toPid _

theorem track (i : Nat) (file : List UInt8) : Frame (pevTrackAbi env i file : SbM (SbBoth ι κ) Unit) := by
  refine bind (of_world _) fun _ => ?_
  split
  · exact pure _
  · refine bind get fun _ => ?_
    split
    · exact pure _
    · exact of_world _

theorem mmap (n : Nat) : Frame (pevMmap env n : SbM (SbBoth ι κ) Unit) := by
  refine bind get fun _ => bind (lift _) fun _ => bind (lift _) fun _ => bind (lift _) fun _ => bind (lift _) fun _ =>
    bind (lift _) fun _ => bind (of_world _) fun _ => bind get fun _ => bind (of_world _) fun _ => ?_
  split
  · exact error _
  · exact bind (track _ _) fun _ => of_world _

theorem aux : Frame (pevAux env : SbM (SbBoth ι κ) Unit) := by
  refine bind get fun _ => bind (lift _) fun _ => ?_
  split
  · exact error _
  · exact pure _

theorem record (image : Bool) : Frame (pevApplyRecord env image : SbM (SbBoth ι κ) Unit) := by
  refine bind get fun b => ?_
  exact ite (ite (pure _) (start _)) <| ite fork <| ite (ite (pure _) (exec _)) <| ite (ite (pure _) (ite (pure _) switchPid)) <|
    ite (ite (pure _) (ite (ite (pure _) switchPid) switchCpu)) <| ite (ite (pure _) (mmap _)) <| ite (ite (pure _) (mmap _)) <|
    ite (error _) <| ite (ite (pure _) aux) (pure _)

end Frame

/-- C60: what a record that is due does to the contexts that a channel uses.  A start record makes the channel use the process's
context, and the caller's image becomes this context's unless the channel has used this context before.  A switch record makes the
channel use the process's context later, and so does exec, for which there is a new context.  All other records, and records of
channels that are not for the traced processor, do not change anything. -/
theorem C60_records (h : PevSessions env s) (hd : d ∈ s.decoders) {ev : Event} (due : d.tsc ≤ ev.tsc) {image : Bool} {b : SbBoth ι κ}
    (r : pevApply env image ev ⟨s.shared, d.priv⟩ = (b, .ok ())) :
    b.priv.location = d.priv.location ∧
    match says (currentRecord d.priv), image with
    | .start pid, true => b.priv.context = contextOf b.world pid ∧ b.priv.context ≠ none ∧ b.priv.nextContext = none ∧
        (b.world.image = b.priv.context ∨ b.world.image = s.shared.image ∧ b.priv.context = d.priv.context)
    | .switch (some pid), true | .exec pid, true => b.priv.context = d.priv.context ∧ follows b.priv = contextOf b.world pid ∧
        follows b.priv ≠ none ∧ b.world.image = s.shared.image
    | _, _ => b.priv.context = d.priv.context ∧ b.priv.nextContext = d.priv.nextContext ∧ b.world.image = s.shared.image := by
  obtain ⟨l, hl⟩ := record_does h hd due image
  have ha := does_ok_of hl r
  obtain ⟨hact, ht⟩ := h.safe.active d hd
  have hdue : d.priv.due ev := (due_iff hact ev).2 (by rw [ht]; exact due)
  refine ⟨?_, ?_⟩
  · have hf : ∀ b0 : SbBoth ι κ, b0.priv.due ev → (pevApply env image ev b0).1.priv.location = b0.priv.location := by
      intro b0 h0
      unfold PevPriv.due at h0
      unfold pevApply
      rw [SbM.bind_ok (show SbM.get b0 = (b0, .ok b0) from rfl)]
      dsimp only
      rw [if_pos h0]
      exact Frame.record image b0
    have := hf ⟨s.shared, d.priv⟩ hdue
    rw [r] at this
    exact this
  rw [currentRecord_eq hact]
  have hc := ha.control
  have hctx := contextOf_eq ha.after.good.own
  simp only [hctx, follows_eq]
  have still : Still ⟨s.shared, d.priv⟩ b → b.priv.context = d.priv.context ∧ b.priv.nextContext = d.priv.nextContext ∧
      b.world.image = s.shared.image := fun h => ⟨h.context, h.nextContext, h.image⟩
  have foll : ∀ pid, Follows ⟨s.shared, d.priv⟩ b pid → b.priv.context = d.priv.context ∧ b.priv.target = b.world.find pid ∧
      b.priv.target ≠ none ∧ b.world.image = s.shared.image := fun pid h => ⟨h.context, h.target.1, h.target.2, h.image⟩
  rcases hs : says d.priv.data with _ | _ | _ | (_ | _) | _ | _ | _ | _ <;> rcases image with _ | _ <;> simp only [hs] at hc ⊢ <;>
    first
      | exact still hc
      | exact still (by simpa using hc)
      | exact foll _ (by simpa using hc)
      | exact ⟨(show Uses _ _ _ by simpa using hc).context.1, (show Uses _ _ _ by simpa using hc).context.2,
          (show Uses _ _ _ by simpa using hc).nextContext, (show Uses _ _ _ by simpa using hc).image⟩

/-- C60: what an event that is shown to a channel does.  The channel keeps track of where code is executed.  A pending switch is
done, and the caller's image becomes the new context's, unless user code is executed before and after the event. -/
theorem C60_events (h : PevSessions env s) {ev : Event} (hd : d ∈ s.decoders ∧ ev.tsc < d.tsc ∨ d ∈ s.retired) {image : Bool}
    {b : SbBoth ι κ} (r : pevApply env image ev ⟨s.shared, d.priv⟩ = (b, .ok ())) :
    let before := placeOfLoc d.priv.location
    let after := placeAfter d.priv.kernelStart before ev
    placeOfLoc b.priv.location = after ∧ processes b.world = processes s.shared ∧
    if d.priv.nextContext ≠ none ∧ ¬ (before = .user ∧ after = .user) then
      b.priv.context = d.priv.nextContext ∧ b.priv.nextContext = none ∧ b.world.image = d.priv.nextContext
    else b.priv.context = d.priv.context ∧ b.priv.nextContext = d.priv.nextContext ∧ b.world.image = s.shared.image := by
  obtain ⟨l, hg⟩ := good_of h (d := d) (by rcases hd with hd | hd <;> simp [hd])
  have hs : ShownTo ev l ⟨s.shared, d.priv⟩ b := by
    rcases hd with ⟨hd, ht⟩ | hd
    · obtain ⟨ha, he⟩ := h.safe.active d hd
      have hdue : ¬ d.priv.due ev := fun x => by have := (due_iff ha ev).1 x; omega
      have := does_ok_of (apply_does env hg (.inl ha)) r
      simpa only [if_neg hdue] using this
    · have ha := h.safe.retired d hd
      have hdue : ¬ d.priv.due ev := fun x => x.1 ha.ended
      have := does_ok_of (apply_does env hg (.inr ha)) r
      simpa only [if_neg hdue] using this
  refine ⟨by rw [hs.location]; exact place_eq _ _ _, ?_, ?_⟩
  · rw [processes_eq hs.after.good.own, hs.after.table, processes_eq h.safe.shared.own]
  · have hc := hs.control
    have hr : d.priv.ready ev ↔ ¬ (placeOfLoc d.priv.location = .user ∧
        placeAfter d.priv.kernelStart (placeOfLoc d.priv.location) ev = .user) := by
      unfold PevPriv.ready
      rw [canSwitch_iff, canSwitch_iff, place_eq, Decidable.not_and_iff_or_not]
    by_cases hx : d.priv.nextContext ≠ none ∧ d.priv.ready ev
    · rw [if_pos ⟨hx.1, hr.1 hx.2⟩]
      rw [if_pos hx] at hc
      exact hc
    · rw [if_neg fun y => hx ⟨y.1, hr.2 y.2⟩]
      rw [if_neg hx] at hc
      exact ⟨hc.context, hc.nextContext, hc.image⟩

/-- C60: errors do not change the context that a channel uses, nor the caller's image. -/
theorem C60_errors (h : PevSessions env s) (hd : d ∈ s.decoders ++ s.retired) {ev : Event} {image : Bool} {b : SbBoth ι κ} {e : Err}
    (r : pevApply env image ev ⟨s.shared, d.priv⟩ = (b, .err e)) :
    b.priv.context = d.priv.context ∧ b.world.image = s.shared.image := by
  obtain ⟨l, hg⟩ := good_of h (d := d) (by rcases List.mem_append.1 hd with hd | hd <;> simp [hd])
  have ha : Active d.priv ∨ Ended d.priv := by
    rcases List.mem_append.1 hd with hd | hd
    · exact .inl (h.safe.active d hd).1
    · exact .inr (h.safe.retired d hd)
  have := does_err_of (apply_does env hg ha) r
  exact ⟨this.2.2.1, this.2.2.2⟩

end Ipt.Props

/-! ## An example -/

namespace Ipt.Props.SbDemo

open Spec Spec.Processes

/-- The channel is at its second record, a MMAP record. -/
def second := (sbTurn (pevCallbacks env) true false (enabledAt 15 0x400000) { started with decoders := started.decoders.drop 1 }
  (started.decoders.headD ⟨0, 0, true, { buf := [] }⟩)).1

/-- The only channel. -/
def channel (s : PevSession Image (List (SbNote × Nat))) : SbDecoder PevPriv := s.decoders.headD ⟨0, 0, true, { buf := [] }⟩

theorem channel_mem {s : PevSession Image (List (SbNote × Nat))} (h : s.decoders.length = 1) : s.decoders = channel s :: s.decoders.drop 1 := by
  unfold channel
  rcases hd : s.decoders with _ | ⟨d, l⟩
  · rw [hd] at h; cases h
  · rfl

theorem second_reached : PevSessions env second :=
  .turn true false (enabledAt 15 0x400000) started_reached (channel_mem (by decide +kernel)) (by decide +kernel) (ok_eq (by decide +kernel))

theorem mem_channel {s : PevSession Image (List (SbNote × Nat))} (h : s.decoders.length = 1) : channel s ∈ s.decoders := by
  rw [channel_mem h]; simp

/-- C59: the MMAP record. -/
example : says (currentRecord (channel second).priv) = .map 5 0x400000 0x1000 0 (ascii "/a4") ∧
    (channel second).tsc = 10 ∧ processes second.shared 5 = some ([], .unknown) ∧ processes second.shared 7 = none := by decide +kernel
example : processes (pevApply env true (enabledAt 15 0x400000) ⟨second.shared, (channel second).priv⟩).1.world 5 =
      some ([(ascii "/a4", 0, 0x1000, 0x400000)], .x64) := by decide +kernel

/-- C59: what holds of it by the theorem. -/
example : processes (pevApply env true (enabledAt 15 0x400000) ⟨second.shared, (channel second).priv⟩).1.world =
    (says (currentRecord (channel second).priv)).effect env second.shared.ext (freshImage env second.shared)
      (fileFor (channel second).priv.sysroot (vdsoOf (channel second).priv)) true (processes second.shared) :=
  C59_table second_reached (mem_channel (by decide +kernel)) (by decide +kernel) (by
    intro r hr
    rw [show (channel second).priv.sysroot = none by decide +kernel] at hr
    cases hr) (ok_eq (by decide +kernel))

/-- C59: lost records. -/
example : says (currentRecord (channel switching).priv) = .lost ∧ (channel switching).priv.current = some 176 ∧
    (pevApply env true (enabledAt 23 0x400000) ⟨switching.shared, (channel switching).priv⟩).1.world.ext = [(.lost, 176)] := by
  decide +kernel

/-- C60: a start record. -/
example : says (currentRecord (channel started).priv) = .start 5 ∧
    (pevApply env true (enabledAt 15 0x400000) ⟨started.shared, (channel started).priv⟩).1.world.image = some 0 := by decide +kernel

/-- C60: a switch record. -/
example : says (currentRecord (channel mapped).priv) = .switch (some 7) ∧ (channel mapped).tsc = 19 ∧
    follows (channel mapped).priv = some 0 ∧
    follows (pevApply env true (enabledAt 20 0x400000) ⟨mapped.shared, (channel mapped).priv⟩).1.priv = some 1 := by decide +kernel

/-- C60: a switch is done when the kernel is entered, and not in user mode. -/
example : (channel switching).priv.nextContext = some 1 ∧ placeOfLoc (channel switching).priv.location = .user ∧ (channel switching).tsc = 23 ∧
    (pevApply env true (enabledAt 21 0x400000) ⟨switching.shared, (channel switching).priv⟩).1.world.image = some 0 ∧
    (pevApply env true (enabledAt 21 (2 ^ 63)) ⟨switching.shared, (channel switching).priv⟩).1.world.image = some 1 ∧
    (pevApply env true (enabledAt 21 (2 ^ 63)) ⟨switching.shared, (channel switching).priv⟩).2 = .ok () := by decide +kernel

/-- C60: an error, since there is no image to change. -/
example : (pevApply env false (enabledAt 21 (2 ^ 63)) ⟨switching.shared, (channel switching).priv⟩).2 = .err .internal := by decide +kernel

/-- C61: the time is one less than in the record. -/
example : (currentRecord (channel mapped).priv).time = some 20 ∧ (channel mapped).tsc = 19 ∧ (channel mapped).priv.current = some 96 ∧
    (channel mapped).priv.tscOffset = 1 := by decide +kernel

/-- C61: the next record. -/
example : ((pevCallbacks env).fetch mapped.shared (channel mapped).priv).2.2 = .ok 20 ∧
    ((pevCallbacks env).fetch mapped.shared (channel mapped).priv).2.1.current = some 128 := by decide +kernel

end Ipt.Props.SbDemo
