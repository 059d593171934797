import Verif.PeventLemmas

/-!
# Helper lemmas: reading and writing perf event records
-/

set_option linter.unusedSimpArgs false
set_option linter.unusedVariables false

namespace Ipt

open Spec

variable {c : PevConfig} {mem : List UInt8} {b e t : Nat}

theorem opt_part {t bit p q : Nat} {l : List UInt8} (h : t.testBit bit = true → Part mem p l q) (hq : q = if t.testBit bit = true then p + 8 else p)
    (hl : p ≤ mem.length) : Part mem p (if t.testBit bit = true then l else []) q := by
  split
  · rename_i hb; exact h hb
  · rename_i hb; rw [if_neg hb] at hq; subst hq; exact part_nil hl

/-- Where the samples are. -/
structure Laid (t b : Nat) (s : PevSamples) (e : Nat) : Prop where
  pid : s.pid = if t.testBit 1 = true then some b else none
  tid : s.tid = if t.testBit 1 = true then some (b + 4) else none
  rest : ∃ p1 p2 p3 p4 p5, p1 = (if t.testBit 1 = true then b + 8 else b) ∧
    s.time = (if t.testBit 2 = true then some p1 else none) ∧ p2 = (if t.testBit 2 = true then p1 + 8 else p1) ∧
    s.id = (if t.testBit 6 = true then some p2 else none) ∧ p3 = (if t.testBit 6 = true then p2 + 8 else p2) ∧
    s.streamId = (if t.testBit 9 = true then some p3 else none) ∧ p4 = (if t.testBit 9 = true then p3 + 8 else p3) ∧
    s.cpu = (if t.testBit 7 = true then some p4 else none) ∧ p5 = (if t.testBit 7 = true then p4 + 8 else p4) ∧
    s.identifier = (if t.testBit 16 = true then some p5 else none) ∧ e = (if t.testBit 16 = true then p5 + 8 else p5)

/-- The time of the samples. -/
def timeOf (c : PevConfig) (mem : List UInt8) (s : PevSamples) (end_ : Nat) : Res Nat :=
  match s.time with
  | none => .ok 0
  | some p =>
    if end_ < p + 8 then .err .nosync
    else do
      let v ← rdLE mem p 8
      pevTimeToTsc c v

theorem readSamples_eq : ∃ (s : Nat → PevSamples) (e' : Nat → Nat), (∀ t, Laid t b (s t) (e' t)) ∧
    pevReadSamples c mem b e = (do
      let t ← pevSampleType c (if b + 8 ≤ e then some (rdLE mem (e - 8) 8) else none)
      let tsc ← timeOf c mem (s t) e
      .ok ({ s t with tsc := tsc }, e' t)) := by
  let p1 := fun t : Nat => if t.testBit 1 = true then b + 8 else b
  let p2 := fun t : Nat => if t.testBit 2 = true then p1 t + 8 else p1 t
  let p3 := fun t : Nat => if t.testBit 6 = true then p2 t + 8 else p2 t
  let p4 := fun t : Nat => if t.testBit 9 = true then p3 t + 8 else p3 t
  let p5 := fun t : Nat => if t.testBit 7 = true then p4 t + 8 else p4 t
  let p6 := fun t : Nat => if t.testBit 16 = true then p5 t + 8 else p5 t
  refine ⟨fun t =>
    { pid := if t.testBit 1 = true then some b else none
      tid := if t.testBit 1 = true then some (b + 4) else none
      time := if t.testBit 2 = true then some (p1 t) else none
      id := if t.testBit 6 = true then some (p2 t) else none
      streamId := if t.testBit 9 = true then some (p3 t) else none
      cpu := if t.testBit 7 = true then some (p4 t) else none
      identifier := if t.testBit 16 = true then some (p5 t) else none }, p6,
    fun t => ⟨rfl, rfl, p1 t, p2 t, p3 t, p4 t, p5 t, rfl, rfl, rfl, rfl, rfl, rfl, rfl, rfl, rfl, rfl, rfl⟩, ?_⟩
  unfold pevReadSamples
  rcases pevSampleType c (if b + 8 ≤ e then some (rdLE mem (e - 8) 8) else none) with t | x | _
  · simp only [Res.bind_ok, pevTake, timeOf]
    have hp : ∀ (bit p : Nat), (if t.testBit bit = true then (some p, p + 8) else (none, p)) =
        ((if t.testBit bit = true then some p else none), if t.testBit bit = true then p + 8 else p) := by
      intro bit p; split <;> rfl
    simp only [hp]
    by_cases h2 : t.testBit 2 = true
    · simp only [h2, if_true]
      have key : ∀ (p : Nat) (f : Nat → Res (PevSamples × Nat)),
          (if e < p + 8 then Res.err Err.nosync else (rdLE mem p 8 >>= fun v => pevTimeToTsc c v >>= f)) =
          ((if e < p + 8 then Res.err Err.nosync else (rdLE mem p 8 >>= fun v => pevTimeToTsc c v)) >>= f) := by
        intro p f
        split
        · rfl
        · rcases rdLE mem p 8 with _ | _ | _ <;> rfl
      by_cases h1 : t.testBit 1 = true <;> simp [h1, h2, p1, p2, p3, p4, p5, p6, key]
    · simp only [h2, if_false]
      by_cases h1 : t.testBit 1 = true <;> simp [h1, h2, p1, p2, p3, p4, p5, p6]
  · rfl
  · rfl

/-- The data of samples. -/
structure Shows (mem : List UInt8) (s : PevSamples) (d : PevData) : Prop where
  pid : d.pid = s.pid.map fun p => leValue (sliceAt mem p 4)
  tid : d.tid = s.tid.map fun p => leValue (sliceAt mem p 4)
  time : d.time = s.time.map fun p => leValue (sliceAt mem p 8)
  id : d.id = s.id.map fun p => leValue (sliceAt mem p 8)
  streamId : d.streamId = s.streamId.map fun p => leValue (sliceAt mem p 8)
  cpu : d.cpu = s.cpu.map fun p => leValue (sliceAt mem p 4)
  identifier : d.identifier = s.identifier.map fun p => leValue (sliceAt mem p 8)

theorem laid_has {s : PevSamples} {d : PevData} (h : Laid t b s e) (hs : Shows mem s d) : HasSamples t d := by
  obtain ⟨p1, p2, p3, p4, p5, e1, a1, e2, a2, e3, a3, e4, a4, e5, a5, e6⟩ := h.rest
  constructor
  · rw [hs.pid, h.pid]; split <;> simp_all
  · rw [hs.tid, h.tid]; split <;> simp_all
  · rw [hs.time, a1]; split <;> simp_all
  · rw [hs.id, a2]; split <;> simp_all
  · rw [hs.streamId, a3]; split <;> simp_all
  · rw [hs.cpu, a4]; split <;> simp_all
  · rw [hs.identifier, a5]; split <;> simp_all

theorem ite_le {p : Prop} [Decidable p] {a b : Nat} (h : b = if p then a + 8 else a) : a ≤ b ∧ (p → b = a + 8) ∧ b ≤ a + 8 := by
  split at h
  · exact ⟨by omega, fun _ => h, by omega⟩
  · rename_i hp
    exact ⟨by omega, fun h => absurd h hp, by omega⟩

theorem laid_le {s : PevSamples} (h : Laid t b s e) : b ≤ e ∧ e ≤ b + 48 ∧ ∀ p, s.time = some p → b ≤ p ∧ p + 8 ≤ e := by
  obtain ⟨p1, p2, p3, p4, p5, e1, a1, e2, -, e3, -, e4, -, e5, -, e6⟩ := h.rest
  have := ite_le e1
  have h2 := ite_le e2
  have := ite_le e3
  have := ite_le e4
  have := ite_le e5
  have := ite_le e6
  refine ⟨by omega, by omega, fun p hp => ?_⟩
  rw [a1] at hp
  split at hp <;> cases hp
  rename_i hb
  have := h2.2.1 hb
  omega

/-- The bytes of the samples are what the user sees. -/
theorem laid_part {s : PevSamples} {d : PevData} (h : Laid t b s e) (hs : Shows mem s d) (he : e ≤ mem.length) :
    ∃ unused, unused.length = 4 ∧ Part mem b (sampleBytes t d unused) e ∧
      (∀ v, d.pid = some v → v < 2 ^ 32) ∧ (∀ v, d.tid = some v → v < 2 ^ 32) ∧ (∀ v, d.time = some v → v < 2 ^ 64) ∧
      (∀ v, d.id = some v → v < 2 ^ 64) ∧ (∀ v, d.streamId = some v → v < 2 ^ 64) ∧ (∀ v, d.cpu = some v → v < 2 ^ 32) ∧
      (∀ v, d.identifier = some v → v < 2 ^ 64) := by
  obtain ⟨p1, p2, p3, p4, p5, e1, a1, e2, a2, e3, a3, e4, a4, e5, a5, e6⟩ := h.rest
  have b1 := ite_le e1
  have b2 := ite_le e2
  have b3 := ite_le e3
  have b4 := ite_le e4
  have b5 := ite_le e5
  have b6 := ite_le e6
  have two : ∀ p, p + 8 ≤ mem.length → Part mem p (toLE 4 (leValue (sliceAt mem p 4)) ++ toLE 4 (leValue (sliceAt mem (p + 4) 4))) (p + 8) :=
    fun p hp => (part_value (by omega)).append (part_value (by omega))
  refine ⟨if t.testBit 7 = true then sliceAt mem (p4 + 4) 4 else [0, 0, 0, 0], ?_, ?_, ?_, ?_, ?_, ?_, ?_, ?_, ?_⟩
  · split
    · rename_i h7
      have := b5.2.1 h7
      exact sliceAt_length (by omega)
    · rfl
  · unfold sampleBytes
    have c1 : Part mem b _ p1 := opt_part (l := toLE 4 (d.pid.getD 0) ++ toLE 4 (d.tid.getD 0)) (fun hb => by
      have := b1.2.1 hb
      rw [hs.pid, hs.tid, h.pid, h.tid, if_pos hb, if_pos hb, this]
      exact two b (by omega)) e1 (by omega)
    have c2 : Part mem p1 _ p2 := opt_part (l := toLE 8 (d.time.getD 0)) (fun hb => by
      have := b2.2.1 hb
      rw [hs.time, a1, if_pos hb, this]
      exact part_value (by omega)) e2 (by omega)
    have c3 : Part mem p2 _ p3 := opt_part (l := toLE 8 (d.id.getD 0)) (fun hb => by
      have := b3.2.1 hb
      rw [hs.id, a2, if_pos hb, this]
      exact part_value (by omega)) e3 (by omega)
    have c4 : Part mem p3 _ p4 := opt_part (l := toLE 8 (d.streamId.getD 0)) (fun hb => by
      have := b4.2.1 hb
      rw [hs.streamId, a3, if_pos hb, this]
      exact part_value (by omega)) e4 (by omega)
    have c5 : Part mem p4 _ p5 := opt_part (l := toLE 4 (d.cpu.getD 0) ++ (if t.testBit 7 = true then sliceAt mem (p4 + 4) 4 else [0, 0, 0, 0])) (fun hb => by
      have := b5.2.1 hb
      rw [hs.cpu, a4, if_pos hb, if_pos hb, this]
      exact (part_value (n := 4) (by omega)).append (part_self (n := 4) (by omega))) e5 (by omega)
    have c6 : Part mem p5 _ e := opt_part (l := toLE 8 (d.identifier.getD 0)) (fun hb => by
      have := b6.2.1 hb
      rw [hs.identifier, a5, if_pos hb, this]
      exact part_value (by omega)) e6 (by omega)
    exact ((((c1.append c2).append c3).append c4).append c5).append c6
  · intro v hv
    rw [hs.pid, h.pid] at hv
    split at hv <;> cases hv
    rename_i hb
    have := b1.2.1 hb
    exact value_lt (n := 4) (by omega)
  · intro v hv
    rw [hs.tid, h.tid] at hv
    split at hv <;> cases hv
    rename_i hb
    have := b1.2.1 hb
    exact value_lt (n := 4) (by omega)
  · intro v hv
    rw [hs.time, a1] at hv
    split at hv <;> cases hv
    rename_i hb
    have := b2.2.1 hb
    exact value_lt (n := 8) (by omega)
  · intro v hv
    rw [hs.id, a2] at hv
    split at hv <;> cases hv
    rename_i hb
    have := b3.2.1 hb
    exact value_lt (n := 8) (by omega)
  · intro v hv
    rw [hs.streamId, a3] at hv
    split at hv <;> cases hv
    rename_i hb
    have := b4.2.1 hb
    exact value_lt (n := 8) (by omega)
  · intro v hv
    rw [hs.cpu, a4] at hv
    split at hv <;> cases hv
    rename_i hb
    have := b5.2.1 hb
    exact value_lt (n := 4) (by omega)
  · intro v hv
    rw [hs.identifier, a5] at hv
    split at hv <;> cases hv
    rename_i hb
    have := b6.2.1 hb
    exact value_lt (n := 8) (by omega)

/-- Samples that are in memory are what the user sees. -/
theorem part_laid {s : PevSamples} {d : PevData} {unused : List UInt8} {e' : Nat} (h : Laid t b s e) (hd : HasSamples t d) (hf : Fits d)
    (hu : unused.length = 4) (hp : Part mem b (sampleBytes t d unused) e') : e = e' ∧ Shows mem s d := by
  obtain ⟨p1, p2, p3, p4, p5, e1, a1, e2, a2, e3, a3, e4, a4, e5, a5, e6⟩ := h.rest
  have hl := hp.next
  unfold sampleBytes at hp
  dsimp only at hp
  obtain ⟨hp, c6⟩ := hp.split
  obtain ⟨hp, c5⟩ := hp.split
  obtain ⟨hp, c4⟩ := hp.split
  obtain ⟨hp, c3⟩ := hp.split
  obtain ⟨c1, c2⟩ := hp.split
  have len : ∀ {bit p : Nat} {l : List UInt8}, l.length = 8 → p + (if t.testBit bit = true then l else []).length = if t.testBit bit = true then p + 8 else p := by
    intro bit p l hl; split <;> simp [hl]
  have len' : ∀ {bit : Nat} {l : List UInt8}, l.length = 8 → (if t.testBit bit = true then l else []).length = if t.testBit bit = true then 8 else 0 := by
    intro bit l hl; split <;> simp [hl]
  have l1 : (toLE 4 (d.pid.getD 0) ++ toLE 4 (d.tid.getD 0)).length = 8 := by simp [toLE_length]
  have l5 : (toLE 4 (d.cpu.getD 0) ++ unused).length = 8 := by simp [toLE_length, hu]
  simp only [List.length_append, ← Nat.add_assoc] at c2 c3 c4 c5 c6
  rw [len l1, ← e1] at c2 c3 c4 c5 c6
  rw [len (bit := 2) (toLE_length _ _), ← e2] at c3 c4 c5 c6
  rw [len (bit := 6) (toLE_length _ _), ← e3] at c4 c5 c6
  rw [len (bit := 9) (toLE_length _ _), ← e4] at c5 c6
  rw [len l5, ← e5] at c6
  refine ⟨?_, ?_, ?_, ?_, ?_, ?_, ?_, ?_⟩
  · have := c6.next
    rw [len (toLE_length _ _)] at this
    rw [e6, this]
  · rw [h.pid]
    by_cases hb : t.testBit 1 = true
    · rw [if_pos hb] at c1 ⊢
      have h1 := hd.pid
      rw [hb] at h1
      obtain ⟨v, hv⟩ := Option.isSome_iff_exists.1 h1
      rw [hv] at c1 ⊢
      exact congrArg some (c1.split.1.leValue (hf.pid v hv)).symm
    · rw [if_neg hb]
      have h1 := hd.pid
      simpa [hb] using h1
  · rw [h.tid]
    by_cases hb : t.testBit 1 = true
    · rw [if_pos hb] at c1 ⊢
      have h1 := hd.tid
      rw [hb] at h1
      obtain ⟨v, hv⟩ := Option.isSome_iff_exists.1 h1
      rw [hv] at c1 ⊢
      have c1 := c1.split.2
      rw [toLE_length] at c1
      exact congrArg some (c1.leValue (hf.tid v hv)).symm
    · rw [if_neg hb]
      have h1 := hd.tid
      simpa [hb] using h1
  · rw [a1]
    by_cases hb : t.testBit 2 = true
    · rw [if_pos hb] at c2 ⊢
      have h1 := hd.time
      rw [hb] at h1
      obtain ⟨v, hv⟩ := Option.isSome_iff_exists.1 h1
      rw [hv] at c2 ⊢
      exact congrArg some (c2.leValue (hf.time v hv)).symm
    · rw [if_neg hb]
      have h1 := hd.time
      simpa [hb] using h1
  · rw [a2]
    by_cases hb : t.testBit 6 = true
    · rw [if_pos hb] at c3 ⊢
      have h1 := hd.id
      rw [hb] at h1
      obtain ⟨v, hv⟩ := Option.isSome_iff_exists.1 h1
      rw [hv] at c3 ⊢
      exact congrArg some (c3.leValue (hf.id v hv)).symm
    · rw [if_neg hb]
      have h1 := hd.id
      simpa [hb] using h1
  · rw [a3]
    by_cases hb : t.testBit 9 = true
    · rw [if_pos hb] at c4 ⊢
      have h1 := hd.streamId
      rw [hb] at h1
      obtain ⟨v, hv⟩ := Option.isSome_iff_exists.1 h1
      rw [hv] at c4 ⊢
      exact congrArg some (c4.leValue (hf.streamId v hv)).symm
    · rw [if_neg hb]
      have h1 := hd.streamId
      simpa [hb] using h1
  · rw [a4]
    by_cases hb : t.testBit 7 = true
    · rw [if_pos hb] at c5 ⊢
      have h1 := hd.cpu
      rw [hb] at h1
      obtain ⟨v, hv⟩ := Option.isSome_iff_exists.1 h1
      rw [hv] at c5 ⊢
      exact congrArg some (c5.split.1.leValue (hf.cpu v hv)).symm
    · rw [if_neg hb]
      have h1 := hd.cpu
      simpa [hb] using h1
  · rw [a5]
    by_cases hb : t.testBit 16 = true
    · rw [if_pos hb] at c6 ⊢
      have h1 := hd.identifier
      rw [hb] at h1
      obtain ⟨v, hv⟩ := Option.isSome_iff_exists.1 h1
      rw [hv] at c6 ⊢
      exact congrArg some (c6.leValue (hf.identifier v hv)).symm
    · rw [if_neg hb]
      have h1 := hd.identifier
      simpa [hb] using h1

end Ipt
