import Verif.SyncLemmas

/-!
# Properties of PSB synchronization (C08 - C11)
-/

namespace Ipt.Props

open Ipt Spec

/-! ## C08 -/

/-- The outcome of the forward search from `start`, in terms of the buffer content only. -/
theorem syncForward_outcome (m : List UInt8) (base start : Nat) (h : start ≤ m.length) :
    (∃ q, syncForward m base start = .ok q ∧ start ≤ q ∧ IsPsb m q ∧ ¬ PsbPair m (q + 16) ∧
      ∀ q0, start ≤ q0 → q0 < q → IsPsb m q0 → PsbRun m q0 (q + 16)) ∨
    (syncForward m base start = .err .eos ∧ ∀ q, start ≤ q → ¬ IsPsb m q) := by
  unfold syncForward
  rw [if_neg (by omega)]
  have hword : ∀ q0, start ≤ q0 → IsPsb m q0 →
      align8 (base + start) ≤ align8 (base + q0) ∧ align8 (base + q0) + 8 ≤ base + m.length ∧
      align8 (base + q0) % 8 = align8 (base + start) % 8 ∧ q0 ≤ align8 (base + q0) - base ∧
      align8 (base + q0) - base ≤ q0 + 7 ∧ base ≤ align8 (base + q0) := by
    intro q0 h1 h2
    have := isPsb_bound h2
    simp only [align8, truncate8]
    omega
  rcases syncForwardLoop_spec (m := m) (base := base) (start := start) (fuel := m.length + 1)
    (a := align8 (base + start)) (by simp only [align8, truncate8]; omega)
    (by simp only [align8, truncate8]; omega) (by omega) with
    ⟨w, q, h1, h2, h3, h4, h5, h6⟩ | ⟨h1, h2⟩
  · left
    have hwb : base ≤ w := by simp only [align8, truncate8] at h2; omega
    obtain ⟨g1, g2, g3, g4⟩ := findPsb_some (by omega) h5.2.1
    refine ⟨q, h1, h5.2.2, g1, g2, ?_⟩
    intro q0 s0 sq p0
    obtain ⟨a1, a2, a3, a4, a5, a6⟩ := hword q0 s0 p0
    obtain ⟨b1, k, b2, b3, b4⟩ := psb_word p0 a4 (by omega)
    by_cases hlt : align8 (base + q0) < w
    · exact absurd ⟨b1, b2, by omega⟩ (h6 _ _ a1 hlt a3)
    · by_cases heq : align8 (base + q0) = w
      · rw [heq] at b2
        have := h5.2.1
        rw [b2] at this
        simp at this
        exact ⟨k + 8, by omega, b3⟩
      · -- the word found lies before the PSB q0: the run covers q0
        have ho : w - base < q0 := by omega
        have hpar : (q + 16 - q0) % 2 = 0 := by
          apply Classical.byContradiction
          intro hne
          have := g4 (q0 + 1) (by omega) (by omega) (by omega)
          have h82 := (p0 0 (by omega)).2
          have h02 := this.1
          simp only [Nat.mul_zero, Nat.add_zero] at h82
          rw [h82] at h02
          simp at h02
        refine ⟨(q + 16 - q0) / 2, by omega, ?_⟩
        intro j hj
        exact g4 (q0 + 2 * j) (by omega) (by omega) (by omega)
  · right
    refine ⟨h1, ?_⟩
    intro q0 s0 p0
    obtain ⟨a1, a2, a3, a4, a5, a6⟩ := hword q0 s0 p0
    obtain ⟨b1, k, b2, b3, b4⟩ := psb_word p0 a4 (by omega)
    exact h2 _ _ a1 a2 a3 ⟨b1, b2, by omega⟩

/-- C08: the forward search never leaves the buffer (for any content, length, alignment and
start position). -/
theorem C08_sync_forward_safe (m : List UInt8) (base start : Nat) :
    (syncForward m base start).safe := by
  by_cases h : start ≤ m.length
  · rcases syncForward_outcome m base start h with ⟨q, h, _⟩ | ⟨h, _⟩ <;> simp [h]
  · simp [syncForward, show m.length < start by omega]

/-- C08, soundness: a successful search returns a complete PSB at or after the start; it is
the last one of its pattern run, and every PSB that was skipped belongs to that run. -/
theorem C08_sync_forward_sound (m : List UInt8) (base start q : Nat)
    (h : syncForward m base start = .ok q) :
    start ≤ q ∧ q + 16 ≤ m.length ∧ IsPsb m q ∧ ¬ PsbPair m (q + 16) ∧
    ∀ q0, start ≤ q0 → q0 < q → IsPsb m q0 → PsbRun m q0 (q + 16) := by
  have hs : start ≤ m.length := by
    apply Classical.byContradiction
    intro hn
    simp [syncForward, show m.length < start by omega] at h
  rcases syncForward_outcome m base start hs with ⟨q', h', h2⟩ | ⟨h', _⟩
  · rw [h] at h'
    simp at h'
    subst h'
    exact ⟨h2.1, isPsb_bound h2.2.1, h2.2.1, h2.2.2.1, h2.2.2.2⟩
  · rw [h] at h'; simp at h'

/-- C08, completeness: the search fails, and then with `-pte_eos`, if and only if there is no
PSB at or after the start. -/
theorem C08_sync_forward_complete (m : List UInt8) (base start : Nat) (h : start ≤ m.length) :
    ((∃ x, syncForward m base start = .err x) ↔ ∀ q, start ≤ q → ¬ IsPsb m q) ∧
    (∀ x, syncForward m base start = .err x → x = .eos) := by
  rcases syncForward_outcome m base start h with ⟨q, h', h2⟩ | ⟨h', h2⟩
  · rw [h']
    refine ⟨⟨by simp, fun hn => absurd h2.2.1 (hn q h2.1)⟩, by simp⟩
  · rw [h']
    refine ⟨⟨fun _ => h2, fun _ => ⟨_, rfl⟩⟩, by simp⟩

/-- The offset at which `pt_pkt_sync_forward` starts to search: the start of the buffer for a
new decoder, one byte after the current PSB when the decoder is still at its synchronization
point, and otherwise 15 bytes before the current position. -/
def searchStart (d : PktDec) : Nat :=
  match d.pos with
  | none => 0
  | some p => if d.sync = some p then p + 1 else p - 15

/-- A decoder as it is after allocation or after any successful synchronization: no position
without a synchronization point and vice versa. -/
def PktDec.WF (d : PktDec) : Prop := d.pos = none ↔ d.sync = none

theorem pktSyncForward_eq (c : PktCfg) (base : Nat) (d : PktDec) (hw : PktDec.WF d) :
    pktSyncForward c base d =
      match syncForward c.mem base (searchStart d) with
      | .ok q => ({ pos := some q, sync := some q }, .ok ())
      | .err e => (d, .err e)
      | .ub => (d, .ub) := by
  obtain ⟨pos, sync⟩ := d
  cases pos with
  | none =>
    have : sync = none := hw.1 rfl
    subst this
    simp [pktSyncForward, searchStart]
    rfl
  | some p =>
    simp only [pktSyncForward, searchStart, Option.getD_some]
    by_cases hs : sync = some p
    · simp only [hs, if_true]
      rw [if_pos (by omega), show p + 16 - (16 - 1) = p + 1 by omega]
      rfl
    · simp only [hs, if_false]
      by_cases h16 : 16 ≤ p
      · rw [if_pos h16]; rfl
      · rw [if_neg h16, show p - p = p - 15 by omega]; rfl

/-- C08 for the packet decoder API: success moves both the position and the synchronization
point to a complete PSB at or after the search start, skipping only PSBs of the same pattern
run; failure leaves the decoder unchanged and, with a search start inside the buffer, means
that there is no PSB left. -/
theorem C08_pkt_sync_forward (c : PktCfg) (base : Nat) (d d' : PktDec) (r : Res Unit)
    (hw : PktDec.WF d) (hs : searchStart d ≤ c.mem.length)
    (h : pktSyncForward c base d = (d', r)) :
    (r = .ok () ∧ ∃ q, d' = { pos := some q, sync := some q } ∧ searchStart d ≤ q ∧
      IsPsb c.mem q ∧ ∀ q0, searchStart d ≤ q0 → q0 < q → IsPsb c.mem q0 → PsbRun c.mem q0 (q + 16)) ∨
    (r = .err .eos ∧ d' = d ∧ ∀ q, searchStart d ≤ q → ¬ IsPsb c.mem q) := by
  rw [pktSyncForward_eq c base d hw] at h
  rcases syncForward_outcome c.mem base (searchStart d) hs with ⟨q, h', h1, h2, _, h3⟩ | ⟨h', h2⟩
  · rw [h'] at h
    simp at h
    exact .inl ⟨h.2.symm, q, h.1.symm, h1, h2, h3⟩
  · rw [h'] at h
    simp at h
    exact .inr ⟨h.2.symm, h.1.symm, h2⟩

/-- A PSB at an odd offset between other bytes, used as a concrete case below. -/
def somePsb : List UInt8 :=
  [0x00, 0x82, 0x02] ++ (List.replicate 8 [0x02, 0x82]).flatten ++ [0x02, 0x23, 0x00]

example : syncForward somePsb 5 0 = .ok 3 ∧ syncForward somePsb 5 4 = .err .eos ∧
    IsPsb somePsb 3 ∧
    pktSyncForward { mem := somePsb } 5 {} = ({ pos := some 3, sync := some 3 }, .ok ()) ∧
    PktDec.WF {} ∧ searchStart {} ≤ somePsb.length := by
  refine ⟨by decide +kernel, by decide +kernel, by decide +kernel, by decide +kernel, ?_, by decide +kernel⟩
  simp [PktDec.WF]

/-- Outside of the condition of `C08_pkt_sync_forward`: a decoder that was placed at the very
end of the buffer with `pt_pkt_sync_set` gets `-pte_internal` from `pt_pkt_sync_forward`. -/
theorem C08_sync_forward_at_end_is_internal (c : PktCfg) (base : Nat) (d : PktDec) :
    (pktSyncSet c d c.mem.length).2 = .ok () ∧
    (pktSyncForward c base (pktSyncSet c d c.mem.length).1).2 = .err .internal := by
  simp [pktSyncSet, pktSyncForward, syncForward]

/-! ## C09 -/

/-- C09: the backward search never leaves the buffer. -/
theorem C09_sync_backward_safe (m : List UInt8) (base pos : Nat) :
    (syncBackward m base pos).safe := by
  unfold syncBackward
  split
  · simp
  · rcases syncBackwardLoop_spec (m := m) (base := base) (fuel := m.length + 1)
      (a := truncate8 (base + pos)) (by simp only [truncate8]; omega)
      (by simp only [truncate8]; omega) (by omega) with ⟨w, q, h, _⟩ | ⟨h, _⟩ <;> simp [h]

/-- C09, soundness: a successful search returns a complete PSB inside the buffer, the last one
of its pattern run; no PSB that ends at or before the search start is missed in favour of an
earlier one; and the found PSB starts before the search start unless its pattern run covers
the search start. -/
theorem C09_sync_backward_sound (m : List UInt8) (base pos q : Nat)
    (h : syncBackward m base pos = .ok q) :
    IsPsb m q ∧ q + 16 ≤ m.length ∧ ¬ PsbPair m (q + 16) ∧
    (∀ q0, q0 + 16 ≤ pos → IsPsb m q0 → q0 ≤ q) ∧
    (∃ s, s + 7 ≤ pos ∧ PsbRun m s (q + 16)) := by
  unfold syncBackward at h
  split at h
  · cases h
  · rename_i hp
    rcases syncBackwardLoop_spec (m := m) (base := base) (fuel := m.length + 1)
      (a := truncate8 (base + pos)) (by simp only [truncate8]; omega)
      (by simp only [truncate8]; omega) (by omega) with ⟨w, q', h1, h2, h3, h4, h5, h6⟩ | ⟨h1, _⟩
    · rw [h] at h1
      simp at h1
      subst h1
      have hw : w + 8 ≤ base + pos := by simp only [truncate8] at h2; omega
      obtain ⟨g1, g2, g3, g4⟩ := findPsb_some (by omega) h5.2
      obtain ⟨hq8, s, hs1, hs2⟩ := hitB_run (by omega) h5
      refine ⟨g1, isPsb_bound g1, g2, ?_, ?_⟩
      · intro q0 hq0 p0
        have ha : align8 (base + q0) % 8 = truncate8 (base + pos) % 8 ∧
            align8 (base + q0) + 8 ≤ truncate8 (base + pos) ∧ q0 ≤ align8 (base + q0) - base ∧
            align8 (base + q0) - base ≤ q0 + 7 ∧ base ≤ align8 (base + q0) := by
          simp only [align8, truncate8]; omega
        obtain ⟨a1, a2, a3, a4, a5⟩ := ha
        obtain ⟨b1, k, b2, b3, b4⟩ := psb_word p0 a3 (by omega)
        by_cases hlt : w < align8 (base + q0)
        · exact absurd ⟨b1, b2⟩ (h6 _ _ hlt a2 a1)
        · by_cases hin : w - base ≤ q0 + 8
          · obtain ⟨_, k, b2, _⟩ := psb_word p0 (o := w - base) (by omega) hin
            rw [h5.2] at b2
            simp at b2
            omega
          · omega
      · exact ⟨s, by omega, hs2⟩
    · rw [h] at h1; cases h1

/-- C09, completeness: an error (for a position inside the buffer) is `-pte_eos`, and then no
PSB ends at or before the position. -/
theorem C09_sync_backward_complete (m : List UInt8) (base pos : Nat) (x : Err)
    (hp : pos ≤ m.length) (h : syncBackward m base pos = .err x) :
    x = .eos ∧ ∀ q, q + 16 ≤ pos → ¬ IsPsb m q := by
  unfold syncBackward at h
  rw [if_neg (by omega)] at h
  rcases syncBackwardLoop_spec (m := m) (base := base) (fuel := m.length + 1)
    (a := truncate8 (base + pos)) (by simp only [truncate8]; omega)
    (by simp only [truncate8]; omega) (by omega) with ⟨w, q', h1, _⟩ | ⟨h1, h2⟩
  · rw [h] at h1; cases h1
  · rw [h] at h1
    simp at h1
    refine ⟨h1, ?_⟩
    intro q0 hq0 p0
    have ha : align8 (base + q0) % 8 = truncate8 (base + pos) % 8 ∧
        align8 (base + q0) + 8 ≤ truncate8 (base + pos) ∧ q0 ≤ align8 (base + q0) - base ∧
        align8 (base + q0) - base ≤ q0 + 7 ∧ base ≤ align8 (base + q0) := by
      simp only [align8, truncate8]; omega
    obtain ⟨a1, a2, a3, a4, a5⟩ := ha
    obtain ⟨b1, k, b2, b3, b4⟩ := psb_word p0 a3 (by omega)
    exact h2 _ _ a5 a2 a1 ⟨b1, b2⟩

example : syncBackward somePsb 5 somePsb.length = .ok 3 ∧ syncBackward somePsb 5 8 = .err .eos := by
  decide +kernel

/-- C09, the decoder: a decoder that is not synchronized searches from the end of the buffer, so it finds
the last PSB; a synchronized one searches from its position.  On an error the decoder is unchanged. -/
theorem C09_pkt_sync_backward (c : PktCfg) (base : Nat) (d d' : PktDec) (r : Res Unit)
    (h : pktSyncBackward c base d = (d', r)) :
    (r = .ok () → ∃ q, d' = { pos := some q, sync := some q } ∧ IsPsb c.mem q ∧
      ∀ q0, (d.pos = none ∨ ∃ p, d.pos = some p ∧ q0 + 16 ≤ p) → IsPsb c.mem q0 → q0 ≤ q) ∧
    (r = .err .eos → d' = d ∧ (d.pos = none → ∀ q, ¬ IsPsb c.mem q)) ∧ r.safe := by
  unfold pktSyncBackward at h
  cases hs : syncBackward c.mem base (d.pos.getD c.mem.length) with
  | ub => exact absurd hs (C09_sync_backward_safe _ _ _)
  | err e =>
    rw [hs] at h
    simp only [Prod.mk.injEq] at h
    obtain ⟨rfl, rfl⟩ := h
    refine ⟨by simp, ?_, by simp⟩
    intro he
    refine ⟨rfl, ?_⟩
    intro hn q hq
    rw [hn] at hs
    exact (C09_sync_backward_complete c.mem base _ e (by simp) hs).2 q (isPsb_bound hq) hq
  | ok q =>
    rw [hs] at h
    simp only [Prod.mk.injEq] at h
    obtain ⟨rfl, rfl⟩ := h
    refine ⟨fun _ => ⟨q, rfl, ?_⟩, by simp, by simp⟩
    obtain ⟨h1, h2, h3, h4, _⟩ := C09_sync_backward_sound _ _ _ _ hs
    refine ⟨h1, ?_⟩
    rintro q0 (hn | ⟨p, hp, hq⟩) hq0
    · rw [hn] at h4; exact h4 q0 (isPsb_bound hq0) hq0
    · rw [hp] at h4; exact h4 q0 hq hq0

example : pktSyncBackward { mem := somePsb } 5 {} = ({ pos := some 3, sync := some 3 }, .ok ()) := by decide +kernel

/-- C08, setting the synchronization point of the higher decoders (`pt_sync_set`): never reads outside
the buffer, and succeeds exactly at a complete PSB. -/
theorem C08_sync_set (m : List UInt8) (pos : Nat) :
    (syncSet m pos).safe ∧ (∀ q, syncSet m pos = .ok q ↔ q = pos ∧ IsPsb m pos) := by
  unfold syncSet
  by_cases h1 : m.length < pos
  · rw [if_pos h1]
    refine ⟨by simp, fun q => ⟨fun h => (by cases h), ?_⟩⟩
    rintro ⟨_, h⟩; have := isPsb_bound h; omega
  rw [if_neg h1]
  by_cases h2 : m.length < pos + 2
  · rw [if_pos h2]
    refine ⟨by simp, fun q => ⟨fun h => (by cases h), ?_⟩⟩
    rintro ⟨_, h⟩; have := isPsb_bound h; omega
  rw [if_neg h2]
  obtain ⟨b0, _, e0⟩ := rd_ex (m := m) (i := pos) (by omega)
  obtain ⟨b1, _, e1⟩ := rd_ex (m := m) (i := pos + 1) (by omega)
  simp only [e0, e1, Res.bind_ok]
  by_cases h3 : b0 ≠ 0x02 ∨ b1 ≠ 0x82
  · rw [if_pos h3]
    refine ⟨by simp, fun q => ⟨fun h => (by cases h), ?_⟩⟩
    rintro ⟨_, h⟩
    have := ((isPsb_iff (isPsb_bound h)).1 h).1
    rw [psbPair_rd, e0, e1] at this
    simp only [Res.ok.injEq] at this
    omega
  rw [if_neg h3]
  by_cases h16 : m.length < pos + 16
  · have : readPsb m pos = .err .eos := by unfold readPsb; rw [if_pos h16]
    rw [this]
    refine ⟨by simp, fun q => ⟨fun h => (by cases h), ?_⟩⟩
    rintro ⟨_, h⟩; have := isPsb_bound h; omega
  have hiff := isPsb_iff (m := m) (q := pos) (by omega)
  rw [psbPair_rd, e0, e1] at hiff
  simp only [Res.ok.injEq] at hiff
  rcases readPsb_cases (m := m) (q := pos) (by omega) with hr | ⟨er, hr⟩
  · rw [hr] at hiff ⊢
    refine ⟨by simp, fun q => ?_⟩
    simp only [Res.bind_ok, Res.pure_eq, Res.ok.injEq]
    constructor
    · rintro rfl; exact ⟨rfl, hiff.2 ⟨by omega, rfl⟩⟩
    · rintro ⟨rfl, _⟩; rfl
  · rw [hr] at hiff ⊢
    refine ⟨by simp, fun q => ⟨fun h => (by cases h), ?_⟩⟩
    rintro ⟨_, h⟩
    have := (hiff.1 h).2
    cases this

example : syncSet somePsb 3 = .ok 3 ∧ syncSet somePsb 4 = .err .nosync := by decide +kernel

/-! ## C10 -/

/-- C10, progress: two synchronizations in a row give strictly increasing offsets. -/
theorem C10_sync_forward_progress (c : PktCfg) (base : Nat) (d d' d'' : PktDec)
    (h : pktSyncForward c base d = (d', .ok ())) (h' : pktSyncForward c base d' = (d'', .ok ())) :
    ∃ q q', d'.pos = some q ∧ d''.pos = some q' ∧ q < q' ∧ q' < c.mem.length := by
  have hd' : ∃ q, d' = { pos := some q, sync := some q } := by
    unfold pktSyncForward at h
    dsimp only at h
    split at h <;> simp at h
    exact ⟨_, h.symm⟩
  obtain ⟨q, rfl⟩ := hd'
  rw [pktSyncForward_eq c base _ (by simp [PktDec.WF])] at h'
  have hs : searchStart { pos := some q, sync := some q } = q + 1 := by simp [searchStart]
  rw [hs] at h'
  split at h'
  · rename_i q' hq
    simp at h'
    have := C08_sync_forward_sound _ _ _ _ hq
    exact ⟨q, q', rfl, by rw [← h'], by omega, by omega⟩
  · simp at h'
  · simp at h'

/-- The offsets visited by calling `pt_pkt_sync_forward` until it fails, at most `fuel` times. -/
def syncOffsets (c : PktCfg) (base : Nat) : Nat → PktDec → List Nat
  | 0, _ => []
  | fuel + 1, d =>
    match pktSyncForward c base d with
    | (d', .ok ()) => (d'.pos.getD 0) :: syncOffsets c base fuel d'
    | _ => []

/-- No PSB is directly followed by more of the PSB pattern. -/
def IsolatedPsbs (m : List UInt8) : Prop := ∀ q, IsPsb m q → ¬ PsbPair m (q + 16)

/-- In a buffer with isolated PSBs the search finds the first one. -/
theorem syncForward_first (m : List UInt8) (base start q : Nat) (hi : IsolatedPsbs m)
    (h : syncForward m base start = .ok q) : ∀ q0, start ≤ q0 → q0 < q → ¬ IsPsb m q0 := by
  intro q0 h0 h1 hp
  obtain ⟨_, _, _, _, hrun⟩ := C08_sync_forward_sound m base start q h
  obtain ⟨k, hk, hj⟩ := hrun q0 h0 h1 hp
  apply hi q0 hp
  have := hj 8 (by omega)
  rwa [show q0 + 2 * 8 = q0 + 16 by omega] at this

theorem filter_range'_nil (P : Nat → Bool) : ∀ (n s : Nat), (∀ q, s ≤ q → q < s + n → P q = false) →
    (List.range' s n).filter P = [] := by
  intro n s h
  rw [List.filter_eq_nil_iff]
  intro a ha
  rw [List.mem_range'_1] at ha
  simp [h a ha.1 ha.2]

theorem filter_range'_cons (P : Nat → Bool) (s q n : Nat) (h1 : s ≤ q) (h2 : q < s + n) (hq : P q = true)
    (hn : ∀ q0, s ≤ q0 → q0 < q → P q0 = false) :
    (List.range' s n).filter P = q :: (List.range' (q + 1) (s + n - (q + 1))).filter P := by
  have : List.range' s n = List.range' s (q - s) ++ (q :: List.range' (q + 1) (s + n - (q + 1))) := by
    rw [← List.range'_succ]
    have e : s + n - (q + 1) + 1 = s + n - q := by omega
    rw [e]
    have := List.range'_append_1 (s := s) (m := q - s) (n := s + n - q)
    rw [show s + (q - s) = q by omega, show q - s + (s + n - q) = n by omega] at this
    exact this.symm
  rw [this, List.filter_append, filter_range'_nil _ _ _ (fun a h1 h2 => hn a h1 (by omega))]
  simp [hq]

theorem syncOffsets_eq (c : PktCfg) (base : Nat) (hi : IsolatedPsbs c.mem) : ∀ (fuel : Nat) (d : PktDec),
    PktDec.WF d → searchStart d ≤ c.mem.length → c.mem.length - searchStart d < fuel →
    syncOffsets c base fuel d =
      (List.range' (searchStart d) (c.mem.length - searchStart d)).filter (fun q => decide (IsPsb c.mem q)) := by
  intro fuel
  induction fuel with
  | zero => intro d _ _ h; omega
  | succ fuel ih =>
    intro d hw hs hf
    simp only [syncOffsets]
    rw [pktSyncForward_eq c base d hw]
    rcases syncForward_outcome c.mem base (searchStart d) hs with ⟨q, h', h1, h2, _, h3⟩ | ⟨h', h2⟩
    · have hfirst := syncForward_first _ _ _ _ hi h'
      rw [h']
      simp only [Option.getD_some]
      have hs' : searchStart { pos := some q, sync := some q } = q + 1 := by simp [searchStart]
      have hb := isPsb_bound h2
      rw [ih _ (by simp [PktDec.WF]) (by rw [hs']; omega) (by rw [hs']; omega), hs']
      rw [filter_range'_cons (fun q => decide (IsPsb c.mem q)) (searchStart d) q (c.mem.length - searchStart d)
        h1 (by omega) (by simpa using h2) (by intro q0 a b; simpa using hfirst q0 a b)]
      rw [show searchStart d + (c.mem.length - searchStart d) - (q + 1) = c.mem.length - (q + 1) by omega]
    · rw [h']
      symm
      apply filter_range'_nil
      intro q a b
      simpa using h2 q a

/-- C10, enumeration: in a buffer without adjacent PSBs, calling `pt_pkt_sync_forward` on a
new decoder until it fails visits every PSB exactly once, in order. -/
theorem C10_sync_forward_enumerates (c : PktCfg) (base : Nat) (hi : IsolatedPsbs c.mem) :
    syncOffsets c base (c.mem.length + 1) {} =
      (List.range c.mem.length).filter (fun q => decide (IsPsb c.mem q)) := by
  rw [syncOffsets_eq c base hi _ _ (by simp [PktDec.WF]) (by simp [searchStart]) (by simp [searchStart])]
  simp [searchStart, List.range_eq_range']

/-- Iterating `pt_pkt_sync_forward` over any buffer ends, whatever the PSBs look like: at most
one success per byte of the buffer. -/
theorem C10_sync_forward_terminates (c : PktCfg) (base : Nat) (d : PktDec) (hw : PktDec.WF d) (fuel : Nat) :
    (syncOffsets c base fuel d).length ≤ c.mem.length := by
  have key : ∀ fuel d, PktDec.WF d →
      (syncOffsets c base fuel d).length ≤ c.mem.length - searchStart d := by
    intro fuel
    induction fuel with
    | zero => intro d _; simp [syncOffsets]
    | succ fuel ih =>
      intro d hw
      simp only [syncOffsets]
      rw [pktSyncForward_eq c base d hw]
      match hf : syncForward c.mem base (searchStart d) with
      | .ok q =>
        have := C08_sync_forward_sound _ _ _ _ hf
        have hi := ih { pos := some q, sync := some q } (by simp [PktDec.WF])
        have hs' : searchStart { pos := some q, sync := some q } = q + 1 := by simp [searchStart]
        rw [hs'] at hi
        simp only [List.length_cons]
        omega
      | .err e => simp
      | .ub => simp
  have := key fuel d hw
  omega

/-- Two separate PSBs. -/
def twoPsbs : List UInt8 :=
  (List.replicate 8 [0x02, 0x82]).flatten ++ [0x02, 0x23, 0x00] ++ (List.replicate 8 [0x02, 0x82]).flatten

theorem isolated_of_bounded (m : List UInt8)
    (h : ∀ q, q < m.length → IsPsb m q → ¬ PsbPair m (q + 16)) : IsolatedPsbs m := by
  intro q hq
  have := isPsb_bound hq
  exact h q (by omega) hq

example : IsolatedPsbs twoPsbs ∧ syncOffsets { mem := twoPsbs } 3 100 {} = [0, 19] :=
  ⟨isolated_of_bounded _ (by decide +kernel), by decide +kernel⟩

/-! ## C11 -/

/-- C11 for buffers without adjacent PSBs: `pt_pkt_sync_backward` from a PSB either moves to a
strictly smaller offset or fails with `-pte_eos` and leaves the decoder unchanged. -/
theorem C11_sync_backward_progress_partial (c : PktCfg) (base : Nat) (d d' : PktDec) (r : Res Unit) (p : Nat)
    (hi : IsolatedPsbs c.mem) (hp : d.pos = some p) (hpsb : IsPsb c.mem p)
    (h : pktSyncBackward c base d = (d', r)) :
    (r = .ok () ∧ ∃ q, d' = { pos := some q, sync := some q } ∧ IsPsb c.mem q ∧ q < p) ∨
    (r = .err .eos ∧ d' = d) := by
  have hb := isPsb_bound hpsb
  unfold pktSyncBackward at h
  simp only [hp, Option.getD_some] at h
  match hs : syncBackward c.mem base p with
  | .ub => exact absurd hs (C09_sync_backward_safe _ _ _)
  | .err x =>
    rw [hs] at h
    simp at h
    have := C09_sync_backward_complete c.mem base p x (by omega) hs
    exact .inr ⟨by rw [← h.2, this.1], h.1.symm⟩
  | .ok q =>
    rw [hs] at h
    simp at h
    obtain ⟨h1, h2, h3, h4, s, hs1, k, hk, hrun⟩ := C09_sync_backward_sound _ _ _ _ hs
    refine .inl ⟨h.2.symm, q, h.1.symm, h1, ?_⟩
    apply Classical.byContradiction
    intro hn
    -- the run from s covers p
    have hpar : (p - s) % 2 = 0 := by
      apply Classical.byContradiction
      intro hne
      have := (hrun ((p + 1 - s) / 2) (by omega)).1
      have h82 := (hpsb 0 (by omega)).2
      rw [show s + 2 * ((p + 1 - s) / 2) = p + 2 * 0 + 1 by omega, h82] at this
      simp at this
    have h8 : IsPsb c.mem (p - 8) := by
      intro j hj
      have := hrun ((p - 8 - s) / 2 + j) (by omega)
      rwa [show s + 2 * ((p - 8 - s) / 2 + j) = p - 8 + 2 * j by omega] at this
    apply hi _ h8
    have := hrun ((p + 8 - s) / 2) (by omega)
    rwa [show s + 2 * ((p + 8 - s) / 2) = p - 8 + 16 by omega] at this

/-- Two adjacent PSBs. -/
def adjacentPsbs : List UInt8 := (List.replicate 16 [0x02, 0x82]).flatten

/-- C11 fails for adjacent PSBs: synchronizing backward from the second of two adjacent PSBs
succeeds, and returns the same PSB, again and again; the first PSB is never reached. -/
theorem C11_sync_backward_stuck :
    ∃ (c : PktCfg) (base : Nat) (d : PktDec), IsPsb c.mem 0 ∧ d.pos = some 16 ∧
      pktSyncBackward c base d = (d, .ok ()) :=
  ⟨{ mem := adjacentPsbs }, 0, { pos := some 16, sync := some 16 }, by decide +kernel, rfl,
    by decide +kernel⟩

example : pktSyncBackward { mem := twoPsbs } 3 { pos := some 19, sync := some 19 } =
    ({ pos := some 0, sync := some 0 }, .ok ()) ∧ IsPsb twoPsbs 19 := by decide +kernel

end Ipt.Props
