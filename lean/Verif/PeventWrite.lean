import Verif.PeventRead

/-!
# Helper lemmas: writing perf event records
-/

set_option linter.unusedSimpArgs false
set_option linter.unusedVariables false

namespace Ipt

open Spec

variable {c : PevConfig} {e : PevData} {buf l l' : List UInt8} {t : Nat}

/-- The buffer after writing `l`. -/
def wrote (buf l : List UInt8) : List UInt8 × Nat := (l ++ buf.drop l.length, l.length)

theorem put_wrote (h : l.length + l'.length ≤ buf.length) : pevPut (wrote buf l) l' = .ok (wrote buf (l ++ l')) := by
  unfold pevPut wrote
  simp only [List.length_append, List.length_drop]
  rw [if_neg (by omega)]
  simp [List.drop_append]

theorem skip_wrote {n : Nat} (h : l.length + n ≤ buf.length) :
    ((wrote buf l).1, (wrote buf l).2 + n) = wrote buf (l ++ sliceAt buf l.length n) := by
  unfold wrote
  simp only [List.length_append, sliceAt_length h, Prod.mk.injEq, and_true]
  unfold sliceAt
  rw [List.append_assoc, ← List.drop_drop, List.take_append_drop]

theorem config_type (e : PevData) : let t := (pevSampleConfig e).2
    t.testBit 1 = e.tid.isSome ∧ t.testBit 2 = e.time.isSome ∧ t.testBit 6 = e.id.isSome ∧ t.testBit 9 = e.streamId.isSome ∧
    t.testBit 7 = e.cpu.isSome ∧ t.testBit 16 = e.identifier.isSome ∧
    ¬ (t ≠ t % 2 ^ 17 ∨ [0, 3, 4, 5, 8, 10, 11, 12, 13, 14, 15].any t.testBit = true) := by
  unfold pevSampleConfig
  dsimp only
  generalize e.tid.isSome = x1
  generalize e.time.isSome = x2
  generalize e.id.isSome = x3
  generalize e.streamId.isSome = x4
  generalize e.cpu.isSome = x5
  generalize e.identifier.isSome = x6
  revert x1 x2 x3 x4 x5 x6
  decide

theorem config_size (e : PevData) : (pevSampleConfig e).1 =
    (if e.tid.isSome = true then 8 else 0) + (if e.time.isSome = true then 8 else 0) + (if e.id.isSome = true then 8 else 0) +
    (if e.streamId.isSome = true then 8 else 0) + (if e.cpu.isSome = true then 8 else 0) +
    (if e.identifier.isSome = true then 8 else 0) := by
  rcases e with ⟨_, _, _, _, pid, tid, time, id, sid, cpu, ident⟩
  unfold pevSampleConfig
  rcases tid with _ | _ <;> rcases time with _ | _ <;> rcases id with _ | _ <;> rcases sid with _ | _ <;>
    rcases cpu with _ | _ <;> rcases ident with _ | _ <;> rfl

theorem putSample_wrote {bit : Nat} {o : Option Nat} (hb : t.testBit bit = o.isSome)
    (h : l.length + (if o.isSome = true then 8 else 0) ≤ buf.length) :
    pevPutSample (wrote buf l) t bit o 8 = .ok (wrote buf (l ++ if t.testBit bit = true then toLE 8 (o.getD 0) else [])) := by
  unfold pevPutSample
  rcases o with _ | v
  · rw [hb]; simp
  · rw [hb]
    simp only [Option.isSome_some, if_true] at h ⊢
    rw [put_wrote (by rw [toLE_length]; exact h)]
    simp

theorem putCpu_wrote {bit : Nat} {o : Option Nat} (hb : t.testBit bit = o.isSome)
    (h : l.length + (if o.isSome = true then 8 else 0) ≤ buf.length) : ∃ unused : List UInt8, unused.length = 4 ∧
    pevPutSample (wrote buf l) t bit o 4 =
      .ok (wrote buf (l ++ if t.testBit bit = true then toLE 4 (o.getD 0) ++ unused else [])) := by
  unfold pevPutSample
  rcases o with _ | v
  · rw [hb]; exact ⟨[0, 0, 0, 0], rfl, by simp⟩
  · rw [hb]
    simp only [Option.isSome_some, if_true] at h ⊢
    refine ⟨sliceAt buf (l.length + 4) 4, sliceAt_length (by omega), ?_⟩
    rw [put_wrote (by rw [toLE_length]; omega)]
    have := skip_wrote (buf := buf) (l := l ++ toLE 4 v) (n := 4) (by simp [toLE_length]; omega)
    simp only [List.length_append, toLE_length] at this
    simp only [Bool.true_eq_false, if_false, Res.bind_ok]
    rw [show (8 - 4 : Nat) = 4 from rfl, this]
    simp

theorem writeSamples_wrote (ht : t = (pevSampleConfig e).2) (hc : TypeFor c e.identifier t) (hp : e.pid.isSome = e.tid.isSome)
    (hl : l.length + (pevSampleConfig e).1 ≤ buf.length) : ∃ unused : List UInt8, unused.length = 4 ∧
    pevWriteSamples c e t (wrote buf l) = .ok (wrote buf (l ++ sampleBytes t e unused)) ∧
    (sampleBytes t e unused).length = (pevSampleConfig e).1 := by
  obtain ⟨b1, b2, b3, b4, b5, b6, b7⟩ := config_type e
  rw [← ht] at b1 b2 b3 b4 b5 b6 b7
  rw [config_size] at hl ⊢
  have len : ∀ {bit : Nat} {o : Option Nat} {x : List UInt8}, t.testBit bit = o.isSome → x.length = 8 →
      (if t.testBit bit = true then x else []).length = if o.isSome = true then 8 else 0 := by
    intro bit o x hb hx; rw [hb]; split <;> simp [hx]
  have l1 : (toLE 4 (e.pid.getD 0) ++ toLE 4 (e.tid.getD 0)).length = 8 := by simp [toLE_length]
  have a1 := len b1 l1
  have a2 := len b2 (toLE_length 8 (e.time.getD 0))
  have a3 := len b3 (toLE_length 8 (e.id.getD 0))
  have a4 := len b4 (toLE_length 8 (e.streamId.getD 0))
  have a6 := len b6 (toLE_length 8 (e.identifier.getD 0))
  have h1 : pevPutTid e t (wrote buf l) =
      .ok (wrote buf (l ++ if t.testBit 1 = true then toLE 4 (e.pid.getD 0) ++ toLE 4 (e.tid.getD 0) else [])) := by
    unfold pevPutTid
    rw [b1]
    rw [b1] at a1
    rcases ht : e.tid with _ | tid
    · simp
    · rw [ht] at hp hl
      obtain ⟨pid, hpid⟩ := Option.isSome_iff_exists.1 hp
      rw [hpid]
      simp only [Option.isSome_some, if_true] at hl
      simp only [Option.isSome_some, Bool.true_eq_false, if_false, if_true, Option.getD_some]
      rw [put_wrote (by rw [toLE_length]; omega)]
      simp only [Res.bind_ok]
      rw [put_wrote (by simp [toLE_length]; omega)]
      simp
  obtain ⟨unused, hu, h5⟩ := putCpu_wrote (buf := buf)
    (l := l ++ (if t.testBit 1 = true then toLE 4 (e.pid.getD 0) ++ toLE 4 (e.tid.getD 0) else []) ++
      (if t.testBit 2 = true then toLE 8 (e.time.getD 0) else []) ++ (if t.testBit 6 = true then toLE 8 (e.id.getD 0) else []) ++
      (if t.testBit 9 = true then toLE 8 (e.streamId.getD 0) else [])) b5
    (by simp only [List.length_append, a1, a2, a3, a4]; omega)
  have l5 : (toLE 4 (e.cpu.getD 0) ++ unused).length = 8 := by simp [toLE_length, hu]
  have a5 := len b5 l5
  refine ⟨unused, hu, ?_, ?_⟩
  · unfold pevWriteSamples
    have hc' := sampleType_ok.2 hc
    rw [hc']
    simp only [Res.bind_ok, ne_eq, not_true, if_false]
    rw [h1]
    simp only [Res.bind_ok]
    rw [putSample_wrote b2 (by simp only [List.length_append, a1]; omega)]
    simp only [Res.bind_ok]
    rw [putSample_wrote b3 (by simp only [List.length_append, a1, a2]; omega)]
    simp only [Res.bind_ok]
    rw [putSample_wrote b4 (by simp only [List.length_append, a1, a2, a3]; omega)]
    simp only [Res.bind_ok]
    rw [h5]
    simp only [Res.bind_ok]
    rw [putSample_wrote b6 (by simp only [List.length_append, a1, a2, a3, a4, a5]; omega)]
    simp only [Res.bind_ok]
    rw [if_neg b7]
    unfold sampleBytes
    simp only [List.append_assoc]
  · unfold sampleBytes
    simp only [List.length_append, a1, a2, a3, a4, a5, a6]

/-- What is written in front of the samples. -/
def headBytes (e : PevData) (str : Bool) (size : Nat) : List UInt8 :=
  toLE 4 e.type ++ toLE 2 e.misc ++ toLE 2 size ++ e.record ++
    if str = true then e.string ++ 0 :: List.replicate ((e.string.length + 1 + 7) / 8 * 8 - (e.string.length + 1)) 0 else []

theorem head_length {n : Nat} {str : Bool} {size : Nat} (h : e.record.length = n) : (headBytes e str size).length =
    8 + n + if str = true then e.string.length + 1 + ((e.string.length + 1 + 7) / 8 * 8 - (e.string.length + 1)) else 0 := by
  unfold headBytes
  simp only [List.length_append, toLE_length, h]
  split <;> simp <;> omega

/-- Writing, up to the samples. -/
theorem write_eq {n : Nat} {str : Bool} (hr : pevRecord e.type = some (n, str)) (hn : e.record.length = n) :
    pevWrite c e buf =
      if str = true ∧ 65535 ≤ e.string.length then .err .eos
      else
        let size := (headBytes e str 0).length + (pevSampleConfig e).1
        if 65535 < size then .err .badPacket
        else if buf.length < size then .err .eos
        else pevWriteSamples c e (pevSampleConfig e).2 (wrote buf (headBytes e str size)) := by
  unfold pevWrite
  simp only [hr]
  split
  · rfl
  · rename_i h1
    have hs : 8 + (pevSampleConfig e).1 + n + (if str = true then e.string.length + 1 + ((e.string.length + 1 + 7) / 8 * 8 - (e.string.length + 1)) else 0) =
        (headBytes e str 0).length + (pevSampleConfig e).1 := by
      rw [head_length hn]; omega
    rw [hs]
    generalize hsz : (headBytes e str 0).length + (pevSampleConfig e).1 = size
    split
    · rfl
    · split
      · rfl
      · rename_i h2 h3
        have hh := head_length (str := str) (size := 0) hn
        have w0 : (buf, 0) = wrote buf [] := by simp [wrote]
        have h8 : (toLE 4 e.type ++ toLE 2 e.misc ++ toLE 2 size).length = 8 := by simp [toLE_length]
        rw [w0, put_wrote (by rw [h8]; simp; omega)]
        simp only [Res.bind_ok, List.nil_append]
        rw [put_wrote (by rw [h8, hn]; omega)]
        simp only [Res.bind_ok]
        unfold headBytes
        rcases str with _ | _
        · simp
        · simp only [if_true] at hh ⊢
          rw [put_wrote (by rw [List.length_append, h8, hn]; simp; omega)]
          simp only [Res.bind_ok]
          rw [put_wrote (by simp only [List.length_append, h8, hn, List.length_replicate]; simp; omega)]
          simp

theorem map_safe {o : Option Nat} (h : pevSampleType c (o.map .ok) = .ub) : False := by
  unfold pevSampleType at h
  rcases hs : c.sampleConfig with _ | x <;> rcases o with _ | i <;> simp only [hs, Option.map_none, Option.map_some, Res.bind_ok] at h <;>
    repeat' split at h
  all_goals first | cases h | skip
  all_goals (repeat' split at h) <;> cases h

/-- If the samples were written then their type is that of the configuration. -/
theorem writeSamples_ok {b b' : List UInt8 × Nat} (h : pevWriteSamples c e t b = .ok b') :
    TypeFor c e.identifier t ∧ (t.testBit 1 = true → e.pid.isSome = true) := by
  unfold pevWriteSamples at h
  rcases h1 : pevSampleType c (e.identifier.map .ok) with ct | _ | _
  · rw [h1] at h
    simp only [Res.bind_ok] at h
    split at h
    · cases h
    · rename_i h2
      have h2 : ct = t := by simpa using h2
      rw [h2] at h1
      refine ⟨sampleType_ok.1 h1, ?_⟩
      intro hb
      rcases hp : e.pid with _ | v
      · unfold pevPutTid at h
        rw [hb, hp] at h
        simp at h
      · rfl
  · rw [h1] at h; cases h
  · exact (map_safe h1).elim

end Ipt
