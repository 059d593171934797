import Verif.LoadFile

/-!
# C74: exactly the requested part of a file is loaded
-/

namespace Ipt.Spec

/-- The bytes of a file that are asked for: all, from an offset up to the end, or a range. -/
def FileArg.bytes (f : List UInt8) : FileArg → List UInt8
  | .whole => f
  | .from_ b => f.drop b
  | .range b e => (f.drop b).take (e - b)

/-- The file has the bytes that are asked for, and there is at least one. -/
def FileArg.InFile (f : List UInt8) : FileArg → Prop
  | .whole => 0 < f.length
  | .from_ b => b < f.length
  | .range b e => b < e ∧ e ≤ f.length

/-- Numbers on the command line have 64 bits. -/
def FileArg.Ok : FileArg → Prop
  | .whole => True
  | .from_ b => b < 2 ^ 64
  | .range b e => b < 2 ^ 64 ∧ e < 2 ^ 64

end Ipt.Spec

namespace Ipt.Props

open Ipt

theorem ofLong_nat {n : Nat} (h : n < 2 ^ 64) : ofLong (n : Int) = n := by unfold ofLong; omega

theorem ofLong_toLong {n : Nat} (h : n < 2 ^ 64) : ofLong (toLong n) = n := by
  unfold ofLong toLong; split <;> omega

theorem readAt_nat (f : List UInt8) (b n : Nat) : readAt f (b : Int) n = some ((f.drop b).take n) := by
  unfold readAt; rw [if_neg (by omega), Int.toNat_natCast]

/-- Loading from an offset in the file. -/
theorem loadFile_ok (alloc : Nat → Bool) (f : List UInt8) (hf : f.length < 2 ^ 63) (b n : Nat) (hb : b < f.length)
    (hn : b + n ≤ f.length) (hal : ∀ n, 0 < n → n ≤ f.length → alloc n = true) :
    loadFile alloc f b n = .ok (some (if n = 0 then f.drop b else (f.drop b).take n)) := by
  unfold loadFile
  dsimp only
  have h1 : toLong b = (b : Int) := by unfold toLong; rw [if_pos (by omega)]
  have h2 : (b + n) % 2 ^ 64 = b + n := by omega
  have h3 : toLong (b + n) = ((b + n : Nat) : Int) := by unfold toLong; rw [if_pos (by omega)]
  rw [h1, h2, h3, ofLong_nat (by omega), if_neg (by omega), if_neg (by omega)]
  by_cases h0 : n = 0
  · subst h0
    rw [show (if (0 : Nat) ≠ 0 then ((b + 0 : Nat) : Int) else (f.length : Int)) = (f.length : Int) from rfl, if_pos rfl]
    have h4 : (f.length : Int) - (b : Int) = ((f.length - b : Nat) : Int) := by omega
    rw [h4, if_neg (by omega), ofLong_nat (by omega), if_neg (by rw [hal _ (by omega) (by omega)]; simp), readAt_nat]
    dsimp only
    rw [if_neg (by simp), List.take_of_length_le (by simp)]
  · rw [show (if n ≠ 0 then ((b + n : Nat) : Int) else (f.length : Int)) = ((b + n : Nat) : Int) from if_pos h0,
      if_neg h0]
    have h4 : ((b + n : Nat) : Int) - (b : Int) = ((n : Nat) : Int) := by omega
    rw [h4, if_neg (by omega), ofLong_nat (by omega), if_neg (by rw [hal _ (by omega) (by omega)]; simp), readAt_nat]
    dsimp only
    rw [if_neg (by simp; omega)]

/-- **C74**, tools: for every file and every range, or offset below 2^63, `ptxed`, `ptdump` and `ptseg` load exactly the bytes
that are asked for, or fail if they are not all in the file, or if there are none.  No operation is undefined.
Missing: file offsets of 2^63 or more, for which this is false of the code, see `C74_offset_fails`. -/
theorem C74_tools_partial (alloc : Nat → Bool) (f : List UInt8) (hf : f.length < 2 ^ 63)
    (hal : ∀ n, 0 < n → n ≤ f.length → alloc n = true) (arg : FileArg) (harg : Spec.FileArg.Ok arg)
    (hoff : ∀ b, arg = .from_ b → b < 2 ^ 63) :
    (Spec.FileArg.InFile f arg → loadPt alloc f arg = .ok (some (Spec.FileArg.bytes f arg))) ∧
    (¬ Spec.FileArg.InFile f arg → loadPt alloc f arg = .ok none) := by
  have none_ : ∀ b n, b < 2 ^ 63 → f.length ≤ b → loadFile alloc f b n = .ok none := by
    intro b n h1 h2
    unfold loadFile
    dsimp only
    rw [if_pos (.inr (by unfold toLong; rw [if_pos h1]; omega))]
  cases arg with
  | whole =>
    unfold loadPt preprocessFilename Spec.FileArg.InFile Spec.FileArg.bytes
    dsimp only
    refine ⟨fun h => ?_, fun h => none_ 0 0 (by omega) (by omega)⟩
    rw [loadFile_ok alloc f hf 0 0 h (by omega) hal, if_pos rfl, List.drop_zero]
  | from_ b =>
    unfold loadPt preprocessFilename Spec.FileArg.InFile Spec.FileArg.bytes
    dsimp only
    have hb := hoff b rfl
    refine ⟨fun h => ?_, fun h => none_ b 0 hb (by omega)⟩
    rw [loadFile_ok alloc f hf b 0 h (by omega) hal, if_pos rfl]
  | range b e =>
    unfold loadPt preprocessFilename Spec.FileArg.InFile Spec.FileArg.bytes
    obtain ⟨hb, he⟩ := harg
    dsimp only
    by_cases hbe : e ≤ b
    · rw [if_pos hbe]
      exact ⟨fun h => by omega, fun _ => rfl⟩
    · rw [if_neg hbe]
      dsimp only
      refine ⟨fun h => ?_, fun h => ?_⟩
      · rw [loadFile_ok alloc f hf b (e - b) (by omega) (by omega) hal, if_neg (by omega)]
      · have hlen : f.length < e := by omega
        unfold loadFile
        dsimp only
        by_cases h1 : ofLong (toLong b) ≠ b ∨ (f.length : Int) ≤ toLong b
        · rw [if_pos h1]
        · rw [if_neg h1, if_pos (by omega)]

/-- Not about nothing. -/
example : loadPt (fun _ => true) [1, 2, 3, 4] (.range 1 3) = .ok (some [2, 3]) ∧
    Spec.FileArg.InFile [1, 2, 3, 4] (.range 1 3) ∧ loadPt (fun _ => true) [1, 2, 3, 4] (.range 1 5) = .ok none ∧
    loadPt (fun _ => true) [1, 2, 3, 4] (.from_ 3) = .ok (some [4]) := by
  refine ⟨by decide +kernel, by unfold Spec.FileArg.InFile; decide, by decide +kernel, by decide +kernel⟩

/-- **C74 is false of the code** for some offsets of 2^63 or more: the offset is taken for a negative number, and computing
the size overflows. -/
theorem C74_offset_fails (alloc : Nat → Bool) : loadPt alloc [1] (.from_ (2 ^ 63)) = .ub := by
  unfold loadPt preprocessFilename loadFile
  dsimp only
  rw [show ofLong (toLong (2 ^ 63)) = 2 ^ 63 by decide +kernel, show toLong (2 ^ 63) = -(2 ^ 63) by decide +kernel,
    if_neg (by decide), if_neg (by decide), if_pos (by decide)]

/-- **C74**, sideband: for every file, offset `b` and end `e` - zero for the end of the file -, `pt_sb_file_load` yields the
bytes of the file from `b` up to `e`, or up to the end of the file, if that is first.  It fails if the range is empty or
begins behind the end of the file.
Allocating 2^63 bytes or more fails. -/
theorem C74_sideband (alloc : Nat → Bool) (f : List UInt8) (hf : f.length < 2 ^ 63)
    (hal : ∀ n, n ≤ f.length → alloc n = true) (hbig : ∀ n, 2 ^ 63 ≤ n → alloc n = false) (b e : Nat) (hb : b < 2 ^ 64)
    (he : e < 2 ^ 64) :
    (b ≤ f.length → (e = 0 ∨ (b < e ∧ e < 2 ^ 63)) →
      sbFileLoad alloc f b e = .ok (if e = 0 then f.drop b else (f.drop b).take (e - b))) ∧
    (f.length < b ∨ (e ≠ 0 ∧ e ≤ b) → ∃ x, sbFileLoad alloc f b e = .err x) ∧ sbFileLoad alloc f b e ≠ .ub := by
  have hnub : sbFileLoad alloc f b e ≠ .ub := by
    unfold sbFileLoad
    dsimp only
    generalize ofLong _ = size
    intro h
    repeat' split at h
    all_goals cases h
  refine ⟨?_, ?_, hnub⟩
  · intro h1 h2
    unfold sbFileLoad
    dsimp only
    have hlb : toLong b = (b : Int) := by unfold toLong; rw [if_pos (by omega)]
    rw [if_neg (by omega), if_neg (by omega), hlb]
    by_cases h0 : e = 0
    · rw [if_pos h0, if_pos h0, show (f.length : Int) - (b : Int) = ((f.length - b : Nat) : Int) by omega,
        ofLong_nat (by omega), if_neg (by rw [hal _ (by omega)]; simp), readAt_nat]
      dsimp only
      rw [List.take_of_length_le (by simp)]
    · have hle : toLong e = (e : Int) := by unfold toLong; rw [if_pos (by omega)]
      rw [if_neg h0, if_neg h0, hle]
      by_cases h3 : (f.length : Int) < (e : Int)
      · rw [if_pos h3, show (f.length : Int) - (b : Int) = ((f.length - b : Nat) : Int) by omega,
          ofLong_nat (by omega), if_neg (by rw [hal _ (by omega)]; simp), readAt_nat]
        dsimp only
        rw [List.take_of_length_le (by simp), List.take_of_length_le (by simp; omega)]
      · rw [if_neg h3, show (e : Int) - (b : Int) = ((e - b : Nat) : Int) by omega,
          ofLong_nat (by omega), if_neg (by rw [hal _ (by omega)]; simp), readAt_nat]
  · intro h
    unfold sbFileLoad
    dsimp only
    by_cases h1 : e ≠ 0 ∧ e ≤ b
    · rw [if_pos h1]; exact ⟨_, rfl⟩
    · rw [if_neg h1]
      by_cases h2 : 2 ^ 63 - 1 < b ∨ 2 ^ 63 - 1 < e
      · rw [if_pos h2]; exact ⟨_, rfl⟩
      · rw [if_neg h2]
        have hlen : f.length < b := by omega
        have hlb : toLong b = (b : Int) := by unfold toLong; rw [if_pos (by omega)]
        have hle : toLong e = (e : Int) := by unfold toLong; rw [if_pos (by omega)]
        rw [hlb, hle]
        have hfend : (if e = 0 then (f.length : Int) else if (f.length : Int) < (e : Int) then (f.length : Int) else (e : Int)) =
            (f.length : Int) := by
          by_cases h0 : e = 0
          · rw [if_pos h0]
          · rw [if_neg h0, if_pos (by omega)]
        rw [hfend, if_pos (hbig _ (by unfold ofLong; omega))]
        exact ⟨_, rfl⟩

/-- Not about nothing. -/
example : sbFileLoad (fun n => decide (n < 2 ^ 63)) [1, 2, 3, 4] 1 3 = .ok [2, 3] ∧
    sbFileLoad (fun n => decide (n < 2 ^ 63)) [1, 2, 3, 4] 1 9 = .ok [2, 3, 4] ∧
    sbFileLoad (fun n => decide (n < 2 ^ 63)) [1, 2, 3, 4] 5 9 = .err .nomem := by
  refine ⟨by decide +kernel, by decide +kernel, by decide +kernel⟩

end Ipt.Props
