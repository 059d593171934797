import Verif.Spec.Memory
import Verif.Props.Ild

/-!
# Helper lemmas about instruction decode
-/

set_option linter.unusedSimpArgs false

namespace Ipt

open Ild Spec Props

theorem avail_none {mem : Mem} {ip n : Nat} (h : mem (ip % 2 ^ 64) = none) :
    avail mem ip (n + 1) = [] := by
  rw [avail, h]

theorem avail_some {mem : Mem} {ip n : Nat} {b} (h : mem (ip % 2 ^ 64) = some b) :
    avail mem ip (n + 1) = b :: avail mem (ip + 1) n := by
  rw [avail, h]

theorem avail_length (mem : Mem) : ∀ n ip, (avail mem ip n).length ≤ n
  | 0, _ => by simp [avail]
  | n + 1, ip => by
    rcases hb : mem (ip % 2 ^ 64) with _ | b
    · simp [avail_none hb]
    · rw [avail_some hb, List.length_cons]; have := avail_length mem n (ip + 1); omega

theorem avail_get (mem : Mem) : ∀ n ip k (h : k < (avail mem ip n).length),
    mem ((ip + k) % 2 ^ 64) = some (avail mem ip n)[k]
  | 0, _, k, h => by simp [avail] at h
  | n + 1, ip, k, h => by
    rcases hb : mem (ip % 2 ^ 64) with _ | b
    · rw [avail_none hb] at h; simp at h
    · rcases k with _ | k
      · simp only [avail_some hb, List.getElem_cons_zero]; exact hb
      · rw [avail_some hb] at h
        simp only [avail_some hb, List.getElem_cons_succ]
        rw [← avail_get mem n (ip + 1) k (by simpa using h)]
        congr 2; omega

theorem avail_end (mem : Mem) : ∀ n ip, (avail mem ip n).length < n →
    mem ((ip + (avail mem ip n).length) % 2 ^ 64) = none
  | 0, _, h => by simp [avail] at h
  | n + 1, ip, h => by
    rcases hb : mem (ip % 2 ^ 64) with _ | b
    · rw [avail_none hb]; exact hb
    · rw [avail_some hb, List.length_cons] at h ⊢
      rw [← avail_end mem n (ip + 1) (by omega)]
      congr 2; omega

/-- Bytes that are in memory are the first of the available ones. -/
theorem avail_of_bytes {mem : Mem} {ip n : Nat} {l : List UInt8} (hn : l.length ≤ n)
    (h : ∀ k (h : k < l.length), mem ((ip + k) % 2 ^ 64) = some l[k]) :
    l.length ≤ (avail mem ip n).length ∧ (avail mem ip n).take l.length = l := by
  have hle : l.length ≤ (avail mem ip n).length := by
    refine Decidable.byContradiction fun hc => ?_
    have h1 := avail_end mem n ip (by omega)
    rw [h _ (by omega)] at h1
    cases h1
  refine ⟨hle, List.ext_getElem (by simp; omega) fun k h1 h2 => ?_⟩
  rw [List.getElem_take]
  have := avail_get mem n ip k (by omega)
  rw [h k h2] at this
  exact (Option.some.inj this).symm

theorem store_ok {raw bs : List UInt8} {pos : Nat} (h : pos + bs.length ≤ raw.length) :
    store raw pos bs = .ok (raw.take pos ++ bs ++ raw.drop (pos + bs.length)) := by
  unfold store; rw [if_neg (by omega)]

theorem store_length {raw bs : List UInt8} {pos : Nat} (h : pos + bs.length ≤ raw.length) :
    (raw.take pos ++ bs ++ raw.drop (pos + bs.length)).length = raw.length := by
  simp; omega

theorem store_take {raw bs : List UInt8} {pos : Nat} (h : pos + bs.length ≤ raw.length) :
    (raw.take pos ++ bs ++ raw.drop (pos + bs.length)).take (pos + bs.length) =
      raw.take pos ++ bs := by
  have : (raw.take pos ++ bs).length = pos + bs.length := by simp; omega
  rw [← this, List.take_left]

/-- The outcome of instruction decode in terms of the available bytes. -/
def outcome (i : Insn) (B raw : List UInt8) (isid k : Nat) : Res (Nat × Iext × Nat × Bool) :=
  match ildDecode (B ++ raw.drop B.length) B.length i.mode with
  | (n, .ok x) => .ok (n, x, isid, decide (k < n))
  | (_, .err e) => .err e
  | (_, .ub) => .ub

/-- The parts of an instruction that are an outcome. -/
def Insn.out (i : Insn) : Nat × Iext × Nat × Bool := (i.size, i.ext, i.isid, i.truncated)

/-- The outcome of a result. -/
def outR (r : Res Insn) : Res (Nat × Iext × Nat × Bool) :=
  match r with
  | .ok i => .ok i.out
  | .err e => .err e
  | .ub => .ub

/-- Facts about decoding the first `k` of the available bytes. -/
theorem piece {B raw raw' : List UInt8} {k : Nat} {mode : Mode} (hk : k ≤ B.length)
    (hB : B.length ≤ 15) (hraw : raw.length = 15) (hraw' : raw'.length = 15)
    (ht : raw'.take k = B.take k) :
    (∀ n x, ildDecode raw' k mode = (n, .ok x) →
      ildDecode (B ++ raw.drop B.length) B.length mode = (n, .ok x)) ∧
    (∀ n x, ildDecode (B ++ raw.drop B.length) B.length mode = (n, .ok x) → n ≤ k →
      ildDecode raw' k mode = (n, .ok x)) ∧
    (k = B.length → ildDecode raw' k mode = ildDecode (B ++ raw.drop B.length) B.length mode) ∧
    (k < B.length → (ildDecode raw' k mode).2 ≠ .ub) := by
  have hl : (B ++ raw.drop B.length).length = 15 := by simp; omega
  have t : ∀ n, n ≤ k → (B ++ raw.drop B.length).take n = raw'.take n := by
    intro n hn
    have e1 : (B ++ raw.drop B.length).take n = B.take n := by
      rw [List.take_append_of_le_length (by omega)]
    have := congrArg (List.take n) ht
    rw [List.take_take, List.take_take, Nat.min_eq_left hn] at this
    rw [e1, this]
  refine ⟨fun n x h => ?_, fun n x h hn => ?_, fun h => ?_, fun h => ?_⟩
  · have hs := C39_size _ _ _ _ _ h
    exact C39_depends_on_instruction_only raw' _ k _ mode n x (by omega) (by omega) h (t n hs.2)
  · exact C39_depends_on_instruction_only _ raw' _ k mode n x (by omega) hn h (t n hn).symm
  · subst h
    by_cases h15 : B.length = 15
    · have : raw' = B := by
        rw [h15] at ht
        rwa [List.take_of_length_le (by omega), List.take_of_length_le (by omega)] at ht
      rw [this, List.drop_of_length_le (by omega), List.append_nil]
    · exact C39_bytes_behind _ _ _ _ (by omega) (by omega) (t _ (Nat.le_refl _)).symm
  · exact C39_reads_inside_partial raw' k mode (by omega) fun h => by omega

theorem retry_outcome {σ} {rdr : MemReader σ} {good : σ → Prop} {mem : Mem}
    (hr : ReadsAll rdr good mem) {raw0 : List UInt8} (h0 : raw0.length = 15) {k0 : Nat} :
    ∀ (fuel : Nat) (s : σ) (i : Insn), good s → 15 < i.size + fuel →
      i.raw.length = 15 → i.size ≤ (avail mem i.ip 15).length → k0 ≤ i.size →
      i.raw.take i.size = (avail mem i.ip 15).take i.size →
      ildDecode i.raw i.size i.mode = (i.size, .err .badInsn) →
      outR (insnRetry rdr fuel s i).2 = outcome i (avail mem i.ip 15) raw0 i.isid k0 ∧
      ∀ j, (insnRetry rdr fuel s i).2 = .ok j → j.ip = i.ip ∧ j.mode = i.mode ∧
        j.raw.take j.size = (avail mem i.ip 15).take j.size
  | 0, s, i, _, hf, _, h, _, _, _ => by
    have := avail_length mem 15 i.ip; omega
  | fuel + 1, s, i, hg, hf, hl, h, hk0, ht, hd => by
    have hB := avail_length mem 15 i.ip
    have p := piece (mode := i.mode) h hB h0 hl ht
    unfold insnRetry
    dsimp only
    -- no more bytes
    have done : i.size = (avail mem i.ip 15).length →
        outR (Res.err Err.badInsn) = outcome i (avail mem i.ip 15) raw0 i.isid k0 := by
      intro he
      have := p.2.2.1 he
      rw [hd] at this
      unfold outcome
      rw [← this]
      rfl
    by_cases hz : 15 - i.size = 0
    · rw [if_pos hz]
      exact ⟨done (by omega), fun j hj => by cases hj⟩
    rw [if_neg hz]
    have ha : (i.ip + i.size) % 2 ^ 64 < 2 ^ 64 := Nat.mod_lt _ (by decide)
    by_cases he : i.size = (avail mem i.ip 15).length
    · have hn : mem ((i.ip + i.size) % 2 ^ 64) = none := by
        rw [he]; exact avail_end mem 15 i.ip (by omega)
      have := hr.none s (15 - i.size) _ hg ha hn
      rcases hq : rdr s (15 - i.size) ((i.ip + i.size) % 2 ^ 64) with ⟨s', r⟩
      rw [hq] at this
      dsimp only at this
      subst this
      exact ⟨done he, fun j hj => by cases hj⟩
    · obtain ⟨isid, bs, h1, h2⟩ := hr.some s (15 - i.size) _ _ hg (by omega) (by omega) ha
        (avail_get mem 15 i.ip i.size (by omega))
      obtain ⟨h3, h4⟩ := hr.bytes _ _ _ _ _ hg (by omega) h1
      have hg' := hr.keep s (15 - i.size) ((i.ip + i.size) % 2 ^ 64) hg
      rcases hq : rdr s (15 - i.size) ((i.ip + i.size) % 2 ^ 64) with ⟨s', r⟩
      rw [hq] at h1 hg'
      dsimp only at h1 hg'
      subst h1
      dsimp only
      rw [if_neg (by omega), store_ok (by omega)]
      dsimp only
      have hlen := store_length (raw := i.raw) (bs := bs) (pos := i.size) (by omega)
      have htk := store_take (raw := i.raw) (bs := bs) (pos := i.size) (by omega)
      generalize i.raw.take i.size ++ bs ++ i.raw.drop (i.size + bs.length) = raw' at hlen htk
      -- the bytes so far are the available ones
      have hall : i.size + bs.length ≤ (avail mem i.ip 15).length ∧
          (avail mem i.ip 15).take (i.size + bs.length) = raw'.take (i.size + bs.length) := by
        have hl2 : (raw'.take (i.size + bs.length)).length = i.size + bs.length := by simp; omega
        have := avail_of_bytes (mem := mem) (ip := i.ip) (n := 15)
          (l := raw'.take (i.size + bs.length)) (by omega) (by
          intro k hk
          simp only [htk]
          rw [List.getElem_append]
          split
          · rename_i hk2
            have hk3 : k < i.size := by simp at hk2; omega
            simp only [ht]
            rw [List.getElem_take]
            exact avail_get mem 15 i.ip k (by omega)
          · rename_i hk2
            have hk3 : i.size ≤ k := by simp at hk2; omega
            have hz : (i.raw.take i.size).length = i.size := by simp; omega
            simp only [hz]
            rw [← h4 (k - i.size) (by omega), Nat.mod_add_mod]
            congr 2; omega)
        rw [hl2] at this
        exact this
      have p' := piece (mode := i.mode) hall.1 hB h0 (hlen.trans hl) hall.2.symm
      rcases hil : ildDecode raw' (i.size + bs.length) i.mode with ⟨n, x | e | _⟩
      · have hfull := p'.1 n x hil
        have hn := C39_size _ _ _ _ _ hil
        have hgt : i.size < n := by
          refine Decidable.byContradiction fun hc => ?_
          have := p.2.1 n x hfull (by omega)
          rw [hd] at this; cases this
        refine ⟨?_, ?_⟩
        · unfold outcome
          rw [hfull]
          simp only [outR, Insn.out]
          simp; omega
        · intro j hj
          cases hj
          refine ⟨rfl, rfl, ?_⟩
          have := congrArg (List.take n) hall.2
          rw [List.take_take, List.take_take, Nat.min_eq_left hn.2] at this
          exact this.symm
      · obtain ⟨rfl, rfl⟩ := C39_error _ _ _ _ _ (by omega) hil
        simp only [ne_eq, not_true_eq_false, if_false]
        exact retry_outcome hr h0 fuel s' { i with raw := raw', size := i.size + bs.length } hg'
          (by dsimp only; omega) (hlen.trans hl) hall.1 (by dsimp only; omega) hall.2.symm hil
      · refine ⟨?_, fun j hj => by cases hj⟩
        have hlt : ¬ i.size + bs.length < (avail mem i.ip 15).length := by
          intro hc
          have := p'.2.2.2 hc
          rw [hil] at this
          exact this rfl
        have := p'.2.2.1 (by omega)
        unfold outcome
        rw [← this, hil]
        rfl

/-- The first `n` bytes of `raw` are the memory at `ip`. -/
def Holds (mem : Mem) (ip : Nat) (raw : List UInt8) (n : Nat) : Prop :=
  n ≤ raw.length ∧ ∀ k (h : k < raw.length), k < n → mem ((ip + k) % 2 ^ 64) = some raw[k]

/-- The array holds the 15 bytes in front of which the length decoder reads too far. -/
def OverRead (mem : Mem) (ip : Nat) (mode : Mode) : Prop :=
  mode = .b64 ∧ (∀ k, k < 15 → ∃ b, mem ((ip + k) % 2 ^ 64) = some b) ∧
    mem ((ip + 13) % 2 ^ 64) = some 0xd5

theorem holds_store {mem : Mem} {ip : Nat} {raw bs : List UInt8} {n : Nat}
    (h : Holds mem ip raw n) (hl : n + bs.length ≤ raw.length)
    (hb : ∀ k (h : k < bs.length), mem (((ip + n) % 2 ^ 64 + k) % 2 ^ 64) = some bs[k]) :
    Holds mem ip (raw.take n ++ bs ++ raw.drop (n + bs.length)) (n + bs.length) := by
  refine ⟨by simp; omega, fun k h1 h2 => ?_⟩
  have ht : (raw.take n).length = n := by simp; omega
  simp only [List.append_assoc]
  rw [List.getElem_append]
  split
  · rename_i h3
    rw [List.getElem_take]
    exact h.2 k (by omega) (by omega)
  · rename_i h3
    rw [List.getElem_append]
    split
    · simp only [ht]
      rw [← hb (k - n) (by omega), Nat.mod_add_mod]
      congr 2; omega
    · rename_i h4
      exfalso; omega

theorem holds_ub {mem : Mem} {ip : Nat} {raw : List UInt8} {n : Nat} {mode : Mode}
    (h : Holds mem ip raw n) (hl : raw.length = 15) (hu : (ildDecode raw n mode).2 = .ub) :
    OverRead mem ip mode := by
  refine Classical.byContradiction fun hc => ?_
  refine C39_reads_inside_partial raw n mode h.1 (fun hx => ?_) hu
  obtain ⟨h1, h2, i, h3, h4⟩ := hx
  refine hc ⟨h1, fun k hk => ⟨_, h.2 k (by omega) (by omega)⟩, ?_⟩
  have hi : i = 13 := by omega
  subst hi
  rw [h.2 13 (by omega) (by omega)]
  obtain ⟨_, h5⟩ := List.getElem?_eq_some_iff.1 h4
  rw [h5]

theorem retry_sound {σ} {rdr : MemReader σ} {good : σ → Prop} {mem : Mem}
    (hr : ReadsFrom rdr good mem) :
    ∀ (fuel : Nat) (s : σ) (i : Insn), good s → 15 < i.size + fuel →
      i.raw.length = 15 → Holds mem i.ip i.raw i.size →
      good (insnRetry rdr fuel s i).1 ∧
      (∀ j, (insnRetry rdr fuel s i).2 = .ok j → j.ip = i.ip ∧ j.mode = i.mode ∧
        j.raw.length = 15 ∧ 1 ≤ j.size ∧ Holds mem i.ip j.raw j.size ∧
        ildDecode j.raw j.size j.mode = (j.size, .ok j.ext)) ∧
      ((insnRetry rdr fuel s i).2 = .ub → OverRead mem i.ip i.mode)
  | 0, s, i, _, hf, hl, h => by
    have := h.1; omega
  | fuel + 1, s, i, hg, hf, hl, h => by
    have h1 := h.1
    unfold insnRetry
    dsimp only
    by_cases hz : 15 - i.size = 0
    · rw [if_pos hz]
      exact ⟨hg, fun j hj => (by cases hj), fun hj => by cases hj⟩
    rw [if_neg hz]
    have hg' := hr.keep s (15 - i.size) ((i.ip + i.size) % 2 ^ 64) hg
    have hu := hr.safe s (15 - i.size) ((i.ip + i.size) % 2 ^ 64) hg
    have hb := hr.bytes s (15 - i.size) ((i.ip + i.size) % 2 ^ 64)
    rcases hq : rdr s (15 - i.size) ((i.ip + i.size) % 2 ^ 64) with ⟨s', ⟨isid, bs⟩ | e | _⟩ <;>
      rw [hq] at hg' hu hb
    · dsimp only at hg' hb ⊢
      obtain ⟨h3, h4⟩ := hb isid bs hg (by omega) rfl
      split
      · exact ⟨hg', fun j hj => (by cases hj), fun hj => by cases hj⟩
      rename_i hbs
      rw [store_ok (by omega)]
      dsimp only
      have hlen := store_length (raw := i.raw) (bs := bs) (pos := i.size) (by omega)
      have hh := holds_store h (by omega) h4
      generalize i.raw.take i.size ++ bs ++ i.raw.drop (i.size + bs.length) = raw' at hlen hh
      rcases hil : ildDecode raw' (i.size + bs.length) i.mode with ⟨n, x | e | _⟩
      · have hn := C39_size _ _ _ _ _ hil
        refine ⟨hg', ?_, fun hj => by cases hj⟩
        intro j hj
        cases hj
        exact ⟨rfl, rfl, hlen.trans hl, hn.1, ⟨by dsimp only; omega, fun k a b =>
          hh.2 k a (by dsimp only at b; omega)⟩,
          C39_depends_on_instruction_only raw' raw' _ n i.mode n x (by omega) (Nat.le_refl _) hil rfl⟩
      · obtain ⟨rfl, rfl⟩ := C39_error _ _ _ _ _ (by omega) hil
        simp only [ne_eq, not_true_eq_false, if_false]
        exact retry_sound hr fuel s' { i with raw := raw', size := i.size + bs.length } hg'
          (by dsimp only; omega) (hlen.trans hl) hh
      · exact ⟨hg', fun j hj => (by cases hj), fun _ => holds_ub hh (hlen.trans hl) (by rw [hil])⟩
    · cases e <;> exact ⟨hg', fun j hj => (by cases hj), fun hj => by cases hj⟩
    · exact absurd rfl hu

theorem ildDecode_zero (raw : List UInt8) (mode : Mode) :
    ildDecode raw 0 mode = (0, .err .badInsn) := by
  simp [ildDecode, decode, prefixDecode]

end Ipt
