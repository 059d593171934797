import Verif.Timing

/-!
# Timing (C19, C20, C21)

`Timing.applyAll c s ps` is what decoding the timing packets `ps` does to the timing state;
`Time.queryTsc` is the time reported for the next event.
-/

namespace Ipt.Spec

/-- The configuration can convert crystal clock ticks: the ratio from CPUID leaf 0x15 is given,
and the MTC frequency fits its 4-bit field in IA32_RTIT_CTL. -/
structure ValidClock (c : TimeCfg) : Prop where
  eax : 0 < c.eax
  ebx : 0 < c.ebx
  ebx32 : c.ebx < 2 ^ 32
  freq : c.mtcFreq < 16

/-- `MtcRun n0 ns`: a run of MTC packets is sent when the MTC counter of the processor, which
counts 2^MTCFreq crystal clock ticks and of which a packet carries the low 8 bits, has the
values `ns`, starting from `n0`, with fewer than 256 counts between two packets. -/
def MtcRun : Nat → List Nat → Prop
  | _, [] => True
  | n, n' :: ns => n ≤ n' ∧ n' < n + 256 ∧ MtcRun n' ns

/-- The last counter value of a run. -/
def lastCount (n : Nat) : List Nat → Nat
  | [] => n
  | n' :: ns => lastCount n' ns

/-- The packets of the run. -/
def mtcPackets (ns : List Nat) : List TimePkt := ns.map fun n => .mtc (n % 256)

end Ipt.Spec

namespace Ipt
open Spec

theorem both_time {x : Tcal × Res Unit} {t : Time} {f : Time × Res Unit} :
    (Timing.both x t f).1.time = t ∨ (Timing.both x t f).1.time = f.1 := by
  unfold Timing.both
  split
  · exact .inr rfl
  · exact .inl rfl

theorem both_tcal {x : Tcal × Res Unit} {t : Time} {f : Time × Res Unit} :
    (Timing.both x t f).1.tcal = x.1 := by
  unfold Timing.both
  split <;> rfl

theorem both_ok {x : Tcal × Res Unit} {t : Time} {f : Time × Res Unit} (hx : okBadConfig x.2 = .ok ()) :
    Timing.both x t f = (⟨f.1, x.1⟩, okBadConfig f.2) := by
  simp only [Timing.both, hx]

/-- A property of the time that every packet of `ps` preserves, also when it is refused. -/
theorem applyAll_time_inv (c : TimeCfg) (P : Time → Prop) (Q : TimePkt → Prop)
    (h : ∀ s p, Q p → P s.time → P ((Timing.apply c s p).1.time)) :
    ∀ ps s, (∀ p ∈ ps, Q p) → P s.time → P ((Timing.applyAll c s ps).1.time) := by
  intro ps
  induction ps with
  | nil => intro s _ hs; exact hs
  | cons p ps ih =>
    intro s hq hs
    have hp := h s p (hq p (by simp)) hs
    rw [Timing.applyAll]
    split
    · rename_i s' heq
      rw [heq] at hp
      exact ih s' (fun p hp => hq p (by simp [hp])) hp
    · rename_i s' r _ heq
      rw [heq] at hp
      exact hp

theorem updateMtc_haveTsc (t : Time) (p : Nat) (c : TimeCfg) :
    (t.updateMtc p c).1.haveTsc = t.haveTsc := by
  unfold Time.updateMtc
  repeat' first | with_reducible rfl | split

theorem updateTma_haveTsc (t : Time) (a b : Nat) (c : TimeCfg) :
    (t.updateTma a b c).1.haveTsc = t.haveTsc := by
  unfold Time.updateTma
  repeat' first | with_reducible rfl | split

theorem updateCyc_haveTsc (t : Time) (a : Nat) (c : TimeCfg) (fcr : Nat) :
    (t.updateCyc a c fcr).1.haveTsc = t.haveTsc := by
  unfold Time.updateCyc
  repeat' first | with_reducible rfl | split

theorem updateCbr_same (t : Time) (a : Nat) :
    (t.updateCbr a).1 = { t with haveCbr := (t.updateCbr a).1.haveCbr, cbr := (t.updateCbr a).1.cbr } := by
  unfold Time.updateCbr
  split <;> rfl

theorem updateTma_tsc (t : Time) (a b : Nat) (c : TimeCfg) :
    (t.updateTma a b c).1.tsc = t.tsc ∧ (t.updateTma a b c).1.lostMtc = t.lostMtc ∧
    (t.updateTma a b c).1.lostCyc = t.lostCyc := by
  unfold Time.updateTma
  repeat' first | with_reducible exact ⟨rfl, rfl, rfl⟩ | split

end Ipt

namespace Ipt.Props
open Ipt Spec

/-- C19: a TSC packet outside PSB+ is always accepted, and from then on exactly its value is
reported with no losses: whatever the history before it, after any CBR packets and MTC packets
that follow, up to and including the TMA packet that belongs to it. -/
theorem C19_tsc_sets_time (c : TimeCfg) (s : Timing) (v : Nat) (inner outer : List TimePkt)
    (hin : ∀ p ∈ inner, (∃ r, p = .cbr r) ∨ (∃ r, p = .hCbr r) ∨ ∃ n, p = .mtc n)
    (hout : ∀ p ∈ outer, (∃ r, p = .cbr r) ∨ (∃ r, p = .hCbr r) ∨ ∃ a b, p = .tma a b) :
    ∃ s1, s.apply c (.tsc v) = (s1, .ok ()) ∧
      ((s1.applyAll c inner).1.applyAll c outer).1.time.queryTsc = .ok (v, 0, 0) := by
  refine ⟨⟨s.time.updateTsc v, s.tcal.updateTsc v⟩, rfl, ?_⟩
  have h1 : ∀ s : Timing, (s.time.haveTsc = true ∧ s.time.haveTma = false ∧
      s.time.tsc = v ∧ s.time.lostMtc = 0 ∧ s.time.lostCyc = 0) →
      ((s.applyAll c inner).1.time.haveTsc = true ∧ (s.applyAll c inner).1.time.haveTma = false ∧
      (s.applyAll c inner).1.time.tsc = v ∧ (s.applyAll c inner).1.time.lostMtc = 0 ∧
      (s.applyAll c inner).1.time.lostCyc = 0) := by
    intro s hs
    refine applyAll_time_inv c (fun t => t.haveTsc = true ∧ t.haveTma = false ∧
      t.tsc = v ∧ t.lostMtc = 0 ∧ t.lostCyc = 0) _ ?_ inner s hin hs
    intro s p hp hs
    rcases hp with ⟨r, rfl⟩ | ⟨r, rfl⟩ | ⟨n, rfl⟩
    · rcases both_time (x := s.tcal.updateCbr r c) (t := s.time) (f := s.time.updateCbr r) with h | h <;>
        simp only [Timing.apply, h]
      · exact hs
      · rw [updateCbr_same]; exact hs
    · rcases both_time (x := s.tcal.headerCbr r c) (t := s.time) (f := s.time.updateCbr r) with h | h <;>
        simp only [Timing.apply, h]
      · exact hs
      · rw [updateCbr_same]; exact hs
    · rcases both_time (x := s.tcal.updateMtc n c) (t := s.time) (f := s.time.updateMtc n c) with h | h <;>
        simp only [Timing.apply, h]
      · exact hs
      · rw [Time.updateMtc, if_pos ⟨hs.1, hs.2.1⟩]; exact hs
  have h2 : ∀ s : Timing, (s.time.haveTsc = true ∧
      s.time.tsc = v ∧ s.time.lostMtc = 0 ∧ s.time.lostCyc = 0) →
      ((s.applyAll c outer).1.time.haveTsc = true ∧
      (s.applyAll c outer).1.time.tsc = v ∧ (s.applyAll c outer).1.time.lostMtc = 0 ∧
      (s.applyAll c outer).1.time.lostCyc = 0) := by
    intro s hs
    refine applyAll_time_inv c (fun t => t.haveTsc = true ∧
      t.tsc = v ∧ t.lostMtc = 0 ∧ t.lostCyc = 0) _ ?_ outer s hout hs
    intro s p hp hs
    rcases hp with ⟨r, rfl⟩ | ⟨r, rfl⟩ | ⟨a, b, rfl⟩
    · rcases both_time (x := s.tcal.updateCbr r c) (t := s.time) (f := s.time.updateCbr r) with h | h <;>
        simp only [Timing.apply, h]
      · exact hs
      · rw [updateCbr_same]; exact hs
    · rcases both_time (x := s.tcal.headerCbr r c) (t := s.time) (f := s.time.updateCbr r) with h | h <;>
        simp only [Timing.apply, h]
      · exact hs
      · rw [updateCbr_same]; exact hs
    · rcases both_time (x := (s.tcal, .ok ())) (t := s.time) (f := s.time.updateTma a b c) with h | h <;>
        simp only [Timing.apply, h]
      · exact hs
      · obtain ⟨e1, e2, e3⟩ := updateTma_tsc s.time a b c
        exact ⟨by rw [updateTma_haveTsc]; exact hs.1, by rw [e1]; exact hs.2.1, by rw [e2]; exact hs.2.2.1,
          by rw [e3]; exact hs.2.2.2⟩
  have a1 := h1 ⟨s.time.updateTsc v, s.tcal.updateTsc v⟩ ⟨rfl, rfl, rfl, rfl, rfl⟩
  obtain ⟨e1, e2, e3, e4⟩ := h2 _ ⟨a1.1, a1.2.2.1, a1.2.2.2.1, a1.2.2.2.2⟩
  simp [Time.queryTsc, e1, e2, e3, e4]

example : (Timing.applyAll {} {} [.mtc 3, .tsc 0x1234, .cbr 7, .mtc 9, .tma 0x17 5]).1.time.queryTsc =
    .ok (0x1234, 0, 0) := by decide +kernel

end Ipt.Props

namespace Ipt

theorem headerTsc_ok {k : Tcal} {v : Nat} (hk : k.tsc < 2 ^ 56) (hv : v < 2 ^ 56) :
    (k.headerTsc v).2 = .ok () := by
  unfold Tcal.headerTsc
  dsimp only
  split
  · rfl
  split
  · rfl
  have : (if v < k.tsc then (v + 2 ^ 56) % 2 ^ 64 else v) - k.tsc < 2 ^ 56 ∧
      k.tsc ≤ (if v < k.tsc then (v + 2 ^ 56) % 2 ^ 64 else v) := by split <;> omega
  rw [if_neg (by omega), if_neg (by omega), if_neg (by omega)]

theorem setFcr_tsc (k : Tcal) (v : Nat) : (k.setFcr v).tsc = k.tsc := rfl

theorem tcal_tsc_inv (c : TimeCfg) (s : Timing) (p : TimePkt) (hp : p.InRange) (hs : s.tcal.tsc < 2 ^ 56) :
    (s.apply c p).1.tcal.tsc < 2 ^ 56 := by
  cases p with
  | tsc v => simp only [Timing.apply, both_tcal, Tcal.updateTsc]; exact hp
  | hTsc v =>
    simp only [Timing.apply, both_tcal, Tcal.headerTsc]
    have : v < 2 ^ 56 := hp
    repeat' first | with_reducible exact this | (dsimp only; rw [setFcr_tsc]; with_reducible exact this) | split
  | cbr r =>
    simp only [Timing.apply, both_tcal, Tcal.updateCbr, Tcal.headerCbr]
    repeat' first | decide | (dsimp only; rw [setFcr_tsc]; decide) | split
  | hCbr r =>
    simp only [Timing.apply, both_tcal, Tcal.headerCbr]
    repeat' first | with_reducible exact hs | (dsimp only; rw [setFcr_tsc]; with_reducible exact hs) | split
  | tma a b => simp only [Timing.apply, both_tcal]; exact hs
  | mtc n =>
    simp only [Timing.apply, both_tcal, Tcal.updateMtc]
    repeat' first | with_reducible exact hs | (dsimp only; rw [setFcr_tsc]; with_reducible exact hs) | split
  | cyc v => simp only [Timing.apply, both_tcal, Tcal.updateCyc]; exact hs

theorem applyAll_tcal_inv (c : TimeCfg) : ∀ ps s, (∀ p ∈ ps, TimePkt.InRange p) → s.tcal.tsc < 2 ^ 56 →
    (Timing.applyAll c s ps).1.tcal.tsc < 2 ^ 56 := by
  intro ps
  induction ps with
  | nil => intro s _ hs; exact hs
  | cons p ps ih =>
    intro s hq hs
    have hp := tcal_tsc_inv c s p (hq p (by simp)) hs
    rw [Timing.applyAll]
    split
    · rename_i s' heq
      rw [heq] at hp
      exact ih s' (fun p hp => hq p (by simp [hp])) hp
    · rename_i s' r _ heq
      rw [heq] at hp
      exact hp

end Ipt

namespace Ipt.Props
open Ipt Spec

/-- C19: a TSC packet inside PSB+ sets the time exactly, too, whatever timing packets were
decoded before. -/
theorem C19_psb_tsc_sets_time (c : TimeCfg) (ps : List TimePkt) (hps : ∀ p ∈ ps, p.InRange)
    (v : Nat) (hv : v < 2 ^ 56) :
    ∃ s1, (Timing.applyAll c {} ps).1.apply c (.hTsc v) = (s1, .ok ()) ∧
      s1.time.queryTsc = .ok (v, 0, 0) := by
  have hk := applyAll_tcal_inv c ps {} hps (by decide)
  have h := headerTsc_ok hk hv
  refine ⟨_, by rw [Timing.apply, both_ok (by rw [h]; rfl)]; rfl, rfl⟩

example : (Timing.applyAll {} {} [.hTsc 0x1234, .cyc 7, .hTsc 0x2345]).1.time.queryTsc =
    .ok (0x2345, 0, 0) := by decide +kernel

/-- C19: without any TSC packet, there is no time, whatever other timing packets are decoded. -/
theorem C19_no_tsc_no_time (c : TimeCfg) (ps : List TimePkt)
    (h : ∀ p ∈ ps, (∀ v, p ≠ .tsc v) ∧ ∀ v, p ≠ .hTsc v) :
    (Timing.applyAll c {} ps).1.time.queryTsc = .err .noTime := by
  have : (Timing.applyAll c {} ps).1.time.haveTsc = false := by
    refine applyAll_time_inv c (fun t => t.haveTsc = false) (fun p => (∀ v, p ≠ .tsc v) ∧ ∀ v, p ≠ .hTsc v)
      ?_ ps {} h rfl
    intro s p hp hs
    cases p with
    | tsc v => exact absurd rfl (hp.1 v)
    | hTsc v => exact absurd rfl (hp.2 v)
    | cbr r =>
      rcases both_time (x := s.tcal.updateCbr r c) (t := s.time) (f := s.time.updateCbr r) with h | h <;>
        simp only [Timing.apply, h]
      · exact hs
      · rw [updateCbr_same]; exact hs
    | hCbr r =>
      rcases both_time (x := s.tcal.headerCbr r c) (t := s.time) (f := s.time.updateCbr r) with h | h <;>
        simp only [Timing.apply, h]
      · exact hs
      · rw [updateCbr_same]; exact hs
    | tma a b =>
      rcases both_time (x := (s.tcal, .ok ())) (t := s.time) (f := s.time.updateTma a b c) with h | h <;>
        simp only [Timing.apply, h]
      · exact hs
      · rw [updateTma_haveTsc]; exact hs
    | mtc n =>
      rcases both_time (x := s.tcal.updateMtc n c) (t := s.time) (f := s.time.updateMtc n c) with h | h <;>
        simp only [Timing.apply, h]
      · exact hs
      · rw [updateMtc_haveTsc]; exact hs
    | cyc v =>
      simp only [Timing.apply]
      generalize hf : s.time.updateCyc v c _ = f
      rcases both_time (x := (s.tcal.updateCyc v, .ok ())) (t := s.time) (f := f) with h | h <;>
        rw [h]
      · exact hs
      · rw [← hf, updateCyc_haveTsc]; exact hs
  simp [Time.queryTsc, this]

example : (Timing.applyAll ⟨2, 84, 3, 24, false⟩ {} [.hCbr 30, .mtc 9, .cyc 100, .mtc 11]).2 = .ok () := by
  decide +kernel

end Ipt.Props

namespace Ipt
open Spec

theorem shl1_ok {n : Nat} (h : n < 32) : shl1 n = .ok (2 ^ n) := if_pos h

theorem shl32_mtc {p f : Nat} (hp : p < 256) (hf : f < 24) : shl32 p f = .ok (p * 2 ^ f) := by
  rw [shl32, if_pos (by omega)]
  congr 1
  apply Nat.mod_eq_of_lt
  have : 2 ^ f ≤ 2 ^ 23 := Nat.pow_le_pow_right (by omega) (by omega)
  calc p * 2 ^ f ≤ 255 * 2 ^ 23 := Nat.mul_le_mul (by omega) this
    _ < 2 ^ 32 := by decide

/-- The wrap-around correction recovers the distance of two counters of `f + 8` bits. -/
theorem ctcDelta_spec {c : TimeCfg} (hf : c.mtcFreq < 24) {x y : Nat} (hxy : x ≤ y)
    (hd : y - x < 2 ^ (c.mtcFreq + 8)) :
    ctcDelta (y % 2 ^ (c.mtcFreq + 8)) (x % 2 ^ (c.mtcFreq + 8)) c = .ok (y - x) := by
  have hw : 2 ^ (c.mtcFreq + 8) ≤ 2 ^ 31 := Nat.pow_le_pow_right (by omega) (by omega)
  have hw0 : 0 < 2 ^ (c.mtcFreq + 8) := Nat.two_pow_pos _
  rw [ctcDelta, shl1_ok (by omega)]
  generalize 2 ^ (c.mtcFreq + 8) = w at *
  have hx := Nat.mod_lt x hw0
  have hy := Nat.mod_lt y hw0
  have ex := Nat.div_add_mod x w
  have ey := Nat.div_add_mod y w
  -- the quotients differ by at most one
  have hq1 : x / w ≤ y / w := Nat.div_le_div_right hxy
  have hq2 : y / w ≤ x / w + 1 := by
    have h1 : y ≤ x + w := by omega
    calc y / w ≤ (x + w) / w := Nat.div_le_div_right h1
      _ = x / w + 1 := Nat.add_div_right x hw0
  by_cases hlt : y % w < x % w
  · rw [if_pos hlt]
    simp only [Res.bind_ok]
    have hq : y / w = x / w + 1 := by
      rcases Nat.lt_or_ge (x / w) (y / w) with h | h
      · omega
      · exfalso
        have : y / w = x / w := by omega
        rw [this] at ey
        omega
    rw [hq, Nat.mul_add, Nat.mul_one] at ey
    rw [Nat.mod_eq_of_lt (show y % w + w < 2 ^ 32 by omega), if_neg (by omega)]
    congr 1
    omega
  · rw [if_neg hlt]
    have hq : y / w = x / w := by
      rcases Nat.lt_or_ge (x / w) (y / w) with h | h
      · exfalso
        have : y / w = x / w + 1 := by omega
        rw [this, Nat.mul_add, Nat.mul_one] at ey
        omega
      · omega
    rw [hq] at ey
    congr 1
    omega

theorem ctcFc_spec {c : TimeCfg} (hc : ValidClock c) {d : Nat} (hd : d < 2 ^ 32) :
    ctcFc d c = .ok (d * c.ebx / c.eax) := by
  obtain ⟨h1, h2, h3, _⟩ := hc
  rw [ctcFc, if_neg (by omega), if_neg (by omega)]
  congr 2
  apply Nat.mod_eq_of_lt
  calc d * c.ebx < 2 ^ 32 * 2 ^ 32 := Nat.mul_lt_mul'' hd h3
    _ = 2 ^ 64 := by decide

theorem mtc_ctc {n f : Nat} : n % 256 * 2 ^ f = n * 2 ^ f % 2 ^ (f + 8) := by
  rw [Nat.pow_add, Nat.mul_comm (2 ^ f), ← Nat.mul_mod_mul_right]

/-- The state in which a further MTC packet advances the time: the last CTC value is `x` modulo
the range of the counter. -/
structure Ticking (c : TimeCfg) (t : Time) (x : Nat) : Prop where
  mtc : t.haveMtc = true
  tma : t.haveTsc = true → t.haveTma = true
  ctc : t.ctc = x % 2 ^ (c.mtcFreq + 8)

/-- The effect of an MTC packet that advances the time. -/
theorem updateMtc_eff {c : TimeCfg} {t : Time} {n last d fc : Nat} (hf : c.mtcFreq < 24)
    (h1 : t.haveTsc = true → t.haveTma = true) (h2 : t.haveMtc = false → t.haveTma = true)
    (h3 : (if t.haveMtc = false then tmaCtc (n * 2 ^ c.mtcFreq % 2 ^ (c.mtcFreq + 8)) t.ctc c.mtcFreq
      else .ok t.ctc) = .ok last)
    (h4 : ctcDelta (n * 2 ^ c.mtcFreq % 2 ^ (c.mtcFreq + 8)) last c = .ok d) (h5 : ctcFc d c = .ok fc) :
    ∃ t', t.updateMtc (n % 256) c = (t', .ok ()) ∧ Ticking c t' (n * 2 ^ c.mtcFreq) ∧
      t'.base = (t.base + fc) % 2 ^ 64 ∧
      t'.tsc = t'.base ∧ t'.lostMtc = t.lostMtc ∧ t'.lostCyc = 0 ∧ t'.haveTsc = t.haveTsc := by
  have hnot : ¬ (t.haveTsc = true ∧ t.haveTma = false) := by
    rintro ⟨a, b⟩; rw [h1 a] at b; cases b
  have hnot2 : ¬ (t.haveMtc = false ∧ t.haveTma = false) := by
    rintro ⟨a, b⟩; rw [h2 a] at b; cases b
  rw [Time.updateMtc, if_neg hnot, shl32_mtc (Nat.mod_lt _ (by omega)) hf]
  simp only [mtc_ctc]
  rw [if_neg hnot2, h3]
  simp only [h4, h5]
  exact ⟨_, rfl, ⟨rfl, h1, rfl⟩, rfl, rfl, rfl, rfl, rfl⟩

theorem updateMtc_tick {c : TimeCfg} (hc : ValidClock c) {t : Time} {x n : Nat} (ht : Ticking c t x)
    (hx : x ≤ n * 2 ^ c.mtcFreq) (hd : n * 2 ^ c.mtcFreq - x < 2 ^ (c.mtcFreq + 8)) :
    ∃ t', t.updateMtc (n % 256) c = (t', .ok ()) ∧ Ticking c t' (n * 2 ^ c.mtcFreq) ∧
      t'.base = (t.base + (n * 2 ^ c.mtcFreq - x) * c.ebx / c.eax) % 2 ^ 64 ∧
      t'.tsc = t'.base ∧ t'.lostMtc = t.lostMtc ∧ t'.lostCyc = 0 ∧ t'.haveTsc = t.haveTsc := by
  have hf : c.mtcFreq < 24 := by have := hc.freq; omega
  have hw : 2 ^ (c.mtcFreq + 8) ≤ 2 ^ 31 := Nat.pow_le_pow_right (by omega) (by omega)
  refine updateMtc_eff hf ht.tma (by rw [ht.mtc]; simp) (last := x % 2 ^ (c.mtcFreq + 8)) ?_
    (ctcDelta_spec hf hx hd) (ctcFc_spec hc (by omega))
  rw [if_neg (by rw [ht.mtc]; simp), ht.ctc]

theorem ctcDelta_total {c : TimeCfg} (hf : c.mtcFreq < 24) {x y : Nat} (hx : x < 2 ^ (c.mtcFreq + 8))
    (hy : y < 2 ^ (c.mtcFreq + 8)) : ∃ d, ctcDelta y x c = .ok d ∧ d < 2 ^ (c.mtcFreq + 8) := by
  have hw : 2 ^ (c.mtcFreq + 8) ≤ 2 ^ 31 := Nat.pow_le_pow_right (by omega) (by omega)
  rw [ctcDelta, shl1_ok (by omega)]
  generalize 2 ^ (c.mtcFreq + 8) = w at *
  by_cases h : y < x
  · rw [if_pos h]
    simp only [Res.bind_ok]
    rw [Nat.mod_eq_of_lt (show y + w < 2 ^ 32 by omega), if_neg (by omega)]
    exact ⟨_, rfl, by omega⟩
  · rw [if_neg h]; exact ⟨_, rfl, by omega⟩

/-- With a valid clock, calibration accepts every MTC packet. -/
theorem tcal_updateMtc_ok {c : TimeCfg} (hc : ValidClock c) {k : Tcal} {p : Nat} (hp : p < 256)
    (hk : k.ctc < 2 ^ (c.mtcFreq + 8)) : (k.updateMtc p c).2 = .ok () := by
  have hf : c.mtcFreq < 24 := by have := hc.freq; omega
  have hw : 2 ^ (c.mtcFreq + 8) ≤ 2 ^ 23 :=
    Nat.pow_le_pow_right (by omega) (by have := hc.freq; omega)
  have hp' : p * 2 ^ c.mtcFreq < 2 ^ (c.mtcFreq + 8) := by
    rw [Nat.pow_add, Nat.mul_comm]
    exact Nat.mul_lt_mul_of_pos_left hp (Nat.two_pow_pos _)
  obtain ⟨d, ed, hd⟩ := ctcDelta_total hf hk hp'
  have hfc : d * c.ebx / c.eax < 2 ^ 56 := by
    apply Nat.lt_of_le_of_lt (Nat.div_le_self _ _)
    calc d * c.ebx < 2 ^ 23 * 2 ^ 32 := Nat.mul_lt_mul'' (by omega) hc.ebx32
      _ < 2 ^ 56 := by decide
  rw [Tcal.updateMtc, shl32_mtc hp hf]
  dsimp only
  split
  · rfl
  split
  · rfl
  rw [ed]
  dsimp only
  rw [ctcFc_spec hc (by omega)]
  dsimp only
  rw [if_neg (by rw [Nat.div_eq_of_lt hfc]; simp)]
  have hs : ∀ (k : Tcal) a b e, ∃ x, k.skl168Skips a b e c = .ok x := by
    intro k a b e
    rw [Tcal.skl168Skips, shl1_ok (by omega)]
    simp only [Res.bind_ok]
    repeat' first | exact ⟨_, rfl⟩ | split
  generalize hx : (if k.checkSkl168 = true then _ else Res.ok false) = x
  have : ∃ b, x = .ok b := by
    rw [← hx]
    split
    · exact hs _ _ _ _
    · exact ⟨_, rfl⟩
  obtain ⟨b, rfl⟩ := this
  cases b <;> rfl

theorem tcal_ctc_inv {c : TimeCfg} (hf : c.mtcFreq < 24) (s : Timing) (p : TimePkt) (hp : p.InRange)
    (hs : s.tcal.ctc < 2 ^ (c.mtcFreq + 8)) : (s.apply c p).1.tcal.ctc < 2 ^ (c.mtcFreq + 8) := by
  have sf : ∀ (k : Tcal) v, (k.setFcr v).ctc = k.ctc := fun _ _ => rfl
  cases p with
  | tsc v => simp only [Timing.apply, both_tcal, Tcal.updateTsc]; exact hs
  | hTsc v =>
    simp only [Timing.apply, both_tcal, Tcal.headerTsc]
    repeat' first | with_reducible exact hs | (dsimp only; rw [sf]; with_reducible exact hs) | split
  | cbr r =>
    have : 0 < 2 ^ (c.mtcFreq + 8) := Nat.two_pow_pos _
    simp only [Timing.apply, both_tcal, Tcal.updateCbr, Tcal.headerCbr]
    repeat' first | with_reducible exact this | (dsimp only; rw [sf]; with_reducible exact this) | split
  | hCbr r =>
    simp only [Timing.apply, both_tcal, Tcal.headerCbr]
    repeat' first | with_reducible exact hs | (dsimp only; rw [sf]; with_reducible exact hs) | split
  | tma a b => simp only [Timing.apply, both_tcal]; exact hs
  | mtc n =>
    have hn : n < 256 := hp
    have hp' : n * 2 ^ c.mtcFreq < 2 ^ (c.mtcFreq + 8) := by
      rw [Nat.pow_add, Nat.mul_comm]
      exact Nat.mul_lt_mul_of_pos_left hp (Nat.two_pow_pos _)
    simp only [Timing.apply, both_tcal, Tcal.updateMtc, shl32_mtc hn hf]
    repeat' first
      | with_reducible exact hs
      | with_reducible exact hp'
      | (dsimp only; rw [sf]; with_reducible exact hp')
      | split
  | cyc v => simp only [Timing.apply, both_tcal, Tcal.updateCyc]; exact hs

theorem applyAll_ctc_inv {c : TimeCfg} (hf : c.mtcFreq < 24) : ∀ ps s, (∀ p ∈ ps, TimePkt.InRange p) →
    s.tcal.ctc < 2 ^ (c.mtcFreq + 8) → (Timing.applyAll c s ps).1.tcal.ctc < 2 ^ (c.mtcFreq + 8) := by
  intro ps
  induction ps with
  | nil => intro s _ hs; exact hs
  | cons p ps ih =>
    intro s hq hs
    have hp := tcal_ctc_inv hf s p (hq p (by simp)) hs
    rw [Timing.applyAll]
    split
    · rename_i s' heq
      rw [heq] at hp
      exact ih s' (fun p hp => hq p (by simp [hp])) hp
    · rename_i s' r _ heq
      rw [heq] at hp
      exact hp

theorem and_mask {x f : Nat} (hf : f ≤ 16) (hx : x % 2 ^ 16 = 0) : x &&& 255 * 2 ^ f = x % 2 ^ (f + 8) := by
  apply Nat.eq_of_testBit_eq
  intro i
  have h255 : ∀ j, Nat.testBit 255 j = decide (j < 8) := fun j => Nat.testBit_two_pow_sub_one 8 j
  rw [Nat.testBit_and, Nat.testBit_mul_two_pow, Nat.testBit_mod_two_pow, h255]
  by_cases hi : i < 16
  · have : x.testBit i = false := by
      have h0 : (x % 2 ^ 16).testBit i = false := by rw [hx]; simp
      rw [Nat.testBit_mod_two_pow] at h0
      simpa [hi] using h0
    simp [this]
  · have e1 : decide (f ≤ i) = true := by simp; omega
    have e2 : decide (i - f < 8) = decide (i < f + 8) := by
      apply decide_eq_decide.2; omega
    rw [e1, e2, Bool.true_and, Bool.and_comm]

theorem tmaCtc_spec {f x y : Nat} (h9 : 8 < f) (h15 : f < 16) (hxy : x ≤ y) (hd : y - x < 2 ^ 16) :
    tmaCtc (y % 2 ^ (f + 8)) (x % 2 ^ 16) f = .ok (x % 2 ^ (f + 8)) := by
  have hmask : shl32 0xff f = .ok (255 * 2 ^ f) := shl32_mtc (by omega) (by omega)
  have hor : ∀ a b, a < 2 ^ 16 → b % 2 ^ 16 = 0 → a ||| b = a + b := by
    intro a b ha hb
    have : b = 2 ^ 16 * (b / 2 ^ 16) := by omega
    rw [Nat.or_comm, this, ← Nat.two_pow_add_eq_or_of_lt ha, Nat.add_comm]
  rw [tmaCtc, if_neg (by omega), hmask]
  dsimp only
  simp only [Res.bind_ok]
  have hlast : x % 2 ^ 16 < 2 ^ 16 := Nat.mod_lt _ (by decide)
  have hb : subMod 32 (y % 2 ^ (f + 8) / 2 ^ 16 * 2 ^ 16) (2 ^ 16) % 2 ^ 16 = 0 := by
    simp only [subMod]; omega
  have hdvd : 2 ^ 16 ∣ 2 ^ (f + 8) := Nat.pow_dvd_pow 2 (by omega)
  rw [and_mask (by omega) hb, hor _ _ hlast (by rw [Nat.mod_mod_of_dvd _ hdvd]; exact hb),
    hor _ _ hlast (by omega)]
  simp only [subMod]
  have hfs : f = 9 ∨ f = 10 ∨ f = 11 ∨ f = 12 ∨ f = 13 ∨ f = 14 ∨ f = 15 := by omega
  clear hb hor hmask
  by_cases hlt : y % 2 ^ (f + 8) % 2 ^ 16 < x % 2 ^ 16
  · rw [if_pos hlt]
    refine congrArg Res.ok ?_
    rcases hfs with rfl | rfl | rfl | rfl | rfl | rfl | rfl <;>
      simp only [Nat.reduceAdd, Nat.reducePow, Nat.reduceSub] at * <;> omega
  · rw [if_neg hlt]
    refine congrArg Res.ok ?_
    rcases hfs with rfl | rfl | rfl | rfl | rfl | rfl | rfl <;>
      simp only [Nat.reduceAdd, Nat.reducePow] at * <;> omega

end Ipt

namespace Ipt
open Spec

/-- The state right after a TSC packet with value `v` and the TMA packet that belongs to it, sent
at crystal clock value `x`. -/
structure AfterTma (c : TimeCfg) (t : Time) (v x fc : Nat) : Prop where
  tsc : t.haveTsc = true
  tma : t.haveTma = true
  mtc : t.haveMtc = decide (c.mtcFreq ≤ 8)
  ctc : t.ctc = x % 2 ^ 16 % 2 ^ (c.mtcFreq + 8)
  base : t.base = subMod 64 v fc
  lostMtc : t.lostMtc = 0
  lostCyc : t.lostCyc = 0

theorem updateMtc_first {c : TimeCfg} (hc : ValidClock c) {t : Time} {v x fc n : Nat}
    (ht : AfterTma c t v x fc)
    (hx : x ≤ n * 2 ^ c.mtcFreq) (hd1 : n * 2 ^ c.mtcFreq - x < 2 ^ (c.mtcFreq + 8))
    (hd2 : n * 2 ^ c.mtcFreq - x < 2 ^ 16) :
    ∃ t', t.updateMtc (n % 256) c = (t', .ok ()) ∧ Ticking c t' (n * 2 ^ c.mtcFreq) ∧
      t'.base = (t.base + (n * 2 ^ c.mtcFreq - x) * c.ebx / c.eax) % 2 ^ 64 ∧
      t'.tsc = t'.base ∧ t'.lostMtc = t.lostMtc ∧ t'.lostCyc = 0 ∧ t'.haveTsc = t.haveTsc := by
  have hf : c.mtcFreq < 24 := by have := hc.freq; omega
  by_cases h8 : c.mtcFreq ≤ 8
  · refine updateMtc_tick hc ⟨by rw [ht.mtc]; simpa using h8, fun _ => ht.tma, ?_⟩ hx hd1
    rw [ht.ctc, Nat.mod_mod_of_dvd]
    exact Nat.pow_dvd_pow 2 (by omega)
  · have hm : t.haveMtc = false := by rw [ht.mtc]; simpa using h8
    refine updateMtc_eff hf (fun _ => ht.tma) (fun _ => ht.tma) (last := x % 2 ^ (c.mtcFreq + 8)) ?_
      (ctcDelta_spec hf hx hd1) (ctcFc_spec hc (by omega))
    rw [if_pos hm, ht.ctc, Nat.mod_eq_of_lt (a := x % 2 ^ 16)]
    · exact tmaCtc_spec (by omega) hc.freq hx hd2
    · have : 2 ^ 16 ≤ 2 ^ (c.mtcFreq + 8) := Nat.pow_le_pow_right (by omega) (by omega)
      have := Nat.mod_lt x (show 0 < 2 ^ 16 by decide)
      omega

theorem apply_mtc {c : TimeCfg} (hc : ValidClock c) {s : Timing} {p : Nat} (hp : p < 256)
    (hk : s.tcal.ctc < 2 ^ (c.mtcFreq + 8)) {t' : Time} (h : s.time.updateMtc p c = (t', .ok ())) :
    s.apply c (.mtc p) = (⟨t', (s.tcal.updateMtc p c).1⟩, .ok ()) := by
  rw [Timing.apply, both_ok (by rw [tcal_updateMtc_ok hc hp hk]; rfl), h]
  rfl

/-- A run of MTC packets. -/
theorem mtc_run {c : TimeCfg} (hc : ValidClock c) : ∀ (ns : List Nat) (n : Nat) (s : Timing),
    Ticking c s.time (n * 2 ^ c.mtcFreq) → s.tcal.ctc < 2 ^ (c.mtcFreq + 8) → MtcRun n ns →
    s.time.tsc = s.time.base → s.time.base < 2 ^ 64 → s.time.lostCyc = 0 →
    ∃ s' A, s.applyAll c (mtcPackets ns) = (s', .ok ()) ∧ s'.time.tsc = s'.time.base ∧
      s'.time.base = (s.time.base + A) % 2 ^ 64 ∧ s'.time.lostMtc = s.time.lostMtc ∧
      s'.time.lostCyc = 0 ∧ s'.time.haveTsc = s.time.haveTsc ∧ n ≤ lastCount n ns ∧
      A * c.eax ≤ (lastCount n ns - n) * 2 ^ c.mtcFreq * c.ebx ∧
      (lastCount n ns - n) * 2 ^ c.mtcFreq * c.ebx + ns.length ≤ (A + ns.length) * c.eax := by
  intro ns
  induction ns with
  | nil =>
    intro n s ht hk _ h1 h2 h3
    refine ⟨s, 0, rfl, h1, by omega, rfl, h3, rfl, by simp [lastCount], by simp, by simp [lastCount]⟩
  | cons n' ns ih =>
    rintro n s ht hk ⟨r1, r2, r3⟩ h1 h2 h3
    have hf : c.mtcFreq < 24 := by have := hc.freq; omega
    have hp0 := Nat.two_pow_pos c.mtcFreq
    have e1 : n' * 2 ^ c.mtcFreq - n * 2 ^ c.mtcFreq = (n' - n) * 2 ^ c.mtcFreq := by
      rw [Nat.sub_mul]
    have hle : n * 2 ^ c.mtcFreq ≤ n' * 2 ^ c.mtcFreq := Nat.mul_le_mul_right _ r1
    have hlt : n' * 2 ^ c.mtcFreq - n * 2 ^ c.mtcFreq < 2 ^ (c.mtcFreq + 8) := by
      rw [e1, Nat.pow_add, Nat.mul_comm]
      exact Nat.mul_lt_mul_of_pos_left (by omega) hp0
    obtain ⟨t', u1, u2, u3, u4, u5, u6, u7⟩ := updateMtc_tick hc ht hle hlt
    have ha := apply_mtc hc (Nat.mod_lt n' (by omega)) hk u1
    have hk' := tcal_ctc_inv hf s (.mtc (n' % 256)) (Nat.mod_lt n' (by decide)) hk
    rw [ha] at hk'
    obtain ⟨s', A, i1, i2, i3, i4, i5, i6, i7, i8, i9⟩ :=
      ih n' ⟨t', (s.tcal.updateMtc (n' % 256) c).1⟩ u2 hk' r3 u4 (by show t'.base < _; rw [u3]; exact Nat.mod_lt _ (by decide)) u6
    simp only at i3 i4 i6
    have hmul : (lastCount n' ns - n) = (lastCount n' ns - n') + (n' - n) := by omega
    have hdiv := Nat.div_add_mod ((n' - n) * 2 ^ c.mtcFreq * c.ebx) c.eax
    have hmod := Nat.mod_lt ((n' - n) * 2 ^ c.mtcFreq * c.ebx) hc.eax
    rw [Nat.mul_comm] at hdiv
    rw [e1] at u3
    refine ⟨s', (n' - n) * 2 ^ c.mtcFreq * c.ebx / c.eax + A, ?_, i2, ?_, i4.trans u5, i5, i6.trans u7,
      by simp only [lastCount]; omega, ?_, ?_⟩
    · simp only [mtcPackets, List.map_cons, Timing.applyAll, ha]
      exact i1
    · rw [i3, u3, Nat.mod_add_mod, Nat.add_assoc]
    · simp only [lastCount, hmul, Nat.add_mul] at *
      omega
    · simp only [lastCount, hmul, Nat.add_mul, List.length_cons, Nat.one_mul] at *
      omega

end Ipt

namespace Ipt.Props
open Ipt Spec

/-- C20: the time after a TSC packet, its TMA packet and a run of MTC packets.  The trace is
sent by a processor whose crystal clock reads `x` at the TSC/TMA pair, and whose MTC counter has
the values `n :: ns` at the MTC packets; the first MTC comes before the 16 bits of the TMA or
the bits of the MTC counter wrap around, and so on for the following packets.  Then all packets
are accepted, nothing is reported as lost, and the time is the TSC minus the fast counter value
plus the elapsed crystal clock ticks, converted to TSC units and truncated by less than one unit
per MTC packet.  Earlier timing packets `pre` don't matter. -/
theorem C20_mtc_run (c : TimeCfg) (hc : ValidClock c) (pre : List TimePkt) (hpre : ∀ p ∈ pre, p.InRange)
    (v x fc n : Nat) (ns : List Nat)
    (hx : x ≤ n * 2 ^ c.mtcFreq) (hd1 : n * 2 ^ c.mtcFreq - x < 2 ^ (c.mtcFreq + 8))
    (hd2 : n * 2 ^ c.mtcFreq - x < 2 ^ 16) (hrun : MtcRun n ns) :
    ∃ s A, (Timing.applyAll c {} pre).1.applyAll c
        (.tsc v :: .tma (x % 2 ^ 16) fc :: mtcPackets (n :: ns)) = (s, .ok ()) ∧
      s.time.queryTsc = .ok ((v + A + (2 ^ 64 - fc)) % 2 ^ 64, 0, 0) ∧
      x ≤ lastCount n ns * 2 ^ c.mtcFreq ∧
      A * c.eax ≤ (lastCount n ns * 2 ^ c.mtcFreq - x) * c.ebx ∧
      (lastCount n ns * 2 ^ c.mtcFreq - x) * c.ebx < (A + (ns.length + 1)) * c.eax := by
  have hf : c.mtcFreq < 24 := by have := hc.freq; omega
  have hk := applyAll_ctc_inv hf pre {} hpre (Nat.two_pow_pos _)
  generalize (Timing.applyAll c {} pre).1 = s0 at *
  -- TSC
  let t1 := s0.time.updateTsc v
  -- TMA
  let t2 := (t1.updateTma (x % 2 ^ 16) fc c).1
  have e2 : t1.updateTma (x % 2 ^ 16) fc c = (t2, .ok ()) := by
    simp [t2, t1, Time.updateTma, Time.updateTsc, shl1_ok (show c.mtcFreq + 8 < 32 by omega)]
  have a2 : AfterTma c t2 v x fc := by
    have et : t2 = (t1.updateTma (x % 2 ^ 16) fc c).1 := rfl
    have h16 : (c.mtcFreq + 8 ≤ 16) = (c.mtcFreq ≤ 8) := by simp
    by_cases h8 : c.mtcFreq ≤ 8 <;>
    simp only [t1, Time.updateTma, Time.updateTsc, shl1_ok (show c.mtcFreq + 8 < 32 by omega),
      Bool.true_eq_false, if_false, h16, h8, if_true, Bool.false_eq_true] at et <;>
    rw [et] <;> exact ⟨rfl, rfl, by simp [h8], rfl, rfl, rfl, rfl⟩
  obtain ⟨t3, u1, u2, u3, u4, u5, u6, u7⟩ := updateMtc_first hc a2 hx hd1 hd2
  let s2 : Timing := ⟨t2, s0.tcal.updateTsc v⟩
  have ha := apply_mtc (s := s2) hc (Nat.mod_lt n (by omega)) hk u1
  have hk3 := tcal_ctc_inv hf s2 (.mtc (n % 256)) (Nat.mod_lt n (by decide)) hk
  rw [ha] at hk3
  obtain ⟨s', A, i1, i2, i3, i4, i5, i6, i7, i8, i9⟩ :=
    mtc_run hc ns n ⟨t3, (s2.tcal.updateMtc (n % 256) c).1⟩ u2 hk3 hrun u4
      (by show t3.base < _; rw [u3]; exact Nat.mod_lt _ (by decide)) u6
  simp only at i3 i4 i6
  generalize hD : (n * 2 ^ c.mtcFreq - x) = D at *
  have hdiv := Nat.div_add_mod (D * c.ebx) c.eax
  have hmod := Nat.mod_lt (D * c.ebx) hc.eax
  rw [Nat.mul_comm] at hdiv
  have hle : n * 2 ^ c.mtcFreq ≤ lastCount n ns * 2 ^ c.mtcFreq := Nat.mul_le_mul_right _ i7
  have hsum : lastCount n ns * 2 ^ c.mtcFreq - x = (lastCount n ns - n) * 2 ^ c.mtcFreq + D := by
    rw [Nat.sub_mul]; omega
  refine ⟨s', D * c.ebx / c.eax + A, ?_, ?_, by omega, ?_, ?_⟩
  · have b1 : s0.apply c (.tsc v) = (⟨t1, s0.tcal.updateTsc v⟩, .ok ()) := rfl
    have b2 : (⟨t1, s0.tcal.updateTsc v⟩ : Timing).apply c (.tma (x % 2 ^ 16) fc) = (s2, .ok ()) := by
      rw [Timing.apply, both_ok rfl, e2]; rfl
    simp only [mtcPackets, List.map_cons, Timing.applyAll, b1, b2, ha]
    exact i1
  · have hts : s'.time.haveTsc = true := by rw [i6, u7]; exact a2.tsc
    have hl : s'.time.lostMtc = 0 := by rw [i4, u5]; exact a2.lostMtc
    simp only [Time.queryTsc, hts, hl, i5, i2, i3, u3, a2.base, subMod]
    simp only [Bool.true_eq_false, if_false, Res.ok.injEq, Prod.mk.injEq, and_true]
    omega
  · rw [hsum]
    simp only [Nat.add_mul] at *
    omega
  · rw [hsum]
    simp only [Nat.add_mul, Nat.one_mul] at *
    omega

example : ValidClock ⟨2, 250, 9, 24, false⟩ ∧ MtcRun 300 [301, 556, 556] ∧
    (Timing.applyAll ⟨2, 250, 9, 24, false⟩ {}
      (.tsc 0x100000 :: .tma (153000 % 2 ^ 16) 3 :: mtcPackets (300 :: [301, 556, 556]))).1.time.queryTsc =
    .ok (0x100000 - 3 + (556 * 512 - 153000) * 250 / 2, 0, 0) := by
  refine ⟨⟨by decide, by decide, by decide, by decide⟩, by simp [MtcRun], by decide +kernel⟩

/-- C20: MTC packets alone never move the time backwards: in the situation of `C20_mtc_run`, after
`ns` and then `ms` more packets, the time has advanced from what it was after `ns` (modulo the
64-bit range of the time). -/
theorem C20_mtc_monotone (c : TimeCfg) (hc : ValidClock c) (s : Timing) (x n : Nat)
    (h2 : s.time.haveTma = true) (h3 : s.time.haveMtc = true)
    (h4 : s.time.ctc = x % 2 ^ (c.mtcFreq + 8)) (h5 : s.time.tsc = s.time.base)
    (h6 : s.tcal.ctc < 2 ^ (c.mtcFreq + 8))
    (hx : x ≤ n * 2 ^ c.mtcFreq) (hd : n * 2 ^ c.mtcFreq - x < 2 ^ (c.mtcFreq + 8)) :
    ∃ s' a, s.apply c (.mtc (n % 256)) = (s', .ok ()) ∧ s'.time.tsc = (s.time.tsc + a) % 2 ^ 64 ∧
      a * c.eax ≤ (n * 2 ^ c.mtcFreq - x) * c.ebx ∧ (n * 2 ^ c.mtcFreq - x) * c.ebx < (a + 1) * c.eax := by
  obtain ⟨t', u1, u2, u3, u4, u5, u6, u7⟩ := updateMtc_tick hc ⟨h3, fun _ => h2, h4⟩ hx hd
  have ha := apply_mtc hc (Nat.mod_lt n (by omega)) h6 u1
  have hdiv := Nat.div_add_mod ((n * 2 ^ c.mtcFreq - x) * c.ebx) c.eax
  have hmod := Nat.mod_lt ((n * 2 ^ c.mtcFreq - x) * c.ebx) hc.eax
  rw [Nat.mul_comm] at hdiv
  refine ⟨_, (n * 2 ^ c.mtcFreq - x) * c.ebx / c.eax, ha, ?_, ?_, ?_⟩
  · show t'.tsc = _
    rw [u4, u3, h5]
  · omega
  · rw [Nat.add_mul, Nat.one_mul]; omega

/-- C20 does not extend to traces with CYC packets: the cycle-accurate estimate may overshoot, and
then the next MTC packet moves the reported time backwards. -/
theorem C20_mtc_after_cyc_moves_back :
    ∃ c ps p t1 t2, ValidClock c ∧ (∀ q ∈ p :: ps, TimePkt.InRange q) ∧
      (Timing.applyAll c {} ps).1.time.queryTsc = .ok (t1, 0, 0) ∧
      (Timing.applyAll c {} (ps ++ [p])).1.time.queryTsc = .ok (t2, 0, 0) ∧ t2 < t1 := by
  refine ⟨⟨2, 84, 3, 24, false⟩, [.hCbr 24, .tsc 1000000, .tma 0 0, .mtc 1, .cyc 1000], .mtc 2, 1001000, 1000672, ?_⟩
  refine ⟨⟨by decide, by decide, by decide, by decide⟩, ?_, by decide +kernel, by decide +kernel, by decide⟩
  intro q hq
  simp only [List.mem_cons, List.not_mem_nil, or_false] at hq
  rcases hq with rfl | rfl | rfl | rfl | rfl | rfl <;> simp [TimePkt.InRange]

/-- C20, configurations without the crystal clock ratio: MTC packets leave the time alone.  They
are not counted as lost, although the event decoder's comments say so. -/
theorem C20_no_ratio_not_counted (c : TimeCfg) (hc : c.eax = 0 ∨ c.ebx = 0) (hf : c.mtcFreq < 16)
    (t : Time) (x n : Nat) (h1 : t.haveTsc = true) (h2 : t.haveTma = true) (h3 : t.haveMtc = true)
    (h4 : t.ctc = x % 2 ^ (c.mtcFreq + 8))
    (hx : x ≤ n * 2 ^ c.mtcFreq) (hd : n * 2 ^ c.mtcFreq - x < 2 ^ (c.mtcFreq + 8)) :
    ∃ t', t.updateMtc (n % 256) c = (t', .err .badConfig) ∧ t'.queryTsc = .ok (t.tsc, t.lostMtc, 0) := by
  have hf' : c.mtcFreq < 24 := by omega
  rw [Time.updateMtc, if_neg (by simp [h2]), shl32_mtc (Nat.mod_lt _ (by omega)) hf']
  simp only [mtc_ctc]
  rw [if_neg (by simp [h3]), if_neg (by simp [h3]), h4]
  simp only [ctcDelta_spec hf' hx hd]
  simp only [ctcFc, if_pos hc]
  exact ⟨_, rfl, by simp [Time.queryTsc, h1]⟩

example : ((Timing.applyAll ⟨0, 0, 3, 24, false⟩ {} [.tsc 1000000, .tma 0 0, .mtc 1, .mtc 2, .mtc 3]).1.time.queryTsc =
    .ok (1000000, 0, 0)) := by decide +kernel

end Ipt.Props

namespace Ipt

theorem ctcDelta_safe {c : TimeCfg} (hf : c.mtcFreq < 24) (x y : Nat) : (ctcDelta y x c).safe := by
  rw [ctcDelta, shl1_ok (by omega)]
  simp only [Res.bind_ok]
  repeat' with_reducible refine Res.safe_ite (fun _ => ?_) (fun _ => ?_)
  all_goals simp

theorem ctcFc_safe (c : TimeCfg) (d : Nat) : (ctcFc d c).safe := by
  unfold ctcFc
  by_cases h : c.eax = 0 ∨ c.ebx = 0
  · rw [if_pos h]; simp
  · rw [if_neg h, if_neg (by omega)]; simp

theorem shl32_safe {v f : Nat} (hf : f < 24) : ∃ x, shl32 v f = .ok x := by
  rw [shl32, if_pos (by omega)]; exact ⟨_, rfl⟩

theorem updateTma_safe {c : TimeCfg} (hf : c.mtcFreq < 24) (t : Time) (a b : Nat) :
    (t.updateTma a b c).2.safe := by
  unfold Time.updateTma
  rw [shl1_ok (by omega)]
  repeat' split
  all_goals first | simp [Res.safe] | contradiction

theorem tmaCtc_safe {f : Nat} (hf : f < 24) (a b : Nat) : (tmaCtc a b f).safe := by
  obtain ⟨x, hx⟩ := shl32_safe (v := 0xff) hf
  unfold tmaCtc
  rw [hx]
  dsimp only
  simp only [Res.bind_ok]
  repeat' with_reducible refine Res.safe_ite (fun _ => ?_) (fun _ => ?_)
  all_goals simp

theorem updateMtc_safe {c : TimeCfg} (hf : c.mtcFreq < 24) (t : Time) (p : Nat) :
    (t.updateMtc p c).2.safe := by
  obtain ⟨x, hx⟩ := shl32_safe (v := p) hf
  unfold Time.updateMtc
  rw [hx]
  dsimp only
  by_cases h1 : t.haveTsc = true ∧ t.haveTma = false
  · rw [if_pos h1]; simp
  rw [if_neg h1]
  by_cases h2 : t.haveMtc = false ∧ t.haveTma = false
  · rw [if_pos h2]; simp
  rw [if_neg h2]
  have hs : (if t.haveMtc = false then tmaCtc x t.ctc c.mtcFreq else .ok t.ctc).safe :=
    Res.safe_ite (fun _ => tmaCtc_safe hf _ _) (fun _ => by simp)
  generalize (if t.haveMtc = false then tmaCtc x t.ctc c.mtcFreq else .ok t.ctc) = r at *
  cases r with
  | ub => exact absurd rfl hs
  | err e => simp
  | ok last =>
    dsimp only
    have hd := ctcDelta_safe hf last x
    cases hdd : ctcDelta x last c with
    | ub => rw [hdd] at hd; exact absurd rfl hd
    | err e => simp
    | ok d =>
      dsimp only
      have hc := ctcFc_safe c d
      cases hcc : ctcFc d c with
      | ub => rw [hcc] at hc; exact absurd rfl hc
      | err e => simp
      | ok fc => simp

theorem updateCyc_safe {c : TimeCfg} (hf : c.mtcFreq < 24) (t : Time) (v fcr : Nat) :
    (t.updateCyc v c fcr).2.safe := by
  unfold Time.updateCyc
  by_cases h0 : fcr = 0
  · rw [if_pos h0]; simp
  rw [if_neg h0]
  have hs : (if t.fc = 0 then adjustCyc v t c fcr else .ok v).safe := by
    refine Res.safe_ite (fun _ => ?_) (fun _ => by simp)
    unfold adjustCyc
    refine Res.safe_ite (fun _ => by simp) (fun _ => Res.safe_ite (fun _ => by simp) (fun _ => ?_))
    refine Res.bind_ne_ub (ctcDelta_safe hf _ _) (fun d _ => Res.bind_ne_ub (ctcFc_safe c d) (fun fc _ => ?_))
    rw [if_neg h0]; simp
  generalize (if t.fc = 0 then adjustCyc v t c fcr else .ok v) = r at *
  cases r with
  | ub => exact absurd rfl hs
  | err e => simp
  | ok d => simp

theorem tcalMtc_safe {c : TimeCfg} (hf : c.mtcFreq < 24) (k : Tcal) (p : Nat) :
    (k.updateMtc p c).2.safe := by
  obtain ⟨x, hx⟩ := shl32_safe (v := p) hf
  unfold Tcal.updateMtc
  rw [hx]
  dsimp only
  by_cases h1 : k.haveMtc = false
  · rw [if_pos h1]; simp
  rw [if_neg h1]
  by_cases h2 : k.cycMtc = 0
  · rw [if_pos h2]; simp
  rw [if_neg h2]
  have hd := ctcDelta_safe hf k.ctc x
  cases hdd : ctcDelta x k.ctc c with
  | ub => rw [hdd] at hd; exact absurd rfl hd
  | err e => simp
  | ok d =>
    dsimp only
    have hc := ctcFc_safe c d
    cases hcc : ctcFc d c with
    | ub => rw [hcc] at hc; exact absurd rfl hc
    | err e => simp
    | ok fc =>
      dsimp only
      by_cases h3 : fc / 2 ^ 56 ≠ 0
      · rw [if_pos h3]; simp
      rw [if_neg h3, if_neg h2]
      have hs : ∀ (k : Tcal) a b e, ∃ x, k.skl168Skips a b e c = .ok x := by
        intro k a b e
        rw [Tcal.skl168Skips, shl1_ok (by omega)]
        simp only [Res.bind_ok]
        repeat' first | exact ⟨_, rfl⟩ | split
      generalize hx : (if k.checkSkl168 = true then _ else Res.ok false) = x
      have : ∃ b, x = .ok b := by
        rw [← hx]
        split
        · exact hs _ _ _ _
        · exact ⟨_, rfl⟩
      obtain ⟨b, rfl⟩ := this
      cases b <;> simp

theorem okBadConfig_safe {r : Res Unit} (h : r.safe) : (okBadConfig r).safe := by
  unfold okBadConfig
  split
  · simp
  · exact h

theorem both_safe {x : Tcal × Res Unit} {t : Time} {f : Time × Res Unit} (h1 : x.2.safe) (h2 : f.2.safe) :
    (Timing.both x t f).2.safe := by
  have := okBadConfig_safe h1
  unfold Timing.both
  split
  · exact okBadConfig_safe h2
  · exact this

theorem headerCbr_safe (k : Tcal) (r : Nat) (c : TimeCfg) : (k.headerCbr r c).2.safe := by
  unfold Tcal.headerCbr
  repeat' split
  all_goals simp

theorem timing_apply_safe {c : TimeCfg} (hf : c.mtcFreq < 24) (s : Timing) (p : TimePkt) :
    (s.apply c p).2.safe := by
  have hcbr : ∀ (t : Time) r, (t.updateCbr r).2.safe := by
    intro t r; unfold Time.updateCbr; split <;> simp
  cases p with
  | tsc v => exact both_safe (by simp) (by simp)
  | hTsc v =>
    refine both_safe ?_ (by simp)
    unfold Tcal.headerTsc
    dsimp only
    generalize (if v < s.tcal.tsc then (v + 2 ^ 56) % 2 ^ 64 else v) = w
    repeat' split
    all_goals first | simp; done | (exfalso; omega)
  | cbr r => exact both_safe (headerCbr_safe _ _ _) (hcbr _ _)
  | hCbr r => exact both_safe (headerCbr_safe _ _ _) (hcbr _ _)
  | tma a b => exact both_safe (by simp) (updateTma_safe hf _ _ _)
  | mtc n => exact both_safe (tcalMtc_safe hf _ _) (updateMtc_safe hf _ _)
  | cyc v => exact both_safe (by simp) (updateCyc_safe hf _ _ _)

end Ipt

namespace Ipt.Props
open Ipt Spec

/-- C21: with an MTC frequency below 24 (the hardware's field has 4 bits), decoding any timing
packets in any timing state performs no undefined operation, whatever the rest of the
configuration. -/
theorem C21_timing_defined (c : TimeCfg) (hf : c.mtcFreq < 24) (ps : List TimePkt) :
    ∀ s, (Timing.applyAll c s ps).2 ≠ .ub := by
  induction ps with
  | nil => intro s; simp [Timing.applyAll]
  | cons p ps ih =>
    intro s
    have h := timing_apply_safe hf s p
    rw [Timing.applyAll]
    split
    · exact ih _
    · rename_i heq
      rw [heq] at h
      exact h

example : (Timing.applyAll ⟨2, 84, 15, 24, true⟩ {} [.hTsc 5, .tma 0xffff 0x1ff, .cyc 0xffff, .mtc 255, .cyc 7, .mtc 0]).2 =
    .ok () := by decide +kernel

/-- C21 fails without the bound: the frequency is not validated when a configuration is imported
(see `C17_config_import`: any bytes are accepted), and a TMA or MTC packet then shifts by more
than the width of the operand. -/
theorem C21_mtc_freq_not_validated (c : TimeCfg) (hf : 24 ≤ c.mtcFreq) (v ctc fc : Nat) :
    (Timing.applyAll c {} [.tsc v, .tma ctc fc]).2 = .ub := by
  have : shl1 (c.mtcFreq + 8) = .ub := if_neg (by omega)
  simp [Timing.applyAll, Timing.apply, Timing.both, okBadConfig, Tcal.updateTsc, Time.updateTsc, Time.updateTma, this]

end Ipt.Props
