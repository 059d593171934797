import Verif.Props.Time

/-!
# Cycle-accurate time (C80)

CYC packets tell the number of processor clock cycles since the last CYC packet.  The decoder
converts them to the unit of TSC packets, with the core:bus ratio of the last CBR packet or with
the number of cycles it has seen between two MTC packets.
-/

namespace Ipt.Spec

/-- `w` processor cycles are `d` units of time for a processor that does `den` cycles in `num`
units: the estimate is never too big, and it is smaller than `w * num / den` by less than one
unit, for truncation, and `w / 256` units, because the rate is kept with 8 fractional bits. -/
def Ticks (num den w d : Nat) : Prop :=
  d * den ≤ w * num ∧ 256 * (w * num) ≤ (256 * d + 255 + w) * den

/-- CYC packets with the given payloads. -/
def cycPackets (ws : List Nat) : List TimePkt := ws.map .cyc

end Ipt.Spec

namespace Ipt
open Spec

theorem ticks_div {num den : Nat} (hd : 0 < den) (w : Nat) :
    Ticks num den w (w * (num * 2 ^ 8 / den) / 2 ^ 8) := by
  have h1 := Nat.div_add_mod (num * 2 ^ 8) den
  have h2 := Nat.mod_lt (num * 2 ^ 8) hd
  generalize num * 2 ^ 8 / den = F at *
  have h3 := Nat.div_add_mod (w * F) (2 ^ 8)
  have h4 := Nat.mod_lt (w * F) (show 0 < 2 ^ 8 by decide)
  generalize w * F / 2 ^ 8 = d at *
  have hF : F * den ≤ num * 2 ^ 8 := by rw [Nat.mul_comm]; omega
  have hF2 : num * 2 ^ 8 ≤ (F + 1) * den := by rw [Nat.add_mul, Nat.one_mul, Nat.mul_comm F]; omega
  constructor
  · have a : 2 ^ 8 * d * den ≤ w * F * den := Nat.mul_le_mul_right _ (by omega)
    have b : w * (F * den) ≤ w * (num * 2 ^ 8) := Nat.mul_le_mul_left _ hF
    rw [← Nat.mul_assoc, ← Nat.mul_assoc] at b
    have e : 2 ^ 8 * d * den = 2 ^ 8 * (d * den) := Nat.mul_assoc _ _ _
    omega
  · have a : w * (num * 2 ^ 8) ≤ w * ((F + 1) * den) := Nat.mul_le_mul_left _ hF2
    have b : (w * F + w) * den ≤ (256 * d + 255 + w) * den := Nat.mul_le_mul_right _ (by omega)
    have e : w * ((F + 1) * den) = (w * F + w) * den := by
      rw [← Nat.mul_assoc, Nat.mul_add, Nat.mul_one]
    rw [← Nat.mul_assoc] at a
    omega

/-- The units of time for the CYC payloads `ws` at rate `F`. -/
def incs (F : Nat) (ws : List Nat) : List Nat := ws.map fun w => w * F / 2 ^ 8

theorem incs_take (F k : Nat) (ws : List Nat) : incs F (ws.take k) = (incs F ws).take k := by
  simp [incs, List.map_take]

theorem incs_ticks {num den : Nat} (hd : 0 < den) (ws : List Nat) :
    ∀ p ∈ ws.zip (incs (num * 2 ^ 8 / den) ws), Ticks num den p.1 p.2 := by
  induction ws with
  | nil => intro p hp; simp at hp
  | cons w ws ih =>
    intro p hp
    simp only [incs, List.map_cons, List.zip_cons_cons, List.mem_cons] at hp
    rcases hp with rfl | hp
    · exact ticks_div hd w
    · exact ih p hp

/-- A run of CYC packets at rate `F`. -/
theorem cyc_run (c : TimeCfg) {F : Nat} (hF : 0 < F) : ∀ (ws : List Nat) (s : Timing),
    s.tcal.getFcr = .ok F → s.time.ctc = s.time.ctcCyc →
    s.time.tsc = (s.time.base + s.time.fc) % 2 ^ 64 → s.time.fc < 2 ^ 64 → (∀ w ∈ ws, w * F < 2 ^ 64) →
    ∃ s', s.applyAll c (cycPackets ws) = (s', .ok ()) ∧
      s'.time = { s.time with fc := (s.time.fc + (incs F ws).sum) % 2 ^ 64,
                              tsc := (s.time.base + s.time.fc + (incs F ws).sum) % 2 ^ 64 } ∧
      s'.tcal = { s.tcal with cycMtc := s'.tcal.cycMtc, cycTsc := s'.tcal.cycTsc } ∧
      (s.tcal.cycMtc < 2 ^ 64 → s'.tcal.cycMtc = (s.tcal.cycMtc + ws.sum) % 2 ^ 64) := by
  intro ws
  induction ws with
  | nil =>
    intro s _ _ h3 h4 _
    refine ⟨s, rfl, ?_, rfl, fun h6 => by simp only [List.sum_nil]; omega⟩
    obtain ⟨t, k⟩ := s
    obtain ⟨⟩ := t
    simp only [incs, List.map_nil, List.sum_nil, Nat.add_zero] at *
    rw [Nat.mod_eq_of_lt h4, ← h3]
  | cons w ws ih =>
    intro s h1 h2 h3 h4 h5
    have hk : (s.tcal.updateCyc w).getFcr = .ok F := h1
    have hu : s.time.updateCyc w c F =
        ({ s.time with fc := (s.time.fc + w * F / 2 ^ 8) % 2 ^ 64,
                       tsc := (s.time.base + s.time.fc + w * F / 2 ^ 8) % 2 ^ 64 }, .ok ()) := by
      have hadj : (if s.time.fc = 0 then adjustCyc w s.time c F else .ok w) = .ok w := by
        split
        · rw [adjustCyc, if_neg (by omega), if_pos h2]
        · rfl
      have hm : w * F % 2 ^ 64 = w * F := Nat.mod_eq_of_lt (h5 w (by simp))
      rw [Time.updateCyc, if_neg (by omega), hadj]
      simp only [hm, Nat.add_mod_mod, Nat.add_assoc]
    have ha : s.apply c (.cyc w) = (⟨(s.time.updateCyc w c F).1, s.tcal.updateCyc w⟩, .ok ()) := by
      simp only [Timing.apply, hk]
      rw [both_ok rfl, hu]
      rfl
    obtain ⟨s', i1, i2, i3, i4⟩ := ih ⟨(s.time.updateCyc w c F).1, s.tcal.updateCyc w⟩ hk
      (by rw [hu]; exact h2) (by rw [hu]; simp only [Nat.add_mod_mod, Nat.add_assoc])
      (by rw [hu]; exact Nat.mod_lt _ (by decide)) (fun x hx => h5 x (by simp [hx]))
    refine ⟨s', ?_, ?_, ?_, ?_⟩
    · simp only [cycPackets, List.map_cons, Timing.applyAll, ha]
      exact i1
    · rw [i2, hu]
      simp only [incs, List.map_cons, List.sum_cons]
      congr 1
      · omega
      · omega
    · rw [i3]
      rfl
    · intro _
      rw [i4 (Nat.mod_lt _ (by decide))]
      simp only [Tcal.updateCyc, List.sum_cons]
      omega

theorem setFcr_getFcr (k : Tcal) (F : Nat) : (k.setFcr F).getFcr = .ok F := by
  have : (k.setFcr F).haveFcr = true := by
    have h : (k.setFcr F).minFcr ≤ (k.setFcr F).maxFcr := by
      simp only [Tcal.setFcr]
      by_cases h1 : F < k.minFcr <;> by_cases h2 : k.maxFcr < F <;> simp only [h1, h2, if_true, if_false] <;> omega
    exact decide_eq_true h
  rw [Tcal.getFcr, if_neg (by rw [this]; simp)]
  rfl

theorem headerCbr_eq {c : TimeCfg} (hn : 0 < c.nomFreq) {r : Nat} (hr : 0 < r) (k : Tcal) :
    k.headerCbr r c = (k.setFcr (c.nomFreq * 2 ^ 8 / r), .ok ()) := by
  rw [Tcal.headerCbr, if_neg (by omega), if_neg (by omega), if_neg (by omega)]

theorem updateCbr_eq {r : Nat} (hr : 0 < r) (t : Time) :
    t.updateCbr r = ({ t with haveCbr := true, cbr := r }, .ok ()) := by
  rw [Time.updateCbr, if_neg (by omega)]

/-- The time after a TSC packet and its TMA packet. -/
structure FreshTime (t : Time) (v : Nat) : Prop where
  tsc : t.haveTsc = true
  cyc : t.ctc = t.ctcCyc
  val : t.tsc = v
  sum : t.tsc = (t.base + t.fc) % 2 ^ 64
  fc : t.fc < 2 ^ 64
  lostMtc : t.lostMtc = 0
  lostCyc : t.lostCyc = 0

theorem tsc_tma_fresh {c : TimeCfg} (hf : c.mtcFreq < 24) (t : Time) {v ctc fc : Nat} (hv : v < 2 ^ 56)
    (hfc : fc < 2 ^ 9) :
    ((t.updateTsc v).updateTma ctc fc c).2 = .ok () ∧ FreshTime ((t.updateTsc v).updateTma ctc fc c).1 v := by
  simp only [Time.updateTma, Time.updateTsc, shl1_ok (show c.mtcFreq + 8 < 32 by omega),
      Bool.true_eq_false, if_false, if_true, Bool.false_eq_true]
  refine ⟨trivial, ⟨rfl, rfl, rfl, ?_, ?_, rfl, rfl⟩⟩
  · simp only [subMod]; omega
  · simp only; omega

theorem FreshTime.query {s : Timing} {v : Nat} (h : FreshTime s.time v) {s' : Timing} {F : Nat} {ws : List Nat}
    (he : s'.time = { s.time with fc := (s.time.fc + (incs F ws).sum) % 2 ^ 64,
                                  tsc := (s.time.base + s.time.fc + (incs F ws).sum) % 2 ^ 64 }) :
    s'.time.queryTsc = .ok ((v + (incs F ws).sum) % 2 ^ 64, 0, 0) := by
  have h1 := h.val
  have h2 := h.sum
  rw [he]
  simp only [Time.queryTsc, h.tsc, h.lostMtc, h.lostCyc, Bool.true_eq_false, if_false, Res.ok.injEq,
    Prod.mk.injEq, and_true]
  omega

theorem mul_rate {n r w : Nat} (hn : n < 2 ^ 8) (hw : w < 2 ^ 48) : w * (n * 2 ^ 8 / r) < 2 ^ 64 := by
  have : n * 2 ^ 8 / r ≤ n * 2 ^ 8 := Nat.div_le_self _ _
  calc w * (n * 2 ^ 8 / r) < 2 ^ 48 * 2 ^ 16 := Nat.mul_lt_mul'' hw (by omega)
    _ = 2 ^ 64 := by decide

theorem rate_pos {n r : Nat} (hn : 0 < n) (hr : 0 < r) (hr2 : r < 2 ^ 8) : 0 < n * 2 ^ 8 / r :=
  Nat.div_pos (by omega) hr

theorem applyAll_append (c : TimeCfg) (s s' : Timing) (ps qs : List TimePkt)
    (h : s.applyAll c ps = (s', .ok ())) : s.applyAll c (ps ++ qs) = s'.applyAll c qs := by
  induction ps generalizing s with
  | nil => cases h; rfl
  | cons p ps ih =>
    simp only [List.cons_append, Timing.applyAll] at h ⊢
    split at h
    · rename_i s1 he
      exact ih s1 h
    · rename_i s1 r hr he
      cases h
      exact (hr rfl).elim

end Ipt

namespace Ipt.Props
open Ipt Spec

/-- C80: after a CBR packet with ratio `r` and a TSC packet with its TMA packet, the time advances
with every CYC packet by the number of cycles it tells, taken at the rate of the maximal
non-turbo ratio to `r`.  Nothing is reported as lost.  What was decoded before doesn't matter. -/
theorem C80_cycles_at_bus_ratio (c : TimeCfg) (hf : c.mtcFreq < 24) (hn : 0 < c.nomFreq)
    (hn2 : c.nomFreq < 2 ^ 8) (s : Timing) (r v ctc fc : Nat) (hr : 0 < r) (hr2 : r < 2 ^ 8)
    (hv : v < 2 ^ 56) (hfc : fc < 2 ^ 9) (ws : List Nat) (hw : ∀ w ∈ ws, w < 2 ^ 48) :
    ∃ ds, ds.length = ws.length ∧ (∀ p ∈ ws.zip ds, Ticks c.nomFreq r p.1 p.2) ∧
      ∀ k, ∃ s', s.applyAll c (.cbr r :: .tsc v :: .tma ctc fc :: cycPackets (ws.take k)) = (s', .ok ()) ∧
        s'.time.queryTsc = .ok ((v + (ds.take k).sum) % 2 ^ 64, 0, 0) := by
  refine ⟨incs (c.nomFreq * 2 ^ 8 / r) ws, by simp [incs], incs_ticks hr ws, fun k => ?_⟩
  let t0 := (s.time.updateCbr r).1
  obtain ⟨e1, e2⟩ := tsc_tma_fresh hf t0 (ctc := ctc) hv hfc
  let k1 : Tcal := (Tcal.setFcr {} (c.nomFreq * 2 ^ 8 / r)).updateTsc v
  let s1 : Timing := ⟨((t0.updateTsc v).updateTma ctc fc c).1, k1⟩
  have hk1 : s1.tcal.getFcr = .ok (c.nomFreq * 2 ^ 8 / r) := setFcr_getFcr {} _
  have hs : s.applyAll c [.cbr r, .tsc v, .tma ctc fc] = (s1, .ok ()) := by
    simp only [Timing.applyAll, Timing.apply, Tcal.updateCbr, headerCbr_eq hn hr, updateCbr_eq hr, Timing.both,
      okBadConfig]
    have e3 : t0 = { s.time with haveCbr := true, cbr := r } := by simp only [t0, updateCbr_eq hr]
    rw [← e3]
    simp only [e1, s1, k1]
  obtain ⟨s', i1, i2, -, -⟩ := cyc_run c (rate_pos hn hr hr2) (ws.take k) s1 hk1 e2.cyc e2.sum e2.fc
    (fun w h => mul_rate hn2 (hw w (List.mem_of_mem_take h)))
  refine ⟨s', (applyAll_append c s s1 _ _ hs).trans i1, ?_⟩
  rw [← incs_take]
  exact FreshTime.query e2 i2

/-- C80 for the packets of PSB+, which has the TSC packet with its TMA packet first and then
the CBR packet. -/
theorem C80_cycles_after_psb (c : TimeCfg) (hf : c.mtcFreq < 24) (hn : 0 < c.nomFreq)
    (hn2 : c.nomFreq < 2 ^ 8) (pre : List TimePkt) (hpre : ∀ p ∈ pre, p.InRange) (r v ctc fc : Nat)
    (hr : 0 < r) (hr2 : r < 2 ^ 8) (hv : v < 2 ^ 56) (hfc : fc < 2 ^ 9) (ws : List Nat)
    (hw : ∀ w ∈ ws, w < 2 ^ 48) :
    ∃ ds, ds.length = ws.length ∧ (∀ p ∈ ws.zip ds, Ticks c.nomFreq r p.1 p.2) ∧
      ∀ k, ∃ s', (Timing.applyAll c {} pre).1.applyAll c
          (.hTsc v :: .tma ctc fc :: .hCbr r :: cycPackets (ws.take k)) = (s', .ok ()) ∧
        s'.time.queryTsc = .ok ((v + (ds.take k).sum) % 2 ^ 64, 0, 0) := by
  refine ⟨incs (c.nomFreq * 2 ^ 8 / r) ws, by simp [incs], incs_ticks hr ws, fun k => ?_⟩
  have hk := applyAll_tcal_inv c pre {} hpre (by decide)
  generalize (Timing.applyAll c {} pre).1 = s at *
  obtain ⟨e1, e2⟩ := tsc_tma_fresh hf s.time (ctc := ctc) hv hfc
  let t2 := ((s.time.updateTsc v).updateTma ctc fc c).1
  let s1 : Timing := ⟨(t2.updateCbr r).1, (s.tcal.headerTsc v).1.setFcr (c.nomFreq * 2 ^ 8 / r)⟩
  have hk1 : s1.tcal.getFcr = .ok (c.nomFreq * 2 ^ 8 / r) := setFcr_getFcr _ _
  have hs : s.applyAll c [.hTsc v, .tma ctc fc, .hCbr r] = (s1, .ok ()) := by
    simp only [Timing.applyAll, Timing.apply, headerCbr_eq hn hr, updateCbr_eq hr, Timing.both,
      okBadConfig, headerTsc_ok hk hv, e1, s1, t2]
  have e3 : FreshTime s1.time v := by
    simp only [s1, updateCbr_eq hr]
    exact ⟨e2.tsc, e2.cyc, e2.val, e2.sum, e2.fc, e2.lostMtc, e2.lostCyc⟩
  obtain ⟨s', i1, i2, -, -⟩ := cyc_run c (rate_pos hn hr hr2) (ws.take k) s1 hk1 e3.cyc e3.sum e3.fc
    (fun w h => mul_rate hn2 (hw w (List.mem_of_mem_take h)))
  refine ⟨s', (applyAll_append c s s1 _ _ hs).trans i1, ?_⟩
  rw [← incs_take]
  exact FreshTime.query e3 i2

example : (Timing.applyAll ⟨2, 84, 3, 24, false⟩ {} [.mtc 3, .cyc 7, .cbr 30, .tsc 1000000, .tma 0x17 5, .cyc 1000, .cyc 50]).1.time.queryTsc =
    .ok (1000000 + 796 + 39, 0, 0) ∧ Ticks 24 30 1000 796 ∧ Ticks 24 30 50 39 := by
  refine ⟨by decide +kernel, by simp [Ticks], by simp [Ticks]⟩

/-- C80: the estimates add up.  Over any number of CYC packets the estimate never exceeds the
exact value. -/
theorem C80_never_fast (num den : Nat) (ws ds : List Nat) (hl : ds.length = ws.length)
    (h : ∀ p ∈ ws.zip ds, Ticks num den p.1 p.2) :
    ds.sum * den ≤ ws.sum * num ∧
      256 * (ws.sum * num) ≤ (256 * ds.sum + 255 * ws.length + ws.sum) * den := by
  induction ws generalizing ds with
  | nil => cases ds with
    | nil => simp
    | cons d ds => simp at hl
  | cons w ws ih => cases ds with
    | nil => simp at hl
    | cons d ds =>
      obtain ⟨i1, i2⟩ := ih ds (by simpa using hl) (fun p hp => h p (by simp [hp]))
      obtain ⟨a1, a2⟩ := h (w, d) (by simp)
      simp only [List.sum_cons, List.length_cons, Nat.add_mul, Nat.mul_add] at *
      constructor <;> omega

end Ipt.Props

namespace Ipt
open Spec

/-- What an MTC packet does to the bookkeeping for CYC packets. -/
theorem updateMtc_cyc (c : TimeCfg) (hf : c.mtcFreq < 24) (t : Time) (p : Nat)
    (h : ¬ (t.haveTsc = true ∧ t.haveTma = false)) :
    (t.updateMtc p c).1.fc = 0 ∧
      (t.fc ≠ 0 ∨ t.lostCyc ≠ 0 ∨ t.haveMtc = false → (t.updateMtc p c).1.ctcCyc = (t.updateMtc p c).1.ctc) := by
  obtain ⟨x, hx⟩ := shl32_safe (v := p) hf
  rw [Time.updateMtc, if_neg h, hx]
  dsimp only
  have key : ∀ (t' : Time), t'.fc = 0 → (t.fc ≠ 0 ∨ t.lostCyc ≠ 0 ∨ t.haveMtc = false → t'.ctcCyc = t'.ctc) →
    t'.fc = 0 ∧ (t.fc ≠ 0 ∨ t.lostCyc ≠ 0 ∨ t.haveMtc = false → t'.ctcCyc = t'.ctc) := fun _ a b => ⟨a, b⟩
  repeat' first
    | (refine key _ rfl ?_; intro hc; dsimp only; rw [if_pos hc]; done)
    | split

/-- Calibration with an MTC packet. -/
theorem tcal_mtc_rate {c : TimeCfg} (hc : ValidClock c) {k : Tcal} {n n' : Nat} (h1 : k.haveMtc = true)
    (h2 : k.cycMtc ≠ 0) (h3 : k.ctc = n * 2 ^ c.mtcFreq % 2 ^ (c.mtcFreq + 8)) (h4 : k.checkSkl168 = false)
    (hn : n ≤ n') (hn2 : n' < n + 256) :
    ∃ k', k.updateMtc (n' % 256) c = (k', .ok ()) ∧
      k'.getFcr = .ok ((n' - n) * 2 ^ c.mtcFreq * c.ebx / c.eax * 2 ^ 8 / k.cycMtc) := by
  have hf : c.mtcFreq < 24 := by have := hc.freq; omega
  have e1 : n' * 2 ^ c.mtcFreq - n * 2 ^ c.mtcFreq = (n' - n) * 2 ^ c.mtcFreq := by rw [Nat.sub_mul]
  have hle : n * 2 ^ c.mtcFreq ≤ n' * 2 ^ c.mtcFreq := Nat.mul_le_mul_right _ hn
  have hlt : n' * 2 ^ c.mtcFreq - n * 2 ^ c.mtcFreq < 2 ^ (c.mtcFreq + 8) := by
    rw [e1, Nat.pow_add, Nat.mul_comm]
    exact Nat.mul_lt_mul_of_pos_left (by omega) (Nat.two_pow_pos _)
  have hw : 2 ^ (c.mtcFreq + 8) ≤ 2 ^ 23 := Nat.pow_le_pow_right (by omega) (by have := hc.freq; omega)
  have hd := ctcDelta_spec hf hle hlt
  have hfc := ctcFc_spec (c := c) hc (d := n' * 2 ^ c.mtcFreq - n * 2 ^ c.mtcFreq) (by omega)
  rw [e1] at hd hfc hlt
  have hP : (n' - n) * 2 ^ c.mtcFreq * c.ebx / c.eax < 2 ^ 55 := by
    refine Nat.lt_of_le_of_lt (Nat.div_le_self _ _) ?_
    calc (n' - n) * 2 ^ c.mtcFreq * c.ebx < 2 ^ 23 * 2 ^ 32 := Nat.mul_lt_mul'' (by omega) hc.ebx32
      _ = 2 ^ 55 := by decide
  have h56 : ¬ ((n' - n) * 2 ^ c.mtcFreq * c.ebx / c.eax / 2 ^ 56 ≠ 0) := by
    generalize (n' - n) * 2 ^ c.mtcFreq * c.ebx / c.eax = P at *
    omega
  have hm : (n' - n) * 2 ^ c.mtcFreq * c.ebx / c.eax * 2 ^ 8 % 2 ^ 64 =
      (n' - n) * 2 ^ c.mtcFreq * c.ebx / c.eax * 2 ^ 8 := by
    generalize (n' - n) * 2 ^ c.mtcFreq * c.ebx / c.eax = P at *
    omega
  refine ⟨_, ?_, setFcr_getFcr { k with checkSkl168 := false, haveMtc := true, cycMtc := 0, ctc := n' * 2 ^ c.mtcFreq % 2 ^ (c.mtcFreq + 8), lostMtc := 0 } _⟩
  rw [Tcal.updateMtc, shl32_mtc (Nat.mod_lt _ (by omega)) hf]
  simp only [h1, h3, mtc_ctc, Bool.true_eq_false, if_false, if_neg h2, hd, hfc, h4, Bool.false_eq_true,
    h56, hm]
  rfl

theorem incs_pos {F : Nat} (hF : 0 < F) {ws : List Nat} (h : ∃ w ∈ ws, 256 ≤ w) : 0 < (incs F ws).sum := by
  induction ws with
  | nil => obtain ⟨w, hw, _⟩ := h; cases hw
  | cons x ws ih =>
    obtain ⟨w, hw, h⟩ := h
    simp only [incs, List.map_cons, List.sum_cons]
    rcases List.mem_cons.1 hw with rfl | hw
    · have : 256 * 1 ≤ w * F := Nat.mul_le_mul h hF
      omega
    · have := ih ⟨w, hw, h⟩
      simp only [incs] at this
      omega

theorem incs_le {F : Nat} (ws : List Nat) : (incs F ws).sum ≤ ws.sum * F := by
  induction ws with
  | nil => simp [incs]
  | cons x ws ih =>
    simp only [incs, List.map_cons, List.sum_cons, Nat.add_mul] at *
    omega

theorem mem_le_sum {ws : List Nat} {w : Nat} (h : w ∈ ws) : w ≤ ws.sum := by
  induction ws with
  | nil => cases h
  | cons x ws ih =>
    simp only [List.sum_cons]
    rcases List.mem_cons.1 h with rfl | h
    · omega
    · have := ih h; omega

end Ipt

namespace Ipt.Spec

/-- Crystal clock ticks in units of the TSC, truncated. -/
def units (c : TimeCfg) (ticks : Nat) : Nat := ticks * c.ebx / c.eax

end Ipt.Spec

namespace Ipt.Props
open Ipt Spec

/-- C80: calibration with MTC packets.  Between the MTC packets for the counts `n` and `n'`, the
CYC packets `ws` tell how many processor cycles were done in that time.  From then on, the time
advances with CYC packets at that rate.  The trace before that is as in `C20_mtc_run`, with CYC
packets and a TMA packet that has a fast counter value. -/
theorem C80_cycles_at_mtc_rate (c : TimeCfg) (hc : ValidClock c) (hn : 0 < c.nomFreq)
    (hn2 : c.nomFreq < 2 ^ 8) (s : Timing)
    (r v x fc n n' : Nat) (hr : 0 < r) (hr2 : r < 2 ^ 8) (hv : v < 2 ^ 56) (hfc : 0 < fc) (hfc2 : fc < 2 ^ 9)
    (hx : x ≤ n * 2 ^ c.mtcFreq) (hd1 : n * 2 ^ c.mtcFreq - x < 2 ^ (c.mtcFreq + 8))
    (hd2 : n * 2 ^ c.mtcFreq - x < 2 ^ 16) (hnn : n ≤ n') (hnn2 : n' < n + 256)
    (ws : List Nat) (hw : ∃ w ∈ ws, 256 ≤ w) (hsum : ws.sum < 2 ^ 48)
    (hrate : ws.sum ≤ 256 * units c ((n' - n) * 2 ^ c.mtcFreq))
    (ws' : List Nat) (hw' : ∀ w ∈ ws', w * (256 * units c ((n' - n) * 2 ^ c.mtcFreq)) < 2 ^ 64) :
    ∃ ds, ds.length = ws'.length ∧
      (∀ p ∈ ws'.zip ds, Ticks (units c ((n' - n) * 2 ^ c.mtcFreq)) ws.sum p.1 p.2) ∧
      ∀ k, ∃ s', s.applyAll c ([.cbr r, .tsc v, .tma (x % 2 ^ 16) fc, .mtc (n % 256)] ++ cycPackets ws ++
          [.mtc (n' % 256)] ++ cycPackets (ws'.take k)) = (s', .ok ()) ∧
        s'.time.queryTsc = .ok ((v + (2 ^ 64 - fc) + units c (n * 2 ^ c.mtcFreq - x) +
          units c ((n' - n) * 2 ^ c.mtcFreq) + (ds.take k).sum) % 2 ^ 64, 0, 0) := by
  have hN : 0 < ws.sum := by
    obtain ⟨w, h, h2⟩ := hw
    have := mem_le_sum h
    omega
  simp only [units] at *
  refine ⟨incs ((n' - n) * 2 ^ c.mtcFreq * c.ebx / c.eax * 2 ^ 8 / ws.sum) ws', by simp [incs], incs_ticks hN ws', fun j => ?_⟩
  have hf : c.mtcFreq < 24 := by have := hc.freq; omega
  -- CBR, TSC, TMA
  let t0 := (s.time.updateCbr r).1
  let t2 := ((t0.updateTsc v).updateTma (x % 2 ^ 16) fc c).1
  have e2 : (t0.updateTsc v).updateTma (x % 2 ^ 16) fc c = (t2, .ok ()) := by
    simp [t2, Time.updateTma, Time.updateTsc, shl1_ok (show c.mtcFreq + 8 < 32 by omega)]
  have ⟨a2, f2⟩ : AfterTma c t2 v x fc ∧ t2.fc = fc := by
    have et : t2 = ((t0.updateTsc v).updateTma (x % 2 ^ 16) fc c).1 := rfl
    have h16 : (c.mtcFreq + 8 ≤ 16) = (c.mtcFreq ≤ 8) := by simp
    by_cases h8 : c.mtcFreq ≤ 8 <;>
    simp only [Time.updateTma, Time.updateTsc, shl1_ok (show c.mtcFreq + 8 < 32 by omega),
      Bool.true_eq_false, if_false, h16, h8, if_true, Bool.false_eq_true] at et <;>
    rw [et] <;> exact ⟨⟨rfl, rfl, by simp [h8], rfl, rfl, rfl, rfl⟩, by simp only; omega⟩
  let k2 : Tcal := (Tcal.setFcr {} (c.nomFreq * 2 ^ 8 / r)).updateTsc v
  let s2 : Timing := ⟨t2, k2⟩
  -- the first MTC
  obtain ⟨t3, u1, u2, u3, u4, u5, u6, u7⟩ := updateMtc_first hc a2 hx hd1 hd2
  have u8 := updateMtc_cyc c hf t2 (n % 256) (by rw [a2.tma]; simp)
  rw [u1] at u8
  have u9 : t3.ctcCyc = t3.ctc := u8.2 (.inl (by rw [f2]; omega))
  have u10 : t3.fc = 0 := u8.1
  let k3 : Tcal := { k2 with checkSkl168 := false, cycMtc := 0, ctc := n * 2 ^ c.mtcFreq % 2 ^ (c.mtcFreq + 8), haveMtc := true }
  have hk3 : k2.updateMtc (n % 256) c = (k3, .ok ()) := by
    rw [Tcal.updateMtc, shl32_mtc (Nat.mod_lt _ (by omega)) hf]
    simp only [mtc_ctc]
    rw [if_pos (show k2.haveMtc = false from rfl)]
  let s3 : Timing := ⟨t3, k3⟩
  have hs3 : s.applyAll c [.cbr r, .tsc v, .tma (x % 2 ^ 16) fc, .mtc (n % 256)] = (s3, .ok ()) := by
    simp only [Timing.applyAll, Timing.apply, Tcal.updateCbr, headerCbr_eq hn hr, updateCbr_eq hr, Timing.both,
      okBadConfig]
    have e3 : t0 = { s.time with haveCbr := true, cbr := r } := by simp only [t0, updateCbr_eq hr]
    rw [← e3]
    simp only [e2]
    have e4 : (Tcal.setFcr {} (c.nomFreq * 2 ^ 8 / r)).updateTsc v = k2 := rfl
    simp only [e4, hk3, u1, s3]
  -- the cycles to calibrate with
  have hk3f : s3.tcal.getFcr = .ok (c.nomFreq * 2 ^ 8 / r) := setFcr_getFcr {} _
  obtain ⟨s4, i1, i2, i3, i4⟩ := cyc_run c (rate_pos hn hr hr2) ws s3 hk3f u9.symm
    (by show t3.tsc = _; rw [u10, u4, u3]; simp) (by show t3.fc < _; rw [u10]; decide)
    (fun w h => mul_rate hn2 (by have := mem_le_sum h; omega))
  have i5 := i4 (by show 0 < 2 ^ 64; decide)
  have i6 : s4.tcal.cycMtc = ws.sum := by
    rw [i5]; show (0 + ws.sum) % 2 ^ 64 = _; omega
  -- the second MTC
  have hpos := incs_pos (rate_pos hn hr hr2) hw
  have hmax : (incs (c.nomFreq * 2 ^ 8 / r) ws).sum < 2 ^ 64 :=
    Nat.lt_of_le_of_lt (incs_le ws) (mul_rate hn2 hsum)
  have hfc4 : s4.time.fc ≠ 0 := by
    rw [i2]; simp only [s3, u10]; omega
  have htick : Ticking c s4.time (n * 2 ^ c.mtcFreq) := by
    rw [i2]; exact ⟨u2.mtc, u2.tma, u2.ctc⟩
  have e1 : n' * 2 ^ c.mtcFreq - n * 2 ^ c.mtcFreq = (n' - n) * 2 ^ c.mtcFreq := by rw [Nat.sub_mul]
  have hle : n * 2 ^ c.mtcFreq ≤ n' * 2 ^ c.mtcFreq := Nat.mul_le_mul_right _ hnn
  have hlt : n' * 2 ^ c.mtcFreq - n * 2 ^ c.mtcFreq < 2 ^ (c.mtcFreq + 8) := by
    rw [e1, Nat.pow_add, Nat.mul_comm]
    exact Nat.mul_lt_mul_of_pos_left (by omega) (Nat.two_pow_pos _)
  obtain ⟨t5, w1, w2, w3, w4, w5, w6, w7⟩ := updateMtc_tick hc htick hle hlt
  have w8 := updateMtc_cyc c hf s4.time (n' % 256) (by
    rintro ⟨a, b⟩; rw [htick.tma a] at b; cases b)
  rw [w1] at w8
  have w9 : t5.ctcCyc = t5.ctc := w8.2 (.inl hfc4)
  have w10 : t5.fc = 0 := w8.1
  obtain ⟨k5, x1, x2⟩ := tcal_mtc_rate (k := s4.tcal) hc (n := n) (n' := n') (by rw [i3]) (by omega)
    (by rw [i3]) (by rw [i3]) hnn hnn2
  rw [i6] at x2
  have hs5 : s4.apply c (.mtc (n' % 256)) = (⟨t5, k5⟩, .ok ()) := by
    rw [Timing.apply, both_ok (by rw [x1]; rfl), w1, x1]; rfl
  -- the cycles after that
  rw [e1] at w3
  generalize hP : (n' - n) * 2 ^ c.mtcFreq * c.ebx / c.eax = P at *
  obtain ⟨s6, j1, j2, -, -⟩ := cyc_run c (F := P * 2 ^ 8 / ws.sum) (Nat.div_pos (by omega) hN) (ws'.take j) ⟨t5, k5⟩ x2 w9.symm
    (by show t5.tsc = (t5.base + t5.fc) % 2 ^ 64; rw [w10, w4, w3]; simp) (by show t5.fc < _; rw [w10]; decide)
    (fun w h => by
      have a := hw' w (List.mem_of_mem_take h)
      have b : w * (P * 2 ^ 8 / ws.sum) ≤ w * (256 * P) :=
        Nat.mul_le_mul_left _ (by have := Nat.div_le_self (P * 2 ^ 8) ws.sum; omega)
      omega)
  refine ⟨s6, ?_, ?_⟩
  · rw [List.append_assoc, List.append_assoc, applyAll_append c s s3 _ _ hs3, applyAll_append c s3 s4 _ _ i1]
    simp only [List.singleton_append, Timing.applyAll, hs5]
    exact j1
  · rw [← incs_take]
    have q1 : t5.haveTsc = true := by
      rw [w7, i2]; show t3.haveTsc = true; rw [u7]; exact a2.tsc
    have q2 : t5.lostMtc = 0 := by
      rw [w5, i2]; show t3.lostMtc = 0; rw [u5]; exact a2.lostMtc
    have q3 : s4.time.base = t3.base := by rw [i2]
    rw [q3, u3, a2.base] at w3
    simp only [j2, Time.queryTsc, q1, q2, w6, w10, w3, subMod, Bool.true_eq_false, if_false, Res.ok.injEq,
      Prod.mk.injEq, and_true]
    omega

example : (Timing.applyAll ⟨2, 84, 3, 24, false⟩ {} ([.cbr 30, .tsc 1000000, .tma (0 % 2 ^ 16) 5, .mtc (1 % 256)] ++
      cycPackets [300, 500] ++ [.mtc (3 % 256)] ++ cycPackets [400])).1.time.queryTsc =
      .ok (1000000 - 5 + units ⟨2, 84, 3, 24, false⟩ 8 + 672 + 335, 0, 0) ∧
    units ⟨2, 84, 3, 24, false⟩ ((3 - 1) * 2 ^ 3) = 672 ∧ Ticks 672 ([300, 500] : List Nat).sum 400 335 := by
  refine ⟨by decide +kernel, by decide, by simp [Ticks]⟩

/-- C80: with that calibration the estimate doesn't run ahead of the next MTC packet if the
processor does no more cycles until then than in the period before. -/
theorem C80_not_ahead_of_mtc (units N : Nat) (hN : 0 < N) (ws ds : List Nat) (hl : ds.length = ws.length)
    (h : ∀ p ∈ ws.zip ds, Ticks units N p.1 p.2) (hle : ws.sum ≤ N) : ds.sum ≤ units := by
  have h1 := (C80_never_fast units N ws ds hl h).1
  have h2 : ws.sum * units ≤ N * units := Nat.mul_le_mul_right _ hle
  rw [Nat.mul_comm N] at h2
  exact Nat.le_of_mul_le_mul_right (Nat.le_trans h1 h2) hN

example : Ticks 672 800 400 335 ∧ Ticks 672 800 300 251 ∧ 335 + 251 ≤ 672 := by
  refine ⟨by simp [Ticks], by simp [Ticks], by decide⟩

/-- C80 for TSC packets without a TMA packet.  What is missing are traces with TMA or MTC packets
earlier in the trace, for which it is false: `C80_cycles_dropped_without_tma`. -/
theorem C80_cycles_without_tma_partial (c : TimeCfg) (hn : 0 < c.nomFreq)
    (hn2 : c.nomFreq < 2 ^ 8) (pre : List TimePkt) (hpre : ∀ p ∈ pre, (∀ a b, p ≠ .tma a b) ∧ ∀ n, p ≠ .mtc n)
    (r v : Nat) (hr : 0 < r) (hr2 : r < 2 ^ 8)
    (hv : v < 2 ^ 56) (ws : List Nat) (hw : ∀ w ∈ ws, w < 2 ^ 48) :
    ∃ ds, ds.length = ws.length ∧ (∀ p ∈ ws.zip ds, Ticks c.nomFreq r p.1 p.2) ∧
      ∀ k, ∃ s', (Timing.applyAll c {} pre).1.applyAll c (.cbr r :: .tsc v :: cycPackets (ws.take k)) = (s', .ok ()) ∧
        s'.time.queryTsc = .ok ((v + (ds.take k).sum) % 2 ^ 64, 0, 0) := by
  refine ⟨incs (c.nomFreq * 2 ^ 8 / r) ws, by simp [incs], incs_ticks hr ws, fun k => ?_⟩
  have h0 : (Timing.applyAll c {} pre).1.time.ctcCyc = 0 := by
    refine applyAll_time_inv c (fun t => t.ctcCyc = 0) (fun p => (∀ a b, p ≠ .tma a b) ∧ ∀ n, p ≠ .mtc n) ?_ pre {} hpre rfl
    intro s p hp hs
    have hc : ∀ r, (s.time.updateCbr r).1.ctcCyc = 0 := by
      intro r; unfold Time.updateCbr; split <;> exact hs
    cases p with
    | tma a b => exact absurd rfl (hp.1 a b)
    | mtc n => exact absurd rfl (hp.2 n)
    | tsc v => exact hs
    | hTsc v =>
      simp only [Timing.apply]
      rcases both_time (x := s.tcal.headerTsc v) (t := s.time) (f := (s.time.updateTsc v, .ok ())) with h | h <;> rw [h] <;> exact hs
    | cbr r =>
      simp only [Timing.apply]
      rcases both_time (x := s.tcal.updateCbr r c) (t := s.time) (f := s.time.updateCbr r) with h | h <;> rw [h]
      · exact hs
      · exact hc r
    | hCbr r =>
      simp only [Timing.apply]
      rcases both_time (x := s.tcal.headerCbr r c) (t := s.time) (f := s.time.updateCbr r) with h | h <;> rw [h]
      · exact hs
      · exact hc r
    | cyc w =>
      simp only [Timing.apply]
      have h1 : ∀ F, (Timing.both (s.tcal.updateCyc w, .ok ()) s.time (s.time.updateCyc w c F)).1.time.ctcCyc = 0 := by
        intro F
        rcases both_time (x := (s.tcal.updateCyc w, .ok ())) (t := s.time) (f := s.time.updateCyc w c F) with h | h <;> rw [h]
        · exact hs
        · unfold Time.updateCyc
          repeat' first | exact hs | split
      exact h1 _
  generalize (Timing.applyAll c {} pre).1 = s at *
  let t0 := (s.time.updateCbr r).1
  let k1 : Tcal := (Tcal.setFcr {} (c.nomFreq * 2 ^ 8 / r)).updateTsc v
  let s1 : Timing := ⟨t0.updateTsc v, k1⟩
  have e2 : FreshTime s1.time v := by
    refine ⟨rfl, ?_, rfl, ?_, ?_, rfl, rfl⟩
    · simp only [s1, t0, updateCbr_eq hr, Time.updateTsc]; exact h0.symm
    · simp only [s1, Time.updateTsc]; omega
    · simp only [s1, Time.updateTsc]; decide
  have hk1 : s1.tcal.getFcr = .ok (c.nomFreq * 2 ^ 8 / r) := setFcr_getFcr {} _
  have hs : s.applyAll c [.cbr r, .tsc v] = (s1, .ok ()) := by
    simp only [Timing.applyAll, Timing.apply, Tcal.updateCbr, headerCbr_eq hn hr, updateCbr_eq hr, Timing.both,
      okBadConfig, s1, t0, k1]
  obtain ⟨s', i1, i2, -, -⟩ := cyc_run c (rate_pos hn hr hr2) (ws.take k) s1 hk1 e2.cyc e2.sum e2.fc
    (fun w h => mul_rate hn2 (hw w (List.mem_of_mem_take h)))
  refine ⟨s', (applyAll_append c s s1 _ _ hs).trans i1, ?_⟩
  rw [← incs_take]
  exact FreshTime.query e2 i2

example : (Timing.applyAll ⟨2, 84, 3, 24, false⟩ {} [.hTsc 5, .cyc 7, .cbr 30, .tsc 1000000, .cyc 1000, .cyc 50]).1.time.queryTsc =
    .ok (1000000 + 796 + 39, 0, 0) := by decide +kernel

/-- C80: without calibration the CYC packets can't be converted: the time stays at the TSC and
all CYC packets since then are reported as lost (modulo the 32-bit range of the counter).  There
is no calibration before the first CBR packet, or at all if the user doesn't give the maximal
non-turbo ratio, as long as there is no MTC packet and no second PSB+. -/
theorem C80_uncalibrated_lost (c : TimeCfg) (pre : List TimePkt) (v : Nat) (ws : List Nat)
    (hpre : ∀ p ∈ pre, (∃ x, p = .tsc x) ∨ (∃ a b, p = .tma a b) ∨ (∃ w, p = .cyc w) ∨
      (c.nomFreq = 0 ∧ ((∃ r, p = .cbr r) ∨ ∃ r, p = .hCbr r))) :
    ∃ s', (Timing.applyAll c {} pre).1.applyAll c (.tsc v :: cycPackets ws) = (s', .ok ()) ∧
      s'.time.queryTsc = .ok (v, 0, ws.length % 2 ^ 32) := by
  have hcal : ∀ (ps : List TimePkt) (s : Timing), (∀ p ∈ ps, (∃ x, p = .tsc x) ∨ (∃ a b, p = .tma a b) ∨ (∃ w, p = .cyc w) ∨
      (c.nomFreq = 0 ∧ ((∃ r, p = .cbr r) ∨ ∃ r, p = .hCbr r))) → s.tcal.haveFcr = false →
      (Timing.applyAll c s ps).1.tcal.haveFcr = false := by
    intro ps
    induction ps with
    | nil => intro s _ h; exact h
    | cons p ps ih =>
      intro s hp h
      have h1 : (s.apply c p).1.tcal.haveFcr = false := by
        rcases hp p (by simp) with ⟨x, rfl⟩ | ⟨a, b, rfl⟩ | ⟨w, rfl⟩ | ⟨hn, ⟨r, rfl⟩ | ⟨r, rfl⟩⟩ <;>
          simp only [Timing.apply, both_tcal]
        · exact h
        · exact h
        · exact h
        · simp only [Tcal.updateCbr, Tcal.headerCbr, if_pos hn]; decide
        · simp only [Tcal.headerCbr, if_pos hn]; exact h
      rw [Timing.applyAll]
      split
      · rename_i s' heq
        rw [heq] at h1
        exact ih s' (fun q hq => hp q (by simp [hq])) h1
      · rename_i s' r _ heq
        rw [heq] at h1
        exact h1
  have h0 := hcal pre {} hpre (by decide)
  generalize (Timing.applyAll c {} pre).1 = s at *
  have hrun : ∀ (ws : List Nat) (s : Timing), s.tcal.haveFcr = false → s.time.lostCyc < 2 ^ 32 →
      ∃ s', s.applyAll c (cycPackets ws) = (s', .ok ()) ∧
        s'.time = { s.time with lostCyc := (s.time.lostCyc + ws.length) % 2 ^ 32 } := by
    intro ws
    induction ws with
    | nil =>
      intro s _ h
      refine ⟨s, rfl, ?_⟩
      obtain ⟨t, k⟩ := s
      obtain ⟨⟩ := t
      simp only [List.length_nil, Nat.add_zero] at *
      rw [Nat.mod_eq_of_lt h]
    | cons w ws ih =>
      intro s h hl
      have hk : (s.tcal.updateCyc w).getFcr = .err .noTime := by
        have : (s.tcal.updateCyc w).haveFcr = false := h
        simp [Tcal.getFcr, this]
      have ha : s.apply c (.cyc w) = (⟨{ s.time with lostCyc := (s.time.lostCyc + 1) % 2 ^ 32 }, s.tcal.updateCyc w⟩, .ok ()) := by
        simp only [Timing.apply, hk, Time.updateCyc, if_true]
        rfl
      obtain ⟨s', i1, i2⟩ := ih ⟨{ s.time with lostCyc := (s.time.lostCyc + 1) % 2 ^ 32 }, s.tcal.updateCyc w⟩ h
        (Nat.mod_lt _ (by decide))
      refine ⟨s', ?_, ?_⟩
      · simp only [cycPackets, List.map_cons, Timing.applyAll, ha]
        exact i1
      · rw [i2]
        simp only [List.length_cons]
        congr 1
        omega
  obtain ⟨s', i1, i2⟩ := hrun ws ⟨s.time.updateTsc v, s.tcal.updateTsc v⟩ h0 (by simp [Time.updateTsc])
  refine ⟨s', ?_, ?_⟩
  · have b1 : s.apply c (.tsc v) = (⟨s.time.updateTsc v, s.tcal.updateTsc v⟩, .ok ()) := rfl
    simp only [Timing.applyAll, b1]
    exact i1
  · rw [i2]
    simp [Time.queryTsc, Time.updateTsc]

example : (Timing.applyAll ⟨0, 0, 3, 0, false⟩ {} [.cbr 30, .tsc 7, .cyc 3, .tsc 1000000, .cyc 1000, .cyc 50]).1.time.queryTsc =
    .ok (1000000, 0, 2) := by decide +kernel

/-- C80 fails for a TSC packet without a TMA packet if there was an MTC packet before: the
decoder takes the cycles after the TSC packet to include an MTC period that ended before it, so
they don't count. -/
theorem C80_cycles_dropped_without_tma :
    ∃ c ps, ValidClock c ∧ (∀ q ∈ ps, TimePkt.InRange q) ∧
      (Timing.applyAll c {} (ps ++ [.tsc 2000000])).1.time.queryTsc = .ok (2000000, 0, 0) ∧
      (Timing.applyAll c {} (ps ++ [.tsc 2000000, .cyc 10000])).2 = .ok () ∧
      (Timing.applyAll c {} (ps ++ [.tsc 2000000, .cyc 10000])).1.time.queryTsc = .ok (2000000, 0, 0) := by
  refine ⟨⟨2, 84, 3, 24, false⟩, [.cbr 24, .tsc 1000000, .tma 0 0, .cyc 100, .mtc 1], ?_⟩
  refine ⟨⟨by decide, by decide, by decide, by decide⟩, ?_, by decide +kernel, by decide +kernel, by decide +kernel⟩
  intro q hq
  simp only [List.mem_cons, List.not_mem_nil, or_false] at hq
  rcases hq with rfl | rfl | rfl | rfl | rfl <;> simp [TimePkt.InRange]

end Ipt.Props
