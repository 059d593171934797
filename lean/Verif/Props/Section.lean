import Verif.Section

/-!
# C27, C28: section reference counting and section reads
-/

namespace Ipt.Props

open Ipt

set_option linter.unusedSimpArgs false

/-- The operations on a section object.  `map` carries the outcome of opening and mapping the
file in case the section is not yet mapped. -/
inductive SecOp
  | get | put | attach (c : Nat) | detach (c : Nat) | map (fresh : Res Mapping) | mapShare | unmap
deriving DecidableEq

/-- One operation; any operation on a freed section is undefined. -/
def SecOp.step (s : Sect) (op : SecOp) : Sect × Res Unit :=
  if s.freed then (s, .ub)
  else match op with
    | .get => s.get
    | .put => s.put
    | .attach c => s.attach c
    | .detach c => s.detach c
    | .map m => s.map m
    | .mapShare => s.mapShare
    | .unmap => s.unmap

/-- Run a history; the log pairs each operation with its result. -/
def secRun (s : Sect) : List SecOp → Sect × List (SecOp × Res Unit)
  | [] => (s, [])
  | op :: ops =>
    let r := op.step s
    let q := secRun r.1 ops
    (q.1, (op, r.2) :: q.2)

/-- The number of successful operations of a kind. -/
def succs (p : SecOp → Bool) (log : List (SecOp × Res Unit)) : Nat :=
  (log.filter fun e => p e.1 && decide (e.2 = .ok ())).length

def SecOp.isGet : SecOp → Bool | .get => true | _ => false
def SecOp.isPut : SecOp → Bool | .put => true | _ => false
def SecOp.isAttach : SecOp → Bool | .attach _ => true | _ => false
def SecOp.isDetach : SecOp → Bool | .detach _ => true | _ => false
def SecOp.isMap : SecOp → Bool | .map _ => true | .mapShare => true | _ => false
def SecOp.isUnmap : SecOp → Bool | .unmap => true | _ => false

/-- The invariant of a section between operations. -/
structure SecInv (s : Sect) : Prop where
  uc : s.ucount < 2 ^ 16
  ac : s.acount < 2 ^ 16
  mc : s.mcount < 2 ^ 16
  freed : s.freed = true ↔ s.ucount = 0
  freedUnmapped : s.freed = true → s.mcount = 0
  mapped : s.mapping.isSome = true ↔ 0 < s.mcount
  attached : s.iscache.isSome = true ↔ 0 < s.acount

/-- The effect of one operation on the counters, given its result. -/
structure SecStep (s s' : Sect) (op : SecOp) (r : Res Unit) : Prop where
  u : s'.ucount + succs SecOp.isPut [(op, r)] = s.ucount + succs SecOp.isGet [(op, r)]
  a : s'.acount + succs SecOp.isDetach [(op, r)] = s.acount + succs SecOp.isAttach [(op, r)]
  m : s'.mcount + succs SecOp.isUnmap [(op, r)] = s.mcount + succs SecOp.isMap [(op, r)]

theorem sec_step {s : Sect} (h : SecInv s) (op : SecOp) :
    SecInv (op.step s).1 ∧ SecStep s (op.step s).1 op (op.step s).2 := by
  obtain ⟨h1, h2, h3, h4, h5, h6, h7⟩ := h
  obtain ⟨off, size, uc, ac, mc, isc, mp, fr⟩ := s
  simp only at h1 h2 h3 h4 h5 h6 h7
  unfold SecOp.step
  cases fr with
  | true =>
    refine ⟨⟨h1, h2, h3, h4, h5, h6, h7⟩, ⟨?_, ?_, ?_⟩⟩ <;> simp [succs]
  | false =>
    simp only [Bool.false_eq_true, if_false]
    have hu : uc ≠ 0 := fun h => by simpa using h4.mpr h
    cases op with
    | get =>
      simp only [Sect.get]
      split
      · exact ⟨⟨h1, h2, h3, h4, h5, h6, h7⟩, by constructor <;> simp [succs, SecOp.isPut, SecOp.isGet, SecOp.isAttach, SecOp.isDetach, SecOp.isMap, SecOp.isUnmap]⟩
      · refine ⟨⟨?_, h2, h3, ?_, h5, h6, h7⟩, by constructor <;> simp [succs, SecOp.isPut, SecOp.isGet, SecOp.isAttach, SecOp.isDetach, SecOp.isMap, SecOp.isUnmap]⟩
        · simp only; omega
        · simp
    | put =>
      simp only [Sect.put]
      split
      · refine ⟨⟨?_, h2, h3, ?_, h5, h6, h7⟩, ⟨?_, ?_, ?_⟩⟩
        · simp only; omega
        · simp only [Bool.false_eq_true, false_iff]; omega
        · simp [succs, SecOp.isPut, SecOp.isGet]; omega
        · simp [succs, SecOp.isAttach, SecOp.isDetach]
        · simp [succs, SecOp.isMap, SecOp.isUnmap]
      · split
        · exact ⟨⟨h1, h2, h3, h4, h5, h6, h7⟩, by constructor <;> simp [succs, SecOp.isPut, SecOp.isGet, SecOp.isAttach, SecOp.isDetach, SecOp.isMap, SecOp.isUnmap]⟩
        · refine ⟨⟨by simp, h2, h3, by simp, ?_, h6, h7⟩, ⟨?_, ?_, ?_⟩⟩
          · simp only; omega
          · simp [succs, SecOp.isPut, SecOp.isGet]; omega
          · simp [succs, SecOp.isAttach, SecOp.isDetach]
          · simp [succs, SecOp.isMap, SecOp.isUnmap]
    | attach c =>
      simp only [Sect.attach]
      repeat' with_reducible split
      all_goals first
        | exact ⟨⟨h1, h2, h3, h4, h5, h6, h7⟩, by constructor <;> simp [succs, SecOp.isPut, SecOp.isGet, SecOp.isAttach, SecOp.isDetach, SecOp.isMap, SecOp.isUnmap]⟩
        | (refine ⟨⟨h1, by simp only; omega, h3, h4, h5, h6, ?_⟩, ⟨?_, ?_, ?_⟩⟩
           · simp; try (rw [h7]; omega)
           · simp [succs, SecOp.isPut, SecOp.isGet]
           · simp [succs, SecOp.isAttach, SecOp.isDetach]; try omega
           · simp [succs, SecOp.isMap, SecOp.isUnmap])
    | detach c =>
      simp only [Sect.detach]
      repeat' with_reducible split
      all_goals first
        | exact ⟨⟨h1, h2, h3, h4, h5, h6, h7⟩, by constructor <;> simp [succs, SecOp.isPut, SecOp.isGet, SecOp.isAttach, SecOp.isDetach, SecOp.isMap, SecOp.isUnmap]⟩
        | (refine ⟨⟨h1, by simp only; omega, h3, h4, h5, h6, ?_⟩, ⟨?_, ?_, ?_⟩⟩
           · first
               | (rename_i hz; simp [hz]; done)
               | (show isc.isSome = true ↔ 0 < ac - 1; rw [h7]; constructor <;> intro <;> omega)
           · simp [succs, SecOp.isPut, SecOp.isGet]
           · simp [succs, SecOp.isAttach, SecOp.isDetach]; try omega
           · simp [succs, SecOp.isMap, SecOp.isUnmap])
    | map fresh =>
      simp only [Sect.map]
      split
      · simp only [Sect.mapSuccess]
        split
        · exact ⟨⟨h1, h2, h3, h4, h5, h6, h7⟩, by constructor <;> simp [succs, SecOp.isPut, SecOp.isGet, SecOp.isAttach, SecOp.isDetach, SecOp.isMap, SecOp.isUnmap]⟩
        · refine ⟨⟨h1, h2, by simp only; omega, h4, by simp, ?_, h7⟩, ⟨?_, ?_, ?_⟩⟩
          · simp only; rw [h6]; omega
          · simp [succs, SecOp.isPut, SecOp.isGet]
          · simp [succs, SecOp.isAttach, SecOp.isDetach]
          · simp [succs, SecOp.isMap, SecOp.isUnmap]
      · rename_i hm
        have hm0 : mc = 0 := by simpa using hm
        split
        · rename_i hs; have := h6.mp hs; omega
        · cases fresh with
          | ok m =>
            simp only [Sect.mapSuccess]
            split
            · rename_i hb; omega
            · refine ⟨⟨h1, h2, by simp only; omega, h4, by simp, by simp, h7⟩, ⟨?_, ?_, ?_⟩⟩
              · simp [succs, SecOp.isPut, SecOp.isGet]
              · simp [succs, SecOp.isAttach, SecOp.isDetach]
              · simp [succs, SecOp.isMap, SecOp.isUnmap]
          | err e => exact ⟨⟨h1, h2, h3, h4, h5, h6, h7⟩, by constructor <;> simp [succs, SecOp.isPut, SecOp.isGet, SecOp.isAttach, SecOp.isDetach, SecOp.isMap, SecOp.isUnmap]⟩
          | ub => exact ⟨⟨h1, h2, h3, h4, h5, h6, h7⟩, by constructor <;> simp [succs, SecOp.isPut, SecOp.isGet, SecOp.isAttach, SecOp.isDetach, SecOp.isMap, SecOp.isUnmap]⟩
    | mapShare =>
      simp only [Sect.mapShare]
      repeat' with_reducible split
      all_goals first
        | exact ⟨⟨h1, h2, h3, h4, h5, h6, h7⟩, by constructor <;> simp [succs, SecOp.isPut, SecOp.isGet, SecOp.isAttach, SecOp.isDetach, SecOp.isMap, SecOp.isUnmap]⟩
        | (refine ⟨⟨h1, h2, by simp only; omega, h4, by simp, ?_, h7⟩, ⟨?_, ?_, ?_⟩⟩
           · simp only; rw [h6]; omega
           · simp [succs, SecOp.isPut, SecOp.isGet]
           · simp [succs, SecOp.isAttach, SecOp.isDetach]
           · simp [succs, SecOp.isMap, SecOp.isUnmap])
    | unmap =>
      simp only [Sect.unmap]
      split
      · exact ⟨⟨h1, h2, h3, h4, h5, h6, h7⟩, by constructor <;> simp [succs, SecOp.isPut, SecOp.isGet, SecOp.isAttach, SecOp.isDetach, SecOp.isMap, SecOp.isUnmap]⟩
      · split
        · refine ⟨⟨h1, h2, by simp only; omega, h4, by simp, ?_, h7⟩, ⟨?_, ?_, ?_⟩⟩
          · simp only; rw [h6]; omega
          · simp [succs, SecOp.isPut, SecOp.isGet]
          · simp [succs, SecOp.isAttach, SecOp.isDetach]
          · simp [succs, SecOp.isMap, SecOp.isUnmap]; omega
        · split
          · rename_i hs
            have : mp.isSome = true := h6.mpr (by omega)
            simp only [Option.isNone_iff_eq_none] at hs
            rw [hs] at this; cases this
          · refine ⟨⟨h1, h2, by simp, h4, by simp, by simp, h7⟩, ⟨?_, ?_, ?_⟩⟩
            · simp [succs, SecOp.isPut, SecOp.isGet]
            · simp [succs, SecOp.isAttach, SecOp.isDetach]
            · simp [succs, SecOp.isMap, SecOp.isUnmap]; omega

theorem succs_cons (p : SecOp → Bool) (e : SecOp × Res Unit) (l : List (SecOp × Res Unit)) :
    succs p (e :: l) = succs p [e] + succs p l := by
  unfold succs
  by_cases h : (p e.1 && decide (e.2 = .ok ())) = true
  · rw [List.filter_cons, List.filter_cons, if_pos h, if_pos h]; simp; omega
  · rw [List.filter_cons, List.filter_cons, if_neg h, if_neg h]; simp

theorem sec_run {s : Sect} (h : SecInv s) (ops : List SecOp) :
    SecInv (secRun s ops).1 ∧
    (secRun s ops).1.ucount + succs SecOp.isPut (secRun s ops).2 = s.ucount + succs SecOp.isGet (secRun s ops).2 ∧
    (secRun s ops).1.acount + succs SecOp.isDetach (secRun s ops).2 = s.acount + succs SecOp.isAttach (secRun s ops).2 ∧
    (secRun s ops).1.mcount + succs SecOp.isUnmap (secRun s ops).2 = s.mcount + succs SecOp.isMap (secRun s ops).2 := by
  induction ops generalizing s with
  | nil => exact ⟨h, rfl, rfl, rfl⟩
  | cons op ops ih =>
    have ⟨h1, ⟨u, a, m⟩⟩ := sec_step h op
    have ⟨g1, gu, ga, gm⟩ := ih h1
    simp only [secRun]
    refine ⟨g1, ?_, ?_, ?_⟩
    · rw [succs_cons, succs_cons SecOp.isGet]; omega
    · rw [succs_cons, succs_cons SecOp.isAttach]; omega
    · rw [succs_cons, succs_cons SecOp.isMap]; omega

theorem mk_inv {fsize offset size : Nat} {s : Sect} (h : mkSection fsize offset size = .ok s) :
    SecInv s ∧ s.ucount = 1 ∧ s.acount = 0 ∧ s.mcount = 0 := by
  unfold mkSection at h
  split at h
  · cases h
  · simp only [Res.ok.injEq] at h; subst h
    exact ⟨⟨by simp, by simp, by simp, by simp, by simp, by simp, by simp⟩, rfl, rfl, rfl⟩

/-- C27: after any history of operations on a new section
* the use count is one plus the references taken minus the references dropped, the attach count is
  the attaches minus the detaches, the map count the maps minus the unmaps, and none exceeds 16
  bits (so no count ever wrapped);
* the section has been freed exactly when all references have been dropped, and then it is not
  mapped. -/
theorem C27_section_counts (fsize offset size : Nat) (s0 : Sect) (h0 : mkSection fsize offset size = .ok s0)
    (ops : List SecOp) (s : Sect) (log : List (SecOp × Res Unit)) (hr : secRun s0 ops = (s, log)) :
    s.ucount + succs SecOp.isPut log = 1 + succs SecOp.isGet log ∧
    s.acount + succs SecOp.isDetach log = succs SecOp.isAttach log ∧
    s.mcount + succs SecOp.isUnmap log = succs SecOp.isMap log ∧
    s.ucount ≤ 65535 ∧ s.acount ≤ 65535 ∧ s.mcount ≤ 65535 ∧
    (s.freed = true ↔ succs SecOp.isPut log = 1 + succs SecOp.isGet log) ∧
    (s.freed = true → succs SecOp.isUnmap log = succs SecOp.isMap log ∧ s.mapping = none) ∧
    (s.mapping.isSome = true ↔ succs SecOp.isUnmap log < succs SecOp.isMap log) := by
  have ⟨hi, hu, ha, hm⟩ := mk_inv h0
  have ⟨g1, gu, ga, gm⟩ := sec_run hi ops
  rw [hr] at g1 gu ga gm
  obtain ⟨h1, h2, h3, h4, h5, h6, h7⟩ := g1
  simp only at *
  refine ⟨by omega, by omega, by omega, by omega, by omega, by omega, ?_, ?_, ?_⟩
  · rw [h4]; omega
  · intro hf
    have := h5 hf
    refine ⟨by omega, ?_⟩
    cases hmp : s.mapping with
    | none => rfl
    | some m => rw [hmp] at h6; have := h6.mp rfl; omega
  · rw [h6]; omega

/-- C27, overflow and misuse: an operation that would overflow a count fails with `-pte_overflow`,
and dropping the last reference of a section that is still mapped fails with `-pte_internal`;
failing operations change nothing. -/
theorem C27_section_refusals (fsize offset size : Nat) (s0 : Sect) (h0 : mkSection fsize offset size = .ok s0)
    (ops : List SecOp) (s : Sect) (hs : s = (secRun s0 ops).1) (ha : s.freed = false) :
    (s.ucount = 65535 → SecOp.get.step s = (s, .err .overflow)) ∧
    (s.mcount = 65535 → ∀ m, (SecOp.map m).step s = (s, .err .overflow)) ∧
    (s.mcount = 65535 → SecOp.mapShare.step s = (s, .err .overflow)) ∧
    (∀ c, s.acount = 65535 → (SecOp.attach c).step s = (s, .err .overflow)) ∧
    (s.ucount = 1 → 0 < s.mcount → SecOp.put.step s = (s, .err .internal)) ∧
    (s.mcount = 0 → SecOp.unmap.step s = (s, .err .nomap)) ∧
    (∀ (op : SecOp) e, (op.step s).2 = .err e → (op.step s).1 = s) := by
  have ⟨hi, _⟩ := mk_inv h0
  have ⟨g1, _⟩ := sec_run hi ops
  rw [← hs] at g1
  obtain ⟨h1, h2, h3, h4, h5, h6, h7⟩ := g1
  have hu : s.ucount ≠ 0 := fun h => by rw [h4.mpr h] at ha; cases ha
  refine ⟨?_, ?_, ?_, ?_, ?_, ?_, ?_⟩
  · intro h; simp [SecOp.step, ha, Sect.get, h]
  · intro h m; simp [SecOp.step, ha, Sect.map, Sect.mapSuccess, h]
  · intro h; simp [SecOp.step, ha, Sect.mapShare, h]
  · intro c h; simp [SecOp.step, ha, Sect.attach, h]
  · intro h hm; simp [SecOp.step, ha, Sect.put, h]; omega
  · intro h; simp [SecOp.step, ha, Sect.unmap, h]
  · intro op e
    unfold SecOp.step
    rw [ha]
    simp only [Bool.false_eq_true, if_false]
    cases op with
    | get => simp only [Sect.get]; repeat' with_reducible split
             all_goals simp
    | put => simp only [Sect.put]; repeat' with_reducible split
             all_goals simp
    | attach c => simp only [Sect.attach]; repeat' with_reducible split
                  all_goals simp
    | detach c => simp only [Sect.detach]; repeat' with_reducible split
                  all_goals simp
    | map m =>
      simp only [Sect.map, Sect.mapSuccess]
      split
      · split <;> simp
      · split
        · simp
        · cases m with
          | ok m => simp only; split
                    · rename_i hb; simp at hb; omega
                    · simp
          | err e => simp
          | ub => simp
    | mapShare => simp only [Sect.mapShare]; repeat' with_reducible split
                  all_goals simp
    | unmap =>
      simp only [Sect.unmap]
      split
      · simp
      · split
        · simp
        · split
          · rename_i hs
            have : s.mapping.isSome = true := h6.mpr (by omega)
            simp only [Option.isNone_iff_eq_none] at hs
            rw [hs] at this; cases this
          · simp

/-- Every `put` in the history drops a reference that does not back an attachment: whoever attaches
the section to a cache holds a reference until it detaches again. -/
def Disciplined (s : Sect) : List SecOp → Prop
  | [] => True
  | op :: ops => (op = .put → s.acount < s.ucount) ∧ Disciplined (op.step s).1 ops

/-- C27, attachment: if attachments are backed by references, the section is not attached to a cache
when it is freed. -/
theorem C27_not_freed_while_attached (fsize offset size : Nat) (s0 : Sect)
    (h0 : mkSection fsize offset size = .ok s0) (ops : List SecOp) (hd : Disciplined s0 ops)
    (hf : (secRun s0 ops).1.freed = true) :
    (secRun s0 ops).1.acount = 0 ∧ (secRun s0 ops).1.iscache = none := by
  have ⟨hi, hu, ha, _⟩ := mk_inv h0
  have key : ∀ (ops : List SecOp) (s : Sect), SecInv s → s.acount ≤ s.ucount → Disciplined s ops →
      (secRun s ops).1.acount ≤ (secRun s ops).1.ucount := by
    intro ops
    induction ops with
    | nil => intro s _ h _; exact h
    | cons op ops ih =>
      intro s hi hau hd
      have ⟨h1, ⟨u, a, m⟩⟩ := sec_step hi op
      refine ih _ h1 ?_ hd.2
      by_cases hfr : s.freed = true
      · simp [SecOp.step, hfr, hau]
      · cases op with
        | get => simp [SecOp.step, hfr, Sect.get]; split <;> simp <;> omega
        | put =>
          have := hd.1 rfl
          simp [SecOp.step, hfr, Sect.put]
          repeat' split
          all_goals simp
          all_goals omega
        | attach c =>
          have hu : s.ucount ≠ 0 := fun h => hfr (hi.freed.mpr h)
          simp [SecOp.step, hfr, Sect.attach]
          repeat' split
          all_goals simp
          all_goals omega
        | detach c =>
          simp [SecOp.step, hfr, Sect.detach]
          repeat' split
          all_goals simp
          all_goals omega
        | map fresh =>
          simp [SecOp.step, hfr, Sect.map, Sect.mapSuccess]
          repeat' split
          all_goals simp
          all_goals omega
        | mapShare =>
          simp [SecOp.step, hfr, Sect.mapShare]
          repeat' split
          all_goals simp
          all_goals omega
        | unmap =>
          simp [SecOp.step, hfr, Sect.unmap]
          repeat' split
          all_goals simp
          all_goals omega
  have hle := key ops s0 hi (by omega) hd
  have ⟨g, _⟩ := sec_run hi ops
  have hz := g.freed.mp hf
  have hac : (secRun s0 ops).1.acount = 0 := by omega
  refine ⟨hac, ?_⟩
  cases hc : (secRun s0 ops).1.iscache with
  | none => rfl
  | some c => have := g.attached.mp (by rw [hc]; rfl); omega

/-- Without that discipline the section can be freed while it is attached: `pt_section_put` does not
look at the attach count. -/
theorem C27_undisciplined_put_frees_attached : ∃ s0 ops, mkSection 0x1000 0 0x1000 = .ok s0 ∧
    (secRun s0 ops).1.freed = true ∧ (secRun s0 ops).1.acount = 1 :=
  ⟨{ offset := 0, size := 0x1000 }, [.attach 1, .put], by decide +kernel, by decide +kernel, by decide +kernel⟩

/-! A history that shares, maps, attaches and releases a section. -/
example : ∃ s0, mkSection 0x1000 0x10 0x2000 = .ok s0 ∧
    let ops : List SecOp := [.get, .attach 1, .map (.ok (.posix 0 0x10 0x1000)), .mapShare, .put, .unmap, .get,
      .unmap, .put, .detach 1, .put]
    Disciplined s0 ops ∧ (secRun s0 ops).1.freed = true :=
  ⟨{ offset := 0x10, size := 0xff0 }, by decide +kernel, by
    refine ⟨?_, by decide +kernel⟩
    simp [Disciplined, SecOp.step, Sect.get, Sect.put, Sect.attach, Sect.detach, Sect.map, Sect.mapSuccess,
      Sect.mapShare, Sect.unmap]⟩

/-! ## C28 -/

/-- C28, creation: a section is created iff its offset lies within the file, and it is truncated to
the file. -/
theorem C28_mk_section (fsize offset size : Nat) :
    (fsize ≤ offset → mkSection fsize offset size = .err .invalid) ∧
    (offset < fsize → ∃ s, mkSection fsize offset size = .ok s ∧ s.offset = offset ∧
      s.size = min size (fsize - offset)) := by
  unfold mkSection
  refine ⟨fun h => by rw [if_pos h], fun h => ?_⟩
  rw [if_neg (by omega)]
  refine ⟨_, rfl, rfl, ?_⟩
  simp only
  split <;> omega

/-- The offset, size and mapping of a section that was created from file `f` and went through
any history. -/
structure FileInv (f : List UInt8) (offset size : Nat) (s : Sect) : Prop where
  off : s.offset = offset
  size : s.size = min size (f.length - offset)
  mapping : ∀ m, s.mapping = some m → ∃ page op ok1 ok2 s', 0 < page ∧ s'.offset = s.offset ∧ s'.size = s.size ∧
    freshMap f.length page op ok1 ok2 s' = .ok m

/-- The mapping attempts in a history use the modelled mapping functions on the section's own file
and range. -/
def MapsFile (f : List UInt8) (offset size : Nat) (op : SecOp) : Prop :=
  ∀ m, op = .map (.ok m) → ∃ page op ok1 ok2 s', 0 < page ∧ s'.offset = offset ∧
    s'.size = min size (f.length - offset) ∧ freshMap f.length page op ok1 ok2 s' = .ok m

theorem fileInv_step {f : List UInt8} {offset size : Nat} {s : Sect} (h : FileInv f offset size s) (op : SecOp)
    (hop : MapsFile f offset size op) : FileInv f offset size (op.step s).1 := by
  have hcopy : ∀ s' : Sect, s'.offset = s.offset → s'.size = s.size → (s'.mapping = s.mapping ∨ s'.mapping = none) →
      FileInv f offset size s' := by
    intro s' h1 h2 h3
    refine ⟨h1.trans h.off, h2.trans h.size, ?_⟩
    intro m hm
    rcases h3 with h3 | h3
    · rw [h3] at hm
      obtain ⟨page, op, ok1, ok2, t, a, b, c, d⟩ := h.mapping m hm
      exact ⟨page, op, ok1, ok2, t, a, by rw [b, h1], by rw [c, h2], d⟩
    · rw [h3] at hm; cases hm
  unfold SecOp.step
  by_cases hfr : s.freed = true
  · simp only [hfr, if_true]; exact h
  · simp only [hfr, Bool.false_eq_true, if_false]
    cases op with
    | get => simp only [Sect.get]; repeat' with_reducible split
             all_goals exact hcopy _ rfl rfl (.inl rfl)
    | put => simp only [Sect.put]; repeat' with_reducible split
             all_goals exact hcopy _ rfl rfl (.inl rfl)
    | attach c => simp only [Sect.attach]; repeat' with_reducible split
                  all_goals exact hcopy _ rfl rfl (.inl rfl)
    | detach c => simp only [Sect.detach]; repeat' with_reducible split
                  all_goals exact hcopy _ rfl rfl (.inl rfl)
    | mapShare => simp only [Sect.mapShare]; repeat' with_reducible split
                  all_goals exact hcopy _ rfl rfl (.inl rfl)
    | unmap => simp only [Sect.unmap]; repeat' with_reducible split
               all_goals first | exact hcopy _ rfl rfl (.inl rfl) | exact hcopy _ rfl rfl (.inr rfl)
    | map fresh =>
      simp only [Sect.map, Sect.mapSuccess]
      split
      · split
        · exact hcopy _ rfl rfl (.inl rfl)
        · exact hcopy _ rfl rfl (.inl rfl)
      · split
        · exact hcopy _ rfl rfl (.inl rfl)
        · cases fresh with
          | err e => exact hcopy _ rfl rfl (.inl rfl)
          | ub => exact hcopy _ rfl rfl (.inl rfl)
          | ok m =>
            have hm := hop m rfl
            have hnew : ∀ s' : Sect, s'.offset = s.offset → s'.size = s.size → s'.mapping = some m →
                FileInv f offset size s' := by
              intro s' h1 h2 h3
              refine ⟨h1.trans h.off, h2.trans h.size, ?_⟩
              intro m' hm'
              rw [h3] at hm'; cases hm'
              obtain ⟨page, op, ok1, ok2, t, a, b, c, d⟩ := hm
              exact ⟨page, op, ok1, ok2, t, a, by rw [b, h1, h.off], by rw [c, h2, h.size], d⟩
            simp only
            split
            · exact hnew _ rfl rfl rfl
            · exact hnew _ rfl rfl rfl

/-- C28: for every file (shorter than 2^63 bytes, the limit of `off_t`), every requested offset and
size, every page size, whichever of the mapping methods was used, after any history of operations
on the section: a read of up to 65535 bytes from the mapped section at section offset `roff`
returns exactly the file's bytes from `offset + roff`, truncated at the end of the section, and
fails with `-pte_nomap` at or beyond its end.  An unmapped section cannot be read. -/
theorem C28_section_read (f : List UInt8) (hf : f.length < 2 ^ 63) (offset size : Nat)
    (s0 : Sect) (h0 : mkSection f.length offset size = .ok s0) (ops : List SecOp)
    (hops : ∀ op ∈ ops, MapsFile f offset size op) (s : Sect) (hs : s = (secRun s0 ops).1)
    (rsize roff : Nat) (hr : rsize ≤ 65535) :
    (s.mapping = none → s.read f rsize roff = .err .nomap) ∧
    (s.mapping.isSome = true →
      s.read f rsize roff =
        if min size (f.length - offset) ≤ roff then .err .nomap
        else .ok ((f.drop (offset + roff)).take (min rsize (min size (f.length - offset) - roff)))) := by
  have hoff : offset < f.length := by
    unfold mkSection at h0
    split at h0
    · cases h0
    · omega
  have hinv : FileInv f offset size s := by
    have h : FileInv f offset size s0 := by
      obtain ⟨t, ht, h1, h2⟩ := (C28_mk_section f.length offset size).2 hoff
      rw [ht] at h0; cases h0
      refine ⟨h1, h2, ?_⟩
      intro m hm
      unfold mkSection at ht
      rw [if_neg (by omega)] at ht
      simp only [Res.ok.injEq] at ht
      subst ht; cases hm
    subst hs
    clear h0
    induction ops generalizing s0 with
    | nil => exact h
    | cons op ops ih =>
      exact ih _ (fun o ho => hops o (List.mem_cons_of_mem _ ho))
        (fileInv_step h op (hops op (List.mem_cons_self ..)))
  refine ⟨fun h => by unfold Sect.read; rw [h], fun hm => ?_⟩
  obtain ⟨ho, hsz, hmap⟩ := hinv
  unfold Sect.read
  cases hmp : s.mapping with
  | none => rw [hmp] at hm; cases hm
  | some m =>
    obtain ⟨page, op, ok1, ok2, t, hp, h1, h2, h3⟩ := hmap m hmp
    simp only
    rw [hsz]
    split
    · rfl
    · rename_i hlt
      generalize hE : min size (f.length - offset) = E at *
      have hEle : E ≤ f.length - offset := by omega
      have hn : (if E - roff < rsize then (E - roff) % 2 ^ 16 else rsize) = min rsize (E - roff) := by
        split <;> omega
      rw [hn]
      generalize hN : min rsize (E - roff) = N
      have hNle : N ≤ E - roff := by omega
      unfold freshMap at h3
      obtain ⟨_, _, h3⟩ := Res.bind_eq_ok.mp h3
      have hadj : t.offset % page < page := Nat.mod_lt _ hp
      have hadjle : t.offset % page ≤ t.offset := Nat.mod_le _ _
      rw [h1, ho] at hadjle
      have hto : t.offset = offset := h1.trans ho
      have hts : t.size = E := h2.trans hsz
      cases hpm : posixMap page ok1 t with
      | ok m' =>
        rw [hpm] at h3
        simp only [Res.ok.injEq] at h3; subst h3
        unfold posixMap at hpm
        simp only at hpm
        rw [hto, hts] at hpm
        split at hpm
        · cases hpm
        · split at hpm
          · cases hpm
          · split at hpm
            · cases hpm
            · simp only [Res.ok.injEq] at hpm
              subst hpm
              have hsize : (E + offset % page) % 2 ^ 64 = E + offset % page := by
                apply Nat.mod_eq_of_lt; omega
              rw [hsize]
              unfold Mapping.read
              simp only
              rw [if_pos (by constructor <;> omega)]
              have : offset - offset % page + offset % page + roff = offset + roff := by omega
              rw [this]
      | err e =>
        rw [hpm] at h3
        simp only at h3
        unfold fileMap at h3
        rw [hto, hts] at h3
        split at h3
        · cases h3
        · split at h3
          · cases h3
          · split at h3
            · cases h3
            · simp only [Res.ok.injEq] at h3; subst h3
              rfl
      | ub => rw [hpm] at h3; cases h3

/-- Mapping performs no undefined operation. -/
theorem C28_map_defined (fsize offset size page : Nat) (hf : fsize < 2 ^ 63) (s : Sect)
    (h : mkSection fsize offset size = .ok s) (ok1 ok2 : Bool) (op : Res Unit) (hop : op.safe) :
    (freshMap fsize page op ok1 ok2 s).safe := by
  unfold mkSection at h
  split at h
  · cases h
  simp only [Res.ok.injEq] at h
  subst h
  have hsz : (if fsize - offset < size then fsize - offset else size) ≤ fsize - offset := by split <;> omega
  generalize (if fsize - offset < size then fsize - offset else size) = E at *
  unfold freshMap
  cases op with
  | err e => simp [Res.safe]
  | ub => exact absurd rfl hop
  | ok =>
    simp only [Res.bind_ok]
    cases hpm : posixMap page ok1 { offset := offset, size := E } with
    | ok m => exact Res.safe_ok _
    | err e =>
      simp only
      unfold fileMap
      simp only
      rw [if_neg (by omega)]
      repeat' with_reducible refine Res.safe_ite (fun _ => ?_) (fun _ => ?_)
      all_goals simp
    | ub =>
      unfold posixMap at hpm
      simp only at hpm
      split at hpm
      · cases hpm
      · split at hpm
        · cases hpm
        · split at hpm <;> cases hpm

/-! A section in the middle of a file, mapped with a page size of 4: reading past its end is
truncated, reading behind it fails; both with mmap and with the file based fallback. -/
example : (∀ ok1, ∃ m, freshMap 10 4 (.ok ()) ok1 true { offset := 5, size := 3 } = .ok m ∧
    ({ offset := 5, size := 3, mcount := 1, mapping := some m } : Sect).read [0,1,2,3,4,5,6,7,8,9] 10 1 = .ok [6, 7] ∧
    ({ offset := 5, size := 3, mcount := 1, mapping := some m } : Sect).read [0,1,2,3,4,5,6,7,8,9] 1 3 = .err .nomap) := by
  intro ok1
  cases ok1
  · exact ⟨.file 5 8, by decide +kernel, by decide +kernel, by decide +kernel⟩
  · exact ⟨.posix 4 1 4, by decide +kernel, by decide +kernel, by decide +kernel⟩


/-- C28, a file that has become shorter: the fallback mapping is only created if the whole section still lies
within the file; otherwise mapping fails with `-pte_bad_image`. -/
theorem C28_file_map_within (fsize : Nat) (ok : Bool) (s : Sect) (hs : s.offset + s.size < 2 ^ 63) :
    (∀ m, fileMap fsize ok s = .ok m → s.offset + s.size ≤ fsize ∧ m = .file s.offset (s.offset + s.size)) ∧
    (fsize < s.offset + s.size → fileMap fsize ok s = .err .badImage) := by
  unfold fileMap
  rw [if_neg (by omega)]
  refine ⟨?_, fun h => if_pos h⟩
  intro m hm
  split at hm
  · cases hm
  · split at hm
    · cases hm
    · simp only [Res.ok.injEq] at hm; exact ⟨by omega, hm.symm⟩

example : fileMap 0x1000 true { offset := 0xff0, size := 0x10 } = .ok (.file 0xff0 0x1000) ∧
    fileMap 0x1000 true { offset := 0xff1, size := 0x10 } = .err .badImage := by decide +kernel

/-- C27, attachment to one cache: while a section is attached to a cache, attaching it to another one fails
with `-pte_internal` and changes nothing, and detaching it from another one does so, too. -/
theorem C27_attached_to_one_cache (fsize offset size : Nat) (s0 : Sect) (h0 : mkSection fsize offset size = .ok s0)
    (ops : List SecOp) (s : Sect) (hs : s = (secRun s0 ops).1) (ha : 0 < s.acount) (hf : s.freed = false) :
    ∃ c, s.iscache = some c ∧ ∀ c', c' ≠ c →
      (((SecOp.attach c').step s).1 = s ∧ ((SecOp.attach c').step s).2 ≠ .ok ()) ∧
      (SecOp.detach c').step s = (s, .err .internal) := by
  have hi : SecInv s := by rw [hs]; exact (sec_run (mk_inv h0).1 ops).1
  obtain ⟨c, hc⟩ := Option.isSome_iff_exists.1 (hi.attached.2 ha)
  refine ⟨c, hc, fun c' hne => ?_⟩
  have h2 : s.iscache ≠ some c' := by rw [hc]; intro h; cases h; exact hne rfl
  have h3 : (SecOp.attach c').step s = s.attach c' := by unfold SecOp.step; rw [hf]; rfl
  have h4 : (SecOp.detach c').step s = s.detach c' := by unfold SecOp.step; rw [hf]; rfl
  have h5 : s.acount ≠ 0 := by omega
  rw [h3, h4, Sect.attach, Sect.detach, if_neg h5, if_pos h2, if_pos h2]
  refine ⟨?_, rfl⟩
  split <;> simp

example : (secRun { offset := 0, size := 0x1000 } [.get, .attach 1, .attach 2, .detach 2]).2.map Prod.snd =
    [.ok (), .ok (), .err .internal, .err .internal] := by decide +kernel

end Ipt.Props
