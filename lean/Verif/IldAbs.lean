import Verif.IldClassify

/-!
# Helper lemmas: the encoding of JMPABS
-/

set_option linter.unusedSimpArgs false

namespace Ipt

open Ild Spec

namespace Ild

theorem pfxSt_asz (s b) : (pfxSt s b).asz = (s.asz || decide (pfxOf b = .asz)) := by
  unfold pfxSt; split <;> simp_all

theorem pfxOf_asz (b : UInt8) : pfxOf b.toNat = .asz ↔ b = 0x67 := by
  have h : ∀ n, n < 256 → (pfxOf n = .asz ↔ n = 0x67) := by decide +kernel
  rw [h _ b.toNat_lt, ← UInt8.toNat_inj]; rfl

theorem foldl_pfx_asz (P : List UInt8) (s : Ild) :
    (P.foldl (fun s b => pfxSt s b.toNat) s).asz = (s.asz || decide (0x67 ∈ P)) := by
  induction P generalizing s with
  | nil => simp
  | cons b P ih =>
    simp only [List.foldl_cons, ih, pfxSt_asz, pfxOf_asz, List.mem_cons]
    cases s.asz <;> by_cases h : b = 0x67 <;> simp [h, eq_comm]

theorem Frame.osz {s s'} (h : Frame s s') : s'.osz = s.osz := by
  obtain ⟨_, _, _, _, _, rfl⟩ := h; rfl

theorem Frame.rexW {s s'} (h : Frame s s') : s'.rexW = s.rexW := by
  obtain ⟨_, _, _, _, _, rfl⟩ := h; rfl

theorem rex2_of_opc {raw : List UInt8} {max b len : Nat} {s0 s' : Ild} {n : Nat}
    (h6 : opc b raw max s0 len = .ok (s', n)) : s'.rex2 = s0.rex2 := by
  unfold opc at h6
  split at h6
  · rw [(modrmDec_frame h6).rex2]
  split at h6
  · cases h6
  obtain ⟨m, hr, h⟩ := Res.bind_eq_ok.1 h6
  have nx : ∀ {s0 l}, nextAsOpcode raw max s0 l = .ok (s', n) → s'.rex2 = s0.rex2 := by
    intro s0 l h
    unfold nextAsOpcode at h
    split at h
    · cases h
    obtain ⟨m, hr, h⟩ := Res.bind_eq_ok.1 h
    exact (modrmDec_frame h).rex2
  split at h
  · rw [nx h]
  split at h
  · rw [nx h]
  split at h
  · rw [nx h]
  rw [(modrmDec_frame h).rex2]

/-- Soundness for JMPABS. -/
theorem abs_sound {raw : List UInt8} {max : Nat} {mode : Mode} {n : Nat} {x : Iext}
    (h : ildDecode raw max mode = (n, .ok x)) (hj : x.inst = .jmpabs) (hmax : max ≤ raw.length) :
    x.cls = .jump ∧ x.isDirect = true ∧ JmpAbs mode (raw.take n) x.displacement := by
  unfold ildDecode at h
  split at h
  · rename_i s' n' hd
    obtain ⟨rfl, hc⟩ := Prod.mk.inj h
    rcases classify_cases s' with ⟨y, hy, hy'⟩ | ⟨hv, hr, near, cls, inst, hk, hx⟩ | ⟨ha, hx⟩
    · rw [hy'] at hc; cases hc; exact absurd hj hy.2
    · rw [hx] at hc
      obtain ⟨-, h2, -⟩ := branchTarget_inv hc
      rw [hj] at h2; subst h2
      unfold kind at hk
      repeat' split at hk
      all_goals cases hk
    rw [hx] at hc
    obtain ⟨b1, -, b3, v, hv1, hv2⟩ := branchTarget_inv hc
    refine ⟨b1, b3, ?_⟩
    obtain ⟨a1, a2, a3, a4, a5, a6, a7, a8⟩ := ha
    unfold decode at hd
    rcases prefix_cases _ _ _ _ _ _ (init0 mode) hd with
      ⟨P, b, rr, rw', h1, h2, h3, h4, h5, h6⟩ | h' | ⟨P, p, b, h1, h2, h3, h4, h5, h6, h7⟩
    · exfalso
      rw [rex2_of_opc h6] at a5
      have hi := (foldl_pfx_init P (init0 mode)).rex rr rw'
      rw [hi.rex2] at a5; cases a5
    · exact absurd a3 h'
    · simp only [Nat.zero_add] at h4 h5 h6 h7
      have hP := take_of_get h1
      have hP2 : ∀ b ∈ P, IsPrefix mode b := fun b hb => (isPfx_iff _ _).1 (h2 b hb)
      have hi := foldl_pfx_init P (init0 mode)
      have f := modrmDec_frame h7
      have e1 : p / 128 = 0 := by rw [← a1, f.map]
      have e2 : b = 0xa1 := by rw [← a2, f.opcode]
      have e3 := f.asz
      rw [a7] at e3
      have e4 := f.osz
      rw [a8] at e4
      have e5 := f.rexW
      rw [a6] at e5
      rw [modrm_abs (by exact hi.vex) (by exact hi.imm1) (by exact hi.imm2) (by exact hi.disp)
        (by exact e1) (by exact e2) (by dsimp only; rw [foldl_pfx_mode]; exact h3)
        (by exact e3.symm)] at h7
      split at h7
      · cases h7
      rename_i hlen
      obtain ⟨h8, rfl⟩ := Prod.mk.inj (Res.ok.inj h7)
      obtain ⟨c4, hc4, hc4'⟩ := rd_u8 h4
      obtain ⟨c5, hc5, hc5'⟩ := rd_u8 h5
      obtain ⟨c6, hc6, hc6'⟩ := rd_u8 h6
      have k4 : c4 = 0xd5 := by rw [← UInt8.toNat_inj]; exact hc4
      have k6 : c6 = 0xa1 := by rw [← UInt8.toNat_inj, hc6]; exact e2
      have hdp : s'.dispPos = P.length + 3 := by rw [← h8]
      have hds : s'.disp = 8 := by rw [← h8]
      rw [hdp, hds, rdLE_eq _ _ (by omega)] at hv1
      have hlen2 : ((raw.drop (P.length + 3)).take 8).length = 8 := by simp; omega
      refine ⟨P, c5, (raw.drop (P.length + 3)).take 8, ?_, h3, hP2, ?_, ?_, ?_, ?_, hlen2, ?_⟩
      · rw [List.take_add, List.take_add, hP, show 3 = 1 + 1 + 1 from rfl, List.take_add,
          List.take_add, take_one hc4', List.drop_drop, take_one hc5', List.drop_drop,
          take_one hc6', k4, k6]
        rfl
      · intro hm
        rw [foldl_pfx_osz] at e4
        simp [hm] at e4
      · intro hm
        dsimp only at e3
        rw [foldl_pfx_asz] at e3
        simp [hm] at e3
      · rw [hc5]; exact e1
      · rw [hc5]
        have := (of_decide_eq_false e5.symm)
        unfold bit at this
        have : ¬ p / 8 % 2 = 1 := this
        omega
      · have := Res.ok.inj hv1
        rw [hv2, ← this, hds]
        have := sext_isSigned (d := (raw.drop (P.length + 3)).take 8)
        rw [hlen2] at this
        exact this
  · cases h
  · cases h

theorem classify_abs {raw : List UInt8} {s : Ild} (h : isAbs s) :
    classify raw s = branchTarget raw s .jump .jmpabs := by
  obtain ⟨a1, a2, a3, a4, a5, a6, a7, a8⟩ := h
  unfold classify
  simp [a1, a2, a3, a4, a5, a6, a7, a8]

/-- Completeness for JMPABS. -/
theorem abs_complete {raw : List UInt8} {max n : Nat} {mode : Mode} {disp : Int}
    (hn : n ≤ max) (hmax : max ≤ raw.length) (h : JmpAbs mode (raw.take n) disp) :
    ildDecode raw max mode = (n, .ok ⟨.jump, .jmpabs, disp, true⟩) := by
  obtain ⟨P, p, d, hr, hm, hP, ho, ha, h1, h2, hd, hs⟩ := h
  have hlen : n = P.length + 3 + d.length := by
    have : (raw.take n).length = (P ++ [0xd5, p, 0xa1] ++ d).length := by rw [hr]
    simp at this; omega
  have hget : ∀ i (h : i < P.length), raw[0 + i]? = some P[i] := by
    intro i hi
    rw [Nat.zero_add, get_of_take hr (by simp; omega)]
    simp [List.getElem_append, hi]
  have hdrop : (raw.drop (P.length + 3)).take d.length = d := by
    have := congrArg (List.drop (P.length + 3)) hr
    rw [List.drop_take, hlen, Nat.add_sub_cancel_left] at this
    rw [this]
    have e : P.length + 3 = (P ++ [0xd5, p, 0xa1]).length := by simp
    rw [e, List.drop_left]
  have hPp : ∀ b ∈ P, isPfx mode b.toNat := fun b hb => (isPfx_iff _ _).2 (hP b hb)
  obtain ⟨rex', hskip⟩ := prefixDecode_skip (raw := raw) (max := max) P { mode := mode } 0 0
    (max - P.length + 1) (by omega) hget hPp
  have hdec : decode raw max mode = prefixDecode raw max (max - P.length + 1)
      (P.foldl (fun s b => pfxSt s b.toNat) { mode := mode }) P.length rex' := by
    unfold decode
    rw [Nat.zero_add] at hskip
    rw [← hskip]
    congr 1
    omega
  rw [prefixDecode_succ, if_neg (by omega)] at hdec
  have hi := foldl_pfx_init P (init0 mode)
  have r0 : rd raw P.length = .ok 0xd5 := by
    simp [rd, get_of_take hr (i := P.length) (by simp), List.getElem_append]
  have r1 : rd raw (P.length + 1) = .ok p.toNat := by
    simp [rd, get_of_take hr (i := P.length + 1) (by simp), List.getElem_append]
  have r2 : rd raw (P.length + 2) = .ok 0xa1 := by
    simp [rd, get_of_take hr (i := P.length + 2) (by simp), List.getElem_append]
  rw [r0, Res.bind_ok] at hdec
  unfold pfxStep at hdec
  rw [show pfxOf 0xd5 = .rex2 from by decide] at hdec
  dsimp only at hdec
  unfold rex2' at hdec
  rw [if_neg (by rw [foldl_pfx_mode]; simp [hm]), if_neg (by omega), r1, Res.bind_ok] at hdec
  unfold vexDone at hdec
  rw [r2, Res.bind_ok] at hdec
  have hosz := foldl_pfx_osz P { mode := mode }
  have hasz := foldl_pfx_asz P { mode := mode }
  have hmd := foldl_pfx_mode P { mode := mode }
  simp only [ho, ha, decide_false, Bool.or_false] at hosz hasz
  rw [modrm_abs (by exact hi.vex) (by exact hi.imm1) (by exact hi.imm2) (by exact hi.disp)
    (by exact h1) rfl (by dsimp only; rw [hmd]; exact hm) (by exact hasz), if_neg (by omega)] at hdec
  unfold ildDecode
  rw [hdec]
  have hn' : P.length + 2 + 1 + 8 = n := by omega
  have hb : bit p.toNat 3 = 0 := h2
  dsimp only
  rw [classify_abs]
  · unfold branchTarget
    rw [if_pos (by simp)]
    dsimp only
    rw [rdLE_eq _ _ (by omega), ← hd, hdrop, Res.bind_ok]
    refine Prod.ext (by rw [hd]; exact hn') ?_
    refine congrArg Res.ok ?_
    rw [IsSigned.unique sext_isSigned hs]
  · exact ⟨h1, rfl, hi.vex, by dsimp only; rw [hmd]; exact hm, rfl, by simp [hb], hasz, hosz⟩

end Ild

end Ipt
