import Verif.IldLemmas
import Verif.IldSpec

/-!
# Helper lemmas connecting the length decoder with the encodings of direct branches
-/

set_option linter.unusedSimpArgs false

namespace Ipt

open Ild

open Spec

namespace Ild

theorem isPfx_iff (m : Mode) (b : UInt8) : isPfx m b.toNat ↔ IsPrefix m b := by
  have h : ∀ m, ∀ n, n < 256 → (isPfx m n ↔
      (n ∈ [0x26, 0x2e, 0x36, 0x3e, 0x64, 0x65, 0x66, 0x67, 0xf0, 0xf2, 0xf3] ∨
        (m = .b64 ∧ n / 16 = 4))) := by
    intro m; cases m <;> decide +kernel
  have hb := b.toNat_lt
  rw [h m b.toNat hb]
  unfold IsPrefix
  simp only [List.mem_cons, List.not_mem_nil, or_false, ← UInt8.toNat_inj]
  rfl

theorem foldl_pfx_mode (P : List UInt8) (s : Ild) :
    (P.foldl (fun s b => pfxSt s b.toNat) s).mode = s.mode := by
  induction P generalizing s with
  | nil => rfl
  | cons b P ih => simp [ih, pfxSt_mode]

theorem pfxOf_osz (b : UInt8) : pfxOf b.toNat = .osz ↔ b = 0x66 := by
  have h : ∀ n, n < 256 → (pfxOf n = .osz ↔ n = 0x66) := by decide +kernel
  rw [h _ b.toNat_lt, ← UInt8.toNat_inj]; rfl

theorem foldl_pfx_osz (P : List UInt8) (s : Ild) :
    (P.foldl (fun s b => pfxSt s b.toNat) s).osz = (s.osz || decide (0x66 ∈ P)) := by
  induction P generalizing s with
  | nil => simp
  | cons b P ih =>
    simp only [List.foldl_cons, ih, pfxSt_osz, pfxOf_osz, List.mem_cons]
    cases s.osz <;> by_cases h : b = 0x66 <;> simp [h, eq_comm]

theorem foldl_pfx_init (P : List UInt8) {s : Ild} (h : Init s) :
    Init (P.foldl (fun s b => pfxSt s b.toNat) s) := by
  induction P generalizing s with
  | nil => exact h
  | cons b P ih => exact ih (h.pfx _)

theorem nearW_eq (m : Mode) (osz : Prop) [Decidable osz] :
    nearW m (decide osz) = dispWidth m true osz := by
  by_cases h : osz <;> cases m <;> simp [nearW, dispWidth, h]

theorem rdLE_eq {raw : List UInt8} : ∀ (n pos : Nat), pos + n ≤ raw.length →
    rdLE raw pos n = .ok (leVal ((raw.drop pos).take n))
  | 0, _, _ => by simp [rdLE, leVal]
  | n + 1, pos, h => by
    have hp : pos < raw.length := by omega
    rw [rdLE, rd_lt hp, rdLE_eq n (pos + 1) (by omega)]
    conv => rhs; rw [List.drop_eq_getElem_cons hp]
    simp only [Res.bind_ok, Res.pure_eq, List.take_succ_cons, leVal]

theorem leVal_lt : ∀ l : List UInt8, leVal l < 256 ^ l.length
  | [] => by simp [leVal]
  | b :: l => by
    have := leVal_lt l
    have hb := b.toNat_lt
    simp only [leVal, List.length_cons, Nat.pow_succ]
    omega

theorem sext_isSigned {d : List UInt8} : IsSigned d (sext d.length (leVal d)) := by
  have h := leVal_lt d
  unfold IsSigned sext
  have hc : ((256 ^ d.length : Nat) : Int) = (256 : Int) ^ d.length := by rw [Int.natCast_pow]; rfl
  generalize (256 : Int) ^ d.length = M at *
  generalize 256 ^ d.length = m at *
  split
  · refine ⟨by omega, by omega, 0, by simp⟩
  · refine ⟨by omega, by omega, -1, by omega⟩

theorem IsSigned.unique {d : List UInt8} {v w : Int} (h1 : IsSigned d v) (h2 : IsSigned d w) :
    v = w := by
  obtain ⟨a1, a2, k, hk⟩ := h1
  obtain ⟨b1, b2, l, hl⟩ := h2
  have hM : (0 : Int) < 256 ^ d.length := Int.pow_pos (by decide)
  generalize (256 : Int) ^ d.length = M at *
  have e : v - w = (k - l) * M := by rw [hk, hl, Int.sub_mul]; omega
  have : k = l := by
    refine Decidable.byContradiction fun hne => ?_
    rcases Int.lt_or_gt_of_ne hne with h | h
    · have : (k - l) * M ≤ (-1) * M := Int.mul_le_mul_of_nonneg_right (by omega) (by omega)
      omega
    · have : 1 * M ≤ (k - l) * M := Int.mul_le_mul_of_nonneg_right (by omega) (by omega)
      omega
  subst this
  omega

/-- The direct branches the classification knows, except JMPABS. -/
def kind (map op : Nat) : Option (Bool × Iclass × Inst) :=
  if map = 0 ∧ op / 16 = 7 then some (false, .condJump, .jcc)
  else if map = 1 ∧ op / 16 = 8 then some (true, .condJump, .jcc)
  else if map = 0 ∧ op = 0xe8 then some (true, .call, .callE8)
  else if map = 0 ∧ op = 0xe9 then some (true, .jump, .jmpE9)
  else if map = 0 ∧ op = 0xeb then some (false, .jump, .jmpEB)
  else if map = 0 ∧ op = 0xe3 then some (false, .condJump, .jrcxz)
  else if map = 0 ∧ op = 0xe0 then some (false, .condJump, .loopne)
  else if map = 0 ∧ op = 0xe1 then some (false, .condJump, .loope)
  else if map = 0 ∧ op = 0xe2 then some (false, .condJump, .loop)
  else none

theorem branchTarget_inv {raw s cls inst x} (h : branchTarget raw s cls inst = .ok x) :
    x.cls = cls ∧ x.inst = inst ∧ x.isDirect = true ∧
      ∃ v, rdLE raw s.dispPos s.disp = .ok v ∧ x.displacement = sext s.disp v := by
  unfold branchTarget at h
  split at h
  · obtain ⟨v, hv, h⟩ := Res.bind_eq_ok.1 h
    cases h
    exact ⟨rfl, rfl, rfl, v, hv, rfl⟩
  · cases h

theorem classify_kind {raw : List UInt8} {s : Ild} {near cls inst} (hv : s.vex = 0)
    (hr : s.rex2 = false) (hk : kind s.map s.opcode = some (near, cls, inst)) :
    classify raw s = branchTarget raw s cls inst := by
  unfold kind at hk
  unfold classify
  repeat' split at hk
  all_goals first
    | (cases hk; done)
    | (rename_i h; obtain ⟨h1, h2⟩ := h; cases hk; simp [h1, h2, hv, hr])

theorem classify_direct {raw : List UInt8} {s : Ild} {x : Iext} (h : classify raw s = .ok x)
    (hx : x.isDirect = true) (hj : x.inst ≠ .jmpabs) :
    s.vex = 0 ∧ s.rex2 = false ∧ branchTarget raw s x.cls x.inst = .ok x ∧
      ∃ near, kind s.map s.opcode = some (near, x.cls, x.inst) := by
  have key : ∀ {cls inst near}, s.vex = 0 → s.rex2 = false →
      kind s.map s.opcode = some (near, cls, inst) → branchTarget raw s cls inst = .ok x →
      s.vex = 0 ∧ s.rex2 = false ∧ branchTarget raw s x.cls x.inst = .ok x ∧
        ∃ near, kind s.map s.opcode = some (near, x.cls, x.inst) := by
    intro cls inst near h1 h2 h3 h4
    obtain ⟨rfl, rfl, -, -⟩ := branchTarget_inv h4
    exact ⟨h1, h2, h4, near, h3⟩
  have nod : ∀ {y : Iext}, y.isDirect = false → (Res.ok y = Res.ok x) → False := by
    intro y hy h; cases h; rw [hy] at hx; cases hx
  unfold classify at h
  split at h
  · exact (nod rfl h).elim
  split at h
  · exact (nod rfl h).elim
  rename_i hm hv
  have hv : s.vex = 0 := Decidable.byContradiction hv
  split at h
  · rename_i h7
    split at h
    · rename_i h0
      exact key hv (by simpa using h0.2) (by simp [kind, h0.1, h7]; rfl) h
    · exact (nod rfl h).elim
  split at h
  · rename_i h7
    split at h
    · rename_i h0
      exact key hv (by simpa using h0.2) (by simp [kind, h0.1, h7]; rfl) h
    · exact (nod rfl h).elim
  split at h
  all_goals (repeat' split at h)
  all_goals first
    | exact (nod rfl h).elim
    | (rename_i ho h0
       exact key hv (by simpa using h0.2) (by simp [kind, h0.1, ho]; rfl) h)
    | (obtain ⟨-, e, -⟩ := branchTarget_inv h; exact absurd e hj)

/-- The width of the displacement. -/
def kindW (s : Ild) (near : Bool) : Nat := if near then nearW s.mode s.osz else 1

theorem opc_kind0 {raw : List UInt8} {max b : Nat} {s : Ild} {len : Nat} {near cls inst}
    (hi : Init s) (hb : b < 256) (hk : kind 0 b = some (near, cls, inst)) :
    opc b raw max s len = if max < len + 1 + kindW s near then .err .badInsn
      else .ok ({ s with map := 0, opcode := b, disp := kindW s near, dispPos := len + 1 },
        len + 1 + kindW s near) := by
  have : (near = false ∧ shortOp b) ∨ (near = true ∧ (b = 0xe8 ∨ b = 0xe9)) := by
    unfold kind at hk
    unfold shortOp
    repeat' split at hk
    all_goals first
      | (cases hk; done)
      | (cases hk; simp_all)
  rcases this with ⟨rfl, h⟩ | ⟨rfl, h⟩
  · exact opc_short hi hb h
  · exact opc_near hi hb h

theorem kind0_done : ∀ b, b < 256 → (kind 0 b).isSome → pfxOf b = .done ∧ b ≠ 0x0f := by
  decide +kernel

theorem kind1_inv {m near cls inst} (hk : kind 1 m = some (near, cls, inst)) :
    m / 16 = 8 ∧ near = true ∧ cls = .condJump := by
  unfold kind at hk
  repeat' split at hk
  all_goals first
    | (cases hk; done)
    | (cases hk; simp_all)

/-- The map and opcode found by `opc`. -/
theorem opc_frame {raw max b s len s' n} (h : opc b raw max s len = .ok (s', n)) (hm : s'.map ≤ 1) :
    (b ≠ 0x0f ∧ s'.map = 0 ∧ s'.opcode = b) ∨
      (b = 0x0f ∧ s'.map = 1 ∧ rd raw (len + 1) = .ok s'.opcode) := by
  unfold opc at h
  split at h
  · rename_i hb
    have := modrmDec_frame h
    exact .inl ⟨hb, this.map, this.opcode⟩
  rename_i hb
  split at h
  · cases h
  obtain ⟨m, hr, h⟩ := Res.bind_eq_ok.1 h
  have nx : ∀ {s0 l}, nextAsOpcode raw max s0 l = .ok (s', n) → s'.map = s0.map := by
    intro s0 l h
    unfold nextAsOpcode at h
    split at h
    · cases h
    obtain ⟨m, hr, h⟩ := Res.bind_eq_ok.1 h
    exact (modrmDec_frame h).map
  split at h
  · have := nx h; simp at this; omega
  split at h
  · have := nx h; simp at this; omega
  split at h
  · have := nx h; simp at this; omega
  have := modrmDec_frame h
  exact .inr ⟨Decidable.byContradiction hb, this.map, by rw [this.opcode]; exact hr⟩

theorem rd_u8 {raw : List UInt8} {i b : Nat} (h : rd raw i = .ok b) :
    ∃ c : UInt8, c.toNat = b ∧ raw[i]? = some c := by
  unfold rd at h
  split at h
  · cases h; exact ⟨_, rfl, by assumption⟩
  · cases h

theorem take_of_get {raw P : List UInt8}
    (h : ∀ i (h : i < P.length), raw[0 + i]? = some P[i]) : raw.take P.length = P := by
  apply List.ext_getElem?
  intro i
  by_cases hi : i < P.length
  · rw [List.getElem?_take_of_lt hi, List.getElem?_eq_getElem hi]
    simpa using h i hi
  · rw [List.getElem?_eq_none (by simp; omega), List.getElem?_eq_none (by omega)]

theorem take_one {raw : List UInt8} {i : Nat} {c : UInt8} (h : raw[i]? = some c) :
    (raw.drop i).take 1 = [c] := by
  obtain ⟨hl, rfl⟩ := List.getElem?_eq_some_iff.1 h
  conv => lhs; rw [List.drop_eq_getElem_cons hl]
  rfl

theorem directOp_kind0 : ∀ (c : UInt8) (near cls),
    directOp [c] = some (near, cls) ↔ ∃ inst, kind 0 c.toNat = some (near, cls, inst) := by
  intro c near cls
  unfold directOp kind
  have e : ∀ k : UInt8, c = k ↔ c.toNat = k.toNat := fun k => UInt8.toNat_inj.symm
  simp only [e, true_and, Nat.zero_ne_one, false_and, if_false]
  by_cases h7 : c.toNat / 16 = 7
  · simp [h7]
  · simp only [h7, if_false, false_or]
    have : ∀ n, n < 256 → n / 16 ≠ 7 → ∀ near cls,
      ((if n = 0xe0 ∨ n = 0xe1 ∨ n = 0xe2 ∨ n = 0xe3 then some (false, Iclass.condJump)
        else if n = 0xeb then some (false, .jump)
        else if n = 0xe9 then some (true, .jump)
        else if n = 0xe8 then some (true, .call) else none) = some (near, cls) ↔
      ∃ inst, (if n = 0xe8 then some (true, Iclass.call, Inst.callE8)
        else if n = 0xe9 then some (true, .jump, .jmpE9)
        else if n = 0xeb then some (false, .jump, .jmpEB)
        else if n = 0xe3 then some (false, .condJump, .jrcxz)
        else if n = 0xe0 then some (false, .condJump, .loopne)
        else if n = 0xe1 then some (false, .condJump, .loope)
        else if n = 0xe2 then some (false, .condJump, .loop)
        else none) = some (near, cls, inst)) := by
      intro n _ _ near cls
      by_cases h1 : n = 0xe8
      · subst h1; simp
      by_cases h1 : n = 0xe9
      · subst h1; simp
      by_cases h1 : n = 0xeb
      · subst h1; simp
      by_cases h1 : n = 0xe0
      · subst h1; simp
      by_cases h1 : n = 0xe1
      · subst h1; simp
      by_cases h1 : n = 0xe2
      · subst h1; simp
      by_cases h1 : n = 0xe3
      · subst h1; simp
      simp [*]
    exact this c.toNat c.toNat_lt h7 near cls

theorem init0 (mode : Mode) : Init { mode := mode } := ⟨rfl, rfl, rfl, rfl, rfl, rfl⟩

theorem Init.rex {s} (h : Init s) (r w) : Init { s with rexR := r, rexW := w } :=
  ⟨h.vex, h.disp, h.imm1, h.imm2, h.rex2, h.modrm⟩

theorem kindW_eq (P : List UInt8) (mode : Mode) (rr rw) (near : Bool) :
    kindW { (P.foldl (fun s b => pfxSt s b.toNat) { mode := mode }) with rexR := rr, rexW := rw }
      near = dispWidth mode near (0x66 ∈ P) := by
  unfold kindW
  cases near
  · rfl
  · simp only [foldl_pfx_mode, foldl_pfx_osz, Bool.false_or, if_true]
    exact nearW_eq _ _

theorem kindW_mem (s near) : kindW s near = 1 ∨ kindW s near = 2 ∨ kindW s near = 4 := by
  unfold kindW
  cases near <;> cases s.mode <;> cases s.osz <;> simp [nearW]

/-- Soundness. -/
theorem direct_sound {raw : List UInt8} {max : Nat} {mode : Mode} {n : Nat} {x : Iext}
    (h : ildDecode raw max mode = (n, .ok x)) (hx : x.isDirect = true)
    (hj : x.inst ≠ .jmpabs) (hmax : max ≤ raw.length) :
    DirectBranch mode (raw.take n) x.cls x.displacement := by
  unfold ildDecode at h
  split at h
  · rename_i s' n' hd
    obtain ⟨rfl, hc⟩ := Prod.mk.inj h
    obtain ⟨hv, hr, hb, near, hk⟩ := classify_direct hc hx hj
    obtain ⟨-, -, -, v, hv1, hv2⟩ := branchTarget_inv hb
    unfold decode at hd
    rcases prefix_cases _ _ _ _ _ _ (init0 mode) hd with
      ⟨P, b, rr, rw', h1, h2, h3, h4, h5, h6⟩ | h' | h'
    · simp only [Nat.zero_add] at h4 h5 h6
      have hP := take_of_get h1
      have hP2 : ∀ b ∈ P, IsPrefix mode b := fun b hb => (isPfx_iff _ _).1 (h2 b hb)
      have hi := (foldl_pfx_init P (init0 mode)).rex rr rw'
      have hwe := kindW_eq P mode rr rw' near
      obtain ⟨c, rfl, hc5⟩ := rd_u8 h5
      have hmap : s'.map ≤ 1 := by
        unfold kind at hk
        repeat' split at hk
        all_goals first
          | (cases hk; done)
          | omega
      rcases opc_frame h6 hmap with ⟨hb0, hm, ho⟩ | ⟨hb0, hm, ho⟩
      · rw [hm, ho] at hk
        rw [opc_kind0 hi c.toNat_lt hk, hwe] at h6
        split at h6
        · cases h6
        rename_i hlen
        have h7 := Prod.mk.inj (Res.ok.inj h6)
        obtain ⟨h7, rfl⟩ := h7
        have hdp : s'.dispPos = P.length + 1 := by rw [← h7]
        have hds : s'.disp = dispWidth mode near (0x66 ∈ P) := by rw [← h7]
        rw [hdp, hds, rdLE_eq _ _ (by omega)] at hv1
        have hlen2 : ((raw.drop (P.length + 1)).take (dispWidth mode near (0x66 ∈ P))).length =
            dispWidth mode near (0x66 ∈ P) := by simp; omega
        refine ⟨P, [c], (raw.drop (P.length + 1)).take (dispWidth mode near (0x66 ∈ P)), near, ?_,
          hP2, (directOp_kind0 c near x.cls).2 ⟨_, hk⟩, hlen2, ?_⟩
        · rw [List.take_add, List.take_add, hP, take_one hc5]
        · have := Res.ok.inj hv1
          rw [hv2, ← this, hds]
          have := sext_isSigned
            (d := (raw.drop (P.length + 1)).take (dispWidth mode near (0x66 ∈ P)))
          rw [hlen2] at this
          exact this
      · obtain ⟨m, hm1, hm2⟩ := rd_u8 ho
        rw [hm] at hk
        obtain ⟨k1, rfl, k3⟩ := kind1_inv hk
        rw [hb0, opc_jcc hi (by rw [← hm1]; exact m.toNat_lt) k1 ho] at h6
        have hwe' := hwe
        simp only [kindW, if_true] at hwe'
        rw [hwe'] at h6
        split at h6
        · cases h6
        rename_i hlen
        have h7 := Prod.mk.inj (Res.ok.inj h6)
        obtain ⟨h7, rfl⟩ := h7
        have hdp : s'.dispPos = P.length + 2 := by rw [← h7]
        have hds : s'.disp = dispWidth mode true (0x66 ∈ P) := by rw [← h7]
        rw [hdp, hds, rdLE_eq _ _ (by omega)] at hv1
        have hlen2 : ((raw.drop (P.length + 2)).take (dispWidth mode true (0x66 ∈ P))).length =
            dispWidth mode true (0x66 ∈ P) := by simp; omega
        have hc0 : c = 0x0f := by rw [← UInt8.toNat_inj]; exact hb0
        refine ⟨P, [c, m], (raw.drop (P.length + 2)).take (dispWidth mode true (0x66 ∈ P)), true,
          ?_, hP2, ?_, hlen2, ?_⟩
        · rw [List.take_add, List.take_add, hP, show 2 = 1 + 1 from rfl, List.take_add,
            take_one hc5, List.drop_drop, take_one hm2]
          rfl
        · simp [directOp, hc0, hm1, k1, k3]
        · have := Res.ok.inj hv1
          rw [hv2, ← this, hds]
          have := sext_isSigned
            (d := (raw.drop (P.length + 2)).take (dispWidth mode true (0x66 ∈ P)))
          rw [hlen2] at this
          exact this
    · exact absurd hv h'
    · rw [h'.rex2'] at hr; cases hr
  · cases h
  · cases h

theorem get_of_take {raw l : List UInt8} {n i : Nat} (h : raw.take n = l) (hi : i < l.length) :
    raw[i]? = some l[i] := by
  have h1 : i < n := by
    have : (raw.take n).length = l.length := by rw [h]
    simp at this; omega
  rw [← List.getElem?_take_of_lt h1, h, List.getElem?_eq_getElem hi]

/-- Completeness. -/
theorem direct_complete {raw : List UInt8} {max n : Nat} {mode : Mode} {cls : Iclass} {disp : Int}
    (hn : n ≤ max) (hmax : max ≤ raw.length) (h : DirectBranch mode (raw.take n) cls disp) :
    ∃ x, ildDecode raw max mode = (n, .ok x) ∧ x.cls = cls ∧ x.displacement = disp ∧
      x.isDirect = true ∧ x.inst ≠ .jmpabs := by
  obtain ⟨P, op, d, near, hr, hP, hop, hd, hs⟩ := h
  have hlen : n = P.length + op.length + d.length := by
    have : (raw.take n).length = (P ++ op ++ d).length := by rw [hr]
    simp at this; omega
  have hget : ∀ i (h : i < P.length), raw[0 + i]? = some P[i] := by
    intro i hi
    rw [Nat.zero_add, get_of_take hr (by simp; omega)]
    simp [List.getElem_append, hi]
  have hdrop : (raw.drop (P.length + op.length)).take d.length = d := by
    have := congrArg (List.drop (P.length + op.length)) hr
    rw [List.drop_take, hlen, Nat.add_sub_cancel_left] at this
    rw [this, ← List.length_append, List.drop_left]
  have hPp : ∀ b ∈ P, isPfx mode b.toNat := fun b hb => (isPfx_iff _ _).2 (hP b hb)
  have hw1 : 1 ≤ d.length := by
    rw [hd]; unfold dispWidth; cases near
    · simp
    · cases mode <;> simp <;> split <;> omega
  have hpl : P.length < max := by
    rcases op with _ | ⟨a, _⟩
    · cases hop
    · simp at hlen; omega
  obtain ⟨rex', hskip⟩ := prefixDecode_skip (raw := raw) (max := max) P { mode := mode } 0 0
    (max - P.length + 1) (by omega) hget hPp
  have hdec : decode raw max mode = prefixDecode raw max (max - P.length + 1)
      (P.foldl (fun s b => pfxSt s b.toNat) { mode := mode }) P.length rex' := by
    unfold decode
    rw [Nat.zero_add] at hskip
    rw [← hskip]
    congr 1
    omega
  rw [prefixDecode_succ, if_neg (by omega)] at hdec
  have hi := (foldl_pfx_init P (init0 mode)).rex (bit rex' 2) (decide (bit rex' 3 = 1))
  have hwe := kindW_eq P mode (bit rex' 2) (decide (bit rex' 3 = 1)) near
  -- what remains to be shown once the length is known
  have fin : ∀ {map opn inst} (s0 : Ild), s0.vex = 0 → s0.rex2 = false →
      kind map opn = some (near, cls, inst) →
      decode raw max mode = .ok
        ({ s0 with
            map := map, opcode := opn, disp := dispWidth mode near (0x66 ∈ P)
            dispPos := P.length + op.length }, n) →
      ∃ x, ildDecode raw max mode = (n, .ok x) ∧ x.cls = cls ∧ x.displacement = disp ∧
        x.isDirect = true ∧ x.inst ≠ .jmpabs := by
    intro map opn inst s0 h1 h2 hk he
    unfold ildDecode
    rw [he]
    dsimp only
    rw [classify_kind (s := { s0 with
            map := map, opcode := opn, disp := dispWidth mode near (0x66 ∈ P)
            dispPos := P.length + op.length }) (near := near) (cls := cls) (inst := inst) h1 h2 hk]
    unfold branchTarget
    have hw := kindW_mem { (P.foldl (fun s b => pfxSt s b.toNat) { mode := mode }) with
      rexR := bit rex' 2, rexW := decide (bit rex' 3 = 1) } near
    rw [hwe] at hw
    dsimp only
    rw [if_pos (by omega), rdLE_eq _ _ (by omega), ← hd, hdrop]
    refine ⟨_, rfl, rfl, ?_, rfl, ?_⟩
    · exact IsSigned.unique sext_isSigned hs
    · dsimp only
      rintro rfl
      unfold kind at hk
      repeat' split at hk
      all_goals cases hk
  rcases op with _ | ⟨a, _ | ⟨b, _ | ⟨c, op⟩⟩⟩
  · cases hop
  · obtain ⟨inst, hk⟩ := (directOp_kind0 a near cls).1 hop
    have ha : rd raw P.length = .ok a.toNat := by
      simp [rd, get_of_take hr (i := P.length) (by simp), List.getElem_append]
    obtain ⟨hdone, hnf⟩ := kind0_done a.toNat a.toNat_lt (by rw [hk]; rfl)
    rw [ha, Res.bind_ok] at hdec
    unfold pfxStep at hdec
    rw [hdone] at hdec
    dsimp only at hdec
    rw [opc_kind0 hi a.toNat_lt hk, hwe, if_neg (by simp at hlen; omega)] at hdec
    refine fin _ hi.vex hi.rex2 hk ?_
    rw [hdec]
    simp only [List.length_cons, List.length_nil] at hlen ⊢
    rw [hlen, hd]
  · simp only [directOp] at hop
    split at hop
    · rename_i hab
      obtain ⟨rfl, hb⟩ := hab
      cases hop
      have ha : rd raw P.length = .ok 0x0f := by
        simp [rd, get_of_take hr (i := P.length) (by simp), List.getElem_append]
      have hb2 : rd raw (P.length + 1) = .ok b.toNat := by
        simp [rd, get_of_take hr (i := P.length + 1) (by simp), List.getElem_append]
      rw [ha, Res.bind_ok] at hdec
      unfold pfxStep at hdec
      rw [show pfxOf 0x0f = .done from by decide] at hdec
      dsimp only at hdec
      simp only [kindW, if_true] at hwe
      rw [opc_jcc hi b.toNat_lt hb hb2, hwe, if_neg (by simp at hlen; omega)] at hdec
      refine fin (map := 1) (opn := b.toNat) (inst := .jcc) _ hi.vex hi.rex2 (by simp [kind, hb]) ?_
      rw [hdec]
      simp only [List.length_cons, List.length_nil] at hlen ⊢
      rw [hlen, hd]
    · cases hop
  · cases hop

end Ild

end Ipt
