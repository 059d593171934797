import Verif.Ild

/-!
# Helper lemmas about the instruction length decoder
-/

set_option linter.unusedSimpArgs false
set_option linter.unusedVariables false

namespace Ipt.Ild

/-- The two byte arrays agree on their first `n` bytes. -/
def Agree (n : Nat) (raw raw' : List UInt8) : Prop := ∀ i, i < n → raw'[i]? = raw[i]?

/-- A decoder continuing at offset `len` is local: if it succeeds it stays within the given bytes,
and it gives the same answer on every array that agrees on the instruction. -/
structure Good (f : List UInt8 → Nat → Res (Ild × Nat)) (len : Nat) : Prop where
  ok : ∀ raw max s n, f raw max = .ok (s, n) → len ≤ n ∧ n ≤ max ∧
    ∀ raw' max', n ≤ max' → Agree n raw raw' → f raw' max' = .ok (s, n)
  err : ∀ raw max e, f raw max = .err e → e = .badInsn

theorem Good.fail (len : Nat) : Good (fun _ _ => .err .badInsn) len :=
  ⟨fun _ _ _ _ h => by simp at h, fun _ _ _ h => by simpa [eq_comm] using h⟩

theorem Good.mono {f len len'} (h : Good f len') (hl : len ≤ len') : Good f len :=
  ⟨fun raw max s n e => by
    obtain ⟨a, b, c⟩ := h.ok raw max s n e
    exact ⟨by omega, b, c⟩, h.err⟩

theorem Good.ite {f g : List UInt8 → Nat → Res (Ild × Nat)} {len} {p : Prop} [Decidable p]
    (hf : p → Good f len) (hg : ¬ p → Good g len) :
    Good (fun raw max => if p then f raw max else g raw max) len := by
  by_cases h : p
  · simpa [h] using hf h
  · simpa [h] using hg h

/-- A check for enough bytes in front of a decoder that needs them. -/
theorem Good.guard {f : List UInt8 → Nat → Res (Ild × Nat)} {len k : Nat} (hf : Good f len)
    (hk : k < len) : Good (fun raw max => if max ≤ k then .err .badInsn else f raw max) len := by
  constructor
  · intro raw max s n h
    split at h
    · cases h
    · obtain ⟨a, b, c⟩ := hf.ok raw max s n h
      refine ⟨a, b, fun raw' max' h1 h2 => ?_⟩
      rw [if_neg (by omega)]
      exact c raw' max' h1 h2
  · intro raw max e h
    split at h
    · cases h; rfl
    · exact hf.err _ _ _ h

theorem Good.guard' {f : List UInt8 → Nat → Res (Ild × Nat)} {len k : Nat} (hf : Good f len)
    (hk : k ≤ len) : Good (fun raw max => if max < k then .err .badInsn else f raw max) len := by
  constructor
  · intro raw max s n h
    split at h
    · cases h
    · obtain ⟨a, b, c⟩ := hf.ok raw max s n h
      refine ⟨a, b, fun raw' max' h1 h2 => ?_⟩
      rw [if_neg (by omega)]
      exact c raw' max' h1 h2
  · intro raw max e h
    split at h
    · cases h; rfl
    · exact hf.err _ _ _ h

/-- Reading a byte that belongs to the instruction. -/
theorem Good.read {f : Nat → List UInt8 → Nat → Res (Ild × Nat)} {len k : Nat}
    (hf : ∀ b, b < 256 → Good (f b) len) (hk : k < len) :
    Good (fun raw max => rd raw k >>= fun b => f b raw max) len := by
  constructor
  · intro raw max s n h
    obtain ⟨b, hb, h⟩ := Res.bind_eq_ok.1 h
    obtain ⟨a, a', c⟩ := (hf b (rd_ok_bound hb).2).ok raw max s n h
    refine ⟨a, a', fun raw' max' h1 h2 => ?_⟩
    have : rd raw' k = .ok b := by rw [← hb]; exact rd_congr (h2 k (by omega))
    simp only [this, Res.bind_ok]
    exact c raw' max' h1 h2
  · intro raw max e h
    cases hb : rd raw k with
    | ok b =>
      rw [hb, Res.bind_ok] at h
      exact (hf b (rd_ok_bound hb).2).err _ _ _ h
    | err e => unfold rd at hb; split at hb <;> cases hb
    | ub => rw [hb] at h; cases h

theorem resolveZ_err {m e} (h : resolveZ m = .err e) : e = .badInsn := by
  cases m <;> simp [resolveZ] at h; exact h.symm
theorem resolveV_err {m e} (h : resolveV m = .err e) : e = .badInsn := by
  cases m <;> simp [resolveV] at h; exact h.symm
theorem resolveZ_ub {m} : resolveZ m ≠ .ub := by cases m <;> simp [resolveZ]
theorem resolveV_ub {m} : resolveV m ≠ .ub := by cases m <;> simp [resolveV]

/-- An outcome that is neither undefined nor an error other than -pte_bad_insn. -/
def Fine {α} (x : Res α) : Prop := (∃ a, x = .ok a) ∨ x = .err .badInsn

theorem Fine.ok {α} (a : α) : Fine (.ok a) := .inl ⟨a, rfl⟩
theorem Fine.bad {α} : Fine (.err .badInsn : Res α) := .inr rfl
theorem Fine.bind {α β} {x : Res α} {f : α → Res β} (hx : Fine x) (hf : ∀ a, x = .ok a → Fine (f a)) :
    Fine (x >>= f) := by
  rcases hx with ⟨a, rfl⟩ | rfl
  · simpa using hf a rfl
  · exact .bad
theorem Fine.ite {α} {p : Prop} [Decidable p] {a b : Res α} (ha : p → Fine a) (hb : ¬ p → Fine b) :
    Fine (if p then a else b) := by
  by_cases h : p
  · rw [if_pos h]; exact ha h
  · rw [if_neg h]; exact hb h
theorem Fine.ne_ub {α} {x : Res α} (h : Fine x) : x ≠ .ub := by
  rcases h with ⟨a, rfl⟩ | rfl <;> simp
theorem Fine.err_eq {α} {x : Res α} {e} (h : Fine x) (he : x = .err e) : e = .badInsn := by
  rcases h with ⟨a, rfl⟩ | rfl <;> cases he; rfl

theorem fine_resolveZ (m) : Fine (resolveZ m) := by cases m <;> simp [resolveZ, Fine]
theorem fine_resolveV (m) : Fine (resolveV m) := by cases m <;> simp [resolveV, Fine]

theorem fine_setImm (s : Ild) : Fine (setImm s) := by
  unfold setImm
  refine .ite (fun _ => .bad) fun _ => ?_
  split
  · exact .ite (fun _ => .bad) fun _ => .ok _
  · split <;>
      first
        | exact .ok _
        | exact .bind (fine_resolveZ _) fun _ _ => .ok _
        | exact .bind (fine_resolveV _) fun _ _ => .ok _
        | exact .ite (fun _ => .bind (fine_resolveZ _) fun _ _ => .ok _) fun _ => .ok _
        | exact .ite (fun _ => .ok _) fun _ => .ok _
        | exact .ite (fun _ => .ite (fun _ => .ok _) fun _ => .ok _) fun _ => .ok _

theorem fine_legacyDisp (s : Ild) : Fine (legacyDisp s) := by
  unfold legacyDisp
  refine .ite (fun _ => .ok _) fun _ => .ite (fun _ => .ok _) fun _ => ?_
  split <;>
    first
      | exact .ok _
      | exact .bind (fine_resolveZ _) fun _ _ => .ok _
      | exact .bind (fine_resolveV _) fun _ _ => .ok _
      | exact .ite (fun _ => .ok _) fun _ => .bind (fine_resolveZ _) fun _ _ => .ok _
      | exact .ite (fun _ => .bind (fine_resolveZ _) fun _ _ => .ok _) fun _ => .ok _

theorem good_immDec (s : Ild) (len : Nat) : Good (fun _ max => immDec max s len) len := by
  constructor
  · intro raw max s' n h
    unfold immDec at h
    obtain ⟨s1, h1, h⟩ := Res.bind_eq_ok.1 h
    dsimp only at h
    split at h
    · cases h
    · cases h
      refine ⟨by omega, by omega, fun raw' max' h2 _ => ?_⟩
      simp only [immDec, h1, Res.bind_ok]
      rw [if_neg (by omega)]
  · intro raw max e h
    refine Fine.err_eq (x := immDec max s len) ?_ h
    exact .bind (fine_setImm s) fun _ _ => .ite (fun _ => .bad) fun _ => .ok _

theorem fine_immDec (max s len) : Fine (immDec max s len) :=
  .bind (fine_setImm s) fun _ _ => .ite (fun _ => .bad) fun _ => .ok _

/-- The first half of `dispDec`. -/
def disp1 (s : Ild) : Res Ild := if s.vex = 0 then legacyDisp s else .ok s

theorem dispDec_eq (max s len) : dispDec max s len = (disp1 s >>= fun s =>
    if s.disp = 0 then immDec max s len
    else if max < len + s.disp then .err .badInsn
    else immDec max { s with dispPos := len } (len + s.disp)) := by
  unfold dispDec disp1
  split <;> rfl

theorem fine_disp1 (s : Ild) : Fine (disp1 s) :=
  .ite (fun _ => fine_legacyDisp s) fun _ => .ok _

theorem good_dispDec (s : Ild) (len : Nat) : Good (fun _ max => dispDec max s len) len := by
  simp only [dispDec_eq]
  rcases fine_disp1 s with ⟨a, ha⟩ | ha
  · simp only [ha, Res.bind_ok]
    refine .ite (fun _ => good_immDec _ _) fun _ => ?_
    exact ((good_immDec { a with dispPos := len } (len + a.disp)).guard' (Nat.le_refl _)).mono
      (by omega)
  · simp only [ha, Res.bind_err]
    exact .fail _

theorem fine_dispDec (max s len) : Fine (dispDec max s len) := by
  rw [dispDec_eq]
  exact .bind (fine_disp1 s) fun _ _ =>
    .ite (fun _ => fine_immDec _ _ _) fun _ => .ite (fun _ => .bad) fun _ => fine_immDec _ _ _

theorem good_sibDec (s : Ild) (len : Nat) : Good (fun raw max => sibDec raw max s len) (len + 1) := by
  unfold sibDec
  refine Good.guard (Good.read (fun b _ => ?_) (by omega)) (by omega)
  exact good_dispDec _ _

theorem fine_rd {raw : List UInt8} {i : Nat} (h : i < raw.length) : Fine (rd raw i) := by
  obtain ⟨b, _, hb⟩ := rd_ex h
  exact .inl ⟨b, hb⟩

theorem fine_sibDec {raw : List UInt8} {max : Nat} (h : max ≤ raw.length) (s len) :
    Fine (sibDec raw max s len) :=
  .ite (fun _ => .bad) fun hl => .bind (fine_rd (by omega)) fun _ _ => fine_dispDec _ _ _

theorem good_modrmDec (s : Ild) (len : Nat) : Good (fun raw max => modrmDec raw max s len) len := by
  unfold modrmDec
  refine .ite (fun _ => .fail _) fun _ => ?_
  rcases hasModrm s.vex s.map s.opcode <;> dsimp only
  · exact good_dispDec _ _
  · refine Good.mono (len' := len + 1) ?_ (by omega)
    refine Good.guard (Good.read (fun b _ => ?_) (by omega)) (by omega)
    refine .ite (fun _ => (good_sibDec _ _).mono (by omega)) fun _ => good_dispDec _ _
  · refine Good.mono (len' := len + 1) ?_ (by omega)
    refine Good.guard (Good.read (fun b _ => ?_) (by omega)) (by omega)
    exact good_dispDec _ _
  · exact good_dispDec _ _

theorem fine_modrmDec {raw : List UInt8} {max : Nat} (h : max ≤ raw.length) (s len) :
    Fine (modrmDec raw max s len) := by
  unfold modrmDec
  refine .ite (fun _ => .bad) fun _ => ?_
  rcases hasModrm s.vex s.map s.opcode <;> dsimp only
  · exact fine_dispDec _ _ _
  · exact .ite (fun _ => .bad) fun hl => .bind (fine_rd (by omega)) fun _ _ =>
      .ite (fun _ => fine_sibDec h _ _) fun _ => fine_dispDec _ _ _
  · exact .ite (fun _ => .bad) fun hl => .bind (fine_rd (by omega)) fun _ _ => fine_dispDec _ _ _
  · exact fine_dispDec _ _ _

theorem good_nextAsOpcode (s : Ild) (len : Nat) :
    Good (fun raw max => nextAsOpcode raw max s len) (len + 1) := by
  unfold nextAsOpcode
  exact Good.guard (Good.read (fun b _ => good_modrmDec _ _) (by omega)) (by omega)

theorem fine_nextAsOpcode {raw : List UInt8} {max : Nat} (h : max ≤ raw.length) (s len) :
    Fine (nextAsOpcode raw max s len) :=
  .ite (fun _ => .bad) fun hl => .bind (fine_rd (by omega)) fun _ _ => fine_modrmDec h _ _

theorem good_opcodeDec (s : Ild) (len : Nat) :
    Good (fun raw max => opcodeDec raw max s len) (len + 1) := by
  unfold opcodeDec
  refine Good.read (fun b _ => ?_) (by omega)
  refine .ite (fun _ => good_modrmDec _ _) fun _ => ?_
  refine Good.mono (len' := len + 2) ?_ (by omega)
  refine Good.guard (Good.read (fun m _ => ?_) (by omega)) (by omega)
  refine .ite (fun _ => (good_nextAsOpcode _ _).mono (by omega)) fun _ => ?_
  refine .ite (fun _ => (good_nextAsOpcode _ _).mono (by omega)) fun _ => ?_
  exact .ite (fun _ => (good_nextAsOpcode _ _).mono (by omega)) fun _ => good_modrmDec _ _

theorem fine_opcodeDec {raw : List UInt8} {max : Nat} (h : max ≤ raw.length) (s) {len}
    (hl : len < max) : Fine (opcodeDec raw max s len) := by
  unfold opcodeDec
  refine .bind (fine_rd (by omega)) fun b _ => .ite (fun _ => fine_modrmDec h _ _) fun _ => ?_
  refine .ite (fun _ => .bad) fun hl2 => .bind (fine_rd (by omega)) fun m _ => ?_
  refine .ite (fun _ => fine_nextAsOpcode h _ _) fun _ => ?_
  refine .ite (fun _ => fine_nextAsOpcode h _ _) fun _ => ?_
  exact .ite (fun _ => fine_nextAsOpcode h _ _) fun _ => fine_modrmDec h _ _

theorem good_vexDone (s : Ild) (len : Nat) :
    Good (fun raw max => vexDone raw max s len) (len + 1) :=
  Good.read (fun b _ => good_modrmDec _ _) (by omega)

theorem fine_vexDone {raw : List UInt8} {max : Nat} (h : max ≤ raw.length) (s) {len}
    (hl : len < raw.length) : Fine (vexDone raw max s len) :=
  .bind (fine_rd hl) fun _ _ => fine_modrmDec h _ _

/-- A one-byte opcode with a modrm byte. -/
theorem good_modrm1 (s : Ild) (len op : Nat) (hv : s.vex = 0)
    (hm : hasModrm 0 0 op = .yes ∨ hasModrm 0 0 op = .ignoreMod) :
    Good (fun raw max => modrmDec raw max { s with map := 0, opcode := op } len) (len + 1) := by
  unfold modrmDec
  refine .ite (fun _ => .fail _) fun _ => ?_
  dsimp only
  rw [hv]
  rcases hm with hm | hm <;> rw [hm] <;> dsimp only
  · refine Good.guard (Good.read (fun b _ => ?_) (by omega)) (by omega)
    refine .ite (fun _ => (good_sibDec _ _).mono (by omega)) fun _ => good_dispDec _ _
  · refine Good.guard (Good.read (fun b _ => ?_) (by omega)) (by omega)
    exact good_dispDec _ _

/-- `opcodeDec` when the first byte is known. -/
def opc (b : Nat) (raw : List UInt8) (max : Nat) (s : Ild) (len : Nat) : Res (Ild × Nat) :=
  if b ≠ 0x0f then modrmDec raw max { s with map := 0, opcode := b } (len + 1)
  else if max ≤ len + 1 then .err .badInsn
  else do
    let m ← rd raw (len + 1)
    if m = 0x38 then nextAsOpcode raw max { s with map := 2 } (len + 2)
    else if m = 0x3a then nextAsOpcode raw max { s with map := 3, imm1 := 1 } (len + 2)
    else if m / 8 = 7 then nextAsOpcode raw max { s with map := 8 } (len + 2)
    else modrmDec raw max { s with opcode := m, map := 1 } (len + 2)

theorem opcodeDec_of_rd {raw : List UInt8} {len b : Nat} (h : rd raw len = .ok b) (max s) :
    opcodeDec raw max s len = opc b raw max s len := by
  unfold opcodeDec opc
  simp only [h, Res.bind_ok]

theorem good_opc (b : Nat) (s : Ild) (len : Nat) :
    Good (fun raw max => opc b raw max s len) (len + 1) := by
  unfold opc
  refine .ite (fun _ => good_modrmDec _ _) fun _ => ?_
  refine Good.mono (len' := len + 2) ?_ (by omega)
  refine Good.guard (Good.read (fun m _ => ?_) (by omega)) (by omega)
  refine .ite (fun _ => (good_nextAsOpcode _ _).mono (by omega)) fun _ => ?_
  refine .ite (fun _ => (good_nextAsOpcode _ _).mono (by omega)) fun _ => ?_
  exact .ite (fun _ => (good_nextAsOpcode _ _).mono (by omega)) fun _ => good_modrmDec _ _

theorem good_opc_modrm (b : Nat) (s : Ild) (len : Nat) (hv : s.vex = 0) (hb : b ≠ 0x0f)
    (hm : hasModrm 0 0 b = .yes ∨ hasModrm 0 0 b = .ignoreMod) :
    Good (fun raw max => opc b raw max s len) (len + 2) := by
  unfold opc
  simp only [if_pos hb]
  exact good_modrm1 s (len + 1) b hv hm

/-- `vexC5` with the opcode byte known. -/
def vexC5' (raw : List UInt8) (max : Nat) (s : Ild) (len : Nat) : Res (Ild × Nat) :=
  if max ≤ len + 1 then .err .badInsn
  else do
    let p1 ← rd raw (len + 1)
    if s.mode ≠ .b64 ∧ p1 / 64 ≠ 3 then opc 0xc5 raw max s len
    else if max < len + 3 then .err .badInsn
    else
      let s := { s with vex := 1, rexR := nbit p1 7 }
      let s := vexPp s (p1 % 4)
      vexDone raw max { s with map := 1 } (len + 2)

/-- `vexC4` with the opcode byte known. -/
def vexC4' (raw : List UInt8) (max : Nat) (s : Ild) (len : Nat) : Res (Ild × Nat) :=
  if max ≤ len + 1 then .err .badInsn
  else do
    let p1 ← rd raw (len + 1)
    if s.mode ≠ .b64 ∧ p1 / 64 ≠ 3 then opc 0xc4 raw max s len
    else if max < len + 4 then .err .badInsn
    else do
      let p2 ← rd raw (len + 2)
      let s := { s with vex := 1, rexR := nbit p1 7, rexW := decide (bit p2 7 = 1) }
      let s := vexPp s (p2 % 4)
      let s := { s with map := p1 % 32 }
      if 8 ≤ s.map then .err .badInsn
      else vexDone raw max s (len + 3)

/-- `evex` with the opcode byte known. -/
def evex' (raw : List UInt8) (max : Nat) (s : Ild) (len : Nat) : Res (Ild × Nat) :=
  if max ≤ len + 1 then .err .badInsn
  else do
    let p1 ← rd raw (len + 1)
    if s.mode ≠ .b64 ∧ p1 / 64 ≠ 3 then opc 0x62 raw max s len
    else if max < len + 5 then .err .badInsn
    else do
      let p2 ← rd raw (len + 2)
      let s := { s with vex := 2, rexR := nbit p1 7 + 2 * nbit p1 4,
                        rexW := decide (bit p2 7 = 1) }
      let s := vexPp s (p2 % 4)
      vexDone raw max { s with map := p1 % 8 } (len + 4)

theorem vexC5_eq {raw : List UInt8} {len : Nat} (h : rd raw len = .ok 0xc5) (max s) :
    vexC5 raw max s len = vexC5' raw max s len := by
  unfold vexC5 vexC5'; simp only [opcodeDec_of_rd h]

theorem vexC4_eq {raw : List UInt8} {len : Nat} (h : rd raw len = .ok 0xc4) (max s) :
    vexC4 raw max s len = vexC4' raw max s len := by
  unfold vexC4 vexC4'; simp only [opcodeDec_of_rd h]

theorem evex_eq {raw : List UInt8} {len : Nat} (h : rd raw len = .ok 0x62) (max s) :
    evex raw max s len = evex' raw max s len := by
  unfold evex evex'; simp only [opcodeDec_of_rd h]

theorem good_vexC5 (s : Ild) (len : Nat) (hv : s.vex = 0) :
    Good (fun raw max => vexC5' raw max s len) (len + 2) := by
  unfold vexC5'
  refine Good.guard (Good.read (fun b _ => ?_) (by omega)) (by omega)
  refine .ite (fun _ => good_opc_modrm _ _ _ hv (by decide) (by decide)) fun _ => ?_
  exact Good.mono (len' := len + 3) (Good.guard' (good_vexDone _ _) (by omega)) (by omega)

theorem good_vexC4 (s : Ild) (len : Nat) (hv : s.vex = 0) :
    Good (fun raw max => vexC4' raw max s len) (len + 2) := by
  unfold vexC4'
  refine Good.guard (Good.read (fun b _ => ?_) (by omega)) (by omega)
  refine .ite (fun _ => good_opc_modrm _ _ _ hv (by decide) (by decide)) fun _ => ?_
  refine Good.mono (len' := len + 4) (Good.guard' ?_ (by omega)) (by omega)
  refine Good.read (fun b _ => ?_) (by omega)
  exact .ite (fun _ => .fail _) fun _ => good_vexDone _ _

theorem good_evex (s : Ild) (len : Nat) (hv : s.vex = 0) :
    Good (fun raw max => evex' raw max s len) (len + 2) := by
  unfold evex'
  refine Good.guard (Good.read (fun b _ => ?_) (by omega)) (by omega)
  refine .ite (fun _ => good_opc_modrm _ _ _ hv (by decide) (by decide)) fun _ => ?_
  refine Good.mono (len' := len + 5) (Good.guard' ?_ (by omega)) (by omega)
  exact Good.read (fun b _ => good_vexDone _ _) (by omega)

/-- `rex2` with the opcode byte known. -/
def rex2' (raw : List UInt8) (max : Nat) (s : Ild) (len : Nat) : Res (Ild × Nat) :=
  if s.mode ≠ .b64 then opc 0xd5 raw max s len
  else if max < len + 2 then .err .badInsn
  else do
    let p ← rd raw (len + 1)
    vexDone raw max
      { s with rexR := 2 * bit p 6 + bit p 2, rexW := decide (bit p 3 = 1), rex2 := true,
               map := p / 128 } (len + 2)

theorem rex2_eq {raw : List UInt8} {len : Nat} (h : rd raw len = .ok 0xd5) (max s) :
    rex2 raw max s len = rex2' raw max s len := by
  unfold rex2 rex2'; simp only [opcodeDec_of_rd h]

theorem good_rex2 (s : Ild) (len : Nat) : Good (fun raw max => rex2' raw max s len) (len + 1) := by
  unfold rex2'
  refine .ite (fun _ => good_opc _ _ _) fun _ => ?_
  refine Good.mono (len' := len + 3) (Good.guard' ?_ (by omega)) (by omega)
  exact Good.read (fun b _ => good_vexDone _ _) (by omega)

/-- One step of `prefixDecode` after the byte `b` has been read, with `next` the recursive
call. -/
def pfxStep (next : Ild → Nat → Nat → Res (Ild × Nat)) (b : Nat) (raw : List UInt8) (max : Nat)
    (s : Ild) (len rex : Nat) : Res (Ild × Nat) :=
  match pfxOf b with
  | .osz => next { s with osz := true } (len + 1) 0
  | .asz => next { s with asz := true } (len + 1) 0
  | .lock => next { s with lock := true } (len + 1) 0
  | .f2 => next { s with f2 := true, lastF2f3 := 2 } (len + 1) 0
  | .f3 => next { s with f3 := true, lastF2f3 := 3 } (len + 1) 0
  | .ignore => next s (len + 1) 0
  | .rex => if s.mode = .b64 then next s (len + 1) b else opc b raw max s len
  | .c4 => vexC4' raw max s len
  | .c5 => vexC5' raw max s len
  | .evex => evex' raw max s len
  | .rex2 => rex2' raw max s len
  | .done => opc b raw max { s with rexR := bit rex 2, rexW := decide (bit rex 3 = 1) } len

theorem pfxOf_c4 {b} (h : pfxOf b = .c4) : b = 0xc4 := by
  unfold pfxOf at h; repeat' split at h
  all_goals first | assumption | cases h
theorem pfxOf_c5 {b} (h : pfxOf b = .c5) : b = 0xc5 := by
  unfold pfxOf at h; repeat' split at h
  all_goals first | assumption | cases h
theorem pfxOf_evex {b} (h : pfxOf b = .evex) : b = 0x62 := by
  unfold pfxOf at h; repeat' split at h
  all_goals first | assumption | cases h
theorem pfxOf_rex2 {b} (h : pfxOf b = .rex2) : b = 0xd5 := by
  unfold pfxOf at h; repeat' split at h
  all_goals first | assumption | cases h

theorem prefixDecode_succ (raw : List UInt8) (max fuel : Nat) (s : Ild) (len rex : Nat) :
    prefixDecode raw max (fuel + 1) s len rex =
      if max ≤ len then .err .badInsn
      else rd raw len >>= fun b => pfxStep (prefixDecode raw max fuel) b raw max s len rex := by
  rw [prefixDecode]
  split
  · rfl
  · cases h : rd raw len with
    | ok b =>
      simp only [Res.bind_ok, pfxStep]
      cases hp : pfxOf b <;> dsimp only
      · split
        · rfl
        · exact opcodeDec_of_rd h _ _
      · have := pfxOf_c4 hp; subst this; exact vexC4_eq h _ _
      · have := pfxOf_c5 hp; subst this; exact vexC5_eq h _ _
      · have := pfxOf_evex hp; subst this; exact evex_eq h _ _
      · have := pfxOf_rex2 hp; subst this; exact rex2_eq h _ _
      · exact opcodeDec_of_rd h _ _
    | err e => rfl
    | ub => rfl

theorem good_prefixDecode : ∀ (fuel : Nat) (s : Ild) (len rex : Nat), s.vex = 0 →
    Good (fun raw max => prefixDecode raw max fuel s len rex) (len + 1)
  | 0, _, _, _, _ =>
    ⟨fun _ _ _ _ h => by simp [prefixDecode] at h, fun _ _ _ h => by simp [prefixDecode] at h⟩
  | fuel + 1, s, len, rex, hv => by
    simp only [prefixDecode_succ]
    refine Good.guard (Good.read (fun b _ => ?_) (by omega)) (by omega)
    have ih := good_prefixDecode fuel
    unfold pfxStep
    cases hp : pfxOf b <;> dsimp only
    · exact Good.mono (len' := len + 1 + 1) (ih _ _ _ (by exact hv)) (by omega)
    · exact Good.mono (len' := len + 1 + 1) (ih _ _ _ (by exact hv)) (by omega)
    · exact Good.mono (len' := len + 1 + 1) (ih _ _ _ (by exact hv)) (by omega)
    · exact Good.mono (len' := len + 1 + 1) (ih _ _ _ (by exact hv)) (by omega)
    · exact Good.mono (len' := len + 1 + 1) (ih _ _ _ (by exact hv)) (by omega)
    · exact .ite (fun _ => Good.mono (len' := len + 1 + 1) (ih _ _ _ (by exact hv)) (by omega)) fun _ => good_opc _ _ _
    · exact (good_vexC4 _ _ hv).mono (by omega)
    · exact (good_vexC5 _ _ hv).mono (by omega)
    · exact (good_evex _ _ hv).mono (by omega)
    · exact good_rex2 _ _
    · exact Good.mono (len' := len + 1 + 1) (ih _ _ _ (by exact hv)) (by omega)
    · exact good_opc _ _ _

theorem fine_opc {raw : List UInt8} {max : Nat} (h : max ≤ raw.length) (b s len) :
    Fine (opc b raw max s len) := by
  unfold opc
  refine .ite (fun _ => fine_modrmDec h _ _) fun _ => ?_
  refine .ite (fun _ => .bad) fun hl2 => .bind (fine_rd (by omega)) fun m _ => ?_
  refine .ite (fun _ => fine_nextAsOpcode h _ _) fun _ => ?_
  refine .ite (fun _ => fine_nextAsOpcode h _ _) fun _ => ?_
  exact .ite (fun _ => fine_nextAsOpcode h _ _) fun _ => fine_modrmDec h _ _

theorem fine_vexC5 {raw : List UInt8} {max : Nat} (h : max ≤ raw.length) (s len) :
    Fine (vexC5' raw max s len) := by
  unfold vexC5'
  refine .ite (fun _ => .bad) fun _ => .bind (fine_rd (by omega)) fun _ _ => ?_
  exact .ite (fun _ => fine_opc h _ _ _) fun _ => .ite (fun _ => .bad) fun _ =>
    fine_vexDone h _ (by omega)

theorem fine_vexC4 {raw : List UInt8} {max : Nat} (h : max ≤ raw.length) (s len) :
    Fine (vexC4' raw max s len) := by
  unfold vexC4'
  refine .ite (fun _ => .bad) fun _ => .bind (fine_rd (by omega)) fun _ _ => ?_
  refine .ite (fun _ => fine_opc h _ _ _) fun _ => .ite (fun _ => .bad) fun _ => ?_
  exact .bind (fine_rd (by omega)) fun _ _ => .ite (fun _ => .bad) fun _ =>
    fine_vexDone h _ (by omega)

theorem fine_evex {raw : List UInt8} {max : Nat} (h : max ≤ raw.length) (s len) :
    Fine (evex' raw max s len) := by
  unfold evex'
  refine .ite (fun _ => .bad) fun _ => .bind (fine_rd (by omega)) fun _ _ => ?_
  refine .ite (fun _ => fine_opc h _ _ _) fun _ => .ite (fun _ => .bad) fun _ => ?_
  exact .bind (fine_rd (by omega)) fun _ _ => fine_vexDone h _ (by omega)

theorem fine_rex2 {raw : List UInt8} {max : Nat} (h : max ≤ raw.length) (s len) :
    Fine (rex2' raw max s len) ∨ (s.mode = .b64 ∧ raw.length = max ∧ len + 2 = max) := by
  by_cases hm : s.mode = .b64
  · by_cases hl : len + 2 < raw.length
    · left
      exact .ite (fun _ => fine_opc h _ _ _) fun _ => .ite (fun _ => .bad) fun _ =>
        .bind (fine_rd (by omega)) fun _ _ => fine_vexDone h _ hl
    · by_cases hx : max < len + 2
      · left
        exact .ite (fun _ => fine_opc h _ _ _) fun _ => by rw [if_pos hx]; exact .bad
      · right; exact ⟨hm, by omega, by omega⟩
  · left
    unfold rex2'
    rw [if_pos hm]
    exact fine_opc h _ _ _

theorem fine_prefixDecode {raw : List UInt8} {max : Nat} (h : max ≤ raw.length) :
    ∀ (fuel : Nat) (s : Ild) (len rex : Nat), len ≤ max → max < len + fuel →
      Fine (prefixDecode raw max fuel s len rex) ∨
        (s.mode = .b64 ∧ raw.length = max ∧ ∃ i, i + 2 = max ∧ rd raw i = .ok 0xd5)
  | 0, _, _, _, hl, hf => by omega
  | fuel + 1, s, len, rex, _, hf => by
    rw [prefixDecode_succ]
    by_cases hl : max ≤ len
    · rw [if_pos hl]; exact .inl .bad
    rw [if_neg hl]
    obtain ⟨b, hb, e⟩ := rd_ex (m := raw) (i := len) (by omega)
    rw [e, Res.bind_ok]
    have ih := fine_prefixDecode h fuel
    unfold pfxStep
    cases hp : pfxOf b <;> dsimp only
    · exact ih { s with osz := true } _ _ (by omega) (by omega)
    · exact ih { s with asz := true } _ _ (by omega) (by omega)
    · exact ih { s with lock := true } _ _ (by omega) (by omega)
    · exact ih { s with f2 := true, lastF2f3 := 2 } _ _ (by omega) (by omega)
    · exact ih { s with f3 := true, lastF2f3 := 3 } _ _ (by omega) (by omega)
    · split
      · exact ih s _ _ (by omega) (by omega)
      · exact .inl (fine_opc h _ _ _)
    · exact .inl (fine_vexC4 h _ _)
    · exact .inl (fine_vexC5 h _ _)
    · exact .inl (fine_evex h _ _)
    · rcases fine_rex2 h s len with h1 | ⟨h1, h2, h3⟩
      · exact .inl h1
      · have := pfxOf_rex2 hp
        subst this
        exact .inr ⟨h1, h2, len, h3, e⟩
    · exact ih s _ _ (by omega) (by omega)
    · exact .inl (fine_opc h _ _ _)

/-- The state in front of the opcode: nothing but prefixes has been seen. -/
structure Init (s : Ild) : Prop where
  vex : s.vex = 0
  disp : s.disp = 0
  imm1 : s.imm1 = 0
  imm2 : s.imm2 = 0
  rex2 : s.rex2 = false
  modrm : s.modrm = 0

/-- The prefixes that make `prefixDecode` go on. -/
def isPfx (mode : Mode) (b : Nat) : Prop :=
  pfxOf b = .osz ∨ pfxOf b = .asz ∨ pfxOf b = .lock ∨ pfxOf b = .f2 ∨ pfxOf b = .f3 ∨
  pfxOf b = .ignore ∨ (pfxOf b = .rex ∧ mode = .b64)

instance (mode b) : Decidable (isPfx mode b) := by unfold isPfx; infer_instance

/-- The effect of a prefix on the decoder state. -/
def pfxSt (s : Ild) (b : Nat) : Ild :=
  match pfxOf b with
  | .osz => { s with osz := true }
  | .asz => { s with asz := true }
  | .lock => { s with lock := true }
  | .f2 => { s with f2 := true, lastF2f3 := 2 }
  | .f3 => { s with f3 := true, lastF2f3 := 3 }
  | _ => s

/-- The rex argument behind a prefix. -/
def pfxRex (b : Nat) : Nat := if pfxOf b = .rex then b else 0

theorem Init.pfx {s} (h : Init s) (b) : Init (pfxSt s b) := by
  unfold pfxSt; split <;> exact ⟨h.vex, h.disp, h.imm1, h.imm2, h.rex2, h.modrm⟩

theorem pfxSt_mode (s b) : (pfxSt s b).mode = s.mode := by
  unfold pfxSt; split <;> rfl

theorem pfxSt_osz (s b) : (pfxSt s b).osz = (s.osz || decide (pfxOf b = .osz)) := by
  unfold pfxSt; split <;> simp_all

theorem pfxStep_pfx {next b raw max s len rex} (h : isPfx s.mode b) :
    pfxStep next b raw max s len rex = next (pfxSt s b) (len + 1) (pfxRex b) := by
  unfold pfxStep pfxSt pfxRex
  rcases h with h | h | h | h | h | h | ⟨h, h'⟩ <;> simp [h]
  intro h2; exact absurd h' h2

/-- Skipping over prefixes. -/
theorem prefixDecode_skip {raw : List UInt8} {max : Nat} :
    ∀ (P : List UInt8) (s : Ild) (len rex fuel : Nat), len + P.length ≤ max →
      (∀ i (h : i < P.length), raw[len + i]? = some P[i]) →
      (∀ b ∈ P, isPfx s.mode b.toNat) →
      ∃ rex', prefixDecode raw max (fuel + P.length) s len rex =
        prefixDecode raw max fuel (P.foldl (fun s b => pfxSt s b.toNat) s) (len + P.length) rex'
  | [], s, len, rex, fuel, _, _, _ => ⟨rex, by simp⟩
  | b :: P, s, len, rex, fuel, hl, hr, hp => by
    simp only [List.length_cons] at hl
    have hb : rd raw len = .ok b.toNat := by
      have := hr 0 (by simp)
      simp only [Nat.add_zero, List.getElem_cons_zero] at this
      simp [rd, this]
    obtain ⟨rex', ih⟩ := prefixDecode_skip P (pfxSt s b.toNat) (len + 1) (pfxRex b.toNat) fuel
      (show len + 1 + P.length ≤ max by omega)
      (fun i h => by
        have := hr (i + 1) (by simpa using h)
        simpa [Nat.add_assoc, Nat.add_comm 1] using this)
      (fun c hc => by rw [pfxSt_mode]; exact hp c (by simp [hc]))
    refine ⟨rex', ?_⟩
    rw [show fuel + (b :: P).length = (fuel + P.length) + 1 from by simp; omega, prefixDecode_succ,
      if_neg (by omega), hb, Res.bind_ok, pfxStep_pfx (hp b (by simp)), ih]
    simp [Nat.add_assoc, Nat.add_comm 1]

theorem setImm_frame {s s'} (h : setImm s = .ok s') :
    ∃ i1 i2, s' = { s with imm1 := i1, imm2 := i2 } := by
  unfold setImm at h
  split at h
  · cases h
  split at h
  · split at h
    · cases h
    · cases h; exact ⟨_, _, rfl⟩
  split at h
  all_goals (repeat' split at h)
  all_goals first
    | (cases h; exact ⟨_, _, rfl⟩)
    | (obtain ⟨n, _, h⟩ := Res.bind_eq_ok.1 h; cases h; exact ⟨_, _, rfl⟩)

theorem legacyDisp_frame {s s'} (h : legacyDisp s = .ok s') : ∃ d, s' = { s with disp := d } := by
  unfold legacyDisp at h
  split at h
  · cases h; exact ⟨_, rfl⟩
  split at h
  · cases h; exact ⟨_, rfl⟩
  split at h
  all_goals (repeat' split at h)
  all_goals first
    | (cases h; exact ⟨_, rfl⟩)
    | (obtain ⟨n, _, h⟩ := Res.bind_eq_ok.1 h; cases h; exact ⟨_, rfl⟩)

theorem immDec_frame {max s len s' n} (h : immDec max s len = .ok (s', n)) :
    ∃ i1 i2, s' = { s with imm1 := i1, imm2 := i2 } := by
  unfold immDec at h
  obtain ⟨s1, h1, h⟩ := Res.bind_eq_ok.1 h
  obtain ⟨i1, i2, rfl⟩ := setImm_frame h1
  dsimp only at h
  split at h
  · cases h
  · cases h; exact ⟨_, _, rfl⟩

/-- Up to the fields computed behind the opcode, `s'` is `s`. -/
def Frame (s s' : Ild) : Prop := ∃ m d p i1 i2,
  s' = { s with modrm := m, disp := d, dispPos := p, imm1 := i1, imm2 := i2 }

theorem dispDec_frame {max s len s' n} (h : dispDec max s len = .ok (s', n)) : Frame s s' := by
  rw [dispDec_eq] at h
  obtain ⟨s1, h1, h⟩ := Res.bind_eq_ok.1 h
  have : ∃ d, s1 = { s with disp := d } := by
    unfold disp1 at h1
    split at h1
    · exact legacyDisp_frame h1
    · cases h1; exact ⟨_, rfl⟩
  obtain ⟨d, rfl⟩ := this
  split at h
  · obtain ⟨i1, i2, rfl⟩ := immDec_frame h; exact ⟨_, _, _, _, _, rfl⟩
  · split at h
    · cases h
    · obtain ⟨i1, i2, rfl⟩ := immDec_frame h; exact ⟨_, _, _, _, _, rfl⟩

theorem Frame.of_modrm {s s' : Ild} {m d} (h : Frame { s with modrm := m, disp := d } s') :
    Frame s s' := by
  obtain ⟨_, _, _, _, _, rfl⟩ := h; exact ⟨_, _, _, _, _, rfl⟩

theorem sibDec_frame {raw max s len s' n} (h : sibDec raw max s len = .ok (s', n)) :
    Frame s s' := by
  unfold sibDec at h
  split at h
  · cases h
  · obtain ⟨b, _, h⟩ := Res.bind_eq_ok.1 h
    dsimp only at h
    have := dispDec_frame h
    split at this
    · obtain ⟨_, _, _, _, _, rfl⟩ := this; exact ⟨_, _, _, _, _, rfl⟩
    · exact this

theorem modrmDec_frame {raw max s len s' n} (h : modrmDec raw max s len = .ok (s', n)) :
    Frame s s' := by
  unfold modrmDec at h
  split at h
  · cases h
  split at h
  · exact dispDec_frame h
  · exact dispDec_frame h
  · split at h
    · cases h
    · obtain ⟨b, _, h⟩ := Res.bind_eq_ok.1 h
      obtain ⟨_, _, _, _, _, rfl⟩ := dispDec_frame h; exact ⟨_, _, _, _, _, rfl⟩
  · split at h
    · cases h
    · obtain ⟨b, _, h⟩ := Res.bind_eq_ok.1 h
      dsimp only at h
      split at h
      · exact (sibDec_frame h).of_modrm
      · exact (dispDec_frame h).of_modrm

theorem vexDone_frame {raw max s len s' n} (h : vexDone raw max s len = .ok (s', n)) :
    ∃ b, Frame { s with opcode := b } s' := by
  unfold vexDone at h
  obtain ⟨b, _, h⟩ := Res.bind_eq_ok.1 h
  exact ⟨b, modrmDec_frame h⟩

theorem Frame.vex {s s'} (h : Frame s s') : s'.vex = s.vex := by
  obtain ⟨_, _, _, _, _, rfl⟩ := h; rfl
theorem Frame.rex2 {s s'} (h : Frame s s') : s'.rex2 = s.rex2 := by
  obtain ⟨_, _, _, _, _, rfl⟩ := h; rfl
theorem Frame.map {s s'} (h : Frame s s') : s'.map = s.map := by
  obtain ⟨_, _, _, _, _, rfl⟩ := h; rfl
theorem Frame.opcode {s s'} (h : Frame s s') : s'.opcode = s.opcode := by
  obtain ⟨_, _, _, _, _, rfl⟩ := h; rfl
theorem Frame.mode {s s'} (h : Frame s s') : s'.mode = s.mode := by
  obtain ⟨_, _, _, _, _, rfl⟩ := h; rfl

theorem vexPp_vex (s pp) : (vexPp s pp).vex = s.vex := by
  unfold vexPp; split <;> rfl

/-- A length decode that found a REX2 prefix. -/
def ViaRex2 (raw : List UInt8) (max : Nat) (s : Ild) (len : Nat) (s' : Ild) (n : Nat) : Prop :=
  ∃ (P : List UInt8) (p b : Nat),
    (∀ i (h : i < P.length), raw[len + i]? = some P[i]) ∧
    (∀ b ∈ P, isPfx s.mode b.toNat) ∧ s.mode = .b64 ∧
    rd raw (len + P.length) = .ok 0xd5 ∧ rd raw (len + P.length + 1) = .ok p ∧
    rd raw (len + P.length + 2) = .ok b ∧
    modrmDec raw max { (P.foldl (fun s b => pfxSt s b.toNat) s) with
      rexR := 2 * bit p 6 + bit p 2, rexW := decide (bit p 3 = 1), rex2 := true, map := p / 128,
      opcode := b } (len + P.length + 3) = .ok (s', n)

theorem ViaRex2.rex2' {raw max s len s' n} (h : ViaRex2 raw max s len s' n) : s'.rex2 = true := by
  obtain ⟨P, p, b, -, -, -, -, -, -, h⟩ := h
  rw [(modrmDec_frame h).rex2]

/-- How a successful length decode came about: prefixes followed by an ordinary opcode, or
VEX/EVEX, or REX2. -/
theorem prefix_cases {raw : List UInt8} {max : Nat} :
    ∀ (fuel : Nat) (s : Ild) (len rex : Nat) (s' : Ild) (n : Nat), Init s →
      prefixDecode raw max fuel s len rex = .ok (s', n) →
      (∃ (P : List UInt8) (b : Nat) (rr : Nat) (rw : Bool),
        (∀ i (h : i < P.length), raw[len + i]? = some P[i]) ∧
        (∀ b ∈ P, isPfx s.mode b.toNat) ∧ ¬ isPfx s.mode b ∧
        len + P.length < max ∧ rd raw (len + P.length) = .ok b ∧
        opc b raw max { (P.foldl (fun s b => pfxSt s b.toNat) s) with rexR := rr, rexW := rw }
          (len + P.length) = .ok (s', n)) ∨ s'.vex ≠ 0 ∨ ViaRex2 raw max s len s' n
  | 0, _, _, _, _, _, _, h => by simp [prefixDecode] at h
  | fuel + 1, s, len, rex, s', n, hi, h => by
    rw [prefixDecode_succ] at h
    split at h
    · cases h
    rename_i hl
    obtain ⟨b, hb, h⟩ := Res.bind_eq_ok.1 h
    by_cases hp : isPfx s.mode b
    · rw [pfxStep_pfx hp] at h
      rcases prefix_cases fuel _ _ _ _ _ (hi.pfx b) h with ⟨P, b', rr, rw, h1, h2, h3, h4, h5, h6⟩ | h'
      · left
        have hr := hb
        unfold rd at hr
        split at hr
        · rename_i x hx
          cases hr
          rw [pfxSt_mode] at h2 h3
          refine ⟨x :: P, b', rr, rw, ?_, ?_, h3, by simp; omega, ?_, ?_⟩
          · intro i hi'
            rcases i with _ | i
            · simpa using hx
            · have := h1 i (by simpa using hi')
              simpa [Nat.add_assoc, Nat.add_comm 1] using this
          · intro c hc
            rcases List.mem_cons.1 hc with rfl | hc
            · exact hp
            · exact h2 c hc
          · simpa [Nat.add_assoc, Nat.add_comm 1] using h5
          · simpa [Nat.add_assoc, Nat.add_comm 1] using h6
        · cases hr
      · rcases h' with h' | ⟨P, p, b', h1, h2, h3, h4, h5, h6, h7⟩
        · exact .inr (.inl h')
        · right; right
          have hr := hb
          unfold rd at hr
          split at hr
          · rename_i x hx
            cases hr
            rw [pfxSt_mode] at h2 h3
            refine ⟨x :: P, p, b', ?_, ?_, h3, ?_, ?_, ?_, ?_⟩
            · intro i hi'
              rcases i with _ | i
              · simpa using hx
              · have := h1 i (by simpa using hi')
                simpa [Nat.add_assoc, Nat.add_comm 1] using this
            · intro c hc
              rcases List.mem_cons.1 hc with rfl | hc
              · exact hp
              · exact h2 c hc
            · simpa [Nat.add_assoc, Nat.add_comm 1] using h4
            · have e : len + 1 + P.length + 1 = len + (P.length + 1) + 1 := by omega
              simpa [e] using h5
            · have e : len + 1 + P.length + 2 = len + (P.length + 1) + 2 := by omega
              simpa [e] using h6
            · have e : len + 1 + P.length + 3 = len + (P.length + 1) + 3 := by omega
              simpa [e] using h7
          · cases hr
    · have key : ∀ (rr : Nat) (rw : Bool),
          opc b raw max { s with rexR := rr, rexW := rw } len = .ok (s', n) →
          (∃ (P : List UInt8) (b : Nat) (rr : Nat) (rw : Bool),
            (∀ i (h : i < P.length), raw[len + i]? = some P[i]) ∧
            (∀ b ∈ P, isPfx s.mode b.toNat) ∧ ¬ isPfx s.mode b ∧
            len + P.length < max ∧ rd raw (len + P.length) = .ok b ∧
            opc b raw max { (P.foldl (fun s b => pfxSt s b.toNat) s) with rexR := rr, rexW := rw }
              (len + P.length) = .ok (s', n)) ∨ s'.vex ≠ 0 ∨ ViaRex2 raw max s len s' n := by
        intro rr rw h
        exact .inl ⟨[], b, rr, rw, by simp, by simp, hp, by simp; omega, hb, h⟩
      unfold pfxStep at h
      cases hq : pfxOf b <;> rw [hq] at h <;> dsimp only at h
      · exact absurd (by simp [isPfx, hq]) hp
      · exact absurd (by simp [isPfx, hq]) hp
      · exact absurd (by simp [isPfx, hq]) hp
      · exact absurd (by simp [isPfx, hq]) hp
      · exact absurd (by simp [isPfx, hq]) hp
      · split at h
        · rename_i hm
          exact absurd (by simp [isPfx, hq, hm]) hp
        · exact key s.rexR s.rexW h
      · have := pfxOf_c4 hq; subst this
        unfold vexC4' at h
        split at h
        · cases h
        obtain ⟨p1, _, h⟩ := Res.bind_eq_ok.1 h
        split at h
        · exact key s.rexR s.rexW h
        split at h
        · cases h
        obtain ⟨p2, _, h⟩ := Res.bind_eq_ok.1 h
        dsimp only at h
        split at h
        · cases h
        obtain ⟨op, hf⟩ := vexDone_frame h
        right; left
        rw [hf.vex]
        simp [vexPp_vex]
      · have := pfxOf_c5 hq; subst this
        unfold vexC5' at h
        split at h
        · cases h
        obtain ⟨p1, _, h⟩ := Res.bind_eq_ok.1 h
        split at h
        · exact key s.rexR s.rexW h
        split at h
        · cases h
        obtain ⟨op, hf⟩ := vexDone_frame h
        right; left
        rw [hf.vex]
        simp [vexPp_vex]
      · have := pfxOf_evex hq; subst this
        unfold evex' at h
        split at h
        · cases h
        obtain ⟨p1, _, h⟩ := Res.bind_eq_ok.1 h
        split at h
        · exact key s.rexR s.rexW h
        split at h
        · cases h
        obtain ⟨p2, _, h⟩ := Res.bind_eq_ok.1 h
        obtain ⟨op, hf⟩ := vexDone_frame h
        right; left
        rw [hf.vex]
        simp [vexPp_vex]
      · have := pfxOf_rex2 hq; subst this
        unfold rex2' at h
        split at h
        · exact key s.rexR s.rexW h
        split at h
        · cases h
        rename_i hmode _
        obtain ⟨p2, hp2, h⟩ := Res.bind_eq_ok.1 h
        unfold vexDone at h
        obtain ⟨op, hop, h⟩ := Res.bind_eq_ok.1 h
        right; right
        exact ⟨[], p2, op, by simp, by simp, Decidable.byContradiction hmode, hb, hp2, hop, h⟩
      · exact absurd (by simp [isPfx, hq]) hp
      · exact key _ _ h

/-- A branch with a displacement and neither modrm byte nor immediate. -/
theorem modrm_branch {raw : List UInt8} {max : Nat} {s : Ild} {len w : Nat} (hv : s.vex = 0)
    (h1 : s.imm1 = 0) (h2 : s.imm2 = 0) (hmap : s.map < 2)
    (hm : hasModrm 0 s.map s.opcode = .no) (hd : legacyDisp s = .ok { s with disp := w })
    (hw : 0 < w)
    (hi : (if s.map = 0 then immLegacy0 else immLegacy1).getD s.opcode .zero = .zero) :
    modrmDec raw max s len =
      if max < len + w then .err .badInsn
      else .ok ({ s with disp := w, dispPos := len }, len + w) := by
  have himm : ∀ d p, setImm { s with disp := d, dispPos := p } =
      .ok { s with disp := d, dispPos := p } := by
    intro d p
    unfold setImm
    rw [if_neg (by simp; omega)]
    dsimp only
    rw [hv]
    have hm2 : s.map = 0 ∨ s.map = 1 := by omega
    rcases hm2 with e | e <;> rw [e] at hi ⊢ <;> simp only [immDesc] <;> simp at hi <;> simp [hi]
  unfold modrmDec
  rw [if_neg (by omega), hv, hm]
  dsimp only
  rw [dispDec_eq]
  unfold disp1
  rw [if_pos hv, hd, Res.bind_ok]
  dsimp only
  rw [if_neg (by omega)]
  unfold immDec
  rw [himm, Res.bind_ok]
  dsimp only
  rw [h1, h2]
  split
  · rfl
  · rename_i h; simp [h, hv, h1, h2]

/-- Widths of near displacements. -/
def nearW (mode : Mode) (osz : Bool) : Nat :=
  match mode, osz with
  | .b64, _ => 4
  | .b32, false => 4
  | .b32, true => 2
  | _, false => 2
  | _, true => 4

/-- One-byte opcodes with a one byte displacement. -/
def shortOp (b : Nat) : Prop := b / 16 = 7 ∨ b = 0xe0 ∨ b = 0xe1 ∨ b = 0xe2 ∨ b = 0xe3 ∨ b = 0xeb
instance (b) : Decidable (shortOp b) := by unfold shortOp; infer_instance

theorem short_tab : ∀ b, b < 256 → shortOp b → hasModrm 0 0 b = .no ∧
    dispMap0.getD b .none = .brdisp8 ∧ immLegacy0.getD b .zero = .zero ∧ pfxOf b = .done ∧
    b ≠ 0x0f := by
  decide +kernel

theorem near_tab : ∀ b, b < 256 → (b = 0xe8 ∨ b = 0xe9) → hasModrm 0 0 b = .no ∧
    dispMap0.getD b .none = .bucket0 ∧ immLegacy0.getD b .zero = .zero ∧ pfxOf b = .done ∧
    b ≠ 0x0f := by
  decide +kernel

theorem jcc_tab : ∀ b, b < 256 → b / 16 = 8 → hasModrm 0 1 b = .no ∧
    dispMap0F.getD b .none = .bucket0 ∧ immLegacy1.getD b .zero = .zero ∧
    b ≠ 0x38 ∧ b ≠ 0x3a ∧ b / 8 ≠ 7 := by
  decide +kernel

theorem legacyDisp_short {s : Ild} (hd : s.disp = 0) (hm : s.map = 0)
    (h : dispMap0.getD s.opcode .none = .brdisp8) : legacyDisp s = .ok { s with disp := 1 } := by
  unfold legacyDisp
  rw [if_neg (by omega), if_neg (by omega), if_pos hm, h]

theorem legacyDisp_near {s : Ild} (hd : s.disp = 0) (hm : s.map < 2)
    (h : (if s.map = 0 then dispMap0 else dispMap0F).getD s.opcode .none = .bucket0) :
    legacyDisp s = .ok { s with disp := nearW s.mode s.osz } := by
  unfold legacyDisp
  rw [if_neg (by omega), if_neg (by omega), h]
  dsimp only
  cases hmo : s.mode <;> cases ho : s.osz <;> simp [resolveZ, eosz, eoszNon64, hmo, ho, nearW]

theorem nearW_pos (m o) : 0 < nearW m o := by cases m <;> cases o <;> decide

theorem opc_short {raw : List UInt8} {max b : Nat} {s : Ild} {len : Nat} (hi : Init s)
    (hb : b < 256) (hs : shortOp b) :
    opc b raw max s len = if max < len + 1 + 1 then .err .badInsn
      else .ok ({ s with map := 0, opcode := b, disp := 1, dispPos := len + 1 }, len + 1 + 1) := by
  obtain ⟨t1, t2, t3, _, t5⟩ := short_tab b hb hs
  unfold opc
  rw [if_pos t5]
  exact modrm_branch (s := { s with map := 0, opcode := b }) hi.vex hi.imm1 hi.imm2 (by simp) t1
    (legacyDisp_short hi.disp rfl t2) (by omega) (by simpa using t3)

theorem opc_near {raw : List UInt8} {max b : Nat} {s : Ild} {len : Nat} (hi : Init s)
    (hb : b < 256) (hs : b = 0xe8 ∨ b = 0xe9) :
    opc b raw max s len = if max < len + 1 + nearW s.mode s.osz then .err .badInsn
      else .ok ({ s with map := 0, opcode := b, disp := nearW s.mode s.osz, dispPos := len + 1 },
        len + 1 + nearW s.mode s.osz) := by
  obtain ⟨t1, t2, t3, _, t5⟩ := near_tab b hb hs
  unfold opc
  rw [if_pos t5]
  exact modrm_branch (s := { s with map := 0, opcode := b }) hi.vex hi.imm1 hi.imm2 (by simp) t1
    (legacyDisp_near hi.disp (by simp) (by simpa using t2)) (nearW_pos _ _) (by simpa using t3)

theorem opc_jcc {raw : List UInt8} {max b : Nat} {s : Ild} {len : Nat} (hi : Init s)
    (hb : b < 256) (hs : b / 16 = 8) (hr : rd raw (len + 1) = .ok b) :
    opc 0x0f raw max s len = if max < len + 2 + nearW s.mode s.osz then .err .badInsn
      else .ok ({ s with map := 1, opcode := b, disp := nearW s.mode s.osz, dispPos := len + 2 },
        len + 2 + nearW s.mode s.osz) := by
  obtain ⟨t1, t2, t3, t4, t5, t6⟩ := jcc_tab b hb hs
  unfold opc
  rw [if_neg (by simp)]
  by_cases hm : max ≤ len + 1
  · rw [if_pos hm, if_pos (by omega)]
  rw [if_neg hm, hr, Res.bind_ok, if_neg t4, if_neg t5, if_neg t6]
  have := modrm_branch (raw := raw) (max := max) (len := len + 2)
    (s := { s with map := 1, opcode := b }) hi.vex hi.imm1 hi.imm2 (by simp) t1
    (legacyDisp_near hi.disp (by simp) (by simpa using t2)) (nearW_pos _ _) (by simpa using t3)
  simpa using this

end Ipt.Ild
