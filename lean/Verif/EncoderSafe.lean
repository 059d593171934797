import Verif.EncoderRoundtrip

/-! Memory safety and atomicity of the encoder: helper lemmas. -/

set_option linter.unusedSimpArgs false

namespace Ipt

/-- What one encoder call may do: store exactly `n` bytes at the position and advance, or
fail and change nothing. -/
inductive EncStep (e : Enc) : Enc × Res Nat → Prop
  | ok (bs : List UInt8) (h : e.pos + bs.length ≤ e.buf.length) :
      EncStep e ({ buf := splice e.buf e.pos bs, pos := e.pos + bs.length }, .ok bs.length)
  | err (x : Err) : EncStep e (e, .err x)

theorem encWrite_step (e : Enc) (n : Nat) (bs : List Nat) (h : bs.length = n) :
    EncStep e (encWrite e n bs) := by
  by_cases hl : e.pos + n ≤ e.buf.length
  · rw [encWrite_eq h hl]
    subst h
    have := EncStep.ok (e := e) (toBytes bs) (by simpa using hl)
    simpa using this
  · rw [encWrite_eos (by omega)]
    exact .err _

theorem encIp_step (e : Enc) (opc ipc ip : Nat) : EncStep e (encIp e opc ipc ip) := by
  unfold encIp
  split
  · exact encWrite_step _ _ _ (by simp; omega)
  · exact .err _
  · rename_i h
    unfold encIpcSize at h
    repeat' split at h
    all_goals cases h

theorem cycExt_safe : ∀ {room ctc : Nat}, (cycExt room ctc).safe := by
  intro room
  induction room with
  | zero => intro ctc; simp only [cycExt]; split <;> simp
  | succ room ih =>
    intro ctc
    simp only [cycExt]
    split
    · simp
    · exact Res.bind_ne_ub ih (by intro a _; simp)

theorem encReserve_cases (e : Enc) (n : Nat) :
    encReserve e n = .ok () ∨ encReserve e n = .err .eos := by
  unfold encReserve; split <;> simp

theorem encNext_step (e : Enc) (p : Packet) : EncStep e (encNext e p) := by
  cases p with
  | unknown => exact .err _
  | invalid => exact .err _
  | modeOther l =>
    simp only [encNext]
    rcases encReserve_cases e 2 with h | h <;> rw [h] <;> exact .err _
  | pad => exact encWrite_step _ _ _ rfl
  | psb => exact encWrite_step _ _ _ rfl
  | psbend => exact encWrite_step _ _ _ rfl
  | ovf => exact encWrite_step _ _ _ rfl
  | stop => exact encWrite_step _ _ _ rfl
  | fup ipc ip => exact encIp_step _ _ _ _
  | tip ipc ip => exact encIp_step _ _ _ _
  | tipPge ipc ip => exact encIp_step _ _ _ _
  | tipPgd ipc ip => exact encIp_step _ _ _ _
  | tnt8 bs pl =>
    simp only [encNext]
    split
    · exact .err _
    · exact encWrite_step _ _ _ rfl
  | tnt64 bs pl =>
    simp only [encNext]
    rcases encReserve_cases e 8 with h | h <;> rw [h]
    · dsimp only
      split
      · exact .err _
      · split
        · exact .err _
        · exact encWrite_step _ _ _ (by simp)
    · exact .err _
  | modeExec a b c => exact encWrite_step _ _ _ rfl
  | modeTsx a b => exact encWrite_step _ _ _ rfl
  | pip cr3 nr => exact encWrite_step _ _ _ (by simp)
  | tsc v => exact encWrite_step _ _ _ (by simp)
  | cbr r => exact encWrite_step _ _ _ rfl
  | tma ctc fc =>
    simp only [encNext]
    rcases encReserve_cases e 7 with h | h <;> rw [h]
    · dsimp only
      split
      · exact .err _
      · exact encWrite_step _ _ _ (by simp)
    · exact .err _
  | mtc c => exact encWrite_step _ _ _ rfl
  | cyc v =>
    simp only [encNext]
    split
    · exact encWrite_step _ _ _ (by simp; omega)
    · exact .err _
    · rename_i h
      exact absurd h cycExt_safe
  | vmcs b => exact encWrite_step _ _ _ (by simp)
  | mnt v => exact encWrite_step _ _ _ (by simp)
  | exstop ip => exact encWrite_step _ _ _ rfl
  | mwait a b => exact encWrite_step _ _ _ (by simp)
  | pwre a b c => exact encWrite_step _ _ _ (by simp)
  | pwrx a b c d f => exact encWrite_step _ _ _ (by simp)
  | ptw pl plc ip =>
    simp only [encNext]
    split
    · exact encWrite_step _ _ _ (by simp; omega)
    · exact .err _
    · rename_i h
      exact absurd h (ptwSize_safe plc)
  | cfe a b c => exact encWrite_step _ _ _ rfl
  | evd a b => exact encWrite_step _ _ _ (by simp)
  | trig a b c d =>
    cases b with
    | none => exact encWrite_step _ _ _ rfl
    | some n => exact encWrite_step _ _ _ (by simp)

end Ipt
