import Verif.WireLemmas
import Verif.Spec.Packet

/-!
# C47: the packet decoder accepts exactly the documented packet formats
-/

namespace Ipt.Props

open Spec

/-- C47: without errata work-arounds and without a callback for unknown packets, `pt_pkt_next` at offset
`pos` delivers the packet `p` of size `n` exactly if the buffer contains `n` more bytes and these bytes
have the wire format of `p`; the position then moves by `n`. -/
theorem C47_decode_exact (c : PktCfg) (hs : c.errata.skd007 = false) (hz : c.errata.skz84 = false)
    (hcb : c.cb = none) (pos n pos' : Nat) (p : Packet) :
    pktNext c (some pos) = .ok (p, n, pos') ↔
      pos + n ≤ c.mem.length ∧ Wire p (bytesAt c.mem pos) n ∧ pos' = pos + n := by
  have hpos : ∀ n, Wire p (bytesAt c.mem pos) n → 0 < n := by
    intro n hw
    cases p <;> simp only [Wire] at hw
    all_goals first
      | exact hw.elim
      | (obtain ⟨_, _, ⟨_, h, _⟩ | ⟨_, h, _⟩⟩ := hw <;> omega)
      | (obtain ⟨_, _, h, _⟩ := hw; omega)
      | (obtain ⟨h, _⟩ := hw; omega)
      | (obtain ⟨_, _, h | h⟩ := hw <;> omega)
      | (obtain ⟨_, _, _, _, h | h⟩ := hw <;> omega)
  unfold pktNext
  simp only
  constructor
  · intro h
    obtain ⟨⟨q, k, s⟩, hd, h⟩ := Res.bind_eq_ok.1 h
    simp only [Res.pure_eq, Res.ok.injEq, Prod.mk.injEq] at h
    obtain ⟨rfl, rfl, rfl⟩ := h
    obtain ⟨rfl, _, hl, hw⟩ := (decode_wire hs hz hcb).1 hd
    exact ⟨hl, hw, by omega⟩
  · rintro ⟨hl, hw, rfl⟩
    have := hpos n hw
    rw [(decode_wire hs hz hcb).2 ⟨rfl, by omega, hl, hw⟩]
    simp

/-- The wire format determines packet and size: no two packets share a byte sequence. -/
theorem C47_unambiguous (m : List UInt8) (pos n n' : Nat) (p p' : Packet)
    (h : pos + n ≤ m.length) (h' : pos + n' ≤ m.length)
    (hw : Wire p (bytesAt m pos) n) (hw' : Wire p' (bytesAt m pos) n') : p = p' ∧ n = n' := by
  have h1 := (C47_decode_exact { mem := m } rfl rfl rfl pos n _ p).2 ⟨h, hw, rfl⟩
  have h2 := (C47_decode_exact { mem := m } rfl rfl rfl pos n' _ p').2 ⟨h', hw', rfl⟩
  rw [h1] at h2
  simp only [Res.ok.injEq, Prod.mk.injEq] at h2
  exact ⟨h2.1, h2.2.1⟩

theorem ipBytes_fits {m : List UInt8} {pos ipc k : Nat} (h : ipBytes ipc = some k) :
    IpFits ipc (le (bytesAt m pos) 1 k) := by
  have hb := le_lt (bytesAt_lt m pos) k 1
  unfold ipBytes at h
  unfold IpFits
  split at h <;> (cases h; try (simp [le] at hb ⊢; try omega))

/-- Every delivered packet carries field values of the documented ranges - one that the encoder can
represent. -/
theorem C47_delivered_in_range (c : PktCfg) (hs : c.errata.skd007 = false) (hz : c.errata.skz84 = false)
    (hcb : c.cb = none) (pos n pos' : Nat) (p : Packet) (h : pktNext c (some pos) = .ok (p, n, pos')) :
    Representable p := by
  obtain ⟨_, hw, _⟩ := (C47_decode_exact c hs hz hcb pos n pos' p).1 h
  have hb := bytesAt_lt c.mem pos
  have hb0 := hb 0
  have hb1 := hb 1
  have hb2 := hb 2
  have hb3 := hb 3
  have l (i k) := le_lt hb k i
  have tnt : ∀ {s v x k : Nat}, x < 2 ^ k → x = 2 ^ s + v → s < k := by
    intro s v x k hx he
    rcases Nat.lt_or_ge s k with hk | hk
    · exact hk
    · have := Nat.pow_le_pow_right (show 0 < 2 by omega) hk; omega
  cases p with
  | unknown => exact hw.elim
  | invalid => exact hw.elim
  | modeOther => exact hw.elim
  | pad => trivial
  | psb => trivial
  | psbend => trivial
  | ovf => trivial
  | stop => trivial
  | fup => obtain ⟨k, h1, _, _, rfl⟩ := hw; exact ipBytes_fits h1
  | tip => obtain ⟨k, h1, _, _, rfl⟩ := hw; exact ipBytes_fits h1
  | tipPge => obtain ⟨k, h1, _, _, rfl⟩ := hw; exact ipBytes_fits h1
  | tipPgd => obtain ⟨k, h1, _, _, rfl⟩ := hw; exact ipBytes_fits h1
  | tnt8 s v =>
    obtain ⟨_, h1, h2, h3⟩ := hw
    have := tnt (k := 7) (x := bytesAt c.mem pos 0 / 2) (s := s) (v := v) (by omega) (by omega)
    exact ⟨h1, by omega, h2⟩
  | tnt64 s v =>
    obtain ⟨_, _, _, h1, h2, h3⟩ := hw
    have hl := l 2 6
    have := tnt (k := 48) (s := s) (v := v) (x := le (bytesAt c.mem pos) 2 6) (by simpa using hl) h3
    exact ⟨h1, by omega, h2⟩
  | modeExec => trivial
  | modeTsx => trivial
  | pip => obtain ⟨_, _, _, _, rfl⟩ := hw; have := l 2 6; exact ⟨by omega, by simp at this; omega⟩
  | vmcs => obtain ⟨_, _, _, rfl⟩ := hw; have := l 2 5; exact ⟨by omega, by simp at this; omega⟩
  | cbr => obtain ⟨_, _, _, rfl⟩ := hw; exact hb2
  | tsc => obtain ⟨_, _, rfl⟩ := hw; have := l 1 7; show _ < 2 ^ 56; simp at this; omega
  | tma => obtain ⟨_, _, _, rfl, _, rfl, h⟩ := hw; have := l 2 2; exact ⟨by simp at this; omega, h⟩
  | mtc => obtain ⟨_, _, rfl⟩ := hw; exact hb1
  | cyc v =>
    obtain ⟨_, h9, ⟨_, _, rfl⟩ | ⟨_, _, w, ht, rfl⟩⟩ := hw
    · show _ < 2 ^ 61; omega
    · have ct : ∀ (k i w : Nat), CycTail (bytesAt c.mem pos) i k w → w < 128 ^ k := by
        intro k
        induction k with
        | zero => intro i w h; exact absurd h (by simp [CycTail])
        | succ k ih =>
          intro i w h
          have := hb i
          cases k with
          | zero => obtain ⟨_, rfl⟩ := h; simp; omega
          | succ k =>
            obtain ⟨_, w', h', rfl⟩ := h
            have := ih (i + 1) w' h'
            rw [Nat.pow_succ]; omega
      have h1 := ct _ _ _ ht
      have h2 : (128 : Nat) ^ (n - 1) ≤ 128 ^ 8 := Nat.pow_le_pow_right (by omega) (by omega)
      have h3 : (128 : Nat) ^ 8 = 2 ^ 56 := by decide
      show _ < 2 ^ 61; omega
  | mnt => obtain ⟨_, _, _, _, rfl⟩ := hw; have := l 3 8; show _ < 2 ^ 64; simp at this; omega
  | exstop => trivial
  | mwait =>
    obtain ⟨_, _, _, rfl, rfl⟩ := hw
    have := l 2 4; have := l 6 4; simp at *; exact ⟨by omega, by omega⟩
  | pwre => obtain ⟨_, _, _, _, rfl, rfl⟩ := hw; exact ⟨by omega, by omega⟩
  | pwrx => obtain ⟨_, _, _, rfl, rfl, _⟩ := hw; exact ⟨by omega, by omega⟩
  | ptw v plc ip =>
    obtain ⟨k, h1, _, _, _, _, _, rfl⟩ := hw
    have := l 2 k
    unfold ptwBytes at h1
    split at h1
    · simp only [Option.some.injEq] at h1; subst h1; exact .inl ⟨rfl, by simp at this; omega⟩
    · simp only [Option.some.injEq] at h1; subst h1; exact .inr ⟨rfl, by simp at this; omega⟩
    · cases h1
  | cfe => obtain ⟨_, _, _, rfl, _, rfl⟩ := hw; exact ⟨by omega, hb3⟩
  | evd => obtain ⟨_, _, _, rfl, rfl⟩ := hw; have := l 3 8; exact ⟨by omega, by simp at this; omega⟩
  | trig =>
    obtain ⟨_, rfl, _, _, ⟨_, _, rfl⟩ | ⟨_, _, rfl⟩⟩ := hw
    · have := l 3 2; exact ⟨hb2, by intro n hn; simp at hn this; omega⟩
    · exact ⟨hb2, by simp⟩

example : Wire (.tma 0x1234 0x1ff) (bytesAt [0x02, 0x73, 0x34, 0x12, 0x00, 0xff, 0x01] 0) 7 ∧
    pktNext { mem := [0x02, 0x73, 0x34, 0x12, 0x00, 0xff, 0x01] } (some 0) = .ok (.tma 0x1234 0x1ff, 7, 7) ∧
    pktNext { mem := [0x02, 0x73, 0x34, 0x12, 0x02, 0xff, 0x01] } (some 0) = .err .badPacket := by
  refine ⟨?_, by decide +kernel, by decide +kernel⟩
  simp [Wire, bytesAt, le]

end Ipt.Props
