import Verif.EncoderLemmas
import Verif.Spec.Packet

/-! Reading back encoded packets: helper lemmas. -/

set_option linter.unusedSimpArgs false

namespace Ipt

open Spec

/-- `p` is encoded as `bs` wherever there is room, and `bs` decodes to `p`. -/
structure Codes (p : Packet) (bs : List Nat) : Prop where
  write : ∀ e : Enc, e.pos + bs.length ≤ e.buf.length →
    encNext e p = ({ buf := splice e.buf e.pos (toBytes bs), pos := e.pos + bs.length }, .ok bs.length)
  full : ∀ e : Enc, e.buf.length < e.pos + bs.length → encNext e p = (e, .err .eos)
  read : pktDecode { mem := toBytes bs } 0 = .ok (p, bs.length, 0)

theorem Codes.of_write {p : Packet} {bs : List Nat}
    (h : ∀ e : Enc, encNext e p = encWrite e bs.length bs)
    (hr : pktDecode { mem := toBytes bs } 0 = .ok (p, bs.length, 0)) : Codes p bs where
  write e he := by rw [h e]; exact encWrite_eq rfl he
  full e he := by rw [h e]; exact encWrite_eos he
  read := hr

theorem decode_ip {opc ipc ip s : Nat} {mk : Nat → Nat → Packet} {bs : List Nat}
    (hbs : bs = (opc + ipc * 32) % 256 :: leBytes ip s)
    (hopc : opc < 32) (hipc : ipc < 8) (hs : ipSize ipc = .ok s) (hip : ip < 256 ^ s) :
    readIpPkt mk (toBytes bs) 0 = .ok (mk ipc ip, s + 1) := by
  subst hbs
  have h1 : (UInt8.ofNat ((opc + ipc * 32) % 256)).toNat = opc + ipc * 32 := by
    rw [toNat_ofNat_lt (by omega)]; omega
  have h2 : (opc + ipc * 32) / 32 % 8 = ipc := by omega
  simp only [readIpPkt, readIp, toBytes_cons, rd_cons_zero, h1, Res.bind_ok, h2, hs]
  simp only [List.length_cons, toBytes_length, leBytes_length,
    show ¬ s + 1 < 0 + 1 + s by omega, if_false, rdLE_cons_succ, rdLE_leBytes',
    Nat.mod_eq_of_lt hip, Res.bind_ok, Res.pure_eq]

/-- Byte-level evaluation of the dispatch for one IP opcode. -/
theorem codes_ip {opc ipc ip : Nat} {mk : Nat → Nat → Packet}
    (hfit : IpFits ipc ip) (hopc : opc < 32)
    (henc : ∀ e, encNext e (mk ipc ip) = encIp e opc ipc ip)
    (hdec : ∀ (c : PktCfg) (k : Nat), k < 256 → k % 32 = opc → k / 32 < 7 →
      pktDecodeSwitch c 0 k = plain (readIpPkt mk c.mem 0)) :
    ∃ bs, Codes (mk ipc ip) bs := by
  have main : ∀ s, ipSize ipc = .ok s → encIpcSize ipc = .ok s → ipc < 7 → ip < 256 ^ s →
      ∃ bs, Codes (mk ipc ip) bs := by
    intro s h1 h2 h3 h4
    refine ⟨(opc + ipc * 32) % 256 :: leBytes ip s, Codes.of_write ?_ ?_⟩
    · intro e
      rw [henc e]
      simp [encIp, h2, Nat.add_comm]
    · have hb : (UInt8.ofNat ((opc + ipc * 32) % 256)).toNat = opc + ipc * 32 := by
        rw [toNat_ofNat_lt (by omega)]; omega
      have hd := decode_ip (opc := opc) (ipc := ipc) (ip := ip) (s := s) (mk := mk) rfl hopc
        (by omega) h1 h4
      rw [toBytes_cons] at hd
      simp only [pktDecode, toBytes_cons, List.length_cons, toBytes_length, leBytes_length,
        show ¬ s + 1 ≤ 0 by omega, if_false, rd_cons_zero, hb, Res.bind_ok]
      rw [hdec _ _ (by omega) (by omega) (by omega)]
      exact plain_ok.2 ⟨hd, rfl⟩
  rcases hfit with ⟨rfl, h⟩ | ⟨rfl, h⟩ | ⟨rfl, h⟩ | ⟨rfl, h⟩ | ⟨rfl, h⟩ | ⟨rfl, h⟩
  · exact main 0 rfl rfl (by omega) (by simp; omega)
  · exact main 2 rfl rfl (by omega) (by simpa using h)
  · exact main 4 rfl rfl (by omega) (by simpa using h)
  · exact main 6 rfl rfl (by omega) (by simpa using h)
  · exact main 6 rfl rfl (by omega) (by simpa using h)
  · exact main 8 rfl rfl (by omega) (by simpa using h)

theorem rd_cons_one (x y : UInt8) (m : List UInt8) : rd (x :: y :: m) 1 = .ok y.toNat := by simp [rd]
theorem rd_cons_two (x y z : UInt8) (m : List UInt8) : rd (x :: y :: z :: m) 2 = .ok z.toNat := by
  simp [rd]
theorem rd_cons_three (x y z w : UInt8) (m : List UInt8) :
    rd (x :: y :: z :: w :: m) 3 = .ok w.toNat := by simp [rd]
theorem rdLE_cons_one (x : UInt8) (m : List UInt8) (n : Nat) :
    rdLE (x :: m) 1 n = rdLE m 0 n := rdLE_cons_succ x m 0 n
theorem rdLE_cons_two (x y : UInt8) (m : List UInt8) (n : Nat) :
    rdLE (x :: y :: m) 2 n = rdLE m 0 n := by
  rw [rdLE_cons_succ _ _ 1, rdLE_cons_one]
theorem rdLE_cons_three (x y z : UInt8) (m : List UInt8) (n : Nat) :
    rdLE (x :: y :: z :: m) 3 n = rdLE m 0 n := by
  rw [rdLE_cons_succ _ _ 2, rdLE_cons_two]

theorem log2_stop {bs pl : Nat} (h : pl < 2 ^ bs) : Nat.log2 (pl + 2 ^ bs) = bs := by
  rw [Nat.log2_eq_iff (by have : 0 < 2 ^ bs := Nat.two_pow_pos _; omega)]
  rw [Nat.pow_succ]
  omega

theorem readTnt_stop {bs pl : Nat} (h : pl < 2 ^ bs) (hb : 1 ≤ bs) :
    readTnt (pl + 2 ^ bs) = .ok (bs, pl) := by
  simp only [readTnt, log2_stop h, show ¬ bs = 0 by omega, if_false]
  simp

theorem codes_tnt8 {bs pl : Nat} (h : Representable (.tnt8 bs pl)) :
    ∃ l, Codes (.tnt8 bs pl) l := by
  obtain ⟨h1, h6, hp⟩ := h
  have hpow : 2 ^ bs ≤ 2 ^ 6 := Nat.pow_le_pow_right (by omega) h6
  have hpow1 : 2 ^ 1 ≤ 2 ^ bs := Nat.pow_le_pow_right (by omega) h1
  have hor : (pl * 2 % 256 ||| 2 ^ (bs + 1)) % 256 = (pl + 2 ^ bs) * 2 := by
    rw [Nat.pow_succ, Nat.mod_eq_of_lt (by omega : pl * 2 < 256)]
    have : pl * 2 ||| 2 ^ bs * 2 = (pl ||| 2 ^ bs) * 2 := by
      have := Nat.shiftLeft_or_distrib (a := pl) (b := 2 ^ bs) (i := 1)
      simp [Nat.shiftLeft_eq] at this
      exact this.symm
    rw [this]
    have h2 : pl ||| 2 ^ bs = pl + 2 ^ bs := by
      have := Nat.two_pow_add_eq_or_of_lt hp 1
      rw [Nat.mul_one] at this
      rw [Nat.or_comm, ← this, Nat.add_comm]
    rw [h2]
    omega
  refine ⟨[(pl + 2 ^ bs) * 2], Codes.of_write ?_ ?_⟩
  · intro e
    simp only [encNext, show ¬ 7 ≤ bs by omega, if_false, hor]
    rfl
  · have hb : (UInt8.ofNat ((pl + 2 ^ bs) * 2)).toNat = (pl + 2 ^ bs) * 2 :=
      toNat_ofNat_lt (by omega)
    simp only [pktDecode, toBytes_cons, toBytes_nil, List.length_cons, List.length_nil,
      show ¬ 0 + 1 ≤ 0 by omega, if_false, rd_cons_zero, hb, Res.bind_ok]
    have : pktDecodeSwitch { mem := [UInt8.ofNat ((pl + 2 ^ bs) * 2)] } 0 ((pl + 2 ^ bs) * 2)
        = plain (readTnt8 [UInt8.ofNat ((pl + 2 ^ bs) * 2)] 0) := by
      unfold pktDecodeSwitch
      iterate 7 rw [if_neg (by omega)]
      rw [if_pos (by omega)]
    rw [this]
    refine plain_ok.2 ⟨?_, rfl⟩
    simp only [readTnt8, rd_cons_zero, hb, Res.bind_ok,
      show (pl + 2 ^ bs) * 2 / 2 = pl + 2 ^ bs by omega, readTnt_stop hp h1]
    rfl

theorem codes_cyc {v : Nat} (h : v < 2 ^ 61) : ∃ l, Codes (.cyc v) l := by
  obtain ⟨bs, hbs⟩ := cycExt_ok (room := 14) (ctc := v / 32)
    (by have : (128 : Nat) ^ 14 = 2 ^ 98 := by decide
        omega) (by omega)
  have hfst : cycFirst v < 256 := by unfold cycFirst; split <;> omega
  have hf : cycFirst v % 4 = 3 := by unfold cycFirst; split <;> omega
  have hf2 : (cycFirst v).testBit 2 = decide (v / 32 ≠ 0) := by
    have : (cycFirst v).testBit 2 = decide (cycFirst v / 4 % 2 = 1) := by
      rw [Nat.testBit_eq_decide_div_mod_eq]
    rw [this, decide_eq_decide]
    unfold cycFirst; split <;> omega
  have hf3 : cycFirst v / 8 = v % 32 := by unfold cycFirst; split <;> omega
  refine ⟨cycFirst v :: bs, Codes.of_write ?_ ?_⟩
  · intro e
    simp [encNext, hbs, Nat.add_comm]
  · have hb : (UInt8.ofNat (cycFirst v)).toNat = cycFirst v := toNat_ofNat_lt hfst
    have hl := cycExt_length hbs
    have hloop := cycLoop_roundtrip (m := toBytes (cycFirst v :: bs)) (k := 8) (room := 14) (fuel := 10)
      (ctc := v / 32) (pos := 0 + 1) (value := v % 32) (bs := bs) (by omega)
      (by have : (128 : Nat) ^ 8 = 2 ^ 56 := by decide
          omega) (by omega) hbs (by
        intro i _
        simp [Nat.add_comm])
    have hread : readCyc (toBytes (cycFirst v :: bs)) 0 = .ok (.cyc v, (cycFirst v :: bs).length) := by
      simp only [readCyc, toBytes_cons, rd_cons_zero, hb, Res.bind_ok, hf2, hf3]
      rw [toBytes_cons] at hloop
      rw [show (5 : Nat) = 61 - 7 * 8 by omega, hloop]
      simp only [Res.bind_ok, Res.pure_eq, Res.ok.injEq, Prod.mk.injEq, Packet.cyc.injEq,
        List.length_cons]
      constructor
      · have : (2 : Nat) ^ (61 - 7 * 8) = 32 := by decide
        rw [this]; omega
      · omega
    have hsw : pktDecodeSwitch { mem := toBytes (cycFirst v :: bs) } 0 (cycFirst v)
        = decodeCyc { mem := toBytes (cycFirst v :: bs) } 0 := by
      unfold pktDecodeSwitch
      iterate 6 rw [if_neg (by omega)]
      rw [if_pos hf]
    have h0 : pktDecode { mem := toBytes (cycFirst v :: bs) } 0
        = pktDecodeSwitch { mem := toBytes (cycFirst v :: bs) } 0 (cycFirst v) := by
      simp only [pktDecode, toBytes_cons, List.length_cons, show ¬ (toBytes bs).length + 1 ≤ 0 by omega,
        if_false, rd_cons_zero, hb, Res.bind_ok]
    rw [h0, hsw, decodeCyc_off rfl]
    exact plain_ok.2 ⟨hread, rfl⟩

theorem testBit_div (v i : Nat) : v.testBit i = decide (v / 2 ^ i % 2 = 1) :=
  Nat.testBit_eq_decide_div_mod_eq

/-- Every representable packet has an encoding. -/
theorem representable_codes (p : Packet) (h : Representable p) : ∃ bs, Codes p bs := by
  cases p with
  | unknown => exact absurd h id
  | invalid => exact absurd h id
  | modeOther _ => exact absurd h id
  | pad => exact ⟨[0x00], Codes.of_write (fun e => rfl) (by decide +kernel)⟩
  | psb =>
    exact ⟨leBytes 0x8202820282028202 8 ++ leBytes 0x8202820282028202 8,
      Codes.of_write (fun e => rfl) (by decide +kernel)⟩
  | psbend => exact ⟨[0x02, 0x23], Codes.of_write (fun e => rfl) (by decide +kernel)⟩
  | ovf => exact ⟨[0x02, 0xf3], Codes.of_write (fun e => rfl) (by decide +kernel)⟩
  | stop => exact ⟨[0x02, 0x83], Codes.of_write (fun e => rfl) (by decide +kernel)⟩
  | fup ipc ip =>
    refine codes_ip (opc := 0x1d) h (by omega) (fun e => rfl) ?_
    intro c k h1 h2 h3
    unfold pktDecodeSwitch
    iterate 8 rw [if_neg (by omega)]
    rw [if_pos h2]; rfl
  | tip ipc ip =>
    refine codes_ip (opc := 0x0d) h (by omega) (fun e => rfl) ?_
    intro c k h1 h2 h3
    unfold pktDecodeSwitch
    iterate 9 rw [if_neg (by omega)]
    rw [if_pos h2]; rfl
  | tipPge ipc ip =>
    refine codes_ip (opc := 0x11) h (by omega) (fun e => rfl) ?_
    intro c k h1 h2 h3
    unfold pktDecodeSwitch
    iterate 10 rw [if_neg (by omega)]
    rw [if_pos h2]; rfl
  | tipPgd ipc ip =>
    refine codes_ip (opc := 0x01) h (by omega) (fun e => rfl) ?_
    intro c k h1 h2 h3
    unfold pktDecodeSwitch
    iterate 11 rw [if_neg (by omega)]
    rw [if_pos h2]; rfl
  | tnt8 bs pl => exact codes_tnt8 h
  | tnt64 bs pl =>
    obtain ⟨h1, h47, hp⟩ := h
    have hpow : 2 ^ bs ≤ 2 ^ 47 := Nat.pow_le_pow_right (by omega) h47
    refine ⟨0x02 :: 0xa3 :: leBytes (pl + 2 ^ bs) 6, ?_, ?_, ?_⟩
    · intro e he
      simp only [List.length_cons, leBytes_length] at he
      have h0 : pl / 2 ^ bs = 0 := Nat.div_eq_of_lt hp
      simp only [encNext, encReserve, show ¬ e.buf.length < e.pos + 8 by omega, if_false,
        show ¬ 48 ≤ bs by omega, h0, ne_eq, not_true_eq_false]
      exact encWrite_eq (by simp) he
    · intro e he
      simp only [List.length_cons, leBytes_length] at he
      simp only [encNext, encReserve, show e.buf.length < e.pos + 8 by omega, if_true]
    · simp only [pktDecode, toBytes_cons, List.length_cons, toBytes_length, leBytes_length, rd_cons_zero]
      simp [pktDecodeSwitch, decodeExt, decodeExtSwitch, rd_cons_one, readTnt64, rdLE_cons_two,
        rdLE_leBytes', plain, Nat.mod_eq_of_lt (show pl + 2 ^ bs < 281474976710656 by omega),
        readTnt_stop hp h1]
  | modeExec a b c =>
    refine ⟨[0x99, bit a + 2 * bit b + 4 * bit c], Codes.of_write (fun e => rfl) ?_⟩
    cases a <;> cases b <;> cases c <;> decide +kernel
  | modeTsx a b =>
    refine ⟨[0x99, 0x20 + bit a + 2 * bit b], Codes.of_write (fun e => rfl) ?_⟩
    cases a <;> cases b <;> decide +kernel
  | pip cr3 nr =>
    obtain ⟨h1, h2⟩ := h
    refine ⟨0x02 :: 0x43 :: leBytes (cr3 / 32 * 2 + bit nr) 6, Codes.of_write (fun e => rfl) ?_⟩
    have hb : bit nr ≤ 1 := by cases nr <;> simp [bit]
    have h3 : (cr3 / 32 * 2 + bit nr) / 2 * 32 = cr3 := by omega
    have h4 : (cr3 / 32 * 2 + bit nr) % 281474976710656 = cr3 / 32 * 2 + bit nr :=
      Nat.mod_eq_of_lt (by omega)
    have h5 : (cr3 / 32 * 2 + bit nr).testBit 0 = nr := by
      rw [testBit_div]
      cases nr
      · simp [bit]
      · simp only [bit, if_true, decide_eq_true_eq]; omega
    simp only [pktDecode, toBytes_cons, List.length_cons, toBytes_length, leBytes_length, rd_cons_zero]
    simp [pktDecodeSwitch, decodeExt, decodeExtSwitch, rd_cons_one, readPip, rdLE_cons_two,
        rdLE_leBytes', plain, h3, h4]
    rw [testBit_div] at h5
    simpa using h5
  | tsc v =>
    have h : v < 2 ^ 56 := h
    refine ⟨0x19 :: leBytes v 7, Codes.of_write (fun e => rfl) ?_⟩
    simp only [pktDecode, toBytes_cons, List.length_cons, toBytes_length, leBytes_length, rd_cons_zero]
    simp [pktDecodeSwitch, rd_cons_one, readTsc, rdLE_cons_one,
        rdLE_leBytes', plain, Nat.mod_eq_of_lt (show v < 72057594037927936 by omega)]
  | cbr r =>
    have h : r < 256 := h
    refine ⟨[0x02, 0x03, r, 0], Codes.of_write (fun e => rfl) ?_⟩
    simp only [pktDecode, toBytes_cons, List.length_cons, toBytes_length, leBytes_length, rd_cons_zero]
    simp [pktDecodeSwitch, decodeExt, decodeExtSwitch, rd_cons_one, rd_cons_two, readCbr, plain,
      toNat_ofNat_lt h]
  | tma ctc fc =>
    obtain ⟨h1, h2⟩ := h
    refine ⟨0x02 :: 0x73 :: (leBytes ctc 2 ++ 0 :: leBytes fc 2), ?_, ?_, ?_⟩
    · intro e he
      simp only [List.length_cons, List.length_append, leBytes_length] at he
      simp only [encNext, encReserve, show ¬ e.buf.length < e.pos + 7 by omega, if_false,
        show fc / 512 = 0 by omega, ne_eq, not_true_eq_false]
      exact encWrite_eq (by simp) he
    · intro e he
      simp only [List.length_cons, List.length_append, leBytes_length] at he
      simp only [encNext, encReserve, show e.buf.length < e.pos + 7 by omega, if_true]
    · simp only [pktDecode, toBytes_cons, List.length_cons, toBytes_length, leBytes_length,
        rd_cons_zero, leBytes, toBytes_append, List.length_append, toBytes_nil, List.length_nil]
      simp [pktDecodeSwitch, decodeExt, decodeExtSwitch, rd_cons_one, decodeTma_off, readTma, plain,
        rd, Nat.mod_eq_of_lt h1]
      rw [if_neg (by omega)]
      simp
      omega
  | mtc ctc =>
    have h : ctc < 256 := h
    refine ⟨[0x59, ctc], Codes.of_write (fun e => rfl) ?_⟩
    simp only [pktDecode, toBytes_cons, List.length_cons, toBytes_length, leBytes_length, rd_cons_zero]
    simp [pktDecodeSwitch, rd_cons_one, readMtc, plain]
    omega
  | cyc v => exact codes_cyc h
  | vmcs base =>
    obtain ⟨h1, h2⟩ := h
    refine ⟨0x02 :: 0xc8 :: leBytes (base / 4096) 5, Codes.of_write (fun e => rfl) ?_⟩
    simp only [pktDecode, toBytes_cons, List.length_cons, toBytes_length, leBytes_length, rd_cons_zero]
    simp [pktDecodeSwitch, decodeExt, decodeExtSwitch, rd_cons_one, readVmcs, rdLE_cons_two,
        rdLE_leBytes', plain]
    omega
  | mnt v =>
    have h : v < 2 ^ 64 := h
    refine ⟨0x02 :: 0xc3 :: 0x88 :: leBytes v 8, Codes.of_write (fun e => rfl) ?_⟩
    simp only [pktDecode, toBytes_cons, List.length_cons, toBytes_length, leBytes_length, rd_cons_zero]
    simp [pktDecodeSwitch, decodeExt, decodeExtSwitch, decodeExt2, rd_cons_one, rd_cons_two, readMnt,
        rdLE_cons_three, rdLE_leBytes', plain]
    omega
  | exstop ip =>
    refine ⟨[0x02, if ip then 0xe2 else 0x62], Codes.of_write (fun e => rfl) ?_⟩
    cases ip <;> decide +kernel
  | mwait hints ext =>
    obtain ⟨h1, h2⟩ := h
    refine ⟨0x02 :: 0xc2 :: (leBytes hints 4 ++ leBytes ext 4),
      Codes.of_write (fun e => by simp [encNext]) ?_⟩
    simp only [pktDecode, toBytes_cons, List.length_cons, toBytes_length, leBytes_length, rd_cons_zero,
      toBytes_append, List.length_append]
    have h6 : ∀ n, rdLE (UInt8.ofNat 2 :: UInt8.ofNat 194 :: (toBytes (leBytes hints 4) ++
        toBytes (leBytes ext 4))) 6 n = rdLE (toBytes (leBytes ext 4)) 0 n := by
      intro n
      rw [rdLE_cons_succ _ _ 5, rdLE_cons_succ _ _ 4]
      exact rdLE_append_right (by simp)
    have h7 : rdLE (UInt8.ofNat 2 :: UInt8.ofNat 194 :: (toBytes (leBytes hints 4) ++
        toBytes (leBytes ext 4))) 2 4 = .ok (hints % 256 ^ 4) := by
      rw [rdLE_cons_two]; exact rdLE_leBytes _ _ _
    simp [pktDecodeSwitch, decodeExt, decodeExtSwitch, rd_cons_one, readMwait, plain] at h6 h7 ⊢
    rw [h6, h7, rdLE_leBytes']
    simp
    omega
  | pwre st sub hw =>
    obtain ⟨h1, h2⟩ := h
    refine ⟨0x02 :: 0x22 :: leBytes (st % 16 * 4096 + sub % 16 * 256 + 8 * bit hw) 2,
      Codes.of_write (fun e => rfl) ?_⟩
    simp only [pktDecode, toBytes_cons, List.length_cons, toBytes_length, leBytes_length, rd_cons_zero]
    simp [pktDecodeSwitch, decodeExt, decodeExtSwitch, rd_cons_one, readPwre, rdLE_cons_two,
        rdLE_leBytes', plain, testBit_div]
    cases hw <;> simp [bit] <;> omega
  | pwrx last deepest a b c =>
    obtain ⟨h1, h2⟩ := h
    refine ⟨0x02 :: 0xa2 :: leBytes (last % 16 * 16 + deepest % 16 + 256 * bit a
      + 1024 * bit b + 2048 * bit c) 5,
      Codes.of_write (fun e => rfl) ?_⟩
    simp only [pktDecode, toBytes_cons, List.length_cons, toBytes_length, leBytes_length, rd_cons_zero]
    simp [pktDecodeSwitch, decodeExt, decodeExtSwitch, rd_cons_one, readPwrx, rdLE_cons_two,
        rdLE_leBytes', plain, testBit_div]
    cases a <;> cases b <;> cases c <;> simp [bit] <;> omega
  | ptw pl plc ip =>
    rcases h with ⟨rfl, h⟩ | ⟨rfl, h⟩
    · refine ⟨0x02 :: (0x12 + 0 * 32 + 128 * bit ip) :: leBytes pl 4,
        Codes.of_write (fun e => rfl) ?_⟩
      simp only [pktDecode, toBytes_cons, List.length_cons, toBytes_length, leBytes_length, rd_cons_zero]
      cases ip <;>
      simp [pktDecodeSwitch, decodeExt, decodeExtSwitch, rd_cons_one, readPtw, ptwSize, rdLE_cons_two,
        rdLE_leBytes', plain, testBit_div, bit] <;> omega
    · refine ⟨0x02 :: (0x12 + 1 * 32 + 128 * bit ip) :: leBytes pl 8,
        Codes.of_write (fun e => rfl) ?_⟩
      simp only [pktDecode, toBytes_cons, List.length_cons, toBytes_length, leBytes_length, rd_cons_zero]
      cases ip <;>
      simp [pktDecodeSwitch, decodeExt, decodeExtSwitch, rd_cons_one, readPtw, ptwSize, rdLE_cons_two,
        rdLE_leBytes', plain, testBit_div, bit] <;> omega
  | cfe type vector ip =>
    obtain ⟨h1, h2⟩ := h
    refine ⟨[0x02, 0x13, type % 32 + 128 * bit ip, vector], Codes.of_write (fun e => rfl) ?_⟩
    simp only [pktDecode, toBytes_cons, List.length_cons, toBytes_length, leBytes_length, rd_cons_zero]
    cases ip <;>
    simp [pktDecodeSwitch, decodeExt, decodeExtSwitch, rd_cons_one, rd_cons_two, rd_cons_three,
        readCfe, plain, testBit_div, bit] <;> omega
  | evd type pl =>
    obtain ⟨h1, h2⟩ := h
    refine ⟨0x02 :: 0x53 :: type % 32 :: leBytes pl 8, Codes.of_write (fun e => rfl) ?_⟩
    simp only [pktDecode, toBytes_cons, List.length_cons, toBytes_length, leBytes_length, rd_cons_zero]
    simp [pktDecodeSwitch, decodeExt, decodeExtSwitch, rd_cons_one, rd_cons_two,
        rdLE_cons_three, rdLE_leBytes', readEvd, plain]
    omega
  | trig trbv icnt ip mult =>
    obtain ⟨h1, h2⟩ := h
    cases icnt with
    | none =>
      refine ⟨[0xd9, 128 * bit ip + 32 * bit mult, trbv], Codes.of_write (fun e => rfl) ?_⟩
      simp only [pktDecode, toBytes_cons, List.length_cons, toBytes_length, leBytes_length, rd_cons_zero]
      cases ip <;> cases mult <;>
      simp [pktDecodeSwitch, rd_cons_one, rd_cons_two, readTrig, plain, testBit_div, bit] <;> omega
    | some n =>
      have h3 := h2 n rfl
      refine ⟨0xd9 :: (128 * bit ip + 64 + 32 * bit mult) :: trbv :: leBytes n 2,
        Codes.of_write (fun e => rfl) ?_⟩
      simp only [pktDecode, toBytes_cons, List.length_cons, toBytes_length, leBytes_length, rd_cons_zero]
      cases ip <;> cases mult <;>
      simp [pktDecodeSwitch, rd_cons_one, rd_cons_two, readTrig, plain, testBit_div, bit,
        rdLE_cons_three, rdLE_leBytes'] <;> omega

end Ipt
