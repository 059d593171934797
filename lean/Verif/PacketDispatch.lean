import Verif.PacketLemmas

/-! Helper lemmas about the opcode dispatch. -/

set_option linter.unusedSimpArgs false

namespace Ipt

theorem decodeIp_eq (c : PktCfg) (pos : Nat) (mk : Nat → Nat → Packet) :
    decodeIp c pos mk = readIpPkt mk c.mem pos := rfl

theorem plain_ok {r : Res (Packet × Nat)} {p : Packet} {n k : Nat} :
    plain r = .ok (p, n, k) ↔ r = .ok (p, n) ∧ k = 0 := by
  unfold plain
  cases r <;> simp
  constructor
  · rintro ⟨rfl, rfl, rfl⟩; simp
  · rintro ⟨h, rfl⟩; simp [h]

theorem plain_safe {r : Res (Packet × Nat)} : (plain r).safe ↔ r.safe := by
  unfold plain
  cases r <;> simp [Res.safe]

theorem plain_err {r : Res (Packet × Nat)} {e : Err} : plain r = .err e ↔ r = .err e := by
  unfold plain
  cases r <;> simp

theorem readUnknown_safe (c : PktCfg) (pos : Nat) : (readUnknown c pos).safe := by
  unfold readUnknown
  split
  · simp
  · dsimp only; repeat' split
    all_goals simp

theorem readUnknown_ok {c : PktCfg} {pos n : Nat} {p : Packet} (h : readUnknown c pos = .ok (p, n)) :
    p = .unknown ∧ n ≤ 255 ∧ pos + n ≤ c.mem.length ∧ ∃ f, c.cb = some f ∧ f pos = n := by
  unfold readUnknown at h
  split at h
  · cases h
  · rename_i f hf
    dsimp only at h
    split at h
    · cases h
    · split at h
      · cases h
      · split at h
        · cases h
        · simp at h
          refine ⟨h.1.symm, by omega, by omega, f, hf, by omega⟩

theorem decodeTma_off {c : PktCfg} (h : c.errata.skz84 = false) (pos : Nat) :
    decodeTma c pos = readTma c.mem pos := by
  unfold decodeTma
  split
  · rename_i h'; rw [h']; simp [h]
  · rfl

theorem decodeTma_ok {c : PktCfg} {pos n : Nat} {p : Packet} (h : decodeTma c pos = .ok (p, n)) :
    (readTma c.mem pos = .ok (p, n)) ∨
    (c.errata.skz84 = true ∧ p = .invalid ∧ n = 8 ∧ readTma c.mem pos = .err .badPacket ∧
      pos + 7 ≤ c.mem.length) := by
  unfold decodeTma at h
  split at h
  · rename_i h'
    split at h
    · right
      rename_i hz
      simp at h
      refine ⟨hz, h.1.symm, h.2.symm, h', ?_⟩
      by_cases hl : c.mem.length < pos + 7
      · simp [readTma, hl] at h'
      · omega
    · cases h
  · left; exact h

theorem decodeTma_safe (c : PktCfg) (pos : Nat) (h : pos + 2 ≤ c.mem.length) :
    (decodeTma c pos).safe := by
  unfold decodeTma
  split
  · split <;> simp
  · exact (readTma_reader 2 (by omega)).safe _ _ h

theorem decodeExt_safe (c : PktCfg) (pos : Nat) : (decodeExt c pos).safe := by
  unfold decodeExt
  split
  · simp
  · obtain ⟨b, _, e⟩ := rd_ex (m := c.mem) (i := pos + 1) (by omega)
    simp only [e, Res.bind_ok]
    have h2 : pos + 2 ≤ c.mem.length := by omega
    unfold decodeExtSwitch
    repeat' with_reducible refine Res.safe_ite (fun _ => ?_) (fun _ => ?_)
    · exact (readPsbPkt_reader 2 (by omega)).safe _ _ h2
    · simp
    · simp
    · exact (readCbr_reader 2 (by omega)).safe _ _ h2
    · exact decodeTma_safe c pos h2
    · exact (readPip_reader 2 (by omega)).safe _ _ h2
    · exact (readVmcs_reader 2 (by omega)).safe _ _ h2
    · exact (readExstop_reader 2 (by omega)).safe _ _ h2
    · exact (readMwait_reader 2 (by omega)).safe _ _ h2
    · exact (readPwre_reader 2 (by omega)).safe _ _ h2
    · exact (readPwrx_reader 2 (by omega)).safe _ _ h2
    · simp
    · exact (readTnt64_reader 2 (by omega)).safe _ _ h2
    · exact (readCfe_reader 2 (by omega)).safe _ _ h2
    · exact (readEvd_reader 2 (by omega)).safe _ _ h2
    · unfold decodeExt2
      split
      · simp
      · obtain ⟨b2, _, e2⟩ := rd_ex (m := c.mem) (i := pos + 2) (by omega)
        simp only [e2, Res.bind_ok]
        split
        · exact (readMnt_reader 2 (by omega)).safe _ _ h2
        · exact readUnknown_safe _ _
    · exact readPtw_reader.safe _ _ h2
    · exact readUnknown_safe _ _

/-- Everything the dispatch of extended opcodes can succeed with. -/
theorem decodeExt_cases {c : PktCfg} {pos n : Nat} {p : Packet} (h : decodeExt c pos = .ok (p, n)) :
    ∃ R : List UInt8 → Nat → Res (Packet × Nat),
      pos + 2 ≤ c.mem.length ∧
      ((Reader 2 R ∧ R c.mem pos = .ok (p, n) ∧
        (∀ c' pos', pos' + 2 ≤ c'.mem.length → c'.errata.skz84 = false →
          rd c'.mem (pos' + 1) = rd c.mem (pos + 1) → decodeExt c' pos' = R c'.mem pos')) ∨
      (Reader 3 R ∧ R c.mem pos = .ok (p, n) ∧ pos + 3 ≤ c.mem.length ∧
        rd c.mem (pos + 1) = .ok 0xc3 ∧
        (∀ c' pos', pos' + 3 ≤ c'.mem.length →
          rd c'.mem (pos' + 1) = rd c.mem (pos + 1) → rd c'.mem (pos' + 2) = rd c.mem (pos + 2) →
          decodeExt c' pos' = R c'.mem pos')) ∨
      (c.errata.skz84 = true ∧ p = .invalid ∧ n = 8 ∧ pos + 7 ≤ c.mem.length) ∨
      readUnknown c pos = .ok (p, n)) := by
  unfold decodeExt at h
  split at h
  · cases h
  · rename_i hl
    obtain ⟨b, eb, h⟩ := Res.bind_eq_ok.1 h
    have key : ∀ R : List UInt8 → Nat → Res (Packet × Nat), Reader 2 R → R c.mem pos = .ok (p, n) →
        (∀ c' : PktCfg, ∀ pos', pos' + 2 ≤ c'.mem.length → c'.errata.skz84 = false →
          rd c'.mem (pos' + 1) = .ok b → decodeExt c' pos' = R c'.mem pos') →
        ∃ R : List UInt8 → Nat → Res (Packet × Nat),
          pos + 2 ≤ c.mem.length ∧
          ((Reader 2 R ∧ R c.mem pos = .ok (p, n) ∧
            (∀ c' : PktCfg, ∀ pos', pos' + 2 ≤ c'.mem.length → c'.errata.skz84 = false →
              rd c'.mem (pos' + 1) = rd c.mem (pos + 1) → decodeExt c' pos' = R c'.mem pos')) ∨
          (Reader 3 R ∧ R c.mem pos = .ok (p, n) ∧ pos + 3 ≤ c.mem.length ∧
            rd c.mem (pos + 1) = .ok 0xc3 ∧
            (∀ c' : PktCfg, ∀ pos', pos' + 3 ≤ c'.mem.length →
              rd c'.mem (pos' + 1) = rd c.mem (pos + 1) →
              rd c'.mem (pos' + 2) = rd c.mem (pos + 2) → decodeExt c' pos' = R c'.mem pos')) ∨
          (c.errata.skz84 = true ∧ p = .invalid ∧ n = 8 ∧ pos + 7 ≤ c.mem.length) ∨
          readUnknown c pos = .ok (p, n)) := by
      intro R hR hok hc
      exact ⟨R, by omega, .inl ⟨hR, hok, fun c' pos' h1 h2 h3 => hc c' pos' h1 h2 (h3.trans eb)⟩⟩
    unfold decodeExtSwitch at h
    repeat' with_reducible refine Res.ok_ite h (fun _ h => ?_) (fun _ h => ?_)
    · exact key _ (readPsbPkt_reader 2 (by omega)) h (by
        intro c' pos' h1 _ h3
        simp [decodeExt, decodeExtSwitch, show ¬ c'.mem.length ≤ pos' + 1 by omega, h3, *, readPsbPkt])
    · exact key _ (const_reader .ovf 2 2 (by omega) (by omega) rfl) h (by
        intro c' pos' h1 _ h3
        simp [decodeExt, decodeExtSwitch, show ¬ c'.mem.length ≤ pos' + 1 by omega, h3, *])
    · exact key _ (const_reader .psbend 2 2 (by omega) (by omega) rfl) h (by
        intro c' pos' h1 _ h3
        simp [decodeExt, decodeExtSwitch, show ¬ c'.mem.length ≤ pos' + 1 by omega, h3, *])
    · exact key _ (readCbr_reader 2 (by omega)) h (by
        intro c' pos' h1 _ h3
        simp [decodeExt, decodeExtSwitch, show ¬ c'.mem.length ≤ pos' + 1 by omega, h3, *])
    · rcases decodeTma_ok h with h' | ⟨h1, h2, h3, _, h4⟩
      · exact key _ (readTma_reader 2 (by omega)) h' (by
          intro c' pos' h1 h2 h3
          simp [decodeExt, decodeExtSwitch, show ¬ c'.mem.length ≤ pos' + 1 by omega, h3, *, decodeTma_off h2])
      · exact ⟨readTma, by omega, .inr (.inr (.inl ⟨h1, h2, h3, h4⟩))⟩
    · exact key _ (readPip_reader 2 (by omega)) h (by
        intro c' pos' h1 _ h3
        simp [decodeExt, decodeExtSwitch, show ¬ c'.mem.length ≤ pos' + 1 by omega, h3, *])
    · exact key _ (readVmcs_reader 2 (by omega)) h (by
        intro c' pos' h1 _ h3
        simp [decodeExt, decodeExtSwitch, show ¬ c'.mem.length ≤ pos' + 1 by omega, h3, *])
    · rename_i hb
      exact key _ (readExstop_reader 2 (by omega)) h (by
        intro c' pos' h1 _ h3
        simp [decodeExt, decodeExtSwitch, show ¬ c'.mem.length ≤ pos' + 1 by omega, h3, *])
    · exact key _ (readMwait_reader 2 (by omega)) h (by
        intro c' pos' h1 _ h3
        simp [decodeExt, decodeExtSwitch, show ¬ c'.mem.length ≤ pos' + 1 by omega, h3, *])
    · exact key _ (readPwre_reader 2 (by omega)) h (by
        intro c' pos' h1 _ h3
        simp [decodeExt, decodeExtSwitch, show ¬ c'.mem.length ≤ pos' + 1 by omega, h3, *])
    · exact key _ (readPwrx_reader 2 (by omega)) h (by
        intro c' pos' h1 _ h3
        simp [decodeExt, decodeExtSwitch, show ¬ c'.mem.length ≤ pos' + 1 by omega, h3, *])
    · exact key _ (const_reader .stop 2 2 (by omega) (by omega) rfl) h (by
        intro c' pos' h1 _ h3
        simp [decodeExt, decodeExtSwitch, show ¬ c'.mem.length ≤ pos' + 1 by omega, h3, *])
    · exact key _ (readTnt64_reader 2 (by omega)) h (by
        intro c' pos' h1 _ h3
        simp [decodeExt, decodeExtSwitch, show ¬ c'.mem.length ≤ pos' + 1 by omega, h3, *])
    · exact key _ (readCfe_reader 2 (by omega)) h (by
        intro c' pos' h1 _ h3
        simp [decodeExt, decodeExtSwitch, show ¬ c'.mem.length ≤ pos' + 1 by omega, h3, *])
    · exact key _ (readEvd_reader 2 (by omega)) h (by
        intro c' pos' h1 _ h3
        simp [decodeExt, decodeExtSwitch, show ¬ c'.mem.length ≤ pos' + 1 by omega, h3, *])
    · rename_i hb
      unfold decodeExt2 at h
      split at h
      · cases h
      · obtain ⟨b2, eb2, h⟩ := Res.bind_eq_ok.1 h
        split at h
        · rename_i hb2
          refine ⟨readMnt, by omega, .inr (.inl ⟨readMnt_reader 3 (by omega), h, by omega,
            by rw [eb, hb], ?_⟩)⟩
          intro c' pos' h1 h2 h3
          rw [eb] at h2
          rw [eb2] at h3
          simp [decodeExt, decodeExtSwitch, decodeExt2, show ¬ c'.mem.length ≤ pos' + 1 by omega,
            h2, h3, *, show ¬ c'.mem.length ≤ pos' + 2 by omega]
        · exact ⟨readMnt, by omega, .inr (.inr (.inr h))⟩
    · exact key _ readPtw_reader h (by
        intro c' pos' h1 _ h3
        simp [decodeExt, decodeExtSwitch, show ¬ c'.mem.length ≤ pos' + 1 by omega, h3, *])
    · exact ⟨readMnt, by omega, .inr (.inr (.inr h))⟩

theorem decodeCyc_safe (c : PktCfg) (pos : Nat) (h : pos < c.mem.length) :
    (decodeCyc c pos).safe := by
  unfold decodeCyc
  refine Res.bind_ne_ub (readCyc_reader.safe _ _ (by omega)) ?_
  rintro ⟨p, n⟩ hok
  obtain ⟨b, v, pos', eb, ev, hp, hn, h1, h2, h3⟩ := readCyc_ok hok
  subst hp
  dsimp only
  split
  · rename_i hc
    obtain ⟨x, _, e⟩ := rd_ex (m := c.mem) (i := pos + n) (by omega)
    simp only [e, Res.bind_ok]
    split <;> simp
  · simp

theorem decodeCyc_ok {c : PktCfg} {pos n k : Nat} {p : Packet} (h : decodeCyc c pos = .ok (p, n, k)) :
    (readCyc c.mem pos = .ok (p, n) ∧ k = 0) ∨
    (c.errata.skd007 = true ∧ p = .ovf ∧ n = 2 ∧ k = 1 ∧ pos + 3 ≤ c.mem.length) := by
  unfold decodeCyc at h
  obtain ⟨⟨q, s⟩, hq, h⟩ := Res.bind_eq_ok.1 h
  dsimp only at h
  split at h
  · split at h
    · rename_i hc
      obtain ⟨x, e, h⟩ := Res.bind_eq_ok.1 h
      split at h
      · right
        simp at h
        refine ⟨hc.1, h.1.symm, by omega, by omega, by omega⟩
      · left
        simp at h
        obtain ⟨rfl, rfl, rfl⟩ := h
        exact ⟨hq, rfl⟩
    · left
      simp at h
      obtain ⟨rfl, rfl, rfl⟩ := h
      exact ⟨hq, rfl⟩
  · cases h

theorem decodeCyc_off {c : PktCfg} (h : c.errata.skd007 = false) (pos : Nat) :
    decodeCyc c pos = plain (readCyc c.mem pos) := by
  unfold decodeCyc plain
  cases hr : readCyc c.mem pos with
  | ok a =>
    obtain ⟨p, n⟩ := a
    obtain ⟨b, v, pos', eb, ev, hp, hn, h1, h2, h3⟩ := readCyc_ok hr
    subst hp
    simp [h]
  | err e => simp
  | ub => simp

/-- Everything `pktDecode` can succeed with. -/
theorem pktDecode_cases {c : PktCfg} {pos n k : Nat} {p : Packet}
    (h : pktDecode c pos = .ok (p, n, k)) :
    pos < c.mem.length ∧
    ((∃ R : List UInt8 → Nat → Res (Packet × Nat), k = 0 ∧
      Reader 1 R ∧ R c.mem pos = .ok (p, n) ∧
        (∀ c' pos', pos' < c'.mem.length → c'.errata.skd007 = false →
          rd c'.mem pos' = rd c.mem pos → pktDecode c' pos' = plain (R c'.mem pos'))) ∨
      (k = 0 ∧ decodeExt c pos = .ok (p, n) ∧
        (∀ c' pos', pos' < c'.mem.length →
          rd c'.mem pos' = rd c.mem pos → pktDecode c' pos' = plain (decodeExt c' pos'))) ∨
      (k = 0 ∧ readUnknown c pos = .ok (p, n)) ∨
      (c.errata.skd007 = true ∧ p = .ovf ∧ n = 2 ∧ k = 1 ∧ pos + 3 ≤ c.mem.length)) := by
  unfold pktDecode at h
  split at h
  · cases h
  · rename_i hl
    refine ⟨by omega, ?_⟩
    obtain ⟨b, eb, h⟩ := Res.bind_eq_ok.1 h
    have key : ∀ R : List UInt8 → Nat → Res (Packet × Nat), Reader 1 R →
        plain (R c.mem pos) = .ok (p, n, k) →
        (∀ c' : PktCfg, ∀ pos', pos' < c'.mem.length → c'.errata.skd007 = false →
          rd c'.mem pos' = .ok b → pktDecode c' pos' = plain (R c'.mem pos')) →
        (∃ R : List UInt8 → Nat → Res (Packet × Nat), k = 0 ∧
          Reader 1 R ∧ R c.mem pos = .ok (p, n) ∧
          (∀ c' : PktCfg, ∀ pos', pos' < c'.mem.length → c'.errata.skd007 = false →
            rd c'.mem pos' = rd c.mem pos → pktDecode c' pos' = plain (R c'.mem pos'))) := by
      intro R hR hok hc
      have := plain_ok.1 hok
      exact ⟨R, this.2, hR, this.1, fun c' pos' h1 h2 h3 => hc c' pos' h1 h2 (h3.trans eb)⟩
    unfold pktDecodeSwitch at h
    repeat' with_reducible refine Res.ok_ite h (fun _ h => ?_) (fun _ h => ?_)
    · exact .inl (key _ (readMode_reader 1 (by omega)) h (by
        intro c' pos' h1 _ h3
        simp [pktDecode, pktDecodeSwitch, show ¬ c'.mem.length ≤ pos' by omega, h3, *]))
    · exact .inl (key _ (readMtc_reader 1 (by omega)) h (by
        intro c' pos' h1 _ h3
        simp [pktDecode, pktDecodeSwitch, show ¬ c'.mem.length ≤ pos' by omega, h3, *]))
    · exact .inl (key _ (readTsc_reader 1 (by omega)) h (by
        intro c' pos' h1 _ h3
        simp [pktDecode, pktDecodeSwitch, show ¬ c'.mem.length ≤ pos' by omega, h3, *]))
    · exact .inl (key _ (const_reader .pad 1 1 (by omega) (by omega) rfl) h (by
        intro c' pos' h1 _ h3
        simp [pktDecode, pktDecodeSwitch, show ¬ c'.mem.length ≤ pos' by omega, h3, *, plain]))
    · exact .inl (key _ (readTrig_reader 1 (by omega)) h (by
        intro c' pos' h1 _ h3
        simp [pktDecode, pktDecodeSwitch, show ¬ c'.mem.length ≤ pos' by omega, h3, *]))
    · have := plain_ok.1 h
      refine .inr (.inl ⟨this.2, this.1, ?_⟩)
      intro c' pos' h1 h3
      rw [eb] at h3
      simp [pktDecode, pktDecodeSwitch, show ¬ c'.mem.length ≤ pos' by omega, h3, *]
    · rcases decodeCyc_ok h with ⟨h', rfl⟩ | h'
      · exact .inl (key _ readCyc_reader (plain_ok.2 ⟨h', rfl⟩) (by
          intro c' pos' h1 h2 h3
          simp [pktDecode, pktDecodeSwitch, show ¬ c'.mem.length ≤ pos' by omega, h3, *, decodeCyc_off h2]))
      · exact .inr (.inr (.inr h'))
    · exact .inl (key _ readTnt8_reader h (by
        intro c' pos' h1 _ h3
        simp [pktDecode, pktDecodeSwitch, show ¬ c'.mem.length ≤ pos' by omega, h3, *]))
    · exact .inl (key _ (readIpPkt_reader .fup) h (by
        intro c' pos' h1 _ h3
        simp [pktDecode, pktDecodeSwitch, show ¬ c'.mem.length ≤ pos' by omega, h3, *, decodeIp_eq]))
    · exact .inl (key _ (readIpPkt_reader .tip) h (by
        intro c' pos' h1 _ h3
        simp [pktDecode, pktDecodeSwitch, show ¬ c'.mem.length ≤ pos' by omega, h3, *, decodeIp_eq]))
    · exact .inl (key _ (readIpPkt_reader .tipPge) h (by
        intro c' pos' h1 _ h3
        simp [pktDecode, pktDecodeSwitch, show ¬ c'.mem.length ≤ pos' by omega, h3, *, decodeIp_eq]))
    · exact .inl (key _ (readIpPkt_reader .tipPgd) h (by
        intro c' pos' h1 _ h3
        simp [pktDecode, pktDecodeSwitch, show ¬ c'.mem.length ≤ pos' by omega, h3, *, decodeIp_eq]))
    · have := plain_ok.1 h
      exact .inr (.inr (.inl ⟨this.2, this.1⟩))

theorem pktDecode_safe (c : PktCfg) (pos : Nat) : (pktDecode c pos).safe := by
  unfold pktDecode
  split
  · simp
  · obtain ⟨b, _, e⟩ := rd_ex (m := c.mem) (i := pos) (by omega)
    simp only [e, Res.bind_ok]
    have h1 : pos + 1 ≤ c.mem.length := by omega
    unfold pktDecodeSwitch
    repeat' with_reducible refine Res.safe_ite (fun _ => ?_) (fun _ => ?_)
    · exact plain_safe.2 ((readMode_reader 1 (by omega)).safe _ _ h1)
    · exact plain_safe.2 ((readMtc_reader 1 (by omega)).safe _ _ h1)
    · exact plain_safe.2 ((readTsc_reader 1 (by omega)).safe _ _ h1)
    · simp
    · exact plain_safe.2 ((readTrig_reader 1 (by omega)).safe _ _ h1)
    · exact plain_safe.2 (decodeExt_safe _ _)
    · exact decodeCyc_safe _ _ (by omega)
    · exact plain_safe.2 (readTnt8_reader.safe _ _ h1)
    · exact plain_safe.2 ((readIpPkt_reader _).safe _ _ h1)
    · exact plain_safe.2 ((readIpPkt_reader _).safe _ _ h1)
    · exact plain_safe.2 ((readIpPkt_reader _).safe _ _ h1)
    · exact plain_safe.2 ((readIpPkt_reader _).safe _ _ h1)
    · exact plain_safe.2 (readUnknown_safe _ _)

theorem decodeExt_size {c : PktCfg} {pos n : Nat} {p : Packet} (h : decodeExt c pos = .ok (p, n)) :
    n ≤ 255 ∧ (0 < n ∨ p = .unknown) ∧
    (pos + n ≤ c.mem.length ∨
      (c.errata.skz84 = true ∧ p = .invalid ∧ n = 8 ∧ pos + n = c.mem.length + 1)) := by
  obtain ⟨R, h2, h | h | h | h⟩ := decodeExt_cases h
  · have := h.1.size _ _ _ _ h2 h.2.1; omega
  · have := h.1.size _ _ _ _ h.2.2.1 h.2.1; omega
  · obtain ⟨h1, h3, h4, h5⟩ := h
    refine ⟨by omega, by omega, ?_⟩
    by_cases hh : pos + n ≤ c.mem.length
    · exact .inl hh
    · exact .inr ⟨h1, h3, h4, by omega⟩
  · have := readUnknown_ok h
    exact ⟨this.2.1, .inr this.1, .inl this.2.2.1⟩

theorem pktDecode_size {c : PktCfg} {pos n k : Nat} {p : Packet}
    (h : pktDecode c pos = .ok (p, n, k)) :
    pos < c.mem.length ∧ n ≤ 255 ∧ (0 < n ∨ p = .unknown) ∧
    ((k = 0 ∧ pos + n ≤ c.mem.length) ∨
     (k = 0 ∧ c.errata.skz84 = true ∧ p = .invalid ∧ n = 8 ∧ pos + n = c.mem.length + 1) ∨
     (k = 1 ∧ c.errata.skd007 = true ∧ p = .ovf ∧ n = 2 ∧ pos + 3 ≤ c.mem.length)) := by
  obtain ⟨hp, h | h | h | h⟩ := pktDecode_cases h
  · obtain ⟨R, hk, hR, hok, _⟩ := h
    have := hR.size _ _ _ _ (by omega) hok
    omega
  · have := decodeExt_size h.2.1
    refine ⟨hp, this.1, this.2.1, ?_⟩
    rcases this.2.2 with h' | ⟨h1, h2, h3, h4⟩
    · exact .inl ⟨h.1, h'⟩
    · exact .inr (.inl ⟨h.1, h1, h2, h3, h4⟩)
  · have := readUnknown_ok h.2
    exact ⟨hp, this.2.1, .inr this.1, .inl ⟨h.1, this.2.2.1⟩⟩
  · refine ⟨hp, by omega, by omega, .inr (.inr ⟨h.2.2.2.1, h.1, h.2.1, h.2.2.1, h.2.2.2.2⟩)⟩

/-- Locality of extended packets. -/
theorem decodeExt_congr {c c' : PktCfg} {pos pos' n : Nat} {p : Packet}
    (h : decodeExt c pos = .ok (p, n)) (hz : c.errata.skz84 = false) (hz' : c'.errata.skz84 = false)
    (hu : p ≠ .unknown) (ha : Agree c.mem pos c'.mem pos' n) : decodeExt c' pos' = .ok (p, n) := by
  obtain ⟨R, h2, h | h | h | h⟩ := decodeExt_cases h
  · have hs := h.1.size _ _ _ _ h2 h.2.1
    have hr := ha.right
    rw [h.2.2 c' pos' (by omega) hz' (ha.rd 1 (by omega))]
    exact h.1.congr _ _ _ _ _ _ h.2.1 h2 ha
  · have hs := h.1.size _ _ _ _ h.2.2.1 h.2.1
    have hr := ha.right
    rw [h.2.2.2.2 c' pos' (by omega) (ha.rd 1 (by omega)) (ha.rd 2 (by omega))]
    exact h.1.congr _ _ _ _ _ _ h.2.1 h.2.2.1 ha
  · simp [h.1] at hz
  · exact absurd (readUnknown_ok h).1 hu

theorem decodeExt_cut {c c' : PktCfg} {pos pos' n : Nat} {p : Packet}
    (h : decodeExt c pos = .ok (p, n)) (hz : c.errata.skz84 = false) (hz' : c'.errata.skz84 = false)
    (hu : p ≠ .unknown) (hl : c'.mem.length < pos' + n)
    (heq : ∀ i, pos' + i < c'.mem.length → c.mem[pos + i]? = c'.mem[pos' + i]?) :
    decodeExt c' pos' = .err .eos := by
  by_cases h2' : c'.mem.length ≤ pos' + 1
  · simp [decodeExt, decodeExtSwitch, h2']
  · obtain ⟨R, h2, h | h | h | h⟩ := decodeExt_cases h
    · rw [h.2.2 c' pos' (by omega) hz' (rd_congr (heq 1 (by omega)).symm)]
      exact h.1.cut _ _ _ _ _ _ h.2.1 h2 (by omega) hl heq
    · by_cases h3' : c'.mem.length ≤ pos' + 2
      · have : rd c'.mem (pos' + 1) = .ok 0xc3 := by
          rw [← h.2.2.2.1]; exact rd_congr (heq 1 (by omega)).symm
        simp [decodeExt, decodeExtSwitch, decodeExt2, h2', this, h3']
      · rw [h.2.2.2.2 c' pos' (by omega) (rd_congr (heq 1 (by omega)).symm)
          (rd_congr (heq 2 (by omega)).symm)]
        exact h.1.cut _ _ _ _ _ _ h.2.1 h.2.2.1 (by omega) hl heq
    · simp [h.1] at hz
    · exact absurd (readUnknown_ok h).1 hu

/-- Locality of packet decode. -/
theorem pktDecode_zero {c : PktCfg} {pos k : Nat} {p : Packet}
    (h : pktDecode c pos = .ok (p, 0, k)) : ∃ f, c.cb = some f ∧ f pos = 0 := by
  obtain ⟨hp, h | h | h | h⟩ := pktDecode_cases h
  · obtain ⟨R, hk, hR, hok, _⟩ := h
    have := hR.size _ _ _ _ (by omega) hok
    omega
  · obtain ⟨R, h2, h | h | h | h⟩ := decodeExt_cases h.2.1
    · have := h.1.size _ _ _ _ h2 h.2.1; omega
    · have := h.1.size _ _ _ _ h.2.2.1 h.2.1; omega
    · have := h.2.2.1; omega
    · exact (readUnknown_ok h).2.2.2
  · exact (readUnknown_ok h.2).2.2.2
  · simp at h

theorem pktDecode_congr {c c' : PktCfg} {pos pos' n k : Nat} {p : Packet}
    (h : pktDecode c pos = .ok (p, n, k))
    (hz : c.errata.skz84 = false) (hz' : c'.errata.skz84 = false)
    (hd : c.errata.skd007 = false) (hd' : c'.errata.skd007 = false)
    (hu : p ≠ .unknown) (ha : Agree c.mem pos c'.mem pos' n) :
    pktDecode c' pos' = .ok (p, n, k) := by
  have hsz := pktDecode_size h
  have hr := ha.right
  have hn : 0 < n := by
    rcases hsz.2.2.1 with h | h
    · exact h
    · exact absurd h hu
  obtain ⟨hp, h | h | h | h⟩ := pktDecode_cases h
  · obtain ⟨R, hk, hR, hok, hc⟩ := h
    subst hk
    rw [hc c' pos' (by omega) hd' (ha.rd0 hn)]
    exact plain_ok.2 ⟨hR.congr _ _ _ _ _ _ hok (by omega) ha, rfl⟩
  · obtain ⟨hk, hok, hc⟩ := h
    subst hk
    rw [hc c' pos' (by omega) (ha.rd0 hn)]
    exact plain_ok.2 ⟨decodeExt_congr hok hz hz' hu ha, rfl⟩
  · exact absurd (readUnknown_ok h.2).1 hu
  · simp [h.1] at hd

theorem pktDecode_cut {c c' : PktCfg} {pos pos' n k : Nat} {p : Packet}
    (h : pktDecode c pos = .ok (p, n, k))
    (hz : c.errata.skz84 = false) (hz' : c'.errata.skz84 = false)
    (hd : c.errata.skd007 = false) (hd' : c'.errata.skd007 = false)
    (hu : p ≠ .unknown) (hl : c'.mem.length < pos' + n)
    (heq : ∀ i, pos' + i < c'.mem.length → c.mem[pos + i]? = c'.mem[pos' + i]?) :
    pktDecode c' pos' = .err .eos := by
  by_cases h1' : c'.mem.length ≤ pos'
  · simp [pktDecode, pktDecodeSwitch, h1']
  · have h0 : rd c'.mem pos' = rd c.mem pos := rd_congr (by simpa using (heq 0 (by omega)).symm)
    obtain ⟨hp, h | h | h | h⟩ := pktDecode_cases h
    · obtain ⟨R, hk, hR, hok, hc⟩ := h
      rw [hc c' pos' (by omega) hd' h0, plain_err]
      exact hR.cut _ _ _ _ _ _ hok (by omega) (by omega) hl heq
    · obtain ⟨hk, hok, hc⟩ := h
      rw [hc c' pos' (by omega) h0, plain_err]
      exact decodeExt_cut hok hz hz' hu hl heq
    · exact absurd (readUnknown_ok h.2).1 hu
    · simp [h.1] at hd

end Ipt
