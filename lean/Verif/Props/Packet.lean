import Verif.EncoderSafe

/-!
# Properties of the packet layer (C01 - C07)
-/

namespace Ipt.Props

open Ipt Spec

/-! ## C01 -/

/-- C01: `pt_pkt_next` never reads outside the trace buffer and performs no other undefined
operation: for every buffer content and length, every errata configuration, every
unknown-packet callback and every position (also one behind the end, also a decoder that is
not synchronized). -/
theorem C01_pkt_next_memory_safe (c : PktCfg) (pos : Option Nat) :
    (pktNext c pos).safe := by
  cases pos with
  | none => simp [pktNext]
  | some pos =>
    exact Res.bind_ne_ub (pktDecode_safe c pos) (by intro a _; simp)

/-- Not vacuous: a truncated PSB at the very end of the buffer is answered by `-pte_eos`, a
corrupted one by `-pte_bad_packet`. -/
example : pktNext { mem := [0x02, 0x82, 0x02] } (some 0) = .err .eos ∧
    pktNext { mem := 0x02 :: 0x82 :: List.replicate 14 0x00 } (some 0) = .err .badPacket := by
  decide +kernel

/-! ## C02 -/

/-- C02: on success the returned size is at most 255, the new position is the old one plus
the returned size, it lies inside the buffer, and the size is positive unless the packet was
supplied by the unknown-packet callback.  (SKD007 and SKZ84 work-arounds off; with them the
claim fails, see below.) -/
theorem C02_pkt_next_position_partial (c : PktCfg) (pos n pos' : Nat) (p : Packet)
    (hd : c.errata.skd007 = false) (hz : c.errata.skz84 = false)
    (h : pktNext c (some pos) = .ok (p, n, pos')) :
    pos' = pos + n ∧ pos' ≤ c.mem.length ∧ n ≤ 255 ∧ (p ≠ .unknown → 0 < n) := by
  simp only [pktNext] at h
  obtain ⟨⟨q, s, k⟩, hq, h⟩ := Res.bind_eq_ok.1 h
  simp at h
  obtain ⟨rfl, rfl, rfl⟩ := h
  obtain ⟨h1, h2, h3, h4 | h4 | h4⟩ := pktDecode_size hq
  · exact ⟨by omega, by omega, h2, fun hu => by rcases h3 with h | h; exact h; exact absurd h hu⟩
  · simp [h4.2.1] at hz
  · simp [h4.2.1] at hd

/-- C02 for every errata configuration: the position moves forward by the size, or by the
size plus the one skipped byte of the SKD007 work-around, and ends at most one byte behind
the buffer - exactly one behind only for the invalid packet of the SKZ84 work-around. -/
theorem C02_pkt_next_position_errata_partial (c : PktCfg) (pos n pos' : Nat) (p : Packet)
    (h : pktNext c (some pos) = .ok (p, n, pos')) :
    n ≤ 255 ∧ (p ≠ .unknown → pos < pos') ∧
    ((pos' = pos + n ∧ pos' ≤ c.mem.length) ∨
     (pos' = pos + n + 1 ∧ pos' ≤ c.mem.length ∧ c.errata.skd007 = true ∧ p = .ovf) ∨
     (pos' = pos + n ∧ pos' = c.mem.length + 1 ∧ c.errata.skz84 = true ∧ p = .invalid)) := by
  simp only [pktNext] at h
  obtain ⟨⟨q, s, k⟩, hq, h⟩ := Res.bind_eq_ok.1 h
  simp at h
  obtain ⟨rfl, rfl, rfl⟩ := h
  obtain ⟨h1, h2, h3, h4 | h4 | h4⟩ := pktDecode_size hq
  · exact ⟨h2, fun hu => by rcases h3 with h | h; omega; exact absurd h hu, .inl ⟨by omega, by omega⟩⟩
  · exact ⟨h2, fun _ => by omega, .inr (.inr ⟨by omega, by omega, h4.2.1, h4.2.2.1⟩)⟩
  · exact ⟨h2, fun _ => by omega, .inr (.inl ⟨by omega, by omega, h4.2.1, h4.2.2.1⟩)⟩

/-- C02 fails: with the SKZ84 work-around a corrupted TMA at the end of the buffer moves the
position one byte behind the end of the trace buffer. -/
theorem C02_skz84_position_behind_end :
    ∃ (c : PktCfg) (pos n pos' : Nat) (p : Packet),
      pktNext c (some pos) = .ok (p, n, pos') ∧ c.mem.length < pos' :=
  ⟨{ mem := [0x02, 0x73, 0, 0, 0, 0, 0xff], errata := { skz84 := true } }, 0, 8, 8, .invalid,
    by decide +kernel⟩

/-- C02 fails: with the SKD007 work-around the position moves by more than the returned
size. -/
theorem C02_skd007_position_not_size :
    ∃ (c : PktCfg) (pos n pos' : Nat) (p : Packet),
      pktNext c (some pos) = .ok (p, n, pos') ∧ pos' ≠ pos + n :=
  ⟨{ mem := [0x07, 0x02, 0xf3, 0], errata := { skd007 := true } }, 0, 2, 3, .ovf,
    by decide +kernel⟩

example : pktNext { mem := [0x59, 0x07, 0x00] } (some 0) = .ok (.mtc 7, 2, 2) := by decide +kernel

/-! ## C03 -/

/-- C03: for every representable packet, at every encoder position with enough room, the
encoder succeeds with some size `n`, and decoding the resulting buffer at the same position
(with any errata flags other than the two look-ahead ones, and any callback) returns an equal
packet, the same size, and the encoder's new position. -/
theorem C03_roundtrip (p : Packet) (hp : Representable p) :
    ∃ n, 0 < n ∧ ∀ e : Enc, e.pos + n ≤ e.buf.length →
      ∃ e', encNext e p = (e', .ok n) ∧ e'.pos = e.pos + n ∧
        ∀ c : PktCfg, c.mem = e'.buf → c.errata.skd007 = false → c.errata.skz84 = false →
          pktNext c (some e.pos) = .ok (p, n, e'.pos) := by
  obtain ⟨bs, hc⟩ := representable_codes p hp
  have hsz := pktDecode_size hc.read
  refine ⟨bs.length, ?_, ?_⟩
  · have := hsz.1; simpa using this
  · intro e he
    refine ⟨_, hc.write e he, rfl, ?_⟩
    intro c hm hd hz
    have hu : p ≠ .unknown := by rintro rfl; exact hp
    have ha : Agree (toBytes bs) 0 c.mem e.pos bs.length := by
      rw [hm]
      refine ⟨by simp, ?_, ?_⟩
      · simp only
        rw [splice_length (by simpa using he)]
        exact he
      · intro i hi
        simp only [Nat.zero_add]
        exact (splice_get_in (by simpa using he) (by simpa using hi)).symm
    have := pktDecode_congr (c := { mem := toBytes bs }) (c' := c) hc.read rfl hz rfl hd hu ha
    simp [pktNext, this]

/-- Not vacuous, and a case of interest: the largest CYC value the decoder accepts. -/
example : Representable (.cyc (2 ^ 61 - 1)) ∧ Representable (.tip 3 0x7fffffffffff) ∧
    Representable (.tnt64 47 0x2aaaaaaaaaaa) := by decide +kernel

/-- Limit of C03: the encoder also accepts CYC values of 2^61 and above, but what it writes
is not accepted by the decoder. -/
theorem C03_cyc_too_big_is_encoded :
    ∃ e e' n, encNext e (.cyc (2 ^ 61)) = (e', .ok n) ∧
      pktNext { mem := e'.buf } (some e.pos) = .err .badPacket :=
  ⟨{ buf := List.replicate 10 0, pos := 0 }, _, _, rfl, by decide +kernel⟩

/-! ## C04 -/

/-- C04: every encoder call, with any packet value, in any state: no store outside the buffer
(no undefined operation); on an error nothing changes; on success the size of the buffer is
unchanged, the position advances by the returned size and stays inside the buffer, and no
byte outside the written range changes. -/
theorem C04_encoder_safe_and_atomic (e e' : Enc) (p : Packet) (r : Res Nat)
    (h : encNext e p = (e', r)) :
    r.safe ∧ (∀ x, r = .err x → e' = e) ∧
    (∀ n, r = .ok n → e'.buf.length = e.buf.length ∧ e'.pos = e.pos + n ∧
      e'.pos ≤ e'.buf.length ∧
      ∀ i, i < e.pos ∨ e'.pos ≤ i → e'.buf[i]? = e.buf[i]?) := by
  have hs := encNext_step e p
  rw [h] at hs
  cases hs with
  | ok bs hb =>
    refine ⟨by simp, by simp, ?_⟩
    intro n hn
    simp at hn
    subst hn
    refine ⟨splice_length hb, rfl, ?_, ?_⟩
    · dsimp only; rw [splice_length hb]; exact hb
    · intro i hi
      exact splice_get_out hb hi
  | err x => exact ⟨by simp, by simp, by simp⟩

/-- C04: a representable packet that does not fit is refused with `-pte_eos`, and only then. -/
theorem C04_encoder_eos_iff_no_room (p : Packet) (hp : Representable p) :
    ∃ n, 0 < n ∧ ∀ e : Enc,
      (e.buf.length < e.pos + n → encNext e p = (e, .err .eos)) ∧
      (e.pos + n ≤ e.buf.length → ∃ e', encNext e p = (e', .ok n)) := by
  obtain ⟨bs, hc⟩ := representable_codes p hp
  have hsz := pktDecode_size hc.read
  exact ⟨bs.length, by have := hsz.1; simpa using this,
    fun e => ⟨hc.full e, fun h => ⟨_, hc.write e h⟩⟩⟩

example : encNext { buf := [1, 2, 3], pos := 2 } .psbend = ({ buf := [1, 2, 3], pos := 2 }, .err .eos) ∧
    encNext { buf := [1, 2, 3], pos := 1 } .psbend = ({ buf := [1, 0x02, 0x23], pos := 3 }, .ok 2) := by
  decide +kernel

/-- C04: a packet with a reserved IP compression is refused, and nothing is written. -/
theorem C04_encoder_refuses_reserved_ipc (e : Enc) (ipc ip : Nat) (h : ipc ∉ [0, 1, 2, 3, 4, 6]) :
    encNext e (.fup ipc ip) = (e, .err .invalid) ∧ encNext e (.tip ipc ip) = (e, .err .invalid) ∧
    encNext e (.tipPge ipc ip) = (e, .err .invalid) ∧ encNext e (.tipPgd ipc ip) = (e, .err .invalid) := by
  have hs : encIpcSize ipc = .err .invalid := by
    simp only [List.mem_cons, List.not_mem_nil, or_false, not_or] at h
    unfold encIpcSize
    simp [h]
  simp only [encNext, encIp, hs]
  exact ⟨trivial, trivial, trivial, trivial⟩

example : (5 : Nat) ∉ [0, 1, 2, 3, 4, 6] ∧ (7 : Nat) ∉ [0, 1, 2, 3, 4, 6] := by decide

/-- C04, positioning the encoder (`pt_enc_sync_set`): succeeds exactly for offsets in the buffer (its end
included), and then the next packet is written there; otherwise nothing changes. -/
theorem C04_encoder_sync_set (e e' : Enc) (offset : Nat) (r : Res Unit) (h : encSyncSet e offset = (e', r)) :
    (offset ≤ e.buf.length → r = .ok () ∧ e'.pos = offset ∧ e'.buf = e.buf) ∧
    (e.buf.length < offset → r = .err .eos ∧ e' = e) := by
  unfold encSyncSet at h
  by_cases hl : e.buf.length < offset
  · rw [if_pos hl] at h
    simp only [Prod.mk.injEq] at h
    obtain ⟨rfl, rfl⟩ := h
    exact ⟨fun _ => by omega, fun _ => ⟨rfl, rfl⟩⟩
  · rw [if_neg hl] at h
    simp only [Prod.mk.injEq] at h
    obtain ⟨rfl, rfl⟩ := h
    exact ⟨fun _ => ⟨rfl, rfl, rfl⟩, fun _ => by omega⟩

/-! ## C05 -/

/-- Encode a sequence of packets; `none` if some call fails. -/
def encodeAll (e : Enc) : List Packet → Option Enc
  | [] => some e
  | p :: ps =>
    match encNext e p with
    | (e', .ok _) => encodeAll e' ps
    | _ => none

/-- Repeated `pt_pkt_next` from `pos` yields the packets `ps` and ends at the given position. -/
inductive Decodes (c : PktCfg) : Nat → List Packet → Nat → Prop
  | nil (pos : Nat) : Decodes c pos [] pos
  | cons {pos pos' pos'' n : Nat} {p : Packet} {ps : List Packet}
      (h : pktNext c (some pos) = .ok (p, n, pos')) (t : Decodes c pos' ps pos'') :
      Decodes c pos (p :: ps) pos''

theorem encodeAll_frame : ∀ {ps : List Packet} {e e' : Enc}, encodeAll e ps = some e' →
    e.pos ≤ e'.pos ∧ (e.pos ≤ e.buf.length → e'.pos ≤ e'.buf.length) ∧
    e'.buf.length = e.buf.length ∧ ∀ i, i < e.pos → e'.buf[i]? = e.buf[i]? := by
  intro ps
  induction ps with
  | nil => intro e e' h; simp [encodeAll] at h; subst h; simp
  | cons p ps ih =>
    intro e e' h
    simp only [encodeAll] at h
    split at h
    · rename_i e1 n h1
      obtain ⟨_, _, h2⟩ := C04_encoder_safe_and_atomic e e1 p _ h1
      obtain ⟨h3, h4, h5, h6⟩ := h2 n rfl
      obtain ⟨h7, h8, h9, h10⟩ := ih h
      refine ⟨by omega, by omega, by omega, ?_⟩
      intro i hi
      rw [h10 i (by omega), h6 i (by omega)]
    · cases h

/-- C05: encode any sequence of representable packets, then decode the produced bytes from
the start position: the same packets come back in order, followed by `-pte_eos`. -/
theorem C05_stream_roundtrip (ps : List Packet) (hp : ∀ p ∈ ps, Representable p)
    (e e' : Enc) (he : encodeAll e ps = some e') (c : PktCfg)
    (hc : c.mem = e'.buf.take e'.pos) (hd : c.errata.skd007 = false) (hz : c.errata.skz84 = false) :
    Decodes c e.pos ps e'.pos ∧ pktNext c (some e'.pos) = .err .eos := by
  constructor
  · induction ps generalizing e with
    | nil => simp [encodeAll] at he; subst he; exact .nil _
    | cons p ps ih =>
      simp only [encodeAll] at he
      split at he
      · rename_i e1 n h1
        refine .cons (p := p) (n := n) (pos' := e1.pos) ?_
          (ih (fun q hq => hp q (List.mem_cons_of_mem _ hq)) e1 he)
        have hpp := hp p (List.mem_cons_self ..)
        obtain ⟨bs, hcd⟩ := representable_codes p hpp
        obtain ⟨_, _, h2⟩ := C04_encoder_safe_and_atomic e e1 p _ h1
        obtain ⟨h3, h4, h5, _⟩ := h2 n rfl
        obtain ⟨h7, h8, h9, h10⟩ := encodeAll_frame he
        have hroom : e.pos + bs.length ≤ e.buf.length := by
          apply Classical.byContradiction
          intro hn
          rw [hcd.full e (by omega)] at h1
          cases h1
        have hw := hcd.write e hroom
        rw [h1] at hw
        simp only [Prod.mk.injEq, Res.ok.injEq] at hw
        obtain ⟨hw1, hw2⟩ := hw
        have hlen : e'.pos ≤ e'.buf.length := h8 (by omega)
        have hu : p ≠ .unknown := by rintro rfl; exact hpp
        have ha : Agree (toBytes bs) 0 c.mem e.pos bs.length := by
          refine ⟨by simp, ?_, ?_⟩
          · rw [hc, List.length_take]; omega
          · intro i hi
            simp only [Nat.zero_add]
            rw [hc, List.getElem?_take, if_pos (by omega), h10 _ (by omega), hw1]
            exact (splice_get_in (by simpa using hroom) (by simpa using hi)).symm
        have := pktDecode_congr (c := { mem := toBytes bs }) (c' := c) hcd.read rfl hz rfl hd hu ha
        simp [pktNext, this, h4, hw2]
      · cases he
  · have : c.mem.length ≤ e'.pos := by rw [hc, List.length_take]; omega
    simp [pktNext, pktDecode, this]

/-- Not vacuous: a small trace is encoded successfully. -/
example : (encodeAll { buf := List.replicate 40 0xee, pos := 1 }
    [.psb, .tsc 0x1234, .modeExec true false false, .psbend, .tipPge 3 0x401000, .tnt8 3 5,
     .tip 1 0x1010]).isSome = true ∧
    ∀ p ∈ [Packet.psb, .tsc 0x1234, .modeExec true false false, .psbend, .tipPge 3 0x401000,
      .tnt8 3 5, .tip 1 0x1010], Representable p := by decide +kernel

/-! ## C06 -/

/-- C06: with the look-ahead work-arounds off, a successful decode depends only on the bytes
of the packet: any other configuration (buffer, callback, other errata) and position with the
same `n` bytes gives the same packet and size. -/
theorem C06_decode_is_local (c c' : PktCfg) (pos n pos' q : Nat) (p : Packet)
    (hd : c.errata.skd007 = false) (hz : c.errata.skz84 = false)
    (hd' : c'.errata.skd007 = false) (hz' : c'.errata.skz84 = false)
    (hu : p ≠ .unknown) (h : pktNext c (some pos) = .ok (p, n, pos'))
    (hq : q + n ≤ c'.mem.length)
    (hsame : ∀ i, i < n → c'.mem[q + i]? = c.mem[pos + i]?) :
    pktNext c' (some q) = .ok (p, n, q + n) := by
  have hpos := C02_pkt_next_position_partial c pos n pos' p hd hz h
  simp only [pktNext] at h
  obtain ⟨⟨r, s, k⟩, hr, h⟩ := Res.bind_eq_ok.1 h
  simp at h
  obtain ⟨rfl, rfl, rfl⟩ := h
  have hk : k = 0 := by omega
  subst hk
  have := pktDecode_congr (c' := c') hr hz hz' hd hd' hu
    ⟨by omega, hq, fun i hi => (hsame i hi).symm⟩
  simp [pktNext, this]

/-- C06: cutting the buffer anywhere inside the packet turns the success into `-pte_eos`. -/
theorem C06_truncation_gives_eos (c : PktCfg) (pos n pos' cut : Nat) (p : Packet)
    (hd : c.errata.skd007 = false) (hz : c.errata.skz84 = false)
    (hu : p ≠ .unknown) (h : pktNext c (some pos) = .ok (p, n, pos'))
    (hcut : cut < pos + n) :
    pktNext { c with mem := c.mem.take cut } (some pos) = .err .eos := by
  simp only [pktNext] at h
  obtain ⟨⟨r, s, k⟩, hr, h⟩ := Res.bind_eq_ok.1 h
  simp at h
  obtain ⟨rfl, rfl, rfl⟩ := h
  have := pktDecode_cut (c' := { c with mem := c.mem.take cut }) (pos' := pos) hr hz hz hd hd hu
    (by simp only [List.length_take]; omega)
    (by intro i hi
        simp only [List.length_take] at hi
        rw [List.getElem?_take, if_pos (by omega)])
  simp [pktNext, this]

example : pktNext { mem := [0x19, 1, 2, 3, 4, 5, 6, 7, 0x99] } (some 0)
    = .ok (.tsc 0x07060504030201, 8, 8) ∧
    pktNext { mem := [0x19, 1, 2, 3, 4, 5, 6] } (some 0) = .err .eos := by decide +kernel

/-! ## C07 -/

/-- The user's callback never claims an unknown packet of size zero. -/
def CallbackAdvances (c : PktCfg) : Prop := ∀ f, c.cb = some f → ∀ pos, f pos ≠ 0

theorem pktNext_advances (c : PktCfg) (hcb : CallbackAdvances c) (pos n pos' : Nat) (p : Packet)
    (h : pktNext c (some pos) = .ok (p, n, pos')) : pos < c.mem.length ∧ pos < pos' := by
  simp only [pktNext] at h
  obtain ⟨⟨r, s, k⟩, hr, h⟩ := Res.bind_eq_ok.1 h
  simp at h
  obtain ⟨rfl, rfl, rfl⟩ := h
  refine ⟨(pktDecode_size hr).1, ?_⟩
  by_cases h0 : s = 0
  · subst h0
    obtain ⟨f, hf, hf0⟩ := pktDecode_zero hr
    exact absurd hf0 (hcb f hf pos)
  · omega

/-- C07: at most `size - pos` calls succeed in a row ... -/
theorem C07_bounded_number_of_packets (c : PktCfg) (hcb : CallbackAdvances c)
    (pos pos' : Nat) (ps : List Packet) (h : Decodes c pos ps pos') :
    ps.length ≤ c.mem.length - pos := by
  induction h with
  | nil => simp
  | cons h t ih =>
    have := pktNext_advances c hcb _ _ _ _ h
    simp only [List.length_cons]
    omega

/-- ... and then an error is returned: decoding always ends. -/
theorem C07_decode_terminates (c : PktCfg) (hcb : CallbackAdvances c) (pos : Nat) :
    ∃ ps pos' x, Decodes c pos ps pos' ∧ pktNext c (some pos') = .err x := by
  have key : ∀ k pos, c.mem.length - pos ≤ k →
      ∃ ps pos' x, Decodes c pos ps pos' ∧ pktNext c (some pos') = .err x := by
    intro k
    induction k with
    | zero =>
      intro pos h
      refine ⟨[], pos, .eos, .nil _, ?_⟩
      have : c.mem.length ≤ pos := by omega
      simp [pktNext, pktDecode, this]
    | succ k ih =>
      intro pos h
      match h1 : pktNext c (some pos) with
      | .err x => exact ⟨[], pos, x, .nil _, h1⟩
      | .ub => exact absurd h1 (C01_pkt_next_memory_safe c (some pos))
      | .ok (p, n, pos') =>
        have := pktNext_advances c hcb _ _ _ _ h1
        obtain ⟨ps, q, x, h2, h3⟩ := ih pos' (by omega)
        exact ⟨p :: ps, q, x, .cons h1 h2, h3⟩
  exact key _ pos (Nat.le_refl _)

/-- The condition on the callback is needed: with a callback that reports size zero
`pt_pkt_next` succeeds forever at the same position. -/
theorem C07_zero_size_callback_loops :
    ∃ (c : PktCfg) (pos : Nat), ∀ k, Decodes c pos (List.replicate k .unknown) pos := by
  refine ⟨{ mem := [0x09], cb := some fun _ => 0 }, 0, fun k => ?_⟩
  induction k with
  | zero => exact .nil _
  | succ k ih => exact .cons (n := 0) (pos' := 0) (by decide +kernel) ih

example : CallbackAdvances { mem := [0x09, 0x00, 0x01], cb := some fun _ => 2 } ∧
    pktNext { mem := [0x09, 0x00, 0x01], cb := some fun _ => 2 } (some 0) = .ok (.unknown, 2, 2) := by
  refine ⟨?_, by decide +kernel⟩
  intro f hf pos
  cases hf
  simp

end Ipt.Props
