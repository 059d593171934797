import Verif.Props.Ptdump
import Verif.Props.Packet

/-!
# The lines of the packet dumper (C83)
-/

namespace Ipt
open Spec

variable {o : DumpOpts} {c : PktCfg} {tc : TimeCfg}

theorem rawLoop_ok : ∀ (bs : List UInt8) (i : Nat), i + 2 * bs.length ≤ 32 → rawLoop i bs = .ok (hexText bs) := by
  intro bs
  induction bs with
  | nil => intro i _; rfl
  | cons b bs ih =>
    intro i h
    simp only [List.length_cons] at h
    rw [rawLoop, if_neg (by omega), ih (i + 2) (by omega)]
    have : (hexByte b).take (33 - i - 1) = hexByte b := List.take_of_length_le (by simp [hexByte]; omega)
    rw [this]
    rfl

theorem tntLoop_ok : ∀ (n i tnt : Nat), i + n ≤ 48 → tntLoop n i n tnt = .ok (tntText n tnt) := by
  intro n
  induction n with
  | zero => intro i tnt _; rfl
  | succ n ih =>
    intro i tnt h
    rw [tntLoop, if_neg (by omega), show n + 1 - 1 = n by omega, ih (i + 1) tnt (by omega)]
    show Res.ok _ = Res.ok _
    unfold tntText
    rw [List.range_succ_eq_map, List.map_cons, List.map_map]
    simp only [Res.ok.injEq, List.cons.injEq]
    refine ⟨by simp, List.map_congr_left fun a _ => ?_⟩
    simp only [Function.comp]
    rw [show n + 1 - 1 - a.succ = n - 1 - a by omega]

theorem psb_decodes {q : Nat} (h : IsPsb c.mem q) : pktNext c (some q) = .ok (.psb, 16, q + 16) := by
  have hb := isPsb_bound h
  have h0 := h 0 (by omega)
  have e : pktNext { mem := c.mem } (some q) = .ok (.psb, 16, q + 16) := by
    refine (Props.C47_decode_exact { mem := c.mem } rfl rfl rfl q 16 _ .psb).2 ⟨hb, ⟨rfl, ?_⟩, rfl⟩
    intro j hj
    obtain ⟨h1, h2⟩ := h j hj
    simp only [bytesAt]
    rw [List.getD_eq_getElem?_getD, List.getD_eq_getElem?_getD, h1, show q + (2 * j + 1) = q + 2 * j + 1 by omega, h2]
    decide
  rw [← e]
  have key : ∀ c' : PktCfg, c'.mem = c.mem → pktDecode c' q = plain (readPsb c.mem q >>= fun n => .ok (.psb, n)) := by
    intro c' hc
    have r0 : rd c'.mem q = .ok 2 := by unfold rd; rw [hc, show q = q + 2 * 0 by omega, h0.1]; rfl
    have r1 : rd c'.mem (q + 1) = .ok 0x82 := by unfold rd; rw [hc, show q + 1 = q + 2 * 0 + 1 by omega, h0.2]; rfl
    unfold pktDecode
    rw [if_neg (by rw [hc]; omega), r0]
    show plain (decodeExt c' q) = _
    unfold decodeExt
    rw [if_neg (by rw [hc]; omega), r1, hc.symm]
    rfl
  simp only [pktNext]
  rw [key c rfl, key { mem := c.mem } rfl]

theorem next_lt {pos : Nat} {e : Err} (h : pktNext c (some pos) = .err e) (he : e ≠ .eos) : pos < c.mem.length := by
  rcases Nat.lt_or_ge pos c.mem.length with h1 | h1
  · exact h1
  · simp [pktNext, pktDecode, h1] at h
    exact absurd h.symm he

theorem decode_of_next {pos n pos' : Nat} {p : Packet} (h : pktNext c (some pos) = .ok (p, n, pos')) :
    ∃ k, pktDecode c pos = .ok (p, n, k) ∧ pos' = pos + k + n := by
  simp only [pktNext] at h
  obtain ⟨⟨q, s, k⟩, hq, h⟩ := Res.bind_eq_ok.1 h
  simp at h
  obtain ⟨rfl, rfl, rfl⟩ := h
  exact ⟨k, hq, rfl⟩

theorem next_size {pos n pos' : Nat} {p : Packet} (hcb : c.cb = none) (h : pktNext c (some pos) = .ok (p, n, pos')) :
    n ≤ 16 ∧ pos < pos' ∧ pos' ≤ c.mem.length + 1 ∧ pos < c.mem.length := by
  obtain ⟨k, hk, rfl⟩ := decode_of_next h
  have h1 : n ≤ 16 := by
    rcases decode_wire_or hcb hk with ⟨hw, _⟩ | ⟨_, h⟩ | ⟨_, h⟩
    · exact wire_size hw
    · omega
    · omega
  have h2 := pktDecode_size hk
  have h3 := Props.pktNext_advances c (by intro f hf; rw [hcb] at hf; cases hf) pos n _ p h
  refine ⟨h1, h3.2, ?_, h3.1⟩
  rcases h2.2.2.2 with h | h | h <;> omega

/-- The text of a line. -/
def LineText (o : DumpOpts) (c : PktCfg) (l : DumpLine) (n : Nat) : Prop :=
  (o.showRaw = true → l.raw = hexText ((c.mem.drop l.offset).take n)) ∧
  (∀ bits tnt, l.packet = .tnt8 bits tnt ∨ l.packet = .tnt64 bits tnt → l.tnt = tntText bits tnt)

theorem dumpOne_ok {pos n pos' : Nat} {p : Packet} (hcb : c.cb = none) (h : pktNext c (some pos) = .ok (p, n, pos')) (t : Track) :
    (o.showRaw = true ∧ c.mem.length < pos + n ∧ ∃ e, (dumpOne o c tc t pos p n).2 = .err e) ∨
    ((o.showRaw = true → pos + n ≤ c.mem.length) ∧
      ∃ l, (dumpOne o c tc t pos p n).2 = .ok l ∧ l.offset = pos ∧ l.packet = p ∧ LineText o c l n) := by
  have hs := next_size hcb h
  have hpr : ∀ raw, ∃ l, (printPacket o tc t { offset := pos, packet := p, raw := raw }).2 = .ok l ∧ l.offset = pos ∧
      l.packet = p ∧ l.raw = raw ∧ (∀ bits tnt, p = .tnt8 bits tnt ∨ p = .tnt64 bits tnt → l.tnt = tntText bits tnt) := by
    intro raw
    have hT : ∀ bits tnt, (p = .tnt8 bits tnt ∨ p = .tnt64 bits tnt) → printTnt bits tnt = .ok (tntText bits tnt) := by
      intro bits tnt hp
      obtain ⟨k, hk, _⟩ := decode_of_next h
      have hb : bits ≤ 47 := by
        rcases decode_wire_or hcb hk with ⟨_, hr⟩ | ⟨h1, _⟩ | ⟨h1, _⟩
        · rcases hp with rfl | rfl <;> (obtain ⟨_, h2, _⟩ := hr; omega)
        · rcases hp with rfl | rfl <;> cases h1
        · rcases hp with rfl | rfl <;> cases h1
      unfold printTnt
      rw [if_neg (by omega)]
      exact tntLoop_ok bits 0 tnt (by omega)
    unfold printPacket
    cases p with
    | tnt8 bits tnt =>
      refine ⟨_, by dsimp only; rw [hT bits tnt (.inl rfl)]; rfl, rfl, rfl, rfl, ?_⟩
      rintro b x (h | h) <;> cases h; rfl
    | tnt64 bits tnt =>
      refine ⟨_, by dsimp only; rw [hT bits tnt (.inr rfl)]; rfl, rfl, rfl, rfl, ?_⟩
      rintro b x (h | h) <;> cases h; rfl
    | _ =>
      dsimp only
      first
        | exact ⟨_, rfl, rfl, rfl, rfl, by rintro b x (h | h) <;> cases h⟩
        | (split <;> exact ⟨_, rfl, rfl, rfl, rfl, by rintro b x (h | h) <;> cases h⟩)
  unfold dumpOne
  by_cases hr : o.showRaw = true
  · rw [if_pos hr]
    unfold printRaw
    by_cases hl : c.mem.length < pos + n
    · left
      rw [if_pos hl]
      exact ⟨hr, hl, _, rfl⟩
    · right
      rw [if_neg hl, rawLoop_ok _ 0 (by simp only [List.length_take]; omega)]
      obtain ⟨l, h1, h2, h3, h4, h5⟩ := hpr (hexText ((c.mem.drop pos).take n))
      refine ⟨fun _ => by omega, l, h1, h2, h3, fun _ => by rw [h4, h2], ?_⟩
      rw [h3]; exact h5
  · right
    rw [if_neg hr]
    obtain ⟨l, h1, h2, h3, h4, h5⟩ := hpr []
    refine ⟨fun h => absurd h hr, l, h1, h2, h3, fun h => absurd h hr, ?_⟩
    rw [h3]; exact h5

/-- Offset and packet of a line. -/
def what (l : DumpLine) : Nat × Packet := (l.offset, l.packet)

theorem dumpPackets_spec (hcb : c.cb = none) : ∀ (n : Nat) (d : PktDec) (t : Track) (y pos : Nat), d.pos = some pos →
    d.sync = some y → c.mem.length + 2 ≤ n + pos → pos ≤ c.mem.length + 1 →
    ∃ d' t' ls, (dumpPackets o c tc n d t = (d', t', ls, .ok ()) ∧ Listing c o.showRaw y pos (ls.map what)) ∨
      ∃ e pp pos', dumpPackets o c tc n d t = (d', t', ls, .err e) ∧ d' = { pos := some pos', sync := some y } ∧
        Unreadable c o.showRaw pp pos' ∧ pos ≤ pp ∧ (pos = pp ∨ ∃ p m pos1, pktNext c (some pos) = .ok (p, m, pos1) ∧ pos1 ≤ pp) ∧
        (∀ tl, Listing c o.showRaw y pp tl → Listing c o.showRaw y pos (ls.map what ++ tl)) := by
  intro n
  induction n with
  | zero => intro d t y pos _ _ h1 h2; omega
  | succ n ih =>
    intro d t y pos hd hy h1 h2
    have ho : pktGetOffset d = .ok pos := by unfold pktGetOffset; rw [hd]
    rw [dumpPackets, ho]
    dsimp only
    have hsafe := Props.C01_pkt_next_memory_safe c (some pos)
    cases hn : pktNext c (some pos) with
    | ub => rw [hn] at hsafe; exact absurd rfl hsafe
    | err e =>
      have hdn : pktDecNext c d = (d, .err e) := by unfold pktDecNext; rw [hd, hn]
      rw [hdn]
      by_cases he : e = .eos
      · subst he
        exact ⟨d, t, [], .inl ⟨rfl, .eos hn⟩⟩
      · refine ⟨d, t, [], .inr ⟨e, pos, pos, ?_, ?_, .inl ⟨e, he, hn, rfl⟩, Nat.le_refl _, .inl rfl, fun tl h => h⟩⟩
        · cases e <;> first | exact absurd rfl he | rfl
        · cases d; cases hd; cases hy; rfl
    | ok x =>
      obtain ⟨p, m, pos1⟩ := x
      have hdn : pktDecNext c d = ({ d with pos := some pos1 }, .ok (p, m)) := by unfold pktDecNext; rw [hd, hn]
      rw [hdn]
      dsimp only
      have hsz := next_size hcb hn
      rcases hone : dumpOne o c tc t pos p m with ⟨t1, r1⟩
      rcases dumpOne_ok (o := o) (tc := tc) hcb hn t with ⟨hr, hl, e, he⟩ | ⟨hr, l, hl, hlo, hlp, _⟩
      · rw [hone] at he
        dsimp only at he
        subst he
        refine ⟨_, _, [], .inr ⟨e, pos, pos1, rfl, by rw [hy], .inr ⟨hr, p, m, hn, hl⟩, Nat.le_refl _, .inl rfl, fun tl h => h⟩⟩
      · rw [hone] at hl
        dsimp only at hl
        subst hl
        have hw : what l = (pos, p) := by unfold what; rw [hlo, hlp]
        obtain ⟨d', t', ls, h | h⟩ := ih { d with pos := some pos1 } t1 y pos1 rfl hy (by omega) (by omega)
        · refine ⟨d', t', l :: ls, .inl ⟨by dsimp only; rw [h.1], ?_⟩⟩
          rw [List.map_cons, hw]
          exact .packet hn hr h.2
        · obtain ⟨e, pp, pos', h3, h4, h5, h6, _, h7⟩ := h
          refine ⟨d', t', l :: ls, .inr ⟨e, pp, pos', by dsimp only; rw [h3], h4, h5, by omega, .inr ⟨p, m, pos1, rfl, h6⟩, ?_⟩⟩
          intro tl htl
          rw [List.map_cons, hw]
          exact .packet hn hr (h7 tl htl)

theorem sync_next {y pp pos' : Nat} (hcb : c.cb = none) (base : Nat) (hu : Unreadable c o.showRaw pp pos') (hy : y ≤ pp) :
    (∃ q, pktSyncForward c base { pos := some pos', sync := some y } = ({ pos := some q, sync := some q }, .ok ()) ∧
      NextPsb c.mem (searchFrom y pos') q) ∨
    (∃ d, pktSyncForward c base { pos := some pos', sync := some y } = (d, .err .eos) ∧ ∀ q, searchFrom y pos' ≤ q → ¬ IsPsb c.mem q) := by
  have hs : Props.searchStart { pos := some pos', sync := some y } = searchFrom y pos' := by
    unfold Props.searchStart searchFrom
    dsimp only
    by_cases h : pos' = y
    · rw [if_pos h, if_pos (by rw [h])]
    · rw [if_neg h, if_neg (fun h' => h (Option.some.inj h').symm)]
  have hb : searchFrom y pos' ≤ c.mem.length := by
    unfold searchFrom
    rcases hu with ⟨e, he, hn, rfl⟩ | ⟨_, p, n, hn, hl⟩
    · have := next_lt hn he
      split <;> omega
    · have := next_size hcb hn
      split <;> omega
  rcases hr : pktSyncForward c base { pos := some pos', sync := some y } with ⟨d, r⟩
  rcases Props.C08_pkt_sync_forward c base _ d r (by simp [Props.PktDec.WF]) (by rw [hs]; exact hb) hr with
    ⟨rfl, q, rfl, h1, h2, h3⟩ | ⟨rfl, rfl, h1⟩
  · rw [hs] at h1 h3
    exact .inl ⟨q, rfl, h1, h2, h3⟩
  · rw [hs] at h1
    exact .inr ⟨_, rfl, h1⟩

theorem dumpLoop_spec (hcb : c.cb = none) (base : Nat) : ∀ (n : Nat) (t : Track) (y : Nat), IsPsb c.mem y → c.mem.length ≤ n + y →
    ∃ ls, dumpLoop o c tc base (n + 1) { pos := some y, sync := some y } t = (ls, .ok ()) ∧ Listing c o.showRaw y y (ls.map what) := by
  intro n
  induction n with
  | zero =>
    intro t y hp h
    have := isPsb_bound hp
    omega
  | succ n ih =>
    intro t y hp h
    have hb := isPsb_bound hp
    rw [dumpLoop]
    obtain ⟨d', t', ls, h1 | h1⟩ := dumpPackets_spec (o := o) (tc := tc) hcb (c.mem.length + 2) { pos := some y, sync := some y } t y y rfl rfl
      (by omega) (by omega)
    · rw [h1.1]
      exact ⟨ls, rfl, h1.2⟩
    · obtain ⟨e, pp, pos', h1, rfl, hu, hle, hor, hl⟩ := h1
      rw [h1]
      dsimp only
      have hpp : y + 16 ≤ pp := by
        have hd := psb_decodes hp
        rcases hor with rfl | ⟨p, m, pos1, h2, h3⟩
        · exfalso
          rcases hu with ⟨e, _, h2, _⟩ | ⟨_, p, m, h2, h3⟩
          · rw [hd] at h2; cases h2
          · rw [hd] at h2; cases h2; omega
        · rw [hd] at h2; cases h2; exact h3
      have hpos : pp ≤ pos' := by
        rcases hu with ⟨_, _, _, rfl⟩ | ⟨_, p, m, h2, _⟩
        · exact Nat.le_refl _
        · have := next_size hcb h2; omega
      rcases sync_next hcb base hu hle with ⟨q, h2, h3⟩ | ⟨d, h2, h3⟩
      · rw [h2]
        dsimp only
        have hq : y < q := by
          have := h3.1
          unfold searchFrom at this
          rw [if_neg (by omega)] at this
          omega
        obtain ⟨ls', h4, h5⟩ := ih {} q h3.2.1 (by omega)
        rw [h4]
        refine ⟨ls ++ ls', rfl, ?_⟩
        rw [List.map_append]
        exact hl _ (.resync hu h3 h5)
      · rw [h2]
        refine ⟨ls, rfl, ?_⟩
        have := hl [] (.lost hu h3)
        rwa [List.append_nil] at this

end Ipt

namespace Ipt.Props
open Ipt Spec

/-- C83: ptdump shows all packets of the trace, beginning with the first PSB, each with its offset, and never stops with an
error or writes behind one of its buffers. -/
theorem C83_lines (o : DumpOpts) (c : PktCfg) (tc : TimeCfg) (base : Nat) (hcb : c.cb = none) (hs : o.noSync = false) :
    ∃ ls, dumpSync o c tc base = (ls, .ok ()) ∧
      ((∃ q, NextPsb c.mem 0 q ∧ Listing c o.showRaw q q (ls.map fun l => (l.offset, l.packet))) ∨
       ((∀ q, ¬ IsPsb c.mem q) ∧ ls = [])) := by
  unfold dumpSync
  rw [if_neg (by rw [hs]; decide)]
  rcases hr : pktSyncForward c base {} with ⟨d, r⟩
  rcases C08_pkt_sync_forward c base {} d r (by simp [PktDec.WF]) (Nat.zero_le _) hr with ⟨rfl, q, rfl, h1, h2, h3⟩ | ⟨rfl, rfl, h1⟩
  · obtain ⟨ls, h4, h5⟩ := dumpLoop_spec (o := o) (tc := tc) hcb base (c.mem.length + 1) {} q h2 (by omega)
    exact ⟨ls, h4, .inl ⟨q, ⟨Nat.zero_le _, h2, fun q0 _ => h3 q0 (Nat.zero_le _)⟩, h5⟩⟩
  · exact ⟨[], rfl, .inr ⟨fun q => h1 q (Nat.zero_le _), rfl⟩⟩

/-- C83, with `--no-sync`: it shows all packets from the beginning. -/
theorem C83_lines_no_sync (o : DumpOpts) (c : PktCfg) (tc : TimeCfg) (base : Nat) (hcb : c.cb = none) (hs : o.noSync = true) :
    ∃ ls, dumpSync o c tc base = (ls, .ok ()) ∧ Listing c o.showRaw 0 0 (ls.map fun l => (l.offset, l.packet)) := by
  unfold dumpSync
  rw [if_pos hs]
  have e : pktSyncSet c {} 0 = ({ pos := some 0, sync := some 0 }, .ok ()) := by simp [pktSyncSet]
  rw [e]
  dsimp only
  rw [dumpLoop]
  obtain ⟨d', t', ls, h1 | h1⟩ := dumpPackets_spec (o := o) (tc := tc) hcb (c.mem.length + 2) { pos := some 0, sync := some 0 } {} 0 0 rfl rfl
    (by omega) (by omega)
  · rw [h1.1]
    exact ⟨ls, rfl, h1.2⟩
  · obtain ⟨e, pp, pos', h1, rfl, hu, hle, hor, hl⟩ := h1
    rw [h1]
    dsimp only
    rcases sync_next hcb base hu hle with ⟨q, h2, h3⟩ | ⟨d, h2, h3⟩
    · rw [h2]
      dsimp only
      obtain ⟨ls', h4, h5⟩ := dumpLoop_spec (o := o) (tc := tc) hcb base c.mem.length {} q h3.2.1 (by omega)
      rw [h4]
      refine ⟨ls ++ ls', rfl, ?_⟩
      have := hl _ (.resync hu h3 h5)
      rw [← List.map_append] at this
      exact this
    · rw [h2]
      refine ⟨ls, rfl, ?_⟩
      have := hl [] (.lost hu h3)
      rwa [List.append_nil] at this

/-- C83: the raw bytes and the outcomes of conditional branches are shown completely. -/
theorem C83_text (o : DumpOpts) (c : PktCfg) (tc : TimeCfg) (hcb : c.cb = none) (t : Track) (pos n pos' : Nat) (p : Packet)
    (h : pktNext c (some pos) = .ok (p, n, pos')) (l : DumpLine) (hl : (dumpOne o c tc t pos p n).2 = .ok l) :
    (o.showRaw = true → l.raw = hexText ((c.mem.drop pos).take n)) ∧
    (∀ bits tnt, p = .tnt8 bits tnt ∨ p = .tnt64 bits tnt → l.tnt = tntText bits tnt) := by
  rcases dumpOne_ok (o := o) (tc := tc) hcb h t with ⟨_, _, e, he⟩ | ⟨_, l', h1, h2, h3, h4, h5⟩
  · rw [hl] at he; cases he
  · rw [hl] at h1
    cases h1
    rw [h2, h3] at *
    exact ⟨h4, h5⟩

/-- PSB; TNT with the outcomes taken, not taken, taken; an unknown opcode; PSB; PAD. -/
example : (dumpSync { showRaw := true } { mem := psbBytes ++ [0x1a, 0xd5] ++ psbBytes ++ [0] } {} 0).1.map
      (fun l => (l.offset, l.packet, String.ofList l.raw, String.ofList l.tnt)) =
    [(0, .psb, "02820282028202820282028202820282", ""), (16, .tnt8 3 5, "1a", "!.!"),
     (18, .psb, "02820282028202820282028202820282", ""), (34, .pad, "00", "")] := by
  decide +kernel

end Ipt.Props
