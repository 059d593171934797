import Verif.Spec.NewDecoder
import Verif.Props.Asid
import Verif.Props.History

/-!
# New decoders (C77, C78)
-/

namespace Ipt
open Spec

theorem byteAt_congr {c c' : List UInt8} {i j : Nat} (h : c[i]? = c'[j]?) : byteAt c i = byteAt c' j := by
  unfold byteAt; rw [h]

theorem getElem?_of_byteAt {c c' : List UInt8} {i : Nat} (h1 : i < c.length) (h2 : i < c'.length)
    (h : byteAt c i = byteAt c' i) : c[i]? = c'[i]? := by
  unfold byteAt at h
  rw [List.getElem?_eq_getElem h1, List.getElem?_eq_getElem h2] at h ⊢
  simp only [Option.getD_some] at h
  rw [UInt8.toNat_inj.1 h]

/-- Importing an acceptable configuration. -/
theorem import_ok {old u : List UInt8} {size b e : Nat} (ho : old.length = confSize) (hu : UserConfig u size b e)
    (ha : Acceptable size b e) : ∃ c, configFromUser confSize old (some u) = .ok c ∧ c.length = confSize ∧
      rdLE c 0 8 = .ok (min size confSize) ∧ ∀ i, 8 ≤ i → i < confSize → byteAt c i = given u size i := by
  have h := Props.C17_config_import confSize old u size b e (by decide) ho (by decide) hu.declared hu.len hu.ptrs
  rw [if_pos (show 24 ≤ size ∧ b ≠ 0 ∧ e ≠ 0 ∧ b ≤ e from ha)] at h
  obtain ⟨c, h1, h2, h3, h4⟩ := h
  refine ⟨c, h1, h2, h3, fun i i1 i2 => ?_⟩
  have := h4 i i1 i2
  unfold given
  by_cases hi : i < size
  · rw [if_pos hi] at this ⊢
    exact byteAt_congr this
  · rw [if_neg hi] at this ⊢
    unfold byteAt; rw [this]; rfl

/-- The rest of an import with flags. -/
theorem importFlags_ok {init : List UInt8 → List UInt8} (hi : ∀ f, (init f).length = flagsSize)
    {old u : List UInt8} {size b e : Nat} (ho : old.length = confSize) (hu : UserConfig u size b e)
    (ha : Acceptable size b e) : ∃ f c, importFlags init old (some u) = .ok (f, c) ∧
      (∀ i, i < flagsSize → byteAt f i = given u size (flagsOff + i)) ∧
      UserConfig c (min size confSize) b e ∧ Acceptable (min size confSize) b e ∧
      ∀ i, 8 ≤ i → i < confSize → given c (min size confSize) i =
        if flagsOff ≤ i ∧ i < flagsOff + flagsSize then if i < size then byteAt (init f) (i - flagsOff) else 0
        else given u size i := by
  obtain ⟨c, h1, h2, h3, h4⟩ := import_ok ho hu ha
  have hS : confSize = 280 := rfl
  have hF : flagsOff = 124 := rfl
  have hN : flagsSize = 16 := rfl
  rw [hS] at h2 h3 h4 ⊢
  rw [hF, hN]
  obtain ⟨a1, a2, a3, a4⟩ := ha
  unfold importFlags
  rw [h1, Res.bind_ok]
  dsimp only
  have hl := hi ((c.drop flagsOff).take flagsSize)
  generalize hg : init ((c.drop flagsOff).take flagsSize) = g at hl
  rw [hF, hN] at hg ⊢
  rw [hN] at hl
  rw [memcpy, if_pos ⟨by omega, by omega⟩, Res.bind_ok]
  have hb : ∀ i, (c.take 124 ++ g.take 16 ++ c.drop (124 + 16))[i]? =
      if 124 ≤ i ∧ i < 140 then g[i - 124]? else c[i]? := by
    intro i
    by_cases k1 : i < 124
    · rw [if_neg (by omega), List.getElem?_append_left (by simp; omega), List.getElem?_append_left (by simp; omega),
        List.getElem?_take, if_pos k1]
    by_cases k2 : i < 140
    · rw [if_pos ⟨by omega, k2⟩, List.getElem?_append_left (by simp; omega),
        List.getElem?_append_right (by simp; omega), List.getElem?_take]
      have : (List.take 124 c).length = 124 := by simp [h2]
      rw [this, if_pos (by omega)]
    · rw [if_neg (by omega), List.getElem?_append_right (by simp; omega), List.getElem?_drop]
      congr 1
      simp only [List.length_append, List.length_take, h2, hl]
      omega
  have hlen : (c.take 124 ++ g.take 16 ++ c.drop (124 + 16)).length = 280 := by simp; omega
  have rd8 : ∀ p, p + 8 ≤ 124 → 8 ≤ p → ∀ v, p + 8 ≤ size → rdLE u p 8 = .ok v →
      rdLE (c.take 124 ++ g.take 16 ++ c.drop (124 + 16)) p 8 = .ok v := by
    intro p p1 p2 v p3 hv
    rw [← hv]
    apply rdLE_congr
    intro k hk
    rw [hb, if_neg (by omega)]
    have hlu := hu.len
    apply getElem?_of_byteAt (by omega) (by omega)
    rw [h4 _ (by omega) (by omega), given, if_pos (by omega)]
  refine ⟨_, _, rfl, ?_, ⟨?_, by omega, fun _ => ⟨?_, ?_⟩⟩, ⟨by omega, a2, a3, a4⟩, ?_⟩
  · intro i hi'
    rw [← h4 _ (by omega) (by omega)]
    apply byteAt_congr
    rw [List.getElem?_take, if_pos hi', List.getElem?_drop]
  · rw [← h3]
    apply rdLE_congr
    intro k hk
    rw [hb, if_neg (by omega)]
  · exact rd8 8 (by omega) (by omega) b (by omega) (hu.ptrs a1).1
  · exact rd8 16 (by omega) (by omega) e (by omega) (hu.ptrs a1).2
  · intro i i1 i2
    rw [given, byteAt, hb]
    by_cases k : 124 ≤ i ∧ i < 140
    · rw [if_pos k, if_pos k, ← hg]
      by_cases hs : i < size
      · rw [if_pos hs, if_pos (by omega)]; rfl
      · rw [if_neg hs, if_neg (by omega)]
    · rw [if_neg k, if_neg k]
      by_cases hs : i < min size 280
      · rw [if_pos hs]; exact h4 i i1 i2
      · rw [if_neg hs, given, if_neg (by omega)]

theorem import_err {old u : List UInt8} {size b e : Nat} (ho : old.length = confSize) (hu : UserConfig u size b e)
    (ha : ¬Acceptable size b e) : configFromUser confSize old (some u) = .err .badConfig := by
  have h := Props.C17_config_import confSize old u size b e (by decide) ho (by decide) hu.declared hu.len hu.ptrs
  rwa [if_neg (show ¬(24 ≤ size ∧ b ≠ 0 ∧ e ≠ 0 ∧ b ≤ e) from ha)] at h

theorem importFlags_err {init : List UInt8 → List UInt8} {old u : List UInt8} {size b e : Nat}
    (ho : old.length = confSize) (hu : UserConfig u size b e) (ha : ¬Acceptable size b e) :
    importFlags init old (some u) = .err .badConfig := by
  unfold importFlags
  rw [import_err ho hu ha]
  rfl

/-- The two agree where a configuration has other things than its size and flags. -/
def AgreeConf (g g' : Nat → Nat) : Prop := ∀ i, 8 ≤ i → i < 280 → ¬(124 ≤ i ∧ i < 140) → g i = g' i

theorem AgreeConf.trans {g g' g'' : Nat → Nat} (h : AgreeConf g g') (h' : AgreeConf g' g'') : AgreeConf g g'' :=
  fun i a b c => (h i a b c).trans (h' i a b c)

theorem AgreeConf.num {g g' : Nat → Nat} (h : AgreeConf g g') : ∀ n i, 8 ≤ i → i + n ≤ 124 ∨ 140 ≤ i ∧ i + n ≤ 280 →
    numAt g i n = numAt g' i n
  | 0, _, _, _ => rfl
  | n + 1, i, a, b => by
    rw [numAt, numAt, h i a (by omega) (by omega), h.num n (i + 1) (by omega) (by omega)]

theorem AgreeConf.bit {g g' : Nat → Nat} (h : AgreeConf g g') {i k : Nat} (a : 8 ≤ i) (b : i + k / 8 < 124) :
    bitAt g i k = bitAt g' i k := by
  rw [bitAt, bitAt, h _ (by omega) (by omega) (by omega)]

theorem AgreeConf.evt {g g' : Nat → Nat} (h : AgreeConf g g') (w : Pointers) (k l : Bool) :
    evtCfgAt w g k l = evtCfgAt w g' k l := by
  unfold evtCfgAt errataAt timeAt
  simp only [h.num 8 8 (by omega) (by omega), h.num 8 16 (by omega) (by omega), h.num 8 24 (by omega) (by omega),
    h.num 8 32 (by omega) (by omega), h.num 4 112 (by omega) (by omega), h.num 4 116 (by omega) (by omega),
    h 120 (by omega) (by omega) (by omega), h 121 (by omega) (by omega) (by omega),
    h.bit (i := 48) (k := 0) (by omega) (by omega), h.bit (i := 48) (k := 1) (by omega) (by omega),
    h.bit (i := 48) (k := 2) (by omega) (by omega), h.bit (i := 48) (k := 3) (by omega) (by omega),
    h.bit (i := 48) (k := 4) (by omega) (by omega), h.bit (i := 48) (k := 5) (by omega) (by omega),
    h.bit (i := 48) (k := 6) (by omega) (by omega), h.bit (i := 48) (k := 7) (by omega) (by omega),
    h.bit (i := 48) (k := 8) (by omega) (by omega), h.bit (i := 48) (k := 9) (by omega) (by omega)]

theorem AgreeConf.filter {g g' : Nat → Nat} (h : AgreeConf g g') : filterAt g = filterAt g' := by
  unfold filterAt
  rw [h.num 8 144 (by omega) (by omega)]
  congr 1
  apply List.map_congr_left
  intro n hn
  have := List.mem_range.1 hn
  exact h.num 8 _ (by omega) (by omega)

theorem flagBytes_length (a b : Bool) : (flagBytes a b).length = flagsSize := by simp [flagBytes, flagsSize]

theorem flagBytes_bit0 (a b : Bool) : (byteAt (flagBytes a b) 0).testBit 0 = a := by cases a <;> cases b <;> rfl

theorem flagBytes_bit1 (a b : Bool) : (byteAt (flagBytes a b) 0).testBit 1 = b := by cases a <;> cases b <;> rfl

/-- The configuration in an event decoder. -/
theorem evtInit_ok {frames : Nat → List UInt8} {mem : Evd} {u : List UInt8} {size b e : Nat}
    (hf : ∀ n, (frames n).length = 280) (hu : UserConfig u size b e) (ha : Acceptable size b e) :
    ∃ f c, evtDecoderInit frames mem (some u) = .ok ⟨f, c, evtReset { mem with pd := {} }⟩ ∧
      byteAt f 0 = given u size 124 ∧ AgreeConf (byteAt c) (given u size) ∧ c.length = 280 ∧
      rdLE c 0 8 = .ok (min size 280) ∧ ∀ i, 124 ≤ i → i < 140 → byteAt c i = 0 := by
  obtain ⟨f, c, h1, h2, h3, h4, h5⟩ :=
    importFlags_ok (init := evtInitPktFlags) (fun _ => by simp [evtInitPktFlags]) (hf 0) hu ha
  obtain ⟨c', k1, k2, k3, k4⟩ := import_ok (old := List.replicate confSize 0) (by simp) h3 h4
  have hS : confSize = 280 := rfl
  have hF : flagsOff = 124 := rfl
  have hN : flagsSize = 16 := rfl
  rw [hS] at k2 k3 k4 h5
  rw [hF, hN] at h2 h5
  refine ⟨f, c', ?_, h2 0 (by omega), ?_, k2, ?_, ?_⟩
  · unfold evtDecoderInit pktDecoderInit
    rw [h1, Res.bind_ok, k1]
    rfl
  · intro i i1 i2 i3
    rw [k4 i i1 i2, h5 i i1 i2, if_neg i3]
  · rw [k3]; congr 1; omega
  · intro i i1 i2
    rw [k4 i (by omega) (by omega), h5 i (by omega) (by omega), if_pos ⟨i1, by omega⟩]
    split
    · unfold evtInitPktFlags byteAt
      rw [hN, List.getElem?_replicate, if_pos (by omega)]; rfl
    · rfl

/-- The configuration in an event decoder that another decoder creates. -/
theorem evtInit_below {init : List UInt8 → List UInt8} {b0 b1 : List UInt8 → Bool}
    (hi : ∀ f, init f = flagBytes (b0 f) (b1 f)) (hz : ∀ f, byteAt f 0 = 0 → b0 f = false ∧ b1 f = false)
    {frame : List UInt8} {frames : Nat → List UInt8} {mem : Evd} {u : List UInt8} {size b e : Nat}
    (hf : ∀ n, (frames n).length = 280) (hf' : frame.length = 280) (hu : UserConfig u size b e)
    (ha : Acceptable size b e) :
    ∃ f c f' c', importFlags init frame (some u) = .ok (f, c) ∧ UserConfig c (min size 280) b e ∧
      Acceptable (min size 280) b e ∧ evtDecoderInit frames mem (some c) = .ok ⟨f', c', evtReset { mem with pd := {} }⟩ ∧
      byteAt f 0 = given u size 124 ∧ given c (min size 280) 124 = byteAt f' 0 ∧
      (byteAt f' 0).testBit 0 = b0 f ∧ (byteAt f' 0).testBit 1 = b1 f ∧
      AgreeConf (given c (min size 280)) (given u size) ∧
      AgreeConf (byteAt c') (given u size) ∧ c'.length = 280 ∧
      rdLE c' 0 8 = .ok (min size 280) ∧ ∀ i, 124 ≤ i → i < 140 → byteAt c' i = 0 := by
  obtain ⟨f, c, h1, h2, h3, h4, h5⟩ := importFlags_ok (init := init)
    (fun f => by rw [hi]; exact flagBytes_length _ _) (old := frame) hf' hu ha
  have hS : confSize = 280 := rfl
  have hF : flagsOff = 124 := rfl
  have hN : flagsSize = 16 := rfl
  rw [hS] at h3 h4 h5
  rw [hF, hN] at h2 h5
  obtain ⟨f', c', k1, k2, k3, k4, k5, k6⟩ := evtInit_ok (mem := mem) hf h3 h4
  have ag : AgreeConf (given c (min size 280)) (given u size) := by
    intro i i1 i2 i3
    rw [h5 i i1 i2, if_neg i3]
  have h0 := h5 124 (by omega) (by omega)
  rw [if_pos (by omega), Nat.sub_self, hi] at h0
  have hf0 := h2 0 (by omega)
  rw [Nat.add_zero] at hf0
  refine ⟨f, c, f', c', h1, h3, h4, k1, hf0, k2.symm, ?_, ?_, ag, k3.trans ag, k4, ?_, k6⟩
  · rw [k2, h0]
    split
    · exact flagBytes_bit0 _ _
    · rename_i hs
      rw [given, if_neg hs] at hf0
      rw [(hz f hf0).1]; rfl
  · rw [k2, h0]
    split
    · exact flagBytes_bit1 _ _
    · rename_i hs
      rw [given, if_neg hs] at hf0
      rw [(hz f hf0).2]; rfl
  · rw [k5]; congr 1; omega

theorem bitAt_first (f : List UInt8) (k : Nat) (h : k < 8) : bitAt (byteAt f) 0 k = (byteAt f 0).testBit k := by
  rw [bitAt, Nat.div_eq_of_lt h, Nat.mod_eq_of_lt h]

theorem bits_zero (f : List UInt8) (h : byteAt f 0 = 0) (k : Nat) (hk : k < 8) : bitAt (byteAt f) 0 k = false := by
  rw [bitAt_first f k hk, h, Nat.zero_testBit]

end Ipt

namespace Ipt.Props
open Spec

/-- C77, where the errata are: bit-fields in the order in which `struct pt_errata` declares them, at offset 48 of the
configuration, are what a decoder takes for these errata. -/
theorem C77_errata_fields (w : Pointers) (e : Errata) (g : Nat → Nat) (k l : Bool)
    (h0 : g 48 = bitFields [e.bdm70, e.bdm64, e.skd007, e.skd022, e.skd010, e.skl014, e.apl12, e.apl11])
    (h1 : g 49 = bitFields [e.skl168, e.skz84]) :
    (evtCfgAt w g k l).pkt.errata = e ∧ (evtCfgAt w g k l).time.skl168 = e.skl168 := by
  obtain ⟨b0, b1, b2, b3, b4, b5, b6, b7, b8, b9⟩ := e
  simp only at h0 h1
  simp only [evtCfgAt, errataAt, timeAt, bitAt]
  simp only [show (48 + 0 / 8) = 48 from rfl, show (48 + 8 / 8) = 49 from rfl]
  rw [h0, h1]
  clear h0 h1
  revert b0 b1 b2 b3 b4 b5 b6 b7 b8 b9
  simp only [Errata.mk.injEq]
  decide +kernel

/-- SKD010 and SKZ84. -/
example : errataAt (fun i => if i = 48 then 16 else if i = 49 then 2 else 0) = { skd010 := true, skz84 := true } := by decide

/-- C77: creating an event decoder succeeds if and only if the user's configuration is acceptable.  The new decoder is
configured as the user says: the trace buffer, callback, errata, and timing information are those of the user, and so
are the flags `keep_tcal_on_ovf` and `enable_iflags_events` of an event decoder.  It is not synchronized. -/
theorem C77_event_decoder (w : Pointers) (frames : Nat → List UInt8) (mem : Evd) (u : List UInt8) (size b e : Nat)
    (hf : ∀ n, (frames n).length = 280) (hu : UserConfig u size b e) :
    (Acceptable size b e → ∃ d, evtDecoderInit frames mem (some u) = .ok d ∧
      d.cfg w = evtCfgAt w (given u size) (flag u size 0) (flag u size 1) ∧
      d.st = evtReset { mem with pd := {} }) ∧
    (¬Acceptable size b e → evtDecoderInit frames mem (some u) = .err .badConfig) := by
  constructor
  · intro ha
    obtain ⟨f, c, h1, h2, h3, -⟩ := evtInit_ok (mem := mem) hf hu ha
    refine ⟨_, h1, ?_, rfl⟩
    rw [EvtObj.cfg, bitAt_first _ _ (by decide), bitAt_first _ _ (by decide), h3.evt]
    dsimp only
    rw [h2]; rfl
  · intro ha
    unfold evtDecoderInit
    rw [importFlags_err (hf 0) hu ha]; rfl

/-- C77: the same for query decoders, with the flags of a query decoder. -/
theorem C77_query_decoder (w : Pointers) (frames : Nat → List UInt8) (mem : Qdec) (u : List UInt8) (size b e : Nat)
    (hf : ∀ n, (frames n).length = 280) (hu : UserConfig u size b e) :
    (Acceptable size b e → ∃ d, qryDecoderInit frames mem (some u) = .ok d ∧
      d.evdec.cfg w = evtCfgAt w (given u size) (flag u size 0) (flag u size 1) ∧
      d.st = qryReset { mem with ev := evtReset { mem.ev with pd := {} } }) ∧
    (¬Acceptable size b e → qryDecoderInit frames mem (some u) = .err .badConfig) := by
  constructor
  · intro ha
    obtain ⟨f, c, f', c', h1, h2, h3, h4, h5, h6, h7, h8, h9, h10, -⟩ :=
      evtInit_below (init := qryInitEvtFlags) (fun _ => rfl)
        (fun f h => ⟨bits_zero f h 0 (by decide), bits_zero f h 1 (by decide)⟩) (mem := mem.ev) hf (hf 1) hu ha
    refine ⟨⟨f, _, _⟩, by unfold qryDecoderInit; rw [h1, Res.bind_ok, h4]; rfl, ?_, rfl⟩
    rw [EvtObj.cfg, bitAt_first _ _ (by decide), bitAt_first _ _ (by decide), h10.evt]
    dsimp only
    rw [h7, h8, bitAt_first _ _ (by decide), bitAt_first _ _ (by decide), h5]; rfl
  · intro ha
    unfold qryDecoderInit
    rw [importFlags_err (hf 1) hu ha]; rfl

/-- C77: the same for instruction flow decoders, for which `enable_tick_events`, `keep_tcal_on_ovf` and
`enable_iflags_events` are flags number 0, 1 and 2.  The image is empty. -/
theorem C77_instruction_flow_decoder (w : Pointers) (env : SecEnv) (cb : ReadCb) (frames : Nat → List UInt8)
    (mem : Idec) (u : List UInt8) (size b e : Nat) (hf : ∀ n, (frames n).length = 280) (hu : UserConfig u size b e) :
    (Acceptable size b e → ∃ d, insnDecoderInit frames mem (some u) = .ok d ∧
      d.cfg w env cb = { evt := evtCfgAt w (given u size) (flag u size 1) (flag u size 2),
                         filter := filterAt (given u size), tick := flag u size 0, env := env, cb := cb } ∧
      d.st.q = qryReset { mem.q with ev := evtReset { mem.q.ev with pd := {} } } ∧
      d.st.sc = { img := ⟨[], fun _ => 0⟩ } ∧ d.st.enabled = false ∧ d.st.processEvent = false ∧ d.st.insn = none ∧
      d.st.status = {} ∧ d.st.retstack.isEmpty = true) ∧
    (¬Acceptable size b e → insnDecoderInit frames mem (some u) = .err .badConfig) := by
  constructor
  · intro ha
    obtain ⟨f, c, h1, h2, h3, h4, h5⟩ := importFlags_ok (init := insnInitQryFlags) (fun _ => flagBytes_length _ _)
      (old := frames 2) (hf 2) hu ha
    have hS : confSize = 280 := rfl
    have hF : flagsOff = 124 := rfl
    have hN : flagsSize = 16 := rfl
    rw [hS] at h3 h4 h5
    rw [hF, hN] at h2 h5
    obtain ⟨-, -, f', c', -⟩ := evtInit_below (init := qryInitEvtFlags) (fun _ => rfl)
        (fun f h => ⟨bits_zero f h 0 (by decide), bits_zero f h 1 (by decide)⟩) (mem := mem.q.ev) hf (hf 1) h3 h4
    obtain ⟨g, k, g', k', q1, q2, q3, q4, q5, q6, q7, q8, q9, q10, -⟩ :=
      evtInit_below (init := qryInitEvtFlags) (fun _ => rfl)
        (fun f h => ⟨bits_zero f h 0 (by decide), bits_zero f h 1 (by decide)⟩) (mem := mem.q.ev) hf (hf 1) h3 h4
    have ag : AgreeConf (byteAt k') (given u size) := q10.trans fun i i1 i2 i3 => by rw [h5 i i1 i2, if_neg i3]
    have hf0 := h2 0 (by omega)
    rw [Nat.add_zero] at hf0
    have h0 := h5 124 (by omega) (by omega)
    rw [if_pos (by omega), Nat.sub_self] at h0
    have hbits : (byteAt g' 0).testBit 0 = flag u size 1 ∧ (byteAt g' 0).testBit 1 = flag u size 2 := by
      rw [q7, q8, bitAt_first _ _ (by decide), bitAt_first _ _ (by decide), q5, h0]
      unfold flag
      by_cases hs : 124 < size
      · rw [if_pos hs, ← hf0, insnInitQryFlags, flagBytes_bit0, flagBytes_bit1, bitAt_first _ _ (by decide),
          bitAt_first _ _ (by decide)]
        exact ⟨rfl, rfl⟩
      · rw [if_neg hs, given, if_neg hs]
        simp
    refine ⟨⟨f, ⟨g, _, _⟩, _⟩, by unfold insnDecoderInit qryDecoderInit; rw [h1, Res.bind_ok, q1, Res.bind_ok, q4]; rfl,
      ?_, rfl, rfl, rfl, rfl, rfl, rfl, ?_⟩
    · rw [InsnObj.cfg]
      dsimp only
      rw [EvtObj.cfg]
      dsimp only
      rw [bitAt_first _ _ (by decide), bitAt_first _ _ (by decide), bitAt_first _ _ (by decide), ag.evt, ag.filter,
        hbits.1, hbits.2, hf0]
      rfl
    · rfl
  · intro ha
    unfold insnDecoderInit
    rw [importFlags_err (hf 2) hu ha]; rfl

/-- C77: the same for block decoders, for which `end_on_call`, `enable_tick_events`, `end_on_jump`, `keep_tcal_on_ovf`
and `enable_iflags_events` are flags number 0 to 4. -/
theorem C77_block_decoder (w : Pointers) (env : SecEnv) (cb : ReadCb) (frames : Nat → List UInt8) (mem : Bdec)
    (u : List UInt8) (size b e : Nat) (hf : ∀ n, (frames n).length = 280) (hu : UserConfig u size b e) :
    (Acceptable size b e → ∃ d, blkDecoderInit frames mem (some u) = .ok d ∧
      d.cfg w env cb = { evt := evtCfgAt w (given u size) (flag u size 3) (flag u size 4),
                         filter := filterAt (given u size), endOnCall := flag u size 0, tick := flag u size 1,
                         endOnJump := flag u size 2, env := env, cb := cb } ∧
      d.st.ev = evtReset { mem.ev with pd := {} } ∧
      d.st.sc = { img := ⟨[], fun _ => 0⟩ } ∧ d.st.enabled = false ∧ d.st.event = none ∧ d.st.insn = none ∧
      d.st.status = some .nosync ∧ d.st.retstack.isEmpty = true) ∧
    (¬Acceptable size b e → blkDecoderInit frames mem (some u) = .err .badConfig) := by
  constructor
  · intro ha
    obtain ⟨f, c, f', c', h1, h2, h3, h4, h5, h6, h7, h8, h9, h10, -⟩ :=
      evtInit_below (init := blkInitEvtFlags) (fun _ => rfl)
        (fun f h => ⟨bits_zero f h 3 (by decide), bits_zero f h 4 (by decide)⟩) (mem := mem.ev) hf (hf 1) hu ha
    refine ⟨⟨f, _, _⟩, by unfold blkDecoderInit; rw [h1, Res.bind_ok, h4]; rfl, ?_, rfl, rfl, rfl, rfl, rfl, rfl, rfl⟩
    rw [BlkObj.cfg]
    dsimp only
    rw [EvtObj.cfg]
    dsimp only
    rw [bitAt_first f' 0 (by decide), bitAt_first f' 1 (by decide), h10.evt, h10.filter, h7, h8,
      bitAt_first f 0 (by decide), bitAt_first f 1 (by decide), bitAt_first f 2 (by decide), bitAt_first f 3 (by decide),
      bitAt_first f 4 (by decide), h5]
    rfl
  · intro ha
    unfold blkDecoderInit
    rw [importFlags_err (hf 1) hu ha]; rfl

/-- C77: what is in the memory that `malloc` provides for an event decoder makes no difference: synchronizing has the
same result as for a decoder that is all zero, and if it succeeds then all calls that follow have the same results. -/
theorem C77_event_decoder_memory (w : Pointers) (frames : Nat → List UInt8) (mem : Evd) (u : List UInt8) (d : EvtObj)
    (h : evtDecoderInit frames mem (some u) = .ok d) (o : SyncCall) :
    (o.evt.run (d.cfg w) d.st).2 = (o.evt.run (d.cfg w) {}).2 ∧
    ((o.evt.run (d.cfg w) {}).2 = .ok none →
      ∀ calls, evtSeen (d.cfg w) calls (o.evt.run (d.cfg w) d.st).1 = evtSeen (d.cfg w) calls (o.evt.run (d.cfg w) {}).1) := by
  apply C67_event_decoder_forgets
  right
  revert h
  unfold evtDecoderInit
  rcases importFlags evtInitPktFlags (frames 0) (some u) with p | _ | _
  · rw [Res.bind_ok]
    rcases pktDecoderInit (some p.2) with c | _ | _
    · rw [Res.bind_ok]
      intro h; cases h; rfl
    · intro h; cases h
    · intro h; cases h
  · intro h; cases h
  · intro h; cases h

/-- C77: the same for query decoders. -/
theorem C77_query_decoder_memory (w : Pointers) (frames : Nat → List UInt8) (mem : Qdec) (u : List UInt8) (d : QryObj)
    (h : qryDecoderInit frames mem (some u) = .ok d) (o : SyncCall) :
    (o.run (d.evdec.cfg w) d.st).2 = (o.run (d.evdec.cfg w) {}).2 ∧
    (∀ f ip, (o.run (d.evdec.cfg w) {}).2 = .ok (f, ip) →
      ∀ queries, qrySeen (d.evdec.cfg w) queries (o.run (d.evdec.cfg w) d.st).1 =
        qrySeen (d.evdec.cfg w) queries (o.run (d.evdec.cfg w) {}).1) := by
  apply C67_query_decoder_forgets
  right
  revert h
  unfold qryDecoderInit evtDecoderInit
  rcases importFlags qryInitEvtFlags (frames 1) (some u) with p | _ | _
  · rw [Res.bind_ok]
    rcases importFlags evtInitPktFlags (frames 0) (some p.2) with p | _ | _
    · rw [Res.bind_ok]
      rcases pktDecoderInit (some p.2) with c | _ | _
      · rw [Res.bind_ok, Res.bind_ok]
        intro h; cases h; rfl
      · intro h; cases h
      · intro h; cases h
    · intro h; cases h
    · intro h; cases h
  · intro h; cases h
  · intro h; cases h

/-- C77: allocating a decoder gives NULL if and only if there is no memory or the configuration is not acceptable; for
instruction flow decoders. -/
theorem C77_alloc (frames : Nat → List UInt8) (mem : Option Idec) (user : Option (List UInt8))
    (hu : ∀ u, user = some u → ∃ size b e, UserConfig u size b e) (hf : ∀ n, (frames n).length = 280) :
    ∃ r, allocDecoder (fun m => insnDecoderInit frames m user) mem = .ok r ∧
      (r.isSome ↔ mem.isSome ∧ ∃ u size b e, user = some u ∧ UserConfig u size b e ∧ Acceptable size b e) := by
  rcases mem with _ | m
  · exact ⟨none, rfl, by simp⟩
  rcases user with _ | u
  · exact ⟨none, rfl, by simp⟩
  obtain ⟨size, b, e, hc⟩ := hu u rfl
  by_cases ha : Acceptable size b e
  · obtain ⟨d, hd, -⟩ := (C77_instruction_flow_decoder ⟨fun _ _ => [], fun _ _ => none⟩ ⟨fun _ => 0, fun _ => "", fun _ _ => 0⟩ none
      frames m u size b e hf hc).1 ha
    refine ⟨some d, by unfold allocDecoder; dsimp only; rw [hd], ?_⟩
    simp only [Option.isSome_some, true_and, true_iff]
    exact ⟨u, size, b, e, rfl, hc, ha⟩
  · refine ⟨none, ?_, ?_⟩
    · unfold allocDecoder insnDecoderInit
      dsimp only
      rw [importFlags_err (hf 2) hc ha]; rfl
    · simp only [Option.isSome_none, Bool.false_eq_true, Option.isSome_some, true_and, false_iff]
      rintro ⟨u', size', b', e', hu', hc', ha'⟩
      cases hu'
      have h1 := hc.declared.symm.trans hc'.declared
      cases h1
      have h2 := hc.ptrs ha'.1
      have h3 := hc'.ptrs ha'.1
      have h4 := h2.1.symm.trans h3.1
      have h5 := h2.2.symm.trans h3.2
      cases h4; cases h5
      exact ha ha'

/-- A configuration with a trace buffer from 0x1000 to 0x1010, a callback, erratum SKL014, a CTC frequency, the given
flags, and one address range; as long as the user says. -/
def sampleConfig (size : Nat) (flags : UInt8) : List UInt8 :=
  toLE 8 size ++ toLE 8 0x1000 ++ toLE 8 0x1010 ++ toLE 8 0x77 ++ toLE 8 0x88 ++ List.replicate 8 0 ++
  [0x20] ++ List.replicate 63 0 ++ toLE 4 2 ++ toLE 4 168 ++ [3, 24, 0, 0] ++ [flags] ++ List.replicate 15 0 ++
  List.replicate 4 0 ++ toLE 8 1 ++ toLE 8 0x400000 ++ toLE 8 0x4fffff ++ List.replicate 112 0

def samplePointers : Pointers := ⟨fun _ _ => tracePrefix, fun _ _ => none⟩

theorem sample_user (flags : UInt8) : UserConfig (sampleConfig 280 flags) 280 0x1000 0x1010 :=
  ⟨by rfl, by simp only [sampleConfig, List.length_append, toLE_length, List.length_replicate, List.length_cons,
    List.length_nil]; omega, fun _ => ⟨by rfl, by rfl⟩⟩

/-- A user who was compiled with a version of the library that did not have flags. -/
theorem sample_old (flags : UInt8) : UserConfig (sampleConfig 124 flags) 124 0x1000 0x1010 :=
  ⟨by rfl, by simp only [sampleConfig, List.length_append, toLE_length, List.length_replicate, List.length_cons,
    List.length_nil]; omega, fun _ => ⟨by rfl, by rfl⟩⟩

/-- A block decoder with `end_on_jump` and `enable_iflags_events`, and its address filter and errata. -/
example : ∃ d, blkDecoderInit (fun _ => List.replicate 280 0xcc) { ip := 7, enabled := true } (some (sampleConfig 280 0x14)) = .ok d ∧
    ∀ env, (d.cfg samplePointers env none).endOnJump = true ∧ (d.cfg samplePointers env none).endOnCall = false ∧
      (d.cfg samplePointers env none).evt.enableIflags = true ∧ (d.cfg samplePointers env none).evt.keepTcalOnOvf = false ∧
      (d.cfg samplePointers env none).filter.check 0x500000 = .ok false ∧
      (d.cfg samplePointers env none).evt.pkt.errata = { skl014 := true } ∧
      (d.cfg samplePointers env none).evt.time = { eax := 2, ebx := 168, mtcFreq := 3, nomFreq := 24 } := by
  obtain ⟨d, h1, -⟩ := (C77_block_decoder samplePointers ⟨fun _ => 0, fun _ => "", fun _ _ => 0⟩ none
    (fun _ => List.replicate 280 0xcc) { ip := 7, enabled := true } _ 280 _ _ (fun _ => List.length_replicate) (sample_user 0x14)).1
    ⟨by decide, by decide, by decide, by decide⟩
  refine ⟨d, h1, fun env => ?_⟩
  obtain ⟨d', h1', h2', -⟩ := (C77_block_decoder samplePointers env none
    (fun _ => List.replicate 280 0xcc) { ip := 7, enabled := true } _ 280 _ _ (fun _ => List.length_replicate) (sample_user 0x14)).1
    ⟨by decide, by decide, by decide, by decide⟩
  cases h1.symm.trans h1'
  rw [h2']
  refine ⟨by rfl, by rfl, by rfl, by rfl, ?_, by rfl, by rfl⟩
  show (filterAt (given (sampleConfig 280 0x14) 280)).check 0x500000 = .ok false
  decide +kernel

/-- The flags of a user who does not know about them are not set. -/
example : flag (sampleConfig 124 0xff) 124 0 = false ∧ flag (sampleConfig 280 0xff) 280 0 = true := ⟨by rfl, by rfl⟩

/-- C78: `pt_evt_get_config` gives the configuration with which the decoder was created, except for the flags, and so do
`pt_qry_get_config`, `pt_insn_get_config` and `pt_blk_get_config`.  Missing: the flags are always zero. -/
theorem C78_get_config_partial (frames : Nat → List UInt8) (ev : Evd) (q : Qdec) (i : Idec) (k : Bdec) (u : List UInt8)
    (size b e : Nat) (hf : ∀ n, (frames n).length = 280) (hu : UserConfig u size b e) (ha : Acceptable size b e) :
    ∃ de dq di dk, evtDecoderInit frames ev (some u) = .ok de ∧ qryDecoderInit frames q (some u) = .ok dq ∧
      insnDecoderInit frames i (some u) = .ok di ∧ blkDecoderInit frames k (some u) = .ok dk ∧
      ∀ c ∈ [de.getConfig, dq.getConfig, di.getConfig, dk.getConfig],
        c.length = 280 ∧ rdLE c 0 8 = .ok (min size 280) ∧
        ∀ j, 8 ≤ j → j < 280 → byteAt c j = if 124 ≤ j ∧ j < 140 then 0 else given u size j := by
  have good : ∀ c : List UInt8, AgreeConf (byteAt c) (given u size) → c.length = 280 →
      rdLE c 0 8 = .ok (min size 280) → (∀ i, 124 ≤ i → i < 140 → byteAt c i = 0) →
      c.length = 280 ∧ rdLE c 0 8 = .ok (min size 280) ∧
        ∀ j, 8 ≤ j → j < 280 → byteAt c j = if 124 ≤ j ∧ j < 140 then 0 else given u size j := by
    intro c h1 h2 h3 h4
    refine ⟨h2, h3, fun j j1 j2 => ?_⟩
    by_cases hj : 124 ≤ j ∧ j < 140
    · rw [if_pos hj]; exact h4 j hj.1 hj.2
    · rw [if_neg hj]; exact h1 j j1 j2 hj
  obtain ⟨f, c, a1, -, a3, a4, a5, a6⟩ := evtInit_ok (mem := ev) hf hu ha
  obtain ⟨fq, cq, fq', cq', q1, q2, q3, q4, -, -, -, -, -, q10, q11, q12, q13⟩ :=
    evtInit_below (init := qryInitEvtFlags) (fun _ => rfl)
      (fun f h => ⟨bits_zero f h 0 (by decide), bits_zero f h 1 (by decide)⟩) (mem := q.ev) hf (hf 1) hu ha
  obtain ⟨fk, ck, fk', ck', k1, k2, k3, k4, -, -, -, -, -, k10, k11, k12, k13⟩ :=
    evtInit_below (init := blkInitEvtFlags) (fun _ => rfl)
      (fun f h => ⟨bits_zero f h 3 (by decide), bits_zero f h 4 (by decide)⟩) (mem := k.ev) hf (hf 1) hu ha
  obtain ⟨fi, ci, i1, -, i3, i4, i5⟩ := importFlags_ok (init := insnInitQryFlags) (fun _ => flagBytes_length _ _)
    (old := frames 2) (hf 2) hu ha
  have hS : confSize = 280 := rfl
  have hF : flagsOff = 124 := rfl
  have hN : flagsSize = 16 := rfl
  rw [hS] at i3 i4 i5
  rw [hF, hN] at i5
  obtain ⟨fj, cj, fj', cj', j1, j2, j3, j4, -, -, -, -, -, j10, j11, j12, j13⟩ :=
    evtInit_below (init := qryInitEvtFlags) (fun _ => rfl)
      (fun f h => ⟨bits_zero f h 0 (by decide), bits_zero f h 1 (by decide)⟩) (mem := i.q.ev) hf (hf 1) i3 i4
  refine ⟨_, ⟨fq, ⟨fq', cq', _⟩, _⟩, ⟨fi, ⟨fj, ⟨fj', cj', _⟩, _⟩, _⟩, ⟨fk, ⟨fk', ck', _⟩, _⟩, a1,
    by unfold qryDecoderInit; rw [q1, Res.bind_ok, q4]; rfl,
    by unfold insnDecoderInit qryDecoderInit; rw [i1, Res.bind_ok, j1, Res.bind_ok, j4]; rfl,
    by unfold blkDecoderInit; rw [k1, Res.bind_ok, k4]; rfl, ?_⟩
  intro x hx
  simp only [List.mem_cons, List.not_mem_nil, or_false] at hx
  rcases hx with rfl | rfl | rfl | rfl
  · exact good _ a3 a4 a5 a6
  · exact good _ q10 q11 q12 q13
  · refine good _ (j10.trans fun n n1 n2 n3 => by rw [i5 n n1 n2, if_neg n3]) j11 ?_ j13
    refine Eq.trans j12 ?_
    congr 1; omega
  · exact good _ k10 k11 k12 k13

/-- C78 fails for the flags: a user who enables tick events and asks the new decoder for its configuration gets one in
which they are not enabled. -/
theorem C78_get_config_flags_fail : ∃ u d, UserConfig u 280 0x1000 0x1010 ∧ flag u 280 0 = true ∧
    insnDecoderInit (fun _ => List.replicate 280 0) {} (some u) = .ok d ∧
    bitAt (byteAt d.flags) 0 0 = true ∧ bitAt (byteAt d.getConfig) 124 0 = false := by
  obtain ⟨d, h1, h2, -⟩ := (C77_instruction_flow_decoder samplePointers ⟨fun _ => 0, fun _ => "", fun _ _ => 0⟩ none
    (fun _ => List.replicate 280 0) {} _ 280 _ _ (fun _ => List.length_replicate) (sample_user 1)).1
    ⟨by decide, by decide, by decide, by decide⟩
  obtain ⟨_, _, d', _, _, _, h3, _, h4⟩ := C78_get_config_partial (fun _ => List.replicate 280 0) {} {} {} {} _ 280 _ _
    (fun _ => List.length_replicate) (sample_user 1) ⟨by decide, by decide, by decide, by decide⟩
  cases h1.symm.trans h3
  refine ⟨_, d, sample_user 1, by rfl, h1, ?_, ?_⟩
  · exact congrArg InsnCfg.tick h2
  · rw [bitAt, (h4 d.getConfig (by simp)).2.2 124 (by decide) (by decide), if_pos (by decide)]
    rfl

/-- C78 fails for block decoders: `pt_blk_time` and `pt_blk_core_bus_ratio` never say that there is no time and no
core:bus ratio.  PSB; FUP; PSBEND: there is neither TSC nor CBR; the query decoder reports it, and the block decoder
gives zero. -/
theorem C78_block_time_fails :
    ((qrySyncForward (cfgOf []) {}).1.time = .err .noTime ∧ (qrySyncForward (cfgOf []) {}).1.coreBusRatio = .err .noCbr) ∧
    (match blkSyncForward { evt := cfgOf [], env := ⟨fun _ => 0, fun _ => "", fun _ _ => 0⟩ } {} with
      | (s, .ok _) => decide (blkTime s = .ok (0, 0, 0) ∧ blkCbr s = .ok 0)
      | _ => false) = true := by
  decide +kernel

end Ipt.Props
