import Verif.PeventWrite

/-!
# Perf event records
-/

namespace Ipt.Props

open Spec

variable {c : PevConfig} {mem : List UInt8}

theorem readPos_safe {str : Bool} {n size : Nat} (h : size ≤ mem.length) :
    pevSkip mem n str size ≠ .ub := by
  unfold pevSkip
  split
  · unfold pevStrlen
    split
    · simp
    · have := strlen_safe (mem := mem) (size - (8 + n)) (8 + n) (by omega)
      rcases h : pevStrlenLoop mem (8 + n) (size - (8 + n)) with _ | _ | _ <;> simp_all
  · simp

theorem timeToTsc_safe (h : c.timeShift < 64) (v : Nat) : pevTimeToTsc c v ≠ .ub := by
  unfold pevTimeToTsc
  split
  · simp
  · split
    · simp
    · split
      · simp
      · rw [if_neg (by omega)]; simp

theorem sampleType_safe {o : Option (Res Nat)} (h : ∀ r, o = some r → r ≠ .ub) : pevSampleType c o ≠ .ub := by
  unfold pevSampleType
  split
  · simp
  · split
    · simp
    · split
      · rename_i l r h1
        have := h r rfl
        rcases r with i | _ | _
        · simp only [Res.bind_ok]
          split
          · split <;> simp
          · simp
        · simp
        · exact absurd rfl this
      · simp

/-- C55: reading a perf event record is memory safe, whatever the buffer contains. -/
theorem C55_read_safe (c : PevConfig) (hc : c.timeShift < 64) (mem : List UInt8) : pevRead c mem ≠ .ub := by
  unfold pevRead
  split
  · simp
  · rename_i h1
    rw [rdLE_value (by omega), rdLE_value (by omega), rdLE_value (by omega)]
    simp only [Res.bind_ok]
    generalize leValue (sliceAt mem 6 2) = size
    generalize leValue (sliceAt mem 0 4) = type
    split
    · simp
    · split
      · simp
      · rename_i h2 h3
        have hsz : size ≤ mem.length := by omega
        rcases pevRecord type with _ | ⟨n, str⟩
        · simp
        · simp only
          refine Res.bind_ne_ub (readPos_safe hsz) fun pos _ => ?_
          refine Res.bind_ne_ub ?_ fun x _ => ?_
          · obtain ⟨s, e', hl, he⟩ := readSamples_eq (c := c) (mem := mem) (b := pos) (e := size)
            rw [he]
            refine Res.bind_ne_ub (sampleType_safe ?_) fun t _ => Res.bind_ne_ub ?_ fun _ _ => by simp
            · intro r hr
              split at hr
              · cases hr
                rw [rdLE_value (by omega)]; simp
              · cases hr
            · unfold timeOf
              split
              · simp
              · rename_i p hp
                split
                · simp
                · rw [rdLE_value (by omega)]
                  exact timeToTsc_safe hc _
          · obtain ⟨s, p⟩ := x
            simp only
            split <;> simp

theorem lastWord_eq {t : Nat} {pos : Nat} {s : PevSamples} {e : Nat} (h : Laid t pos s e) (hm : e ≤ mem.length) :
    (if pos + 8 ≤ e then some (leValue (sliceAt mem (e - 8) 8)) else none) = lastWord t (mem.take e) := by
  have hb : sliceAt mem (e - 8) 8 = (mem.take e).drop ((mem.take e).length - 8) ∨ e < 8 := by
    by_cases h8 : e < 8
    · exact .inr h8
    · left
      unfold sliceAt
      rw [List.length_take, Nat.min_eq_left hm, List.drop_take]
      rw [show e - (e - 8) = 8 by omega]
  obtain ⟨p1, p2, p3, p4, p5, e1, -, e2, -, e3, -, e4, -, e5, -, e6⟩ := h.rest
  have b1 := ite_le e1
  have b2 := ite_le e2
  have b3 := ite_le e3
  have b4 := ite_le e4
  have b5 := ite_le e5
  have b6 := ite_le e6
  unfold lastWord
  by_cases hany : [1, 2, 6, 7, 9, 16].any t.testBit = true
  · rw [if_pos hany]
    have : pos + 8 ≤ e := by
      simp only [List.any_cons, List.any_nil, Bool.or_false, Bool.or_eq_true] at hany
      rcases hany with h | h | h | h | h | h
      · have := b1.2.1 h; omega
      · have := b2.2.1 h; omega
      · have := b3.2.1 h; omega
      · have := b5.2.1 h; omega
      · have := b4.2.1 h; omega
      · have := b6.2.1 h; omega
    rw [if_pos this]
    rcases hb with hb | hb
    · rw [hb]
    · omega
  · rw [if_neg hany]
    simp only [List.any_cons, List.any_nil, Bool.or_false, Bool.or_eq_true, not_or] at hany
    obtain ⟨h1, h2, h3, h4, h5, h6⟩ := hany
    rw [if_neg h1] at e1
    rw [if_neg h2] at e2
    rw [if_neg h3] at e3
    rw [if_neg h5] at e4
    rw [if_neg h4] at e5
    rw [if_neg h6] at e6
    rw [if_neg (by omega)]

theorem readIdent_eq {pos e : Nat} (hm : e ≤ mem.length) :
    (if pos + 8 ≤ e then some (rdLE mem (e - 8) 8) else none) =
      (if pos + 8 ≤ e then some (leValue (sliceAt mem (e - 8) 8)) else none).map Res.ok := by
  split
  · rw [rdLE_value (by omega)]; rfl
  · rfl

/-- C55: the bytes of a record that was read are the encoding of what the user sees, and nothing else: the record and all
samples are in the buffer, and in the record.  For types that are not known, the user only sees the type and the flags. -/
theorem C55_read_sound (c : PevConfig) (mem : List UInt8) (ev : PevEvent) (n : Nat) (h : pevRead c mem = .ok (ev, n)) :
    n ≤ mem.length ∧
    ((recordFields ev.type = none ∧ ev = { type := leValue (sliceAt mem 0 4), misc := leValue (sliceAt mem 4 2) } ∧
        n = leValue (sliceAt mem 6 2)) ∨
      ∃ t, TypeFor c (lastWord t (mem.take n)) t ∧ Encodes t (dataOf mem ev) (mem.take n) ∧
        match (dataOf mem ev).time with
        | some v => pevTimeToTsc c v = .ok ev.sample.tsc
        | none => ev.sample.tsc = 0) := by
  unfold pevRead at h
  split at h
  · cases h
  rename_i h1
  have hty := value_lt (mem := mem) (p := 0) (n := 4) (by omega)
  have hmi := value_lt (mem := mem) (p := 4) (n := 2) (by omega)
  have hsi := value_lt (mem := mem) (p := 6) (n := 2) (by omega)
  have q1 : Part mem 0 (toLE 4 (leValue (sliceAt mem 0 4))) 4 := part_value (by omega)
  have q2 : Part mem 4 (toLE 2 (leValue (sliceAt mem 4 2))) 6 := part_value (by omega)
  have q3 : Part mem 6 (toLE 2 (leValue (sliceAt mem 6 2))) 8 := part_value (by omega)
  rw [rdLE_value (by omega), rdLE_value (by omega), rdLE_value (by omega)] at h
  simp only [Res.bind_ok] at h
  generalize leValue (sliceAt mem 6 2) = size at *
  generalize leValue (sliceAt mem 0 4) = type at *
  generalize leValue (sliceAt mem 4 2) = misc at *
  split at h
  · cases h
  split at h
  · cases h
  rename_i h2 h3
  rw [record_fields] at h
  rcases hr : recordFields type with _ | ⟨fields, str⟩ <;> rw [hr] at h
  · cases h
    exact ⟨by omega, .inl ⟨hr, rfl, rfl⟩⟩
  simp only [Option.map_some] at h
  obtain ⟨pos, hpos, h⟩ := Res.bind_eq_ok.1 h
  obtain ⟨⟨smp, e⟩, hs, h⟩ := Res.bind_eq_ok.1 h
  simp only at h
  split at h
  · cases h
  rename_i h4
  injection h with h
  injection h with hev hn
  subst hn
  -- the string
  have hf : fields.sum ≤ 64 := by
    unfold recordFields at hr
    split at hr <;> cases hr <;> decide
  have hstr : pos ≤ size + 7 + 72 ∧ 8 + fields.sum ≤ pos ∧
      (pos ≤ mem.length → ∃ string, IsString str (if str = true then (mem.drop (8 + fields.sum)).takeWhile (· ≠ 0) else []) string ∧
        Part mem (8 + fields.sum) string pos) := by
    unfold pevSkip at hpos
    split at hpos
    · rename_i hst
      obtain ⟨slen, hsl, hpos⟩ := Res.bind_eq_ok.1 hpos
      cases hpos
      unfold pevStrlen at hsl
      split at hsl
      · cases hsl
      rename_i hle
      obtain ⟨s, a1, a2, a3, a4, a5⟩ := strlen_ok _ _ _ (by omega) hsl
      refine ⟨by omega, by omega, fun hp => ⟨s ++ 0 :: sliceAt mem (8 + fields.sum + slen) ((slen + 7) / 8 * 8 - slen), ?_, ?_⟩⟩
      · rw [if_pos hst, a5]
        unfold IsString
        rw [if_pos hst]
        have hl := sliceAt_length (mem := mem) (p := 8 + fields.sum + slen) (n := (slen + 7) / 8 * 8 - slen) (by omega)
        exact ⟨a1, _, rfl, by omega, by simp only [List.length_append, List.length_cons, hl]; omega⟩
      · have := a4.append (part_self (n := (slen + 7) / 8 * 8 - slen) (by omega))
        rw [show 8 + fields.sum + slen + ((slen + 7) / 8 * 8 - slen) = 8 + fields.sum + (slen + 7) / 8 * 8 by omega] at this
        simpa using this
    · rename_i hst
      cases hpos
      refine ⟨by omega, by omega, fun hp => ⟨[], ?_, part_nil hp⟩⟩
      simp [IsString, hst]
  obtain ⟨b1, b2, hstr⟩ := hstr
  -- the samples
  obtain ⟨s, e', hl, he⟩ := readSamples_eq (c := c) (mem := mem) (b := pos) (e := size)
  rw [he] at hs
  obtain ⟨t, ht, hs⟩ := Res.bind_eq_ok.1 hs
  obtain ⟨tsc, htsc, hs⟩ := Res.bind_eq_ok.1 hs
  injection hs with hs
  injection hs with hs1 hs2
  have hl := hl t
  rw [hs2] at hl
  obtain ⟨c1, c2, c3⟩ := laid_le hl
  have hes : e = size := by omega
  subst hes
  have hmem : e ≤ mem.length := by omega
  obtain ⟨string, d1, d2⟩ := hstr (by omega)
  refine ⟨hmem, .inr ⟨t, ?_, ?_, ?_⟩⟩
  · rw [readIdent_eq hmem, lastWord_eq hl hmem] at ht
    exact sampleType_ok.1 ht
  · have hrec : (dataOf mem ev).record = sliceAt mem 8 fields.sum := by
      rw [← hev]
      unfold dataOf
      simp only [hr, Option.getD_some]
      by_cases h0 : fields.sum = 0
      · simp [h0, sliceAt]
      · simp [h0]
    have hstring : (dataOf mem ev).string = if str = true then (mem.drop (8 + fields.sum)).takeWhile (· ≠ 0) else [] := by
      rw [← hev]
      unfold dataOf
      simp only [hr, Option.getD_some]
      by_cases hst : str = true
      · have h0 : fields.sum ≠ 0 := by
          subst hst
          unfold recordFields at hr
          split at hr <;> cases hr <;> decide
        simp [hst, h0]
      · simp [hst]
    have hshow : Shows mem (s t) (dataOf mem ev) := by
      rw [← hev, ← hs1]
      exact ⟨rfl, rfl, rfl, rfl, rfl, rfl, rfl⟩
    obtain ⟨unused, u1, u2, f1, f2, f3, f4, f5, f6, f7⟩ := laid_part hl hshow hmem
    have htype : (dataOf mem ev).type = type := by rw [← hev]; rfl
    have hmisc : (dataOf mem ev).misc = misc := by rw [← hev]; rfl
    have hlen : (mem.take e).length = e := by rw [List.length_take]; omega
    refine ⟨fields, str, string, unused, by rw [htype]; exact hr, ?_, ?_, u1, by rw [hlen]; exact hsi, laid_has hl hshow, ?_, ?_⟩
    · rw [hrec, sliceAt_length (by omega)]
    · rw [hstring]; exact d1
    · exact ⟨by rw [htype]; exact ⟨by omega, hty⟩, by rw [hmisc]; exact hmi, f1, f2, f3, f4, f5, f6, f7⟩
    · rw [htype, hmisc, hrec, hlen]
      have := ((((q1.append q2).append q3).append (part_self (n := fields.sum) (by omega))).append d2).append u2
      have h5 := this.eq
      have h6 := this.next
      rw [Nat.zero_add] at h6
      rw [← h6] at h5
      exact h5
  · have hti : (dataOf mem ev).time = (s t).time.map fun p => leValue (sliceAt mem p 8) := by
      rw [← hev, ← hs1]; rfl
    have htc : ev.sample.tsc = tsc := by rw [← hev, ← hs1]
    rw [hti, htc]
    unfold timeOf at htsc
    rcases htm : (s t).time with _ | p <;> rw [htm] at htsc
    · cases htsc; rfl
    · have := c3 p htm
      simp only at htsc
      rw [if_neg (by omega), rdLE_value (by omega)] at htsc
      exact htsc

/-- C55: every record that encodes an event is read as that event, if the last eight bytes select the right sample type and
the time can be converted. -/
theorem C55_read_complete (c : PevConfig) (t : Nat) (d : PevData) (l rest : List UInt8) (hc : TypeFor c (lastWord t l) t)
    (h : Encodes t d l) (ht : ∀ v, d.time = some v → ∃ tsc, pevTimeToTsc c v = .ok tsc) :
    ∃ ev, pevRead c (l ++ rest) = .ok (ev, l.length) ∧ dataOf (l ++ rest) ev = d := by
  obtain ⟨fields, str, string, unused, hr, hrec, hstr, hu, hlen, hs, hf, hl⟩ := h
  generalize hm : l ++ rest = mem
  have hml : l.length ≤ mem.length := by rw [← hm]; simp
  have hp : Part mem 0 l l.length := ⟨by rw [← hm]; simp [sliceAt], by simp, hml⟩
  have hp0 := hp
  have hl2 : ∀ (p q : Nat), Part mem p l q → Part mem p (toLE 4 d.type ++ toLE 2 d.misc ++ toLE 2 l.length ++ d.record ++ string ++
      sampleBytes t d unused) q := by intro p q hpq; rw [← hl]; exact hpq
  have hp := hl2 _ _ hp
  obtain ⟨hp, q6⟩ := hp.split
  obtain ⟨hp, q5⟩ := hp.split
  obtain ⟨hp, q4⟩ := hp.split
  obtain ⟨hp, q3⟩ := hp.split
  obtain ⟨q1, q2⟩ := hp.split
  simp only [List.length_append, toLE_length, hrec, Nat.zero_add] at q2 q3 q4 q5 q6
  have n6 := q6.next
  have n5 := q5.next
  have v1 := q1.value (hf.type.2)
  have v2 := q2.value hf.misc
  have v3 := q3.value hlen
  have hpos : pevSkip mem fields.sum str l.length = .ok (4 + 2 + 2 + fields.sum + string.length) := by
    unfold pevSkip
    unfold IsString at hstr
    split at hstr
    · rename_i hst
      rw [if_pos hst]
      obtain ⟨a1, pad, a2, a3, a4⟩ := hstr
      have hle := q5.le
      have h1 : Part mem (8 + fields.sum) (d.string ++ [0]) (8 + fields.sum + d.string.length + 1) := by
        have := q5
        rw [a2, show d.string ++ 0 :: pad = (d.string ++ [0]) ++ pad by simp] at this
        have := this.split.1
        simp only [List.length_append, List.length_singleton] at this
        exact this
      have hsl : string.length = d.string.length + 1 + pad.length := by rw [a2]; simp; omega
      unfold pevStrlen
      rw [if_neg (by omega), strlen_complete d.string _ _ a1 (by omega) h1]
      simp only [Res.bind_ok]
      congr 1
      omega
    · rename_i hst
      rw [if_neg hst, hstr.2]
      simp
  obtain ⟨s, e', hlaid, he⟩ := readSamples_eq (c := c) (mem := mem) (b := 4 + 2 + 2 + fields.sum + string.length) (e := l.length)
  have hlaid := hlaid t
  obtain ⟨g1, g2⟩ := part_laid hlaid hs hf hu q6
  rw [g1] at hlaid
  obtain ⟨c1, c2, c3⟩ := laid_le hlaid
  have htype : pevSampleType c (if 4 + 2 + 2 + fields.sum + string.length + 8 ≤ l.length then some (rdLE mem (l.length - 8) 8) else none) = .ok t := by
    rw [readIdent_eq hml, lastWord_eq hlaid hml]
    rw [show mem.take l.length = l by rw [← hm]; simp]
    exact sampleType_ok.2 hc
  obtain ⟨tsc, htsc⟩ : ∃ tsc, timeOf c mem (s t) l.length = .ok tsc := by
    unfold timeOf
    rcases htm : (s t).time with _ | p
    · exact ⟨0, rfl⟩
    · have := c3 p htm
      simp only
      rw [if_neg (by omega), rdLE_value (by omega)]
      exact ht _ (by rw [g2.time, htm]; rfl)
  refine ⟨{ type := d.type, misc := d.misc, record := if fields.sum = 0 then none else some 8, sample := { s t with tsc := tsc } }, ?_, ?_⟩
  · unfold pevRead
    have := q3.le
    rw [if_neg (by omega), v1, v2, v3]
    simp only [Res.bind_ok]
    rw [if_neg (by omega), if_neg (by have := hf.type; omega), record_fields, hr]
    simp only [Option.map_some]
    rw [hpos]
    simp only [Res.bind_ok]
    rw [he, htype]
    simp only [Res.bind_ok]
    rw [htsc]
    simp only [Res.bind_ok]
    rw [g1, if_neg (by rw [Nat.mod_eq_of_lt hlen]; simp)]
  · have hrec' : (if fields.sum = 0 then ([] : List UInt8) else sliceAt mem 8 fields.sum) = d.record := by
      have := q4.eq
      rw [hrec] at this
      split
      · rename_i h0
        rw [h0] at hrec
        exact (List.length_eq_zero_iff.1 hrec).symm
      · exact this
    have hstr' : (if str = true then (mem.drop (8 + fields.sum)).takeWhile (· ≠ 0) else []) = d.string := by
      unfold IsString at hstr
      split at hstr
      · rename_i hst
        rw [if_pos hst]
        obtain ⟨a1, pad, a2, a3, a4⟩ := hstr
        have hq := q5.eq
        unfold sliceAt at hq
        rw [← List.take_append_drop string.length (mem.drop (8 + fields.sum)), hq, a2]
        rw [List.append_assoc, List.takeWhile_append_of_pos (by
          intro a ha
          simp only [ne_eq, decide_not, Bool.not_eq_true', decide_eq_false_iff_not]
          rintro rfl
          exact a1 ha)]
        simp
      · rename_i hst
        rw [if_neg hst, hstr.1]
    unfold dataOf
    simp only [hr, Option.getD_some]
    rcases d with ⟨ty, mi, rc, st, pid, tid, time, id, sid, cpu, ident⟩
    simp only at *
    congr 1
    · rw [← hrec']
      by_cases h0 : fields.sum = 0
      · simp [h0]
      · simp [h0]
    · rw [← hstr']
      by_cases hst : str = true
      · have h0 : fields.sum ≠ 0 := by
          subst hst
          unfold recordFields at hr
          split at hr <;> cases hr <;> decide
        simp [hst, h0]
      · simp [hst]
    · exact g2.pid.symm
    · exact g2.tid.symm
    · exact g2.time.symm
    · exact g2.id.symm
    · exact g2.streamId.symm
    · exact g2.cpu.symm
    · exact g2.identifier.symm

theorem has_samples {e : PevData} (hp : e.pid.isSome = e.tid.isSome) : HasSamples (pevSampleConfig e).2 e := by
  obtain ⟨b1, b2, b3, b4, b5, b6, b7⟩ := config_type e
  exact ⟨by rw [b1, hp], b1.symm, b2.symm, b3.symm, b4.symm, b5.symm, b6.symm⟩

theorem head_encodes {e : PevData} {fields : List Nat} {str : Bool} {unused : List UInt8} (hr : recordFields e.type = some (fields, str))
    (hrec : e.record.length = fields.sum) (hz : 0 ∉ e.string) (hns : str = false → e.string = []) (hf : Fits e)
    (hp : e.pid.isSome = e.tid.isSome) (hu : unused.length = 4)
    (hl : (sampleBytes (pevSampleConfig e).2 e unused).length = (pevSampleConfig e).1)
    (hs : (headBytes e str 0).length + (pevSampleConfig e).1 ≤ 65535) :
    Encodes (pevSampleConfig e).2 e (headBytes e str ((headBytes e str 0).length + (pevSampleConfig e).1) ++
      sampleBytes (pevSampleConfig e).2 e unused) := by
  have hlen : (headBytes e str ((headBytes e str 0).length + (pevSampleConfig e).1) ++
      sampleBytes (pevSampleConfig e).2 e unused).length = (headBytes e str 0).length + (pevSampleConfig e).1 := by
    rw [List.length_append, hl, head_length hrec, head_length hrec]
  refine ⟨fields, str, if str = true then e.string ++ 0 :: List.replicate ((e.string.length + 1 + 7) / 8 * 8 - (e.string.length + 1)) 0 else [],
    unused, hr, hrec, ?_, hu, by rw [hlen]; omega, has_samples hp, hf, ?_⟩
  · unfold IsString
    split
    · refine ⟨hz, _, rfl, ?_, ?_⟩
      · simp; omega
      · simp; omega
    · rename_i h
      exact ⟨hns (by simpa using h), rfl⟩
  · rw [hlen]
    rfl

/-- C55: what is written is the encoding of the event, and nothing behind it is changed. -/
theorem C55_write_sound (c : PevConfig) (e : PevData) (buf buf' : List UInt8) (n : Nat) (hp : Proper e) (hf : Fits e)
    (h : pevWrite c e buf = .ok (buf', n)) :
    ∃ t l, TypeFor c e.identifier t ∧ Encodes t e l ∧ l.length = n ∧ n ≤ buf.length ∧ buf' = l ++ buf.drop n := by
  rcases hr : recordFields e.type with _ | ⟨fields, str⟩
  · unfold pevWrite at h
    rw [record_fields, hr] at h
    cases h
  obtain ⟨hrec, hz, hns⟩ := hp.2 fields str hr
  rw [write_eq (n := fields.sum) (str := str) (by rw [record_fields, hr]; rfl) hrec] at h
  dsimp only at h
  split at h
  · cases h
  split at h
  · cases h
  split at h
  · cases h
  rename_i h1 h2 h3
  obtain ⟨hc, hpid⟩ := writeSamples_ok h
  obtain ⟨b1, b2, b3, b4, b5, b6, b7⟩ := config_type e
  have hpt : e.pid.isSome = e.tid.isSome := by
    rcases htid : e.tid with _ | v
    · rw [hp.1 htid]
    · rw [b1, htid] at hpid
      simpa using hpid rfl
  have hl0 := head_length (str := str) (size := 0) hrec
  have hl1 := head_length (str := str) (size := (headBytes e str 0).length + (pevSampleConfig e).1) hrec
  obtain ⟨unused, hu, hw, hl⟩ := writeSamples_wrote (buf := buf) (l := headBytes e str ((headBytes e str 0).length + (pevSampleConfig e).1))
    rfl hc hpt (by omega)
  rw [hw] at h
  have h := Res.ok.inj h
  have he := head_encodes hr hrec hz hns hf hpt hu hl (by omega)
  generalize hL : headBytes e str ((headBytes e str 0).length + (pevSampleConfig e).1) ++ sampleBytes (pevSampleConfig e).2 e unused = L at h he
  unfold wrote at h
  have hlen : L.length = n := congrArg Prod.snd h
  have hbuf : L ++ buf.drop L.length = buf' := congrArg Prod.fst h
  refine ⟨_, L, hc, he, hlen, ?_, by rw [← hlen]; exact hbuf.symm⟩
  rw [← hlen, ← hL, List.length_append, hl]
  omega

/-- C55: writing is memory safe. -/
theorem C55_write_safe (c : PevConfig) (e : PevData) (buf : List UInt8) (hp : Proper e) : pevWrite c e buf ≠ .ub := by
  intro h
  rcases hr : recordFields e.type with _ | ⟨fields, str⟩
  · unfold pevWrite at h
    rw [record_fields, hr] at h
    cases h
  obtain ⟨hrec, hz, hns⟩ := hp.2 fields str hr
  rw [write_eq (n := fields.sum) (str := str) (by rw [record_fields, hr]; rfl) hrec] at h
  dsimp only at h
  split at h
  · cases h
  split at h
  · cases h
  split at h
  · cases h
  rename_i h1 h2 h3
  have hl0 := head_length (str := str) (size := 0) hrec
  have hl1 := head_length (str := str) (size := (headBytes e str 0).length + (pevSampleConfig e).1) hrec
  rcases ht : pevSampleType c (e.identifier.map .ok) with ct | _ | _
  · by_cases hct : ct = (pevSampleConfig e).2
    · by_cases hpt : e.pid.isSome = e.tid.isSome
      · obtain ⟨unused, hu, hw, hl⟩ := writeSamples_wrote (c := c) (buf := buf)
          (l := headBytes e str ((headBytes e str 0).length + (pevSampleConfig e).1))
          rfl (sampleType_ok.1 (hct ▸ ht)) hpt (by omega)
        rw [hw] at h
        cases h
      · obtain ⟨b1, _⟩ := config_type e
        unfold pevWriteSamples at h
        rw [ht] at h
        simp only [Res.bind_ok, hct, ne_eq, not_true, if_false] at h
        rcases htid : e.tid with _ | v
        · rw [hp.1 htid, htid] at hpt
          exact hpt rfl
        · rcases hpid : e.pid with _ | w
          · unfold pevPutTid at h
            rw [b1, htid, hpid] at h
            cases h
          · rw [htid, hpid] at hpt
            exact hpt rfl
    · unfold pevWriteSamples at h
      rw [ht] at h
      simp only [Res.bind_ok, ne_eq, hct, not_false_eq_true, if_true] at h
      cases h
  · unfold pevWriteSamples at h
    rw [ht] at h
    cases h
  · exact map_safe ht

/-- C55: if there is an encoding that fits into the buffer, then writing succeeds, provided that the sample type of the
configuration has no samples that cannot be written. -/
theorem C55_write_complete (c : PevConfig) (t : Nat) (e : PevData) (l buf : List UInt8) (hc : TypeFor c e.identifier t)
    (hk : KnownSamples t) (h : Encodes t e l) (hb : l.length ≤ buf.length) :
    ∃ buf', pevWrite c e buf = .ok (buf', l.length) := by
  obtain ⟨fields, str, string, unused, hr, hrec, hstr, hu, hlen, hs, hf, hl⟩ := h
  obtain ⟨b1, b2, b3, b4, b5, b6, b7⟩ := config_type e
  have ht : t = (pevSampleConfig e).2 := by
    apply Nat.eq_of_testBit_eq
    intro i
    by_cases hi : i ∈ [1, 2, 6, 7, 9, 16]
    · simp only [List.mem_cons, List.not_mem_nil, or_false] at hi
      rcases hi with rfl | rfl | rfl | rfl | rfl | rfl
      · rw [b1, hs.tid]
      · rw [b2, hs.time]
      · rw [b3, hs.id]
      · rw [b5, hs.cpu]
      · rw [b4, hs.streamId]
      · rw [b6, hs.identifier]
    · have h1 : t.testBit i = false := by
        rcases hti : t.testBit i with _ | _
        · rfl
        · exact absurd (hk i hti) hi
      rw [h1]
      have b7 := not_or.1 b7
      obtain ⟨b7, b8⟩ := b7
      have b7 : (pevSampleConfig e).2 = (pevSampleConfig e).2 % 2 ^ 17 := by simpa using b7
      by_cases h17 : i < 17
      · rcases hti : (pevSampleConfig e).2.testBit i with _ | _
        · rfl
        · exfalso
          apply b8
          rw [List.any_eq_true]
          refine ⟨i, ?_, hti⟩
          simp only [List.mem_cons, List.not_mem_nil, or_false] at hi ⊢
          omega
      · rw [b7, Nat.testBit_mod_two_pow]
        simp [h17]
  subst ht
  have hpt : e.pid.isSome = e.tid.isSome := by rw [hs.pid, hs.tid]
  have hsl : string.length = if str = true then e.string.length + 1 + ((e.string.length + 1 + 7) / 8 * 8 - (e.string.length + 1)) else 0 := by
    unfold IsString at hstr
    split at hstr
    · rename_i h1
      rw [if_pos h1]
      obtain ⟨_, pad, a2, a3, a4⟩ := hstr
      rw [a2] at a4 ⊢
      simp at a4 ⊢
      omega
    · rename_i h1
      rw [if_neg h1, hstr.2]
      rfl
  have hll : l.length = (headBytes e str 0).length + (pevSampleConfig e).1 := by
    have := congrArg List.length hl
    simp only [List.length_append, toLE_length, hrec] at this
    rw [this, head_length hrec, hsl]
    have : (sampleBytes (pevSampleConfig e).2 e unused).length = (pevSampleConfig e).1 := by
      rw [config_size]
      unfold sampleBytes
      simp only [b1, b2, b3, b4, b5, b6, List.length_append, apply_ite List.length, toLE_length, hu, List.length_nil]
    omega
  have hl0 := head_length (str := str) (size := 0) hrec
  have hl1 := head_length (str := str) (size := (headBytes e str 0).length + (pevSampleConfig e).1) hrec
  obtain ⟨unused', hu', hw, hl'⟩ := writeSamples_wrote (buf := buf) (l := headBytes e str ((headBytes e str 0).length + (pevSampleConfig e).1))
    rfl hc hpt (by omega)
  rw [write_eq (n := fields.sum) (str := str) (by rw [record_fields, hr]; rfl) hrec, if_neg (by
    rintro ⟨a, b⟩
    rw [if_pos a] at hl0
    omega)]
  dsimp only
  rw [if_neg (by omega), if_neg (by omega), hw]
  have hfin : (headBytes e str ((headBytes e str 0).length + (pevSampleConfig e).1) ++ sampleBytes (pevSampleConfig e).2 e unused').length =
      l.length := by
    rw [List.length_append, hl']
    omega
  generalize headBytes e str ((headBytes e str 0).length + (pevSampleConfig e).1) ++ sampleBytes (pevSampleConfig e).2 e unused' = L at hfin ⊢
  exact ⟨L ++ buf.drop L.length, by unfold wrote; rw [hfin]⟩

theorem lastWord_identifier {t i : Nat} {e : PevData} {l : List UInt8} (h : Encodes t e l) (hi : e.identifier = some i) :
    lastWord t l = some i := by
  obtain ⟨fields, str, string, unused, hr, hrec, hstr, hu, hlen, hs, hf, hl⟩ := h
  have h16 : t.testBit 16 = true := by rw [← hs.identifier, hi]; rfl
  unfold lastWord
  rw [if_pos (by simp [h16])]
  have : ∃ x, l = x ++ toLE 8 i := by
    rw [hl]
    unfold sampleBytes
    simp only [h16, hi, if_true, Option.getD_some]
    exact ⟨_, (List.append_assoc _ _ _).symm⟩
  obtain ⟨x, hx⟩ := this
  rw [hx, List.drop_left' (by simp [toLE_length]), leValue_toLE _ _ (hf.identifier i hi)]

/-- C55: writing an event and reading it again gives the event, if it has an identifier or there is only one sample type. -/
theorem C55_roundtrip (c : PevConfig) (e : PevData) (buf buf' : List UInt8) (n : Nat) (hp : Proper e) (hf : Fits e)
    (ht : ∀ v, e.time = some v → ∃ tsc, pevTimeToTsc c v = .ok tsc)
    (hi : e.identifier.isSome = true ∨ c.size < 40 ∨ c.sampleConfig.getD [] = [])
    (h : pevWrite c e buf = .ok (buf', n)) : ∃ ev, pevRead c buf' = .ok (ev, n) ∧ dataOf buf' ev = e := by
  obtain ⟨t, l, hc, he, hn, hb, rfl⟩ := C55_write_sound c e buf buf' n hp hf h
  rw [← hn]
  apply C55_read_complete c t e l _ _ he ht
  rcases hid : e.identifier with _ | i
  · rw [hid] at hc hi
    have hempty : (if 40 ≤ c.size then c.sampleConfig.getD [] else []) = [] := by
      rcases hi with hi | hi | hi
      · cases hi
      · rw [if_neg (by omega)]
      · rw [hi]; simp
    unfold TypeFor at hc ⊢
    rw [hempty]
    refine ⟨hc.1, ?_⟩
    split
    · exact hc.2
    · exact hc.2
  · rw [lastWord_identifier he hid, ← hid]
    exact hc

/-- A configuration with two sample types, and time conversion. -/
def pevCfg : PevConfig :=
  { sampleType := 4, timeShift := 10, timeMult := 1024, timeZero := 100, sampleConfig := some [(7, 65542), (9, 66246)] }

/-- A COMM event with all samples. -/
def pevComm : PevData :=
  { type := 3, misc := 0x2000, record := [1, 0, 0, 0, 2, 0, 0, 0], string := [0x6c, 0x73], pid := some 1, tid := some 2, time := some 500,
    id := some 3, streamId := some 4, cpu := some 5, identifier := some 9 }

/-- Its record. -/
def pevBytes : List UInt8 :=
  [3, 0, 0, 0, 0, 0x20, 72, 0, 1, 0, 0, 0, 2, 0, 0, 0, 0x6c, 0x73, 0, 0, 0, 0, 0, 0, 1, 0, 0, 0, 2, 0, 0, 0, 0xf4, 1, 0, 0, 0, 0, 0, 0,
    3, 0, 0, 0, 0, 0, 0, 0, 4, 0, 0, 0, 0, 0, 0, 0, 5, 0, 0, 0, 0xff, 0xff, 0xff, 0xff, 9, 0, 0, 0, 0, 0, 0, 0]

theorem pevComm_fits : Fits pevComm :=
  ⟨by decide, by decide, by rintro v ⟨⟩; decide, by rintro v ⟨⟩; decide, by rintro v ⟨⟩; decide, by rintro v ⟨⟩; decide,
    by rintro v ⟨⟩; decide, by rintro v ⟨⟩; decide, by rintro v ⟨⟩; decide⟩

/-- The hypotheses of `C55_read_complete` and of `C55_write_complete` are met by this record. -/
theorem pevBytes_encodes : Encodes 66246 pevComm pevBytes ∧ TypeFor pevCfg (lastWord 66246 pevBytes) 66246 ∧
    TypeFor pevCfg pevComm.identifier 66246 := by
  refine ⟨⟨[4, 4], true, [0x6c, 0x73, 0, 0, 0, 0, 0, 0], [0xff, 0xff, 0xff, 0xff], rfl, rfl, ?_, rfl, by decide,
    ⟨rfl, rfl, rfl, rfl, rfl, rfl, rfl⟩, pevComm_fits, by decide +kernel⟩, ⟨by decide, rfl, rfl⟩, ⟨by decide, rfl, rfl⟩⟩
  exact ⟨by decide, [0, 0, 0, 0, 0], rfl, by decide, by decide⟩

/-- The hypotheses of the theorems on writing are met by the event.  The four unused bytes are what they were. -/
example : Proper pevComm ∧ KnownSamples 66246 ∧ pevWrite pevCfg pevComm (List.replicate 80 0xff) = .ok (pevBytes ++ List.replicate 8 0xff, 72) ∧
    (∀ v, pevComm.time = some v → ∃ tsc, pevTimeToTsc pevCfg v = .ok tsc) := by
  refine ⟨⟨(fun h => by cases h), ?_⟩, ?_, by decide +kernel, ?_⟩
  · intro fields str h
    cases h
    exact ⟨rfl, by decide, (fun h => by cases h)⟩
  · intro bit h
    have h17 : bit < 17 := by
      apply Nat.lt_of_not_le
      intro hb
      rw [Nat.testBit_lt_two_pow (Nat.lt_of_lt_of_le (by decide : 66246 < 2 ^ 17) (Nat.pow_le_pow_right (by decide) hb))] at h
      cases h
    have : ∀ b < 17, (66246 : Nat).testBit b = true → b ∈ [1, 2, 6, 7, 9, 16] := by decide
    exact this bit h17 h
  · rintro v ⟨⟩
    exact ⟨400, rfl⟩

/-- Reading the record, with more bytes behind it. -/
example : ∃ ev, pevRead pevCfg (pevBytes ++ [1, 2, 3]) = .ok (ev, 72) ∧ ev.sample.tsc = 400 ∧ ev.record = some 8 :=
  ⟨_, rfl, by decide +kernel, by decide +kernel⟩

/-- C55 does not hold for events without identifier when there are several sample types: the last eight bytes of the record
may match an identifier. Here, the time of a LOST_SAMPLES event is read as its identifier. -/
theorem C55_roundtrip_fails : ∃ (c : PevConfig) (e : PevData) (buf buf' : List UInt8) (n : Nat) (ev : PevEvent),
    c.sampleConfig = some [(7, 65536)] ∧ Proper e ∧ Fits e ∧ pevWrite c e buf = .ok (buf', n) ∧
    pevRead c buf' = .ok (ev, n) ∧ e.time = some 7 ∧ e.identifier = none ∧ (dataOf buf' ev).time = none ∧ (dataOf buf' ev).identifier = some 7 := by
  refine ⟨{ sampleType := 4, timeMult := 1, sampleConfig := some [(7, 65536)] },
    { type := 13, misc := 0, record := [1, 0, 0, 0, 0, 0, 0, 0], time := some 7 }, List.replicate 24 0, _, _, _, rfl, ?_, ?_, rfl, rfl, rfl, rfl,
    by decide +kernel, by decide +kernel⟩
  · refine ⟨fun _ => rfl, ?_⟩
    intro fields str h
    cases h
    exact ⟨rfl, by decide, fun _ => rfl⟩
  · exact ⟨by decide, by decide, by rintro v ⟨⟩, by rintro v ⟨⟩, by rintro v ⟨⟩; decide, by rintro v ⟨⟩, by rintro v ⟨⟩, by rintro v ⟨⟩, by rintro v ⟨⟩⟩

end Ipt.Props
