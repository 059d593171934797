import Verif.Ptdump
import Verif.Spec.Ptdump
import Verif.Props.Wire
import Verif.Props.Sync
import Verif.Props.EventInv

/-!
# The packet dumper (C83, C84)
-/

namespace Ipt
open Spec

variable {o : DumpOpts} {c : PktCfg} {tc : TimeCfg}

/-- Without a callback for unknown packets: a packet as `ptdump` gets it has the wire format of a packet, or one of two errata
applies. -/
theorem decode_wire_or {pos n k : Nat} {p : Packet} (hcb : c.cb = none) (h : pktDecode c pos = .ok (p, n, k)) :
    (Wire p (bytesAt c.mem pos) n ∧ Representable p) ∨ (p = .ovf ∧ n = 2) ∨ (p = .invalid ∧ n = 8) := by
  have hu : ∀ q, readUnknown c pos ≠ .ok q := by
    intro q hq
    unfold readUnknown at hq
    rw [hcb] at hq
    cases hq
  have fin : ∀ {k : Nat}, pktDecode { mem := c.mem } pos = .ok (p, n, k) → k = 0 →
      Wire p (bytesAt c.mem pos) n ∧ Representable p := by
    intro k h hk
    have h1 : pktNext { mem := c.mem } (some pos) = .ok (p, n, pos + n) := by
      subst hk
      simp [pktNext, h]
    exact ⟨((Props.C47_decode_exact { mem := c.mem } rfl rfl rfl pos n _ p).1 h1).2.1,
      Props.C47_delivered_in_range { mem := c.mem } rfl rfl rfl pos n _ p h1⟩
  obtain ⟨hp, h | h | h | h⟩ := pktDecode_cases h
  · obtain ⟨R, hk, hR, hok, hc⟩ := h
    have := hc { mem := c.mem } pos hp rfl rfl
    rw [hok] at this
    exact .inl (fin this rfl)
  · obtain ⟨hk, hd, hc⟩ := h
    have h0 := hc { mem := c.mem } pos hp rfl
    obtain ⟨R, h2, h | h | h | h⟩ := decodeExt_cases hd
    · rw [h.2.2 { mem := c.mem } pos h2 rfl rfl] at h0
      rw [show R ({ mem := c.mem } : PktCfg).mem pos = .ok (p, n) from h.2.1] at h0
      exact .inl (fin h0 rfl)
    · rw [h.2.2.2.2 { mem := c.mem } pos h.2.2.1 rfl rfl] at h0
      rw [show R ({ mem := c.mem } : PktCfg).mem pos = .ok (p, n) from h.2.1] at h0
      exact .inl (fin h0 rfl)
    · exact .inr (.inr ⟨h.2.1, h.2.2.1⟩)
    · exact absurd h (hu _)
  · exact absurd h.2 (hu _)
  · exact .inr (.inl ⟨h.2.1, h.2.2.1⟩)

theorem wire_size {p : Packet} {b : Nat → Nat} {n : Nat} (h : Wire p b n) : n ≤ 16 := by
  have hip : ∀ {i k}, ipBytes i = some k → k ≤ 8 := by
    intro i k h
    unfold ipBytes at h
    split at h <;> cases h <;> omega
  have hpt : ∀ {i k}, ptwBytes i = some k → k ≤ 8 := by
    intro i k h
    unfold ptwBytes at h
    split at h <;> cases h <;> omega
  cases p <;> simp only [Wire] at h
  all_goals first
    | exact h.elim
    | (obtain ⟨k, hk, hn, _⟩ := h; have := hip hk; omega)
    | (obtain ⟨k, hk, hn, _⟩ := h; have := hpt hk; omega)
    | (obtain ⟨_, h, _⟩ := h; omega)
    | (obtain ⟨h, _⟩ := h; omega)
    | (obtain ⟨_, _, _, _, ⟨_, h, _⟩ | ⟨_, h, _⟩⟩ := h <;> omega)

/-- What tracking makes of a packet. -/
def stepTrack (o : DumpOpts) (tc : TimeCfg) (t : Track) (p : Packet) : Track :=
  (printPacket o tc t { offset := 0, packet := p }).1

theorem printPacket_track (t : Track) (l : DumpLine) : (printPacket o tc t l).1 = stepTrack o tc t l.packet := by
  obtain ⟨off, p, a, b, i, tm⟩ := l
  unfold stepTrack printPacket
  cases p <;> dsimp only <;> first | rfl | (split <;> rfl)

theorem printPacket_packet {t t' : Track} {l l' : DumpLine} (h : printPacket o tc t l = (t', .ok l')) :
    l'.packet = l.packet ∧ l'.offset = l.offset ∧ l'.raw = l.raw := by
  obtain ⟨off, p, a, b, i, tm⟩ := l
  have h2 := congrArg Prod.snd h
  unfold printPacket at h2
  cases p <;> dsimp only at h2 <;> first
    | (cases h2; exact ⟨rfl, rfl, rfl⟩)
    | (split at h2 <;> (cases h2; exact ⟨rfl, rfl, rfl⟩))
    | (obtain ⟨cs, _, h3⟩ := Res.bind_eq_ok.1 h2; cases h3; exact ⟨rfl, rfl, rfl⟩)

theorem pktDecNext_ok {d d' : PktDec} {p : Packet} {n pos : Nat} (hd : d.pos = some pos) (h : pktDecNext c d = (d', .ok (p, n))) :
    ∃ pos', pktNext c (some pos) = .ok (p, n, pos') ∧ d' = { d with pos := some pos' } := by
  unfold pktDecNext at h
  rw [hd] at h
  split at h
  · rename_i p' n' pos' h'
    cases h
    exact ⟨pos', h', rfl⟩
  · cases h
  · cases h

/-- Every line is for a packet at its offset, and shows the tracking information after the packets before. -/
theorem dump_line : ∀ (n : Nat) (d d' : PktDec) (t t' : Track) (ls : List DumpLine) (r : Res Unit),
    dumpPackets o c tc n d t = (d', t', ls, r) → ∀ (ls1 : List DumpLine) (l : DumpLine) (ls2 : List DumpLine), ls = ls1 ++ l :: ls2 →
      ∃ raw size pos' t2, pktNext c (some l.offset) = .ok (l.packet, size, pos') ∧
        printPacket o tc (List.foldl (stepTrack o tc) t (ls1.map (·.packet))) { offset := l.offset, packet := l.packet, raw := raw } =
          (t2, .ok l) := by
  intro n
  induction n with
  | zero =>
    intro d d' t t' ls r h ls1 l ls2 hl
    cases h
    exact absurd hl (by simp)
  | succ n ih =>
    intro d d' t t' ls r h ls1 l ls2 hl
    rw [dumpPackets] at h
    split at h
    · cases h; exact absurd hl (by simp)
    · cases h; exact absurd hl (by simp)
    rename_i offset ho
    have hd : d.pos = some offset := by
      unfold pktGetOffset at ho
      split at ho
      · cases ho
      · rename_i p hp; cases ho; exact hp
    split at h
    · cases h; exact absurd hl (by simp)
    · cases h; exact absurd hl (by simp)
    · cases h; exact absurd hl (by simp)
    rename_i d1 p size hn
    obtain ⟨pos', hnx, rfl⟩ := pktDecNext_ok hd hn
    split at h
    · cases h; exact absurd hl (by simp)
    · cases h; exact absurd hl (by simp)
    rename_i t1 l1 h1
    have hone : ∃ raw, printPacket o tc t { offset := offset, packet := p, raw := raw } = (t1, .ok l1) := by
      unfold dumpOne at h1
      split at h1
      · exact ⟨_, h1⟩
      · cases h1
      · cases h1
    obtain ⟨raw, hpr⟩ := hone
    obtain ⟨hp, hoff, _⟩ := printPacket_packet hpr
    dsimp only at hp hoff
    have ht1 : t1 = stepTrack o tc t p := by
      rw [← printPacket_track t { offset := offset, packet := p, raw := raw }, hpr]
    obtain ⟨rfl, rfl, rfl, rfl⟩ : _ ∧ _ ∧ _ ∧ _ := by
      simpa only [Prod.mk.injEq] using h
    cases ls1 with
    | nil =>
      simp only [List.nil_append, List.cons.injEq] at hl
      obtain ⟨rfl, _⟩ := hl
      refine ⟨raw, size, pos', t1, ?_, ?_⟩
      · rw [hoff, hp]; exact hnx
      · rw [hoff, hp]; exact hpr
    | cons l0 ls1 =>
      simp only [List.cons_append, List.cons.injEq] at hl
      obtain ⟨rfl, hl⟩ := hl
      obtain ⟨raw', size', pos'', t2, h3, h4⟩ := ih _ _ _ _ _ _ rfl ls1 l ls2 hl
      refine ⟨raw', size', pos'', t2, h3, ?_⟩
      rw [List.map_cons, List.foldl_cons, hp, ← ht1]
      exact h4

/-! ## The last IP -/

theorem step_ip (hs : o.showLastIp = true) (t : Track) (p : Packet) :
    (stepTrack o tc t p).ip = match ipPayload p with
      | some (ipc, ip) => (t.ip.update ipc ip).1
      | none => t.ip := by
  have key : ∀ ipc ip, (trackLastIp t ipc ip).1.ip = (t.ip.update ipc ip).1 := by
    intro ipc ip
    unfold trackLastIp
    split <;> (rename_i h; rw [h])
  unfold stepTrack printPacket ipPayload
  cases p <;> dsimp only <;> first
    | rfl
    | (rw [if_pos hs]; exact key _ _)
    | (split <;> rfl)

theorem fold_ip (hs : o.showLastIp = true) : ∀ (ps : List Packet) (t : Track), (∀ p ∈ ps, p ≠ .psb ∧ p ≠ .ovf) →
    (List.foldl (stepTrack o tc) t ps).ip = lastIp t.ip ps := by
  intro ps
  induction ps with
  | nil => intro t _; rfl
  | cons p ps ih =>
    intro t h
    have hp := h p (by simp)
    rw [List.foldl_cons, ih _ (fun q hq => h q (by simp [hq])), step_ip hs]
    cases p <;> first | exact absurd rfl hp.1 | exact absurd rfl hp.2 | rfl

theorem lastIp_append (l : LastIp) : ∀ ps qs, lastIp l (ps ++ qs) = lastIp (lastIp l ps) qs := by
  intro ps
  induction ps generalizing l with
  | nil => intro qs; rfl
  | cons p ps ih =>
    intro qs
    cases p <;> first | exact ih _ qs

theorem fold_no_ip (hs : o.showLastIp = true) : ∀ (ps : List Packet) (t : Track), t.ip = {} → (∀ p ∈ ps, ipPayload p = none) →
    (List.foldl (stepTrack o tc) t ps).ip = {} ∧ lastIp {} ps = {} := by
  intro ps
  induction ps with
  | nil => intro t h _; exact ⟨h, rfl⟩
  | cons p ps ih =>
    intro t ht h
    have hp := h p (by simp)
    obtain ⟨h1, h2⟩ := ih (stepTrack o tc t p) (by rw [step_ip hs, hp]; exact ht) (fun q hq => h q (by simp [hq]))
    refine ⟨h1, ?_⟩
    cases p <;> first | exact h2 | exact absurd hp (by simp [ipPayload])

theorem ip_valid {pos n pos' : Nat} {p : Packet} (hcb : c.cb = none) (h : pktNext c (some pos) = .ok (p, n, pos')) {ipc ip : Nat}
    (hp : ipPayload p = some (ipc, ip)) (l : LastIp) : (l.update ipc ip).2 = .ok () := by
  have hd : ∃ k, pktDecode c pos = .ok (p, n, k) := by
    simp only [pktNext] at h
    obtain ⟨⟨q, s, k⟩, hq, h⟩ := Res.bind_eq_ok.1 h
    simp at h
    obtain ⟨rfl, rfl, _⟩ := h
    exact ⟨k, hq⟩
  obtain ⟨k, hd⟩ := hd
  have hv : ∃ k, ipBytes ipc = some k := by
    rcases decode_wire_or hcb hd with ⟨h, _⟩ | h | h
    · cases p <;> simp only [ipPayload] at hp <;> first
        | (cases hp; done)
        | (cases hp; simp only [Wire] at h; obtain ⟨k, hk, _⟩ := h; exact ⟨k, hk⟩)
    · rw [h.1] at hp; cases hp
    · rw [h.1] at hp; cases hp
  obtain ⟨k, hv⟩ := hv
  unfold ipBytes at hv
  unfold LastIp.update
  split at hv <;> first | rfl | cases hv

/-! ## The time -/

theorem both_accepted {s : Timing} {f : Time × Res Unit} {k : Tcal × Res Unit} {t : Time}
    (h : Timing.both k t f = (s, .ok ())) : s = ⟨f.1, k.1⟩ := by
  unfold Timing.both at h
  split at h
  · injection h with h1 h2
    exact h1.symm
  · rename_i hx
    injection h with h1 h2
    exact absurd h2 (hx ·)

theorem trackTm_apply {t : Track} {p : Packet} {q : TimePkt} {s : Timing} (ho : o.noTcal = false)
    (hp : timePkt t.inHeader p = some q) (h : t.tm.apply tc q = (s, .ok ())) : trackTm o tc t p = s := by
  cases p with
  | tsc v =>
    cases hh : t.inHeader
    · rw [hh] at hp
      have hq : q = .tsc v := (Option.some.inj hp).symm
      subst hq
      unfold Timing.apply at h
      rw [both_accepted h]; simp [trackTm, ho, hh]
    · rw [hh] at hp
      have hq : q = .hTsc v := (Option.some.inj hp).symm
      subst hq
      unfold Timing.apply at h
      rw [both_accepted h]; simp [trackTm, ho, hh]
  | cbr v =>
    cases hh : t.inHeader
    · rw [hh] at hp
      have hq : q = .cbr v := (Option.some.inj hp).symm
      subst hq
      unfold Timing.apply at h
      rw [both_accepted h]; simp [trackTm, ho, hh]
    · rw [hh] at hp
      have hq : q = .hCbr v := (Option.some.inj hp).symm
      subst hq
      unfold Timing.apply at h
      rw [both_accepted h]; simp [trackTm, ho, hh]
  | tma a b =>
    cases hp
    unfold Timing.apply at h
    rw [both_accepted h]; rfl
  | mtc a =>
    cases hp
    unfold Timing.apply at h
    rw [both_accepted h]; simp [trackTm, ho]
  | cyc v =>
    cases hp
    unfold Timing.apply at h
    dsimp only at h
    rw [both_accepted h]
    have e : (t.tm.tcal.updateCyc v).getFcr = t.tm.tcal.getFcr := rfl
    rw [e]
    simp only [trackTm, ho]
    cases t.tm.tcal.getFcr <;> rfl
  | _ => cases hp

theorem fold_tm (ht : o.trackTime = true) (ho : o.noTcal = false) (hy : o.noCyc = false) (hk : tc.skl168 = false) :
    ∀ (ps : List Packet) (t : Track) (s : Timing), OvfOutside t.inHeader ps →
      timing tc o.keepTcalOnOvf t.inHeader t.tm ps = (s, .ok ()) → (List.foldl (stepTrack o tc) t ps).tm = s := by
  intro ps
  induction ps with
  | nil => intro t s _ h; cases h; rfl
  | cons p ps ih =>
    intro t s hov h
    rw [List.foldl_cons]
    have other : stepTrack o tc t p = t → OvfOutside t.inHeader ps → timing tc o.keepTcalOnOvf t.inHeader t.tm ps = (s, .ok ()) →
        (List.foldl (stepTrack o tc) (stepTrack o tc t p) ps).tm = s := by
      intro h1 h2 h3
      rw [h1]
      exact ih t s h2 h3
    have tm : ∀ q, timePkt t.inHeader p = some q → stepTrack o tc t p = { t with tm := trackTm o tc t p } →
        OvfOutside t.inHeader ps →
        (match t.tm.apply tc q with
          | (s, .ok ()) => timing tc o.keepTcalOnOvf t.inHeader s ps
          | (s, r) => (s, r)) = (s, .ok ()) →
        (List.foldl (stepTrack o tc) (stepTrack o tc t p) ps).tm = s := by
      intro q hq h1 h2 h3
      split at h3
      · rename_i s1 h4
        rw [h1, trackTm_apply ho hq h4]
        exact ih _ s h2 h3
      · rename_i s1 r hx h4
        injection h3 with h5 h6
        exact absurd h6 (hx ·)
    have ipk : ∀ {a b}, ipPayload p = some (a, b) →
        (ipPayload p = some (a, b) → stepTrack o tc t p = stepTrack o tc t (.fup a b)) → OvfOutside t.inHeader ps →
        timing tc o.keepTcalOnOvf t.inHeader t.tm ps = (s, .ok ()) →
        (List.foldl (stepTrack o tc) (stepTrack o tc t p) ps).tm = s := by
      intro a b h0 h1 h2 h3
      have e : (stepTrack o tc t (.fup a b)).tm = t.tm ∧ (stepTrack o tc t (.fup a b)).inHeader = t.inHeader := by
        unfold stepTrack printPacket trackLastIp
        dsimp only
        repeat' first | exact ⟨rfl, rfl⟩ | split
      rw [h1 h0]
      exact ih (stepTrack o tc t (.fup a b)) s (by rw [e.2]; exact h2) (by rw [e.1, e.2]; exact h3)
    cases p with
    | psb =>
      have e : stepTrack o tc t .psb = { t with inHeader := true } := by
        simp [stepTrack, printPacket, ht, Tcal.updatePsb, hk]
      rw [e]
      exact ih { t with inHeader := true } s hov h
    | psbend => exact ih { t with inHeader := false } s hov h
    | ovf =>
      have e : stepTrack o tc t .ovf = { t with tm := ⟨t.tm.time, if o.keepTcalOnOvf = true then t.tm.tcal.updateOvf else {}⟩ } := by
        simp [stepTrack, printPacket, ht]
      rw [e]
      obtain ⟨h1, h2⟩ : t.inHeader = false ∧ OvfOutside false ps := hov
      refine ih _ s ?_ ?_
      · show OvfOutside t.inHeader ps
        rw [h1]; exact h2
      · show timing tc o.keepTcalOnOvf t.inHeader _ ps = _
        rw [h1]; exact h
    | tsc v => exact tm _ rfl (by simp [stepTrack, printPacket, ht]) hov h
    | cbr v => exact tm _ rfl (by simp [stepTrack, printPacket, ht]) hov h
    | tma a b => exact tm _ rfl (by simp [stepTrack, printPacket, ht]) hov h
    | mtc v => exact tm _ rfl (by simp [stepTrack, printPacket, ht]) hov h
    | cyc v => exact tm _ rfl (by simp [stepTrack, printPacket, ht, hy]) hov h
    | fup a b => exact ipk rfl (by intro; rfl) hov h
    | tip a b => exact ipk rfl (by intro; unfold stepTrack printPacket; dsimp only; split <;> rfl) hov h
    | tipPge a b => exact ipk rfl (by intro; unfold stepTrack printPacket; dsimp only; split <;> rfl) hov h
    | tipPgd a b => exact ipk rfl (by intro; unfold stepTrack printPacket; dsimp only; split <;> rfl) hov h
    | _ => exact other rfl hov h

end Ipt

namespace Ipt.Props
open Ipt Spec

/-- C84, partial: with `--lastip`, ptdump shows at every packet with an IP the IP that decoders compute.  Missing: after the first
PSB or OVF that follows an IP packet (see `C84_ip_wrong_after_psb`).  `ls1` are the lines before line `l`; they are split into
`pre`, without IP packets, and `post`, without PSB and OVF. -/
theorem C84_last_ip_partial (o : DumpOpts) (c : PktCfg) (tc : TimeCfg) (hs : o.showLastIp = true) (hcb : c.cb = none)
    (n : Nat) (d d' : PktDec) (t' : Track) (pre post : List DumpLine) (l : DumpLine) (ls2 : List DumpLine) (r : Res Unit)
    (h : dumpPackets o c tc n d {} = (d', t', (pre ++ post) ++ l :: ls2, r))
    (hpre : ∀ x ∈ pre, ipPayload x.packet = none) (hpost : ∀ x ∈ post, x.packet ≠ .psb ∧ x.packet ≠ .ovf)
    (hip : ipPayload l.packet ≠ none) :
    l.ip = some (lastIp {} ((pre ++ post ++ [l]).map (·.packet))).query := by
  obtain ⟨raw, size, pos', t2, h1, h2⟩ := dump_line n d d' {} t' _ r h (pre ++ post) l ls2 rfl
  have hT : (List.foldl (stepTrack o tc) {} ((pre ++ post).map (·.packet))).ip =
      lastIp {} ((pre ++ post).map (·.packet)) := by
    rw [List.map_append, List.foldl_append, lastIp_append]
    obtain ⟨h3, h4⟩ := fold_no_ip (tc := tc) hs (pre.map (·.packet)) {} rfl (by simpa using hpre)
    rw [fold_ip hs _ _ (by simpa using hpost), h3, h4]
  generalize List.foldl (stepTrack o tc) {} ((pre ++ post).map (·.packet)) = T at h2 hT
  rw [List.map_append, lastIp_append, ← hT]
  cases hp : ipPayload l.packet with
  | none => exact absurd hp hip
  | some x =>
    obtain ⟨ipc, ip⟩ := x
    have hv := ip_valid hcb h1 hp T.ip
    have h3 := congrArg Prod.snd h2
    have hshow : l.ip = some (trackLastIp T ipc ip).2 := by
      obtain ⟨off, p, a, b, i, tm⟩ := l
      dsimp only at hp h3 ⊢
      cases p <;> simp only [ipPayload] at hp <;> first
        | (cases hp; done)
        | (cases hp
           simp only [printPacket, hs, if_true, Res.ok.injEq, DumpLine.mk.injEq] at h3
           exact h3.2.2.2.2.1.symm)
    have hlast : lastIp T.ip [l.packet] = (T.ip.update ipc ip).1 := by
      cases hq : l.packet <;> rw [hq] at hp <;> simp only [ipPayload] at hp <;> first
        | (cases hp; done)
        | (cases hp; rfl)
    rw [hshow]
    show some (trackLastIp T ipc ip).2 = some (lastIp T.ip [l.packet]).query
    rw [hlast]
    unfold trackLastIp
    split <;> rename_i h5 <;> rw [h5] at hv <;> first | (rw [h5]; done) | cases hv

/-- C84, partial: with `--time`, ptdump shows at every TSC, TMA, MTC and CYC packet the time that decoders compute, if all timing
packets are accepted.  Missing: erratum SKL168 (see `C84_time_differs_skl168`), and overflows inside PSB+ (see
`C84_time_differs_ovf`). -/
theorem C84_time_partial (o : DumpOpts) (c : PktCfg) (tc : TimeCfg) (ht : o.trackTime = true) (hs : o.showTime = true)
    (ho : o.noTcal = false) (hy : o.noCyc = false) (hk : tc.skl168 = false)
    (n : Nat) (d d' : PktDec) (t' : Track) (ls1 : List DumpLine) (l : DumpLine) (ls2 : List DumpLine) (r : Res Unit)
    (h : dumpPackets o c tc n d {} = (d', t', ls1 ++ l :: ls2, r))
    (hov : OvfOutside false ((ls1 ++ [l]).map (·.packet))) (s : Timing)
    (htm : timing tc o.keepTcalOnOvf false {} ((ls1 ++ [l]).map (·.packet)) = (s, .ok ()))
    (hp : ∃ x y, l.packet = .tsc x ∨ l.packet = .tma x y ∨ l.packet = .mtc x ∨ l.packet = .cyc x) :
    l.time = some (s.time.queryTsc >>= fun q => .ok q.1) := by
  obtain ⟨raw, size, pos', t2, h1, h2⟩ := dump_line n d d' {} t' _ r h ls1 l ls2 rfl
  have hT := fold_tm (tc := tc) ht ho hy hk ((ls1 ++ [l]).map (·.packet)) {} s hov htm
  rw [List.map_append, List.foldl_append] at hT
  generalize List.foldl (stepTrack o tc) {} (ls1.map (·.packet)) = T at h2 hT
  have h3 := congrArg Prod.snd h2
  have hsh : shownTime o s = some (s.time.queryTsc >>= fun q => .ok q.1) := by
    unfold shownTime
    rw [if_pos hs]
    cases hq : s.time.queryTsc <;> rfl
  rw [← hsh]
  have hT' : (stepTrack o tc T l.packet).tm = s := hT
  obtain ⟨off, p, a, b, i, tm⟩ := l
  dsimp only at hp h3 hT' ⊢
  obtain ⟨x, y, rfl | rfl | rfl | rfl⟩ := hp <;>
    simp only [printPacket, stepTrack, ht, hy, if_true, and_self, Res.ok.injEq, DumpLine.mk.injEq] at h3 hT' <;>
    rw [← hT', ← h3.2.2.2.2.2]

/-- The PSB packet. -/
def psbBytes : List UInt8 := [2, 0x82, 2, 0x82, 2, 0x82, 2, 0x82, 2, 0x82, 2, 0x82, 2, 0x82, 2, 0x82]

/-- PSB; FUP with IP 0x401000; PSBEND; PSB; FUP with IP 0x1234 in 16 bits; PSBEND. -/
def twoHeaders : List UInt8 :=
  psbBytes ++ [0x7d, 0x00, 0x10, 0x40, 0, 0, 0, 2, 0x23] ++ psbBytes ++ [0x3d, 0x34, 0x12, 2, 0x23]

theorem dumpLoop_segments (o : DumpOpts) (c : PktCfg) (tc : TimeCfg) (base : Nat) : ∀ (n : Nat) (d : PktDec),
    ∃ ss : List (Nat × PktDec), (dumpLoop o c tc base n d {}).1 = ss.flatMap fun s => (dumpPackets o c tc s.1 s.2 {}).2.2.1 := by
  intro n
  induction n with
  | zero => intro d; exact ⟨[], rfl⟩
  | succ n ih =>
    intro d
    rw [dumpLoop]
    rcases h : dumpPackets o c tc (c.mem.length + 2) d {} with ⟨d', t', ls, r⟩
    have h1 : ls = [(c.mem.length + 2, d)].flatMap fun s => (dumpPackets o c tc s.1 s.2 {}).2.2.1 := by simp [h]
    cases r with
    | ok u => exact ⟨_, h1⟩
    | ub => exact ⟨_, h1⟩
    | err e =>
      dsimp only
      rcases hs : pktSyncForward c base d' with ⟨d2, r2⟩
      cases r2 with
      | ub => exact ⟨_, h1⟩
      | err e => cases e <;> exact ⟨_, h1⟩
      | ok u =>
        obtain ⟨ss, h2⟩ := ih d2
        exact ⟨(c.mem.length + 2, d) :: ss, by simp only [List.flatMap_cons, h, h2]⟩

/-- C84: everything ptdump shows consists of such pieces: it forgets last IP, time and calibration whenever it synchronizes onto
the trace again after a packet it could not show. -/
theorem C84_pieces (o : DumpOpts) (c : PktCfg) (tc : TimeCfg) (base : Nat) :
    ∃ ss : List (Nat × PktDec), (dumpSync o c tc base).1 = ss.flatMap fun s => (dumpPackets o c tc s.1 s.2 {}).2.2.1 := by
  unfold dumpSync
  split
  · split
    · exact dumpLoop_segments o c tc base _ _
    · exact ⟨[], rfl⟩
    · exact ⟨[], rfl⟩
  · split
    · exact ⟨[], rfl⟩
    · exact ⟨[], rfl⟩
    · exact ⟨[], rfl⟩
    · exact dumpLoop_segments o c tc base _ _

/-- PSB; FUP; PSBEND; an unknown opcode; PSB; FUP with two bytes: the last IP of the first piece is forgotten. -/
example : (dumpSync { showLastIp := true }
      { mem := psbBytes ++ [0x7d, 0x00, 0x10, 0x40, 0, 0, 0, 2, 0x23, 0xd5] ++ psbBytes ++ [0x3d, 0x34, 0x12] } {} 0).1.filterMap (·.ip) =
    [.ok 0x401000, .ok 0x1234] := by
  decide +kernel

/-- C84 is false of the code: ptdump does not reset the last IP at PSB.  The second FUP is shown with IP 0x401234; decoders give
0x1234, as the FUP is relative to the last IP of zero after PSB. -/
theorem C84_ip_wrong_after_psb :
    (dumpSync { showLastIp := true } { mem := twoHeaders } {} 0).1.filterMap (·.ip) = [.ok 0x401000, .ok 0x401234] ∧
    resultsOf { pkt := { mem := twoHeaders } } 2 =
      [.ok none, .ok (some (.enabled 0x401000)), .ok (some (.enabled 0x1234))] ∧
    (lastIp {} [.psb, .fup 3 0x401000, .psbend, .psb, .fup 1 0x1234]).query = .ok 0x1234 := by
  decide +kernel

/-- C84 is false of the code for erratum SKL168: ptdump applies the work-around for MTC packets after PSB, decoders never do.  PSB; TSC; TMA; PSBEND; MTC; PSB;
PSBEND; CYC; MTC; CYC. -/
theorem C84_time_differs_skl168 :
    ∃ (mem : List UInt8) (tc : TimeCfg) (ls : List DumpLine),
      dumpSync { trackTime := true, showTime := true } { mem := mem } tc 0 = (ls, .ok ()) ∧ tc.skl168 = true ∧
      (ls.filterMap (·.time)).getLast? = some (.ok 261) ∧
      ((timing tc false false {} (ls.map (·.packet))).1.time.queryTsc = .ok (293, 0, 0)) ∧
      (timing tc false false {} (ls.map (·.packet))).2 = .ok () :=
  ⟨psbBytes ++ [0x19, 0, 1, 0, 0, 0, 0, 0, 0x02, 0x73, 0, 0, 0, 0, 0, 0x02, 0x23, 0x59, 1] ++ psbBytes ++
      [0x02, 0x23, 0x0b, 0x59, 5, 0x43], { eax := 1, ebx := 1, skl168 := true }, _, rfl, by decide +kernel⟩

/-- C84 is false of the code for overflows inside PSB+: ptdump continues to treat TSC packets as part of PSB+, and calibrates
its time with them.  PSB; OVF; TSC; CYC; TSC; CYC. -/
theorem C84_time_differs_ovf :
    ∃ (mem : List UInt8) (ls : List DumpLine),
      dumpSync { trackTime := true, showTime := true } { mem := mem } {} 0 = (ls, .ok ()) ∧
      (ls.filterMap (·.time)).getLast? = some (.ok 768) ∧
      (timing {} false false {} (ls.map (·.packet))).1.time.queryTsc = .ok (512, 0, 1) ∧
      (timing {} false false {} (ls.map (·.packet))).2 = .ok () :=
  ⟨psbBytes ++ [0x02, 0xf3, 0x19, 0, 1, 0, 0, 0, 0, 0, 0x43, 0x19, 0, 2, 0, 0, 0, 0, 0, 0x43], _, rfl, by decide +kernel⟩

/-- The hypotheses of `C84_last_ip_partial` and `C84_time_partial` are met.  PSB; FUP; TSC; PSBEND; CBR; CYC; TIP. -/
example : ∃ d' t' l0 l1 l2 l3 l4 l5 l6 r, dumpPackets { showLastIp := true, trackTime := true, showTime := true }
      { mem := psbBytes ++ [0x7d, 0x00, 0x10, 0x40, 0, 0, 0, 0x19, 0, 1, 0, 0, 0, 0, 0, 2, 0x23, 2, 3, 4, 0, 0x43, 0x2d, 0x34, 0x12] }
      { nomFreq := 2 } 10 { pos := some 0, sync := some 0 } {} = (d', t', [l0, l1, l2, l3, l4, l5, l6], r) ∧
    l1.ip = some (.ok 0x401000) ∧ l6.ip = some (.ok 0x401234) ∧ l5.time = some (.ok 0x104) ∧
    (timing { nomFreq := 2 } false false {} ([l0, l1, l2, l3, l4, l5].map (·.packet))).2 = .ok () := by
  refine ⟨_, _, _, _, _, _, _, _, _, _, rfl, ?_⟩
  decide +kernel

end Ipt.Props
