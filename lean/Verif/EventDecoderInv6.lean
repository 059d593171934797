import Verif.EventDecoderInv5

/-! Helper lemmas: OVF and the invariant of the event decoder for whole calls. -/

set_option linter.unusedSimpArgs false

namespace Ipt

open Spec

variable {c : EvtCfg} {t : Bool} {s : Evd} {l : List (Event × Nat)}

theorem timing_range {p : Packet} {tp : TimePkt} (h : PktOk c p) (ht : p.timing = some tp) : tp.InRange := by
  have hr := h.range
  cases p <;> simp only [Packet.timing, Option.some.injEq, reduceCtorEq] at ht
  all_goals subst ht
  all_goals rcases hr with hr | hr | hr
  all_goals first
    | exact hr
    | exact Nat.lt_trans (show _ < 2 ^ 61 from hr) (by decide)
    | cases hr

/-! ## OVF -/

theorem tracing_ovf {e : Event} {b : Bool} (h : e.data.isOverflow = true) (h' : e.ipSuppressed = false ∨ b = true) :
    tracing t e b = true := by
  unfold tracing
  cases hd : e.data <;> rw [hd] at h <;> first | exact (Bool.false_ne_true h).elim | skip
  rcases h' with h' | h' <;> simp [h']

theorem isBranch_ovf {e : Event} (h : e.data.isOverflow = true) : isBranch e = false := by
  unfold isBranch
  cases hd : e.data <;> rw [hd] at h <;> first | exact (Bool.false_ne_true h).elim | rfl

theorem withIp_ovf {e : Event} {x : LastIp} (h : e.data.isOverflow = true) : (e.withIp x).data.isOverflow = true := by
  cases hd : e.data <;> rw [hd] at h <;> first | exact (Bool.false_ne_true h).elim | skip
  unfold Event.withIp
  split <;> simp [hd, EvData.setIp, EvData.isOverflow]

/-- The state after `pt_evt_recover_ovf_at_ip`. -/
structure AtIp (c : EvtCfg) (s : Evd) (l : List (Event × Nat)) : Prop where
  norm : Norm c true s l
  o : OrdL l
  bd : s.bound = false
  ev : s.event = some .alone
  ovf : (s.ev .alone).data.isOverflow = true
  sup : (s.ev .alone).ipSuppressed = false ∨ SuppressedIp c

/-- A packet from which the IP of the overflow event may come. -/
def IpPkt (c : EvtCfg) (ipc ip : Nat) : Prop :=
  ∃ d d' n, pktDecNext c.pkt d = (d', .ok (.fup ipc ip, n)) ∨ pktDecNext c.pkt d = (d', .ok (.tip ipc ip, n))

theorem IpPkt.sup {ip : Nat} (h : IpPkt c 0 ip) : SuppressedIp c := by
  obtain ⟨d, d', n, h⟩ := h
  unfold pktDecNext at h
  cases hd : d.pos with
  | none => rw [hd] at h; simp [pktNext] at h
  | some pos =>
    rw [hd] at h
    cases hn : pktNext c.pkt (some pos) with
    | ok x =>
      obtain ⟨p, m, q⟩ := x
      rw [hn] at h
      simp only [Prod.mk.injEq, Res.ok.injEq] at h
      refine ⟨pos, ip, m, q, ?_⟩
      rcases h with h | h
      · rw [hn, h.2.1]; exact .inl rfl
      · rw [hn, h.2.1]; exact .inr rfl
    | err e => rw [hn] at h; simp at h
    | ub => rw [hn] at h; simp at h

theorem recoverOvfAtIp_inv {d : PktDec} {p : Packet} {size ipc ip : Nat} {tm : Timing} (h : Start c t s l)
    (hp : PktOk c p) (hm : tm.Ok) (hi : IpPkt c ipc ip) :
    EM.wlp (recoverOvfAtIp d p size ipc ip tm) (fun b s' => b = false ∧ AtIp c s' l) Ex s := by
  unfold recoverOvfAtIp
  rw [EM.wlp_bind]
  refine wlp_updIp fun x hx => ?_
  rw [EM.wlp_bind]
  refine wlp_alone (s := { s with ip := x }) h.holds fun q' a1 a2 => ?_
  rw [EM.wlp_bind]
  have hn' : Norm c t { s with ip := x, q := q', event := some .alone } l :=
    ((h.toNorm.ip x).withQ a1 h.typ h.ord).event _
  refine wlp_timeEv (.inl hn') (.inl rfl) fun q'' a3 a4 a5 => ?_
  have a6 : q''.Holds l := Inv.holds a3
  rw [EM.wlp_bind, EM.wlp_modify, EM.wlp_bind]
  refine wlp_updEv_free (l := l) a6 (.inl rfl) fun q3 b1 b2 b3 => ?_
  rw [EM.wlp_pure]
  refine ⟨rfl, ⟨b1, h.typ, fun _ => h.o, fun _ => rfl, h.st, hm, hp, fun hb => ?_⟩, h.o, h.unbound, rfl, ?_, ?_⟩
  · have hb : s.bound = true := hb
    rw [h.unbound] at hb; cases hb
  · rw [b3]
    refine withIp_ovf ?_
    show q''.standalone.data.isOverflow = true
    have : q''.standalone = q'.standalone.timed s.tm.time := a5
    rw [this, a2]; rfl
  · rw [b3]
    by_cases h0 : ipc = 0
    · subst h0; exact .inr hi.sup
    · obtain ⟨v, hv⟩ := hx h0
      left
      show (q''.standalone.withIp x).ipSuppressed = false
      have : q''.standalone = q'.standalone.timed s.tm.time := a5
      unfold Event.withIp
      rw [hv, this, a2]; rfl

theorem AtIp.noIp (h : AtIp c s l) (hs : c.pkt.errata.skd010 = true) (p : Packet) :
    (s.ev .alone).ipSuppressed = false ∨ noIp c p = true := by
  rcases h.sup with h | h
  · exact .inl h
  · right; unfold Spec.noIp; simp [hs, h]

theorem headerFupLoop_pkt : ∀ (n : Nat) (d : PktDec) (ipc ip : Nat), headerFupLoop c n d = .ok (some (ipc, ip)) →
    IpPkt c ipc ip := by
  intro n
  induction n with
  | zero => intro d _ _ h; unfold headerFupLoop at h; cases h
  | succ n ih =>
    intro d ipc ip h
    unfold headerFupLoop at h
    rcases hx : pktDecNext c.pkt d with ⟨d', ⟨p, size⟩ | e | _⟩
    · rw [hx] at h
      dsimp only at h
      cases p <;> dsimp only at h <;> first
        | exact ih _ _ _ h
        | cases h; done
        | skip
      injection h with h
      injection h with h
      injection h with h1 h2
      subst h1 h2
      exact ⟨_, _, _, .inl hx⟩
    · rw [hx] at h; cases h
    · rw [hx] at h; cases h

theorem AtIp.post (h : AtIp c s l) (hs : c.pkt.errata.skd010 = true) : Post c t false s := by
  unfold Post
  rw [if_neg (by simp)]
  refine ⟨.alone, h.ev, ?_, l, .inl ?_⟩
  · rw [isBranch_ovf h.ovf]; intro h; cases h
  · unfold upd
    rw [tracing_ovf h.ovf (h.noIp hs _)]
    exact h.norm

theorem recoverOvfDisabled_inv {d : PktDec} {p : Packet} {size : Nat} {tm : Timing} (h : Start c t s l)
    (hp : PktOk c p) (hm : tm.Ok) (hen : s.enabled = false) :
    EM.wlp (recoverOvfDisabled c d p size tm) (fun b s' => b = false ∧ Post c t false s') Ex s := by
  unfold recoverOvfDisabled
  rw [EM.wlp_bind]
  refine wlp_alone h.holds fun q' a1 a2 => ?_
  rw [EM.wlp_bind]
  have hn' : Norm c t { s with q := q', event := some .alone } l := (h.toNorm.withQ a1 h.typ h.ord).event _
  refine wlp_timeEv (.inl hn') (.inl rfl) fun q'' a3 a4 a5 => ?_
  have a6 : q''.Holds l := Inv.holds a3
  rw [EM.wlp_bind, EM.wlp_modify]
  have hev : q''.standalone.data.isOverflow = true := by
    have : q''.standalone = q'.standalone.timed s.tm.time := a5
    rw [this, a2]; rfl
  unfold fetchDone
  rw [EM.wlp_bind]
  refine wlp_fetch h.st fun pd p' size' st b1 b2 b3 => ?_
  rw [EM.wlp_pure]
  refine ⟨rfl, ?_⟩
  unfold Post
  rw [if_neg (by simp)]
  refine ⟨.alone, rfl, ?_, l, .inl ⟨a6, h.typ, fun _ => h.o, fun he => ?_, b2, hm, b1, fun hb => ?_⟩⟩
  · intro h1
    have h1 : isBranch q''.standalone = true := h1
    rw [isBranch_ovf hev] at h1; cases h1
  · have he : s.enabled = true := he
    rw [hen] at he; cases he
  · have hb : s.bound = true := hb
    rw [h.unbound] at hb; cases hb

theorem wlp_false {m : EM Bool} {P : Evd → Prop} {E : Err → Evd → Prop} {s0 : Evd}
    (h : EM.wlp m (fun b s' => b = false ∧ P s') E s0) :
    EM.wlp m (fun b s' => if b = true then s' = s0 else P s') E s0 := by
  refine EM.wlp_mono h ?_ (fun _ _ h => h)
  rintro b s' ⟨rfl, h⟩
  rw [if_neg (by simp)]; exact h

/-- Either nothing happened or an event was delivered. -/
def Same (c : EvtCfg) (t : Bool) (s0 : Evd) (b : Bool) (s : Evd) : Prop := if b = true then s = s0 else Post c t false s

theorem wlp_same_true : EM.wlp (pure true) (Same c t s) Ex s := (EM.wlp_pure _ _ _ _).2 rfl

theorem wlp_Ex {α : Type} {Q : α → Evd → Prop} {e : Err} (h : e ≠ .internal) : EM.wlp (EM.fail e) Q Ex s :=
  (EM.wlp_fail _ _ _ _).2 (Ex.of h)

theorem wlp_Un {α : Type} {Q : α → Evd → Prop} {E : Err → Evd → Prop} : EM.wlp EM.undef Q E s :=
  (EM.wlp_undef _ _ _).2 trivial

theorem skd010Fup_inv {d d0 : PktDec} {size ipc ip : Nat} {tm : Timing} {tsx : Option (Bool × Bool)} (h : Start c t s [])
    (hs : c.pkt.errata.skd010 = true) (hp : pktDecNext c.pkt d0 = (d, .ok (.fup ipc ip, size))) (hm : tm.Ok) :
    EM.wlp (skd010Fup d size ipc ip tm tsx) (fun b s' => b = false ∧ Post c t false s') Ex s := by
  have hk : PktOk c (.fup ipc ip) := .inr ⟨_, _, _, hp⟩
  unfold skd010Fup
  rw [EM.wlp_bind, EM.wlp_modify]
  have h' : Start c t { s with packet := .fup ipc ip, size := size } [] := by
    refine ⟨⟨h.holds, h.typ, fun _ => h.o, h.en, h.st, h.tm, hk, fun hb => ?_⟩, h.o, h.none, h.unbound⟩
    have hb : s.bound = true := hb
    rw [h.unbound] at hb; cases hb
  have fin : ∀ (s : Evd) (l : List (Event × Nat)), Start c t s l →
      EM.wlp (recoverOvfAtIp d (.fup ipc ip) size ipc ip tm) (fun b s' => b = false ∧ Post c t false s') Ex s := by
    intro s l h
    refine EM.wlp_mono (recoverOvfAtIp_inv h hk hm ⟨_, _, _, .inl hp⟩) ?_ (fun _ _ h => h)
    rintro b s' ⟨h1, h2⟩
    exact ⟨h1, h2.post hs⟩
  cases tsx with
  | none =>
    exact fin _ _ h'
  | some x =>
    dsimp only
    rw [EM.wlp_bind]
    refine wlp_enq h'.holds fun q' a1 => ?_
    have ho : OrdL ([] ++ [(({ data := .tsx x.1 x.2 0 } : Event), evbFupBound)]) :=
      ordL_snoc ordL_nil (by intro hk; rw [show kind (_, evbFupBound) = 0 from kind_fupBound _] at hk; cases hk)
    refine fin _ _ (h'.withQ a1 ?_ ho)
    intro y hy
    simp only [List.nil_append, List.mem_singleton] at hy
    rw [hy]; exact .fupBound _ (fupOk_of rfl rfl)

theorem apply_split {tm : Timing} {tp : TimePkt} {k : Timing → EM Bool} {Q : Bool → Evd → Prop} (hc : c.time.Sane) (h : tm.Ok)
    (hp : tp.InRange) (hk : ∀ tm', tm'.Ok → EM.wlp (k tm') Q Ex s) :
    EM.wlp (match tm.apply c.time tp with
      | (tm, .ok ()) => k tm
      | (_, .err e) => EM.fail e
      | (_, .ub) => EM.undef) Q Ex s := by
  have := timing_ok hc h hp
  rcases hx : tm.apply c.time tp with ⟨tm', _ | e | _⟩
  · rw [hx] at this; exact hk _ this.1
  · rw [hx] at this; exact wlp_Ex (by simpa using this.2)
  · exact wlp_Un

theorem skd010Loop_inv (hc : c.time.Sane) (h : Start c t s []) (hen : s.enabled = false) (hs : c.pkt.errata.skd010 = true) :
    ∀ (n : Nat) (d : PktDec) (tm : Timing) (tsx : Option (Bool × Bool)), tm.Ok →
      EM.wlp (skd010Loop c n d tm tsx) (Same c t s) Ex s := by
  intro n
  induction n with
  | zero => intro _ _ _ _; exact wlp_Un
  | succ n ih =>
    intro d tm tsx hm
    unfold skd010Loop
    rcases hx : pktDecNext c.pkt d with ⟨d', ⟨p, size⟩ | e | _⟩
    · dsimp only
      have hk : PktOk c p := .inr ⟨_, _, _, hx⟩
      cases ht : p.timing with
      | some tp => exact apply_split hc hm (timing_range hk ht) fun tm' hm' => ih _ _ _ hm'
      | none =>
        dsimp only
        cases p with
        | tipPgd a b => exact wlp_false (recoverOvfDisabled_inv h hk hm hen)
        | modeTsx a b =>
          dsimp only
          split
          · exact wlp_same_true
          · exact ih _ _ _ hm
        | fup a b => exact wlp_false (skd010Fup_inv h hs hx hm)
        | tip a b =>
          dsimp only
          rw [EM.wlp_bind]
          refine EM.wlp_mono (recoverOvfAtIp_inv h hk hm ⟨_, _, _, .inr hx⟩) ?_ (fun _ _ h => h)
          rintro b s' ⟨_, h2⟩
          refine EM.wlp_mono (Q := fun b s' => b = false ∧ Post c t b s') ?_ ?_ (fun _ _ h => h)
          · have := fetchDone_inv (t := t) (E := Ex) h2.norm h2.o h2.bd h2.ev (by rw [isBranch_ovf h2.ovf]; intro h; cases h)
              (fun q _ => tracing_ovf h2.ovf (h2.noIp hs _))
            unfold fetchDone at this ⊢
            rw [EM.wlp_bind] at this ⊢
            refine EM.wlp_mono this ?_ (fun _ _ h => h)
            intro _ s'' h3
            rw [EM.wlp_pure] at h3 ⊢
            exact ⟨rfl, h3⟩
          · rintro b s'' ⟨rfl, h3⟩
            exact h3
        | psb =>
          dsimp only
          cases hy : headerFupLoop c c.fuel d' with
          | ub => exact wlp_Un
          | err e =>
            have := headerFup_err _ _ _ hy
            cases e <;> first | exact wlp_same_true | exact wlp_Ex this
          | ok o =>
            cases o with
            | none => exact wlp_same_true
            | some o =>
              obtain ⟨a, b⟩ := o
              refine wlp_false (P := Post c t false) ?_
              refine EM.wlp_mono (recoverOvfAtIp_inv h hk hm (headerFupLoop_pkt _ _ _ _ hy)) ?_ (fun _ _ h => h)
              rintro b s' ⟨h1, h2⟩
              exact ⟨h1, h2.post hs⟩
        | exstop a => exact EM.wlp_ite (fun _ => wlp_same_true) (fun _ => ih _ _ _ hm)
        | ptw a b i => exact EM.wlp_ite (fun _ => wlp_same_true) (fun _ => ih _ _ _ hm)
        | cfe a b i => exact EM.wlp_ite (fun _ => wlp_same_true) (fun _ => ih _ _ _ hm)
        | psbend => exact wlp_Ex (by simp)
        | _ => first
          | exact wlp_same_true
          | exact ih _ _ _ hm
          | (exfalso; simp [Packet.timing] at ht; done)
    · have := next_no_internal hx
      cases e <;> first | exact wlp_same_true | exact wlp_Ex this
    · exact wlp_Un

theorem apl11Loop_inv (hc : c.time.Sane) (h : Start c t s []) (hen : s.enabled = false) :
    ∀ (n : Nat) (d : PktDec) (tm : Timing), tm.Ok → EM.wlp (apl11Loop c n d tm) (Same c t s) Ex s := by
  intro n
  induction n with
  | zero => intro _ _ _; exact wlp_Un
  | succ n ih =>
    intro d tm hm
    unfold apl11Loop
    rcases hx : pktDecNext c.pkt d with ⟨d', ⟨p, size⟩ | e | _⟩
    · dsimp only
      have hk : PktOk c p := .inr ⟨_, _, _, hx⟩
      cases ht : p.timing with
      | some tp => exact apply_split hc hm (timing_range hk ht) fun tm' hm' => ih _ _ hm'
      | none =>
        dsimp only
        cases p with
        | tipPgd a b => exact wlp_false (recoverOvfDisabled_inv h hk hm hen)
        | _ => first
          | exact wlp_same_true
          | exact ih _ _ hm
          | (exfalso; simp [Packet.timing] at ht; done)
    · exact wlp_Ex (next_no_internal hx)
    · exact wlp_Un

theorem wlp_orElse_same {f g : EM Bool} (hf : EM.wlp f (Same c t s) Ex s) (hg : EM.wlp g (Post c t) Ex s) :
    EM.wlp (orElse f g) (Post c t) Ex s := by
  unfold orElse
  rw [EM.wlp_bind]
  refine EM.wlp_mono hf ?_ (fun _ _ h => h)
  intro b s' h
  unfold Same at h
  cases b with
  | true => rw [if_pos rfl] at h ⊢; rw [h]; exact hg
  | false => rw [if_neg (by simp)] at h ⊢; exact (EM.wlp_pure _ _ _ _).2 h

theorem ovfReset_start (h : s.tm.Ok) : Start c t (ovfReset c s) [] ∧ (ovfReset c s).enabled = false := by
  refine ⟨⟨⟨init_holds, by simp, fun _ => ordL_nil, fun he => ?_, by simp [ovfReset, evtReset], ?_, .inl rfl, fun he => ?_⟩,
    ordL_nil, rfl, rfl⟩, rfl⟩
  · cases he
  · refine ⟨h.tma, h.ctc, ?_⟩
    show (if c.keepTcalOnOvf = true then s.tm.tcal.updateOvf else {}).tsc < 2 ^ 56
    split
    · show 0 < 2 ^ 56; decide
    · show 0 < 2 ^ 56; decide
  · cases he

theorem ovfFup_inv (h : Start c t s []) : EM.wlp ovfFup (Post c t) Ex s := by
  unfold ovfFup
  rw [EM.wlp_bind]
  refine wlp_enqSlot h.holds fun q' _ a2 a3 _ _ => ?_
  unfold updEv
  rw [EM.wlp_bind, EM.wlp_modify, EM.wlp_pure]
  have a4 := put_last_holds (l := []) a2 (i := (s.q.begin + ([] : List (Event × Nat)).length) % 16) (by rw [a3])
    (({ data := .overflow 0 } : Event).timed s.tm.time)
  have ho : OrdL ([] ++ [((({ data := .overflow 0 } : Event).timed s.tm.time), evbFupBound)]) :=
    ordL_snoc ordL_nil (by intro hk; rw [show kind (_, evbFupBound) = 0 from kind_fupBound _] at hk; cases hk)
  refine (h.withQ a4 ?_ ho).more
  intro y hy
  simp only [List.nil_append, List.mem_singleton] at hy
  rw [hy]; exact .fupBound _ ⟨(by intro h; cases h), fun _ => rfl⟩

theorem ovfNoFup_inv {r : Res Nat} (hc : c.time.Sane) (h : Start c t s []) (hen : s.enabled = false) (hr : r ≠ .err .internal) :
    EM.wlp (ovfNoFup c r) (Post c t) Ex s := by
  unfold ovfNoFup
  rw [EM.wlp_bind, EM.wlp_get]
  refine wlp_orElse_same ?_ ?_
  · split
    · rename_i hs; exact skd010Loop_inv hc h hen hs _ _ _ _ h.tm
    · exact wlp_same_true
  · rw [EM.wlp_bind, EM.wlp_get]
    refine wlp_orElse_same ?_ ?_
    · split
      · exact apl11Loop_inv hc h hen _ _ _ h.tm
      · exact wlp_same_true
    · have done : EM.wlp (aloneDone c { data := .overflow 0, ipSuppressed := true }) (Post c t) Ex s :=
        aloneDone_inv h.toNorm h.o h.unbound (by intro h; cases h) (by intro q he; rw [hen] at he; cases he)
      cases r with
      | ub => exact wlp_Un
      | ok a => exact done
      | err e =>
        have : e ≠ .internal := by simpa using hr
        cases e <;> first | exact done | exact wlp_Ex this

/-- Like `Ex`, but anything may happen with the APL12 work-around. -/
def ExA (c : EvtCfg) (e : Err) (s : Evd) : Prop := c.pkt.errata.apl12 = true ∨ Ex e s

theorem ExA.mono {α : Type} {m : EM α} {Q : α → Evd → Prop} (h : EM.wlp m Q Ex s) : EM.wlp m Q (ExA c) s :=
  EM.wlp_mono h (fun _ _ h => h) (fun _ _ h => .inr h)

theorem recoverAtOffsetLoop_inv (hc : c.time.Sane) : ∀ (n offset : Nat) (s : Evd), Start c t s [] → s.enabled = false →
    EM.wlp (recoverAtOffsetLoop c n offset) (fun _ s' => Start c t s' [] ∧ s'.enabled = false) (fun _ _ => True) s := by
  intro n
  induction n with
  | zero => intro _ _ _ _; exact wlp_Un
  | succ n ih =>
    intro offset s h hen
    unfold EM.wlp recoverAtOffsetLoop
    rcases hx : pktDecNext c.pkt s.pd with ⟨d', ⟨p, size⟩ | e | _⟩
    · dsimp only
      have hk : PktOk c p := .inr ⟨_, _, _, hx⟩
      have h' : Start c t { s with pd := d', packet := p, size := size } [] := by
        refine ⟨⟨h.holds, h.typ, fun _ => h.o, h.en, h.st, h.tm, hk, fun hb => ?_⟩, h.o, h.none, h.unbound⟩
        have hb : s.bound = true := hb
        rw [h.unbound] at hb; cases hb
      by_cases h1 : offset < size
      · rw [if_pos h1]; trivial
      · rw [if_neg h1]
        by_cases h2 : offset = size
        · rw [if_pos h2]; exact ⟨h', hen⟩
        · rw [if_neg h2]
          cases ht : p.timing with
          | some tp =>
            dsimp only
            refine (?_ : EM.wlp (do applyTm c tp; recoverAtOffsetLoop c n (offset - size)) _ _ _)
            rw [EM.wlp_bind]
            refine EM.wlp_mono (wlp_applyTm (Q := fun _ s' => Start c t s' [] ∧ s'.enabled = false) hc h'.tm
              (timing_range hk ht) fun x hx => ⟨h'.tmSet hx, hen⟩) ?_ (fun _ _ _ => trivial)
            rintro _ s' ⟨h3, h4⟩
            exact ih _ _ h3 h4
          | none =>
            dsimp only
            cases p <;> first
              | exact ih _ _ h' hen
              | trivial
    · trivial
    · trivial

theorem apl12Loop_inv {offset : Nat} (hc : c.time.Sane) (h : Start c t s []) (hen : s.enabled = false) :
    ∀ (n : Nat) (d : PktDec), EM.wlp (apl12Loop c offset n d) (Same c t s) (fun _ _ => True) s := by
  have same : EM.wlp (pure true) (Same c t s) (fun _ _ => True) s := (EM.wlp_pure _ _ _ _).2 rfl
  have rec' : EM.wlp (recoverOvfAtOffset c offset) (Same c t s) (fun _ _ => True) s := by
    unfold recoverOvfAtOffset
    refine EM.wlp_ite (fun _ => (EM.wlp_fail _ _ _ _).2 trivial) fun _ => ?_
    rw [EM.wlp_bind]
    refine EM.wlp_mono (recoverAtOffsetLoop_inv hc _ _ s h hen) ?_ (fun _ _ h => h)
    rintro _ s' ⟨h1, h2⟩
    have := aloneDone_inv (c := c) (t := t) (E := fun _ _ => True) (e := { data := .overflow 0, ipSuppressed := true })
      h1.toNorm h1.o h1.unbound (by intro h; cases h) (by intro q he; rw [h2] at he; cases he)
    unfold aloneDone fetchDone at this ⊢
    simp only [EM.wlp_bind] at this ⊢
    refine EM.wlp_mono this ?_ (fun _ _ h => h)
    intro _ s1 h3
    refine EM.wlp_mono h3 ?_ (fun _ _ h => h)
    intro _ s2 h4
    refine EM.wlp_mono h4 ?_ (fun _ _ h => h)
    intro _ s3 h5
    rw [EM.wlp_pure] at h5 ⊢
    exact h5
  intro n
  induction n with
  | zero => intro _; exact wlp_Un
  | succ n ih =>
    intro d
    unfold apl12Loop
    rcases hx : pktDecNext c.pkt d with ⟨d', ⟨p, size⟩ | e | _⟩
    · dsimp only
      cases p with
      | psb =>
        dsimp only
        cases hy : headerFupLoop c c.fuel d' with
        | ub => exact wlp_Un
        | err e => cases e <;> first | exact same | exact (EM.wlp_fail _ _ _ _).2 trivial
        | ok o => cases o <;> first | exact rec' | exact same
      | _ => first
        | exact same
        | exact rec'
        | exact ih _
    · cases e <;> first | exact same | exact (EM.wlp_fail _ _ _ _).2 trivial
    · exact wlp_Un

theorem handleApl12_inv {offset : Nat} (hc : c.time.Sane) (h : Start c t s []) (hen : s.enabled = false) :
    EM.wlp (handleApl12 c offset) (Same c t s) (fun _ _ => True) s := by
  unfold handleApl12
  rw [EM.wlp_bind, EM.wlp_get]
  exact EM.wlp_ite (fun _ => (EM.wlp_fail _ _ _ _).2 trivial) fun _ => apl12Loop_inv hc h hen _ _

theorem ovfEvent_inv (hc : c.time.Sane) (h : s.tm.Ok) : EM.wlp (ovfEvent c) (Post c t) (ExA c) s := by
  obtain ⟨h1, h2⟩ := ovfReset_start (c := c) (t := t) h
  unfold ovfEvent
  rw [EM.wlp_bind, EM.wlp_modify, EM.wlp_bind, EM.wlp_get]
  cases hf : findOvfFup c c.fuel (ovfReset c s).pd 0 with
  | ub => exact wlp_Un
  | err e => exact ExA.mono (ovfNoFup_inv hc h1 h2 (by have := findOvf_err _ _ _ _ hf; simpa using this))
  | ok n =>
    cases n with
    | zero => exact ExA.mono (ovfNoFup_inv hc h1 h2 (by simp))
    | succ n =>
      dsimp only
      by_cases ha : c.pkt.errata.apl12 = true
      · rw [if_pos ha]
        unfold orElse
        rw [EM.wlp_bind]
        refine EM.wlp_mono (handleApl12_inv hc h1 h2) ?_ (fun _ _ _ => .inl ha)
        intro b s' h
        unfold Same at h
        cases b with
        | true => rw [if_pos rfl] at h ⊢; rw [h]; exact ExA.mono (ovfFup_inv h1)
        | false => rw [if_neg (by simp)] at h ⊢; exact (EM.wlp_pure _ _ _ _).2 h
      · rw [if_neg ha]
        exact ExA.mono (wlp_orElse_same wlp_same_true (ovfFup_inv h1))

theorem decodeOvf_inv (hc : c.time.Sane) (h : Norm c t s l ∨ Hdr c t s l)
    (he : s.event = none) (hp : s.packet = .ovf) : EM.wlp (decodeOvf c) (Post c t) (ExA c) s := by
  unfold decodeOvf orElse
  rw [EM.wlp_bind]
  refine EM.wlp_mono (decodePsbend_inv h he (.inr hp)) ?_ (fun _ _ h => .inr h)
  intro b s' hb
  cases b with
  | true =>
    rw [if_pos rfl] at hb ⊢
    exact ovfEvent_inv hc (by rw [hb.1]; exact hb.2.tm)
  | false =>
    rw [if_neg (by simp)] at hb ⊢
    exact (EM.wlp_pure _ _ _ _).2 hb

end Ipt
