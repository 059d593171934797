import Verif.EventsTip

/-! Helper lemmas: the event decoder follows `Spec.trace`.  OVF. -/

set_option linter.unusedSimpArgs false

namespace Ipt.Events

open Ipt Ipt.Spec

variable {c : EvtCfg} {fin : Err} {s : Evd} {v : TraceView} {rest : List Packet} {t : List Event × Bool}

/-! ## Looking ahead -/

/-- What `pt_evt_find_ovf_fup` finds. -/
def Found (fin : Err) (r : Res Nat) (ps : List Packet) : Prop :=
  match TraceView.resumes fin ps with
  | .ok true => ∃ k, r = .ok (k + 1)
  | .ok false => r = .ok 0 ∨ r = .err .eos
  | .error e => r = .err e ∧ e ≠ .eos

theorem findOvf_found (hcb : CbProgress c.pkt) : ∀ (n : Nat) (d : PktDec) (off : Nat) (ps : List Packet), Left c fin d ps →
    findOvfFup c n d off = .ub ∨ Found fin (findOvfFup c n d off) ps
  | 0, _, _, _, _ => .inl rfl
  | n + 1, d, off, [], h => by
    obtain ⟨d', h1⟩ := h.nil_err
    right
    unfold findOvfFup Found
    rw [h1]
    dsimp only
    unfold TraceView.resumes
    by_cases hf : fin = .eos
    · rw [if_pos hf]; exact .inr (by rw [hf])
    · rw [if_neg hf]; exact ⟨rfl, hf⟩
  | n + 1, d, off, p :: ps, h => by
    obtain ⟨d1, k, h1, h2⟩ := h.cons_ok
    obtain ⟨_, hk, _⟩ := next_ok hcb h1
    unfold findOvfFup
    rw [h1]
    dsimp only
    rw [if_neg (by omega)]
    by_cases ho : 2 ^ 31 ≤ off + k
    · rw [if_pos ho]; exact .inl rfl
    · rw [if_neg ho]
      have ih := findOvf_found hcb n d1 (off + k) ps h2
      cases p
      case fup => exact .inr ⟨off + k - 1, by rw [Nat.sub_add_cancel (by omega)]⟩
      case unknown => exact ih
      case pad => exact ih
      case mnt => exact ih
      case cbr => exact ih
      case tsc => exact ih
      case tma => exact ih
      case mtc => exact ih
      case cyc => exact ih
      case invalid => exact ih
      case psbend => exact .inr ⟨rfl, by simp⟩
      case tip => exact .inr ⟨rfl, by simp⟩
      case tipPgd => exact .inr ⟨rfl, by simp⟩
      case tnt8 => exact .inr ⟨rfl, by simp⟩
      case tnt64 => exact .inr ⟨rfl, by simp⟩
      all_goals exact .inr (.inl rfl)

/-- What `pt_evt_find_header_fup` finds. -/
def FoundH (fin : Err) (r : Res (Option (Nat × Nat))) (ps : List Packet) : Prop :=
  match TraceView.headerIp fin ps with
  | .ok x => r = .ok x
  | .error e => r = .err e

theorem headerFup_found : ∀ (n : Nat) (d : PktDec) (ps : List Packet), Left c fin d ps →
    headerFupLoop c n d = .ub ∨ FoundH fin (headerFupLoop c n d) ps
  | 0, _, _, _ => .inl rfl
  | n + 1, d, [], h => by
    obtain ⟨d', h1⟩ := h.nil_err
    right
    unfold headerFupLoop FoundH
    rw [h1]
    rfl
  | n + 1, d, p :: ps, h => by
    obtain ⟨d1, k, h1, h2⟩ := h.cons_ok
    unfold headerFupLoop
    rw [h1]
    dsimp only
    have ih := headerFup_found n d1 ps h2
    cases p
    all_goals first | exact ih | exact .inr rfl

theorem timing_timeOf (p : Packet) : p.timing = TraceView.timeOf p := by cases p <;> rfl

/-! ## Recovery -/

theorem located_now (e : Event) : v.located (v.now e) = v.here e := by
  unfold TraceView.here TraceView.located
  cases ipOf v.ip <;> rfl

/-- At the packet `p`, which is still to be decoded, with the overflow event. -/
structure Rec (c : EvtCfg) (fin : Err) (s : Evd) (v : TraceView) (p : Packet) (ps : List Packet) (e : Event) : Prop where
  rel : Rel c s v
  ord : Ord v.waiting
  left : Left c fin s.pd ps
  bd : s.bound = false
  pk : s.packet = p
  ev : s.event = some .alone
  is : s.ev .alone = e

theorem rec_out {p : Packet} {ps : List Packet} {e : Event} (h : Rec c fin s v p ps e)
    (ht : t = cont c fin ([e], some v) (p :: ps)) : Out c fin t false s := by
  unfold Out
  rw [if_neg (by simp)]
  refine ⟨.alone, (trace c fin v (p :: ps)).1, h.ev, by rw [ht, h.is]; rfl, .inl ⟨v, ps, ?_, ?_⟩⟩
  · exact ⟨⟨h.rel.ip, h.rel.tm, h.rel.on, h.rel.mode, h.rel.q, h.rel.fit, h.rel.hdr⟩, h.left, .inl h.ord,
      fun hb => absurd (h.bd.symm.trans hb) (by simp)⟩
  · dsimp only
    rw [h.bd, mid_false, h.pk, ht]
    show trace c fin v (p :: ps) = _
    rw [trace_cons h.rel.hdr.2.1]
    unfold TraceView.fresh
    rw [h.rel.hdr.1]

theorem rec_fetch {p : Packet} {ps : List Packet} {e : Event} (h : Rec c fin s v p ps e)
    (ht : t = cont c fin ([e], some v) ps) : EM.wlp (fetchDone c) (Out c fin t) (Bad fin t) s :=
  fetchDone_out h.rel h.ord h.left h.bd h.ev h.is ht

/-- `pt_evt_recover_ovf_at_ip`. -/
theorem wlp_atIp {d : PktDec} {p : Packet} {size ipc ip : Nat} {tm : Timing} {ps : List Packet} {Q : Bool → Evd → Prop}
    {E : Err → Evd → Prop} (hr : Rel c s v) (ho : Ord v.waiting) (hl : Left c fin d ps) (hb : s.bound = false)
    (hE : v.goto ipc ip = none → ∀ e s', E e s')
    (hq : ∀ l s', v.goto ipc ip = some { v with ip := l } →
      Rec c fin s' { v with ip := l, on := true, tm := tm } p ps (TraceView.here { v with ip := l } { data := .overflow 0 }) →
      Q false s') : EM.wlp (recoverOvfAtIp d p size ipc ip tm) Q E s := by
  unfold recoverOvfAtIp
  rw [EM.wlp_bind]
  refine wlp_goto hr hE ?_
  intro l h1 _ h2
  unfold alone timeEv updEv
  simp only [EM.wlp_bind, EM.wlp_modify, EM.wlp_pure]
  refine hq l _ h1 ⟨⟨h2.ip, rfl, rfl, h2.mode, standalone_holds (standalone_holds (standalone_holds h2.q _) _) _, h2.fit, h2.hdr⟩,
    ho, hl, hb, rfl, rfl, ?_⟩
  show Event.withIp (Event.timed { data := .overflow 0 } s.tm.time) l = _
  rw [show s.tm = v.tm from hr.tm]
  have e1 := timed_now (v := { v with ip := l }) { data := .overflow 0 }
  have e2 := withIp_located (v := { v with ip := l }) (TraceView.now { v with ip := l } { data := .overflow 0 })
  rw [← located_now, ← e2, ← e1]

theorem wlp_fetchFalse {Q : Bool → Evd → Prop} {E : Err → Evd → Prop} (h : EM.wlp (fetchDone c) Q E s) :
    EM.wlp (fetchDone c) (fun b s' => b = false ∧ Q b s') E s := by
  unfold fetchDone at h ⊢
  rw [EM.wlp_bind] at h ⊢
  refine EM.wlp_mono h ?_ (fun _ _ h => h)
  intro _ s' h
  rw [EM.wlp_pure] at h ⊢
  exact ⟨rfl, h⟩

theorem cont_skip (e : Event) (hs : v.skip = 0) (pre ps : List Packet) :
    cont c fin ([e], some { v with skip := pre.length }) (pre ++ ps) = cont c fin ([e], some v) ps := by
  unfold cont
  dsimp only
  rw [trace_skip v ps pre, show ({ v with skip := 0 } : TraceView) = v by rw [← hs]]

theorem cont_skip1 (e : Event) (hs : v.skip = 0) (pre : List Packet) (p : Packet) (ps : List Packet) :
    cont c fin ([e], some { v with skip := pre.length + 1 }) (pre ++ p :: ps) = cont c fin ([e], some v) ps := by
  have := cont_skip (c := c) (fin := fin) e hs (pre ++ [p]) ps
  simpa using this

/-- What a work-around that may decline does. -/
def Decl (c : EvtCfg) (fin : Err) (x : Option Outcome) (rest : List Packet) (s : Evd) (b : Bool) (s' : Evd) : Prop :=
  match x with
  | none => b = true ∧ s' = s
  | some o => b = false ∧ Out c fin (cont c fin o rest) b s'

def DeclE (c : EvtCfg) (fin : Err) (x : Option Outcome) (rest : List Packet) (e : Err) (s' : Evd) : Prop :=
  match x with
  | none => False
  | some o => Bad fin (cont c fin o rest) e s'

/-- `pt_evt_recover_ovf_disabled`. -/
theorem wlp_off {d : PktDec} {p : Packet} {size : Nat} {tm : Timing} {ps pre : List Packet} {s0 : Evd}
    (hr : Rel c s v) (ho : Ord v.waiting) (hl : Left c fin d ps) (hb : s.bound = false) :
    EM.wlp (recoverOvfDisabled c d p size tm) (Decl c fin (some (v.resumeOff (pre.length + 1) tm)) (pre ++ p :: ps) s0)
      (DeclE c fin (some (v.resumeOff (pre.length + 1) tm)) (pre ++ p :: ps)) s := by
  unfold recoverOvfDisabled alone timeEv updEv
  simp only [EM.wlp_bind, EM.wlp_modify, EM.wlp_pure]
  refine wlp_fetchFalse (rec_fetch (v := { v with tm := tm }) (p := p) (ps := ps)
    (e := v.now { data := .overflow 0, ipSuppressed := true })
    ⟨⟨hr.ip, rfl, hr.on, hr.mode, standalone_holds (standalone_holds hr.q _) _, hr.fit, hr.hdr⟩, ho, hl, hb, rfl, rfl, ?_⟩ ?_)
  · show Event.timed { data := .overflow 0, ipSuppressed := true } s.tm.time = _
    rw [show s.tm = v.tm from hr.tm, timed_now]
  · exact cont_skip1 (v := { v with tm := tm }) _ hr.hdr.2.1 pre p ps

/-- `pt_evt_recover_ovf_at_ip`, at the packet. -/
theorem wlp_atIp_keep {d : PktDec} {p : Packet} {size ipc ip : Nat} {tm : Timing} {ps pre : List Packet} {s0 : Evd}
    (hr : Rel c s v) (ho : Ord v.waiting) (hl : Left c fin d ps) (hb : s.bound = false) :
    EM.wlp (recoverOvfAtIp d p size ipc ip tm) (Decl c fin (some (v.resumeAt pre.length tm ipc ip)) (pre ++ p :: ps) s0)
      (DeclE c fin (some (v.resumeAt pre.length tm ipc ip)) (pre ++ p :: ps)) s := by
  refine wlp_atIp hr ho hl hb ?_ ?_
  · intro h1 e s'
    show Bad fin (cont c fin (v.resumeAt _ tm ipc ip) _) e s'
    unfold TraceView.resumeAt
    rw [h1]
    exact bad_of rfl
  · intro l s' h1 h2
    refine ⟨rfl, rec_out h2 ?_⟩
    unfold TraceView.resumeAt
    rw [h1]
    exact cont_skip (v := { v with ip := l, on := true, tm := tm }) _ hr.hdr.2.1 pre (p :: ps)

/-- `pt_evt_recover_ovf_at_ip`, behind the packet. -/
theorem wlp_atIp_done {d : PktDec} {p : Packet} {size ipc ip : Nat} {tm : Timing} {ps pre : List Packet} {s0 : Evd}
    (hr : Rel c s v) (ho : Ord v.waiting) (hl : Left c fin d ps) (hb : s.bound = false) :
    EM.wlp (do let _ ← recoverOvfAtIp d p size ipc ip tm
               fetchDone c) (Decl c fin (some (v.resumeAt (pre.length + 1) tm ipc ip)) (pre ++ p :: ps) s0)
      (DeclE c fin (some (v.resumeAt (pre.length + 1) tm ipc ip)) (pre ++ p :: ps)) s := by
  rw [EM.wlp_bind]
  refine wlp_atIp hr ho hl hb ?_ ?_
  · intro h1 e s'
    show Bad fin (cont c fin (v.resumeAt _ tm ipc ip) _) e s'
    unfold TraceView.resumeAt
    rw [h1]
    exact bad_of rfl
  · intro l s' h1 h2
    refine wlp_fetchFalse (rec_fetch h2 ?_)
    unfold TraceView.resumeAt
    rw [h1]
    exact cont_skip1 (v := { v with ip := l, on := true, tm := tm }) _ hr.hdr.2.1 pre p ps

theorem skd010Fup_go {d : PktDec} {size ipc ip : Nat} {tm : Timing} {tsx : Option (Bool × Bool)} {ps pre : List Packet}
    {s0 : Evd} (hr : Rel c s v) (hw : v.waiting = []) (hl : Left c fin d ps) (hb : s.bound = false) :
    EM.wlp (skd010Fup d size ipc ip tm tsx)
      (Decl c fin (v.skd010 c fin pre.length tm tsx (.fup ipc ip :: ps)) (pre ++ .fup ipc ip :: ps) s0)
      (DeclE c fin (v.skd010 c fin pre.length tm tsx (.fup ipc ip :: ps)) (pre ++ .fup ipc ip :: ps)) s := by
  unfold skd010Fup TraceView.skd010 TraceView.timeOf
  rw [EM.wlp_bind, EM.wlp_modify]
  have hr1 : Rel c { s with packet := .fup ipc ip, size := size } v :=
    ⟨hr.ip, hr.tm, hr.on, hr.mode, hr.q, hr.fit, hr.hdr⟩
  rcases tsx with _ | ⟨intx, abrt⟩
  · exact wlp_atIp_keep hr1 (by rw [hw]; exact ord_nil) hl hb
  · dsimp only
    rw [EM.wlp_bind]
    have hq : s.q.Holds [] := by have := hr.q; rw [hw] at this; exact this
    refine wlp_enqs (l := []) (s := { s with packet := .fup ipc ip, size := size }) hq (fun h => absurd h (by simp)) ?_
    intro q' _ h2 _
    refine wlp_atIp_keep (v := { v with waiting := [({ data := .tsx intx abrt 0 }, .ownFup)] })
      ⟨hr.ip, hr.tm, hr.on, hr.mode, h2, ?_, hr.hdr⟩ ?_ hl hb
    · intro x hx; rw [List.mem_singleton.1 hx]; rfl
    · exact .inl (by intro y hy; rw [List.mem_singleton.1 hy]; simp)

theorem timeOf_apply {tm : Timing} {x : TimePkt} : (∃ tm', tm.apply c.time x = (tm', .ok ())) ∨
    (∃ tm' e, tm.apply c.time x = (tm', .err e)) ∨ ∃ tm', tm.apply c.time x = (tm', .ub) := by
  rcases tm.apply c.time x with ⟨a, _ | _ | _⟩
  · exact .inl ⟨_, rfl⟩
  · exact .inr (.inl ⟨_, _, rfl⟩)
  · exact .inr (.inr ⟨_, rfl⟩)

theorem skd010_go : ∀ (n : Nat) (d : PktDec) (tm : Timing) (tsx : Option (Bool × Bool)) (pre ps : List Packet) (s : Evd),
    Rel c s v → v.waiting = [] → s.bound = false → Left c fin d ps →
    EM.wlp (skd010Loop c n d tm tsx) (Decl c fin (v.skd010 c fin pre.length tm tsx ps) (pre ++ ps) s)
      (DeclE c fin (v.skd010 c fin pre.length tm tsx ps) (pre ++ ps)) s
  | 0, _, _, _, _, _, _, _, _, _, _ => (EM.wlp_undef _ _ _).2 trivial
  | n + 1, d, tm, tsx, pre, [], s, hr, hw, hb, hl => by
    obtain ⟨d', h1⟩ := hl.nil_err
    unfold skd010Loop TraceView.skd010
    rw [h1]
    by_cases hf : fin = .eos
    · subst hf
      rw [if_pos rfl]
      dsimp only
      rw [EM.wlp_pure]
      exact ⟨rfl, rfl⟩
    · rw [if_neg hf]
      have : EM.wlp (EM.fail fin : EM Bool) (Decl c fin (some .bad) (pre ++ []) s) (DeclE c fin (some .bad) (pre ++ [])) s :=
        (EM.wlp_fail _ _ _ _).2 (bad_of (s := s) rfl)
      cases fin <;> first | exact absurd rfl hf | exact this
  | n + 1, d, tm, tsx, pre, p :: ps, s, hr, hw, hb, hl => by
    obtain ⟨d1, k, h1, h2⟩ := hl.cons_ok
    have ih : ∀ tm tsx, EM.wlp (skd010Loop c n d1 tm tsx)
        (Decl c fin (v.skd010 c fin (pre.length + 1) tm tsx ps) (pre ++ p :: ps) s)
        (DeclE c fin (v.skd010 c fin (pre.length + 1) tm tsx ps) (pre ++ p :: ps)) s := by
      intro tm tsx
      have := skd010_go n d1 tm tsx (pre ++ [p]) ps s hr hw hb h2
      simpa using this
    have hfail : ∀ e, EM.wlp (EM.fail e : EM Bool) (Decl c fin (some .bad) (pre ++ p :: ps) s)
        (DeclE c fin (some .bad) (pre ++ p :: ps)) s := fun e => (EM.wlp_fail _ _ _ _).2 (bad_of (s := s) rfl)
    have hund : ∀ x, EM.wlp (EM.undef : EM Bool) (Decl c fin x (pre ++ p :: ps) s)
        (DeclE c fin x (pre ++ p :: ps)) s := fun x => (EM.wlp_undef _ _ _).2 trivial
    have hdecl : EM.wlp (pure true : EM Bool) (Decl c fin none (pre ++ p :: ps) s)
        (DeclE c fin none (pre ++ p :: ps)) s := (EM.wlp_pure _ _ _ _).2 ⟨rfl, rfl⟩
    have ho : Ord v.waiting := by rw [hw]; exact ord_nil
    unfold skd010Loop
    rw [h1]
    dsimp only
    rw [timing_timeOf]
    have hfup : ∀ ipc ip, p = .fup ipc ip → EM.wlp (skd010Fup d1 k ipc ip tm tsx)
        (Decl c fin (v.skd010 c fin pre.length tm tsx (p :: ps)) (pre ++ p :: ps) s)
        (DeclE c fin (v.skd010 c fin pre.length tm tsx (p :: ps)) (pre ++ p :: ps)) s := by
      intro ipc ip hp
      subst hp
      exact skd010Fup_go hr hw h2 hb
    have hcont : ∀ x, TraceView.timeOf p = some x → EM.wlp (match tm.apply c.time x with
        | (tm, .ok ()) => skd010Loop c n d1 tm tsx
        | (_, .err e) => EM.fail e
        | (_, .ub) => EM.undef)
        (Decl c fin (v.skd010 c fin pre.length tm tsx (p :: ps)) (pre ++ p :: ps) s)
        (DeclE c fin (v.skd010 c fin pre.length tm tsx (p :: ps)) (pre ++ p :: ps)) s := by
      intro x hx
      unfold TraceView.skd010
      rw [hx]
      dsimp only
      rcases timeOf_apply (c := c) (tm := tm) (x := x) with ⟨tm', h3⟩ | ⟨tm', e, h3⟩ | ⟨tm', h3⟩
      · rw [h3]; exact ih tm' tsx
      · rw [h3]; exact hfail e
      · rw [h3]; exact hund _
    cases p
    case tsc => exact hcont _ rfl
    case cbr => exact hcont _ rfl
    case tma => exact hcont _ rfl
    case mtc => exact hcont _ rfl
    case cyc => exact hcont _ rfl
    case tipPgd => exact wlp_off hr ho h2 hb
    case tip => exact wlp_atIp_done hr ho h2 hb
    case fup => exact hfup _ _ rfl
    case psbend => exact hfail _
    case modeTsx intx abrt =>
      rcases tsx with _ | y
      · exact ih tm _
      · exact hdecl
    case exstop ip => cases ip; exact ih tm tsx; exact hdecl
    case ptw a b ip => cases ip; exact ih tm tsx; exact hdecl
    case cfe a b ip => cases ip; exact ih tm tsx; exact hdecl
    case psb =>
      unfold TraceView.skd010 TraceView.timeOf
      dsimp only
      rcases headerFup_found (c := c) (fin := fin) c.fuel d1 ps h2 with h3 | h3
      · rw [h3]; exact hund _
      · unfold FoundH at h3
        rcases hx : TraceView.headerIp fin ps with e | _ | ⟨ipc, ip⟩
        · rw [hx] at h3
          dsimp only at h3 ⊢
          rw [h3]
          by_cases h4 : e = .eos
          · subst h4; exact hdecl
          · rw [if_neg h4]
            cases e <;> first | exact absurd rfl h4 | exact hfail _
        · rw [hx] at h3
          dsimp only at h3
          rw [h3]
          exact hdecl
        · rw [hx] at h3
          dsimp only at h3
          rw [h3]
          exact wlp_atIp_keep hr ho h2 hb
    all_goals first | exact ih tm tsx | exact hdecl

/-- Without declining: there is nothing else to do. -/
theorem apl11_go : ∀ (n : Nat) (d : PktDec) (tm : Timing) (pre ps : List Packet) (s : Evd),
    Rel c s v → Ord v.waiting → s.bound = false → Left c fin d ps →
    EM.wlp (apl11Loop c n d tm) (fun b s' => (b = true ∧ cont c fin (v.apl11 c pre.length tm ps) (pre ++ ps) = ([], false)) ∨
        (b = false ∧ Out c fin (cont c fin (v.apl11 c pre.length tm ps) (pre ++ ps)) b s'))
      (Bad fin (cont c fin (v.apl11 c pre.length tm ps) (pre ++ ps))) s
  | 0, _, _, _, _, _, _, _, _, _ => (EM.wlp_undef _ _ _).2 trivial
  | n + 1, d, tm, pre, [], s, hr, hw, hb, hl => by
    obtain ⟨d', h1⟩ := hl.nil_err
    unfold apl11Loop TraceView.apl11
    rw [h1]
    exact (EM.wlp_fail _ _ _ _).2 (bad_of rfl)
  | n + 1, d, tm, pre, p :: ps, s, hr, ho, hb, hl => by
    obtain ⟨d1, k, h1, h2⟩ := hl.cons_ok
    have ih : ∀ tm, EM.wlp (apl11Loop c n d1 tm)
        (fun b s' => (b = true ∧ cont c fin (v.apl11 c (pre.length + 1) tm ps) (pre ++ p :: ps) = ([], false)) ∨
          (b = false ∧ Out c fin (cont c fin (v.apl11 c (pre.length + 1) tm ps) (pre ++ p :: ps)) b s'))
        (Bad fin (cont c fin (v.apl11 c (pre.length + 1) tm ps) (pre ++ p :: ps))) s := by
      intro tm
      have := apl11_go n d1 tm (pre ++ [p]) ps s hr ho hb h2
      simpa using this
    unfold apl11Loop
    rw [h1]
    dsimp only
    rw [timing_timeOf]
    have hcont : ∀ x, TraceView.timeOf p = some x → EM.wlp (match tm.apply c.time x with
        | (tm, .ok ()) => apl11Loop c n d1 tm
        | (_, .err e) => EM.fail e
        | (_, .ub) => EM.undef)
        (fun b s' => (b = true ∧ cont c fin (v.apl11 c pre.length tm (p :: ps)) (pre ++ p :: ps) = ([], false)) ∨
          (b = false ∧ Out c fin (cont c fin (v.apl11 c pre.length tm (p :: ps)) (pre ++ p :: ps)) b s'))
        (Bad fin (cont c fin (v.apl11 c pre.length tm (p :: ps)) (pre ++ p :: ps))) s := by
      intro x hx
      unfold TraceView.apl11
      rw [hx]
      dsimp only
      rcases timeOf_apply (c := c) (tm := tm) (x := x) with ⟨tm', h3⟩ | ⟨tm', e, h3⟩ | ⟨tm', h3⟩
      · rw [h3]; exact ih tm'
      · rw [h3]; exact (EM.wlp_fail _ _ _ _).2 (bad_of rfl)
      · rw [h3]; exact (EM.wlp_undef _ _ _).2 trivial
    cases p
    case tsc => exact hcont _ rfl
    case cbr => exact hcont _ rfl
    case tma => exact hcont _ rfl
    case mtc => exact hcont _ rfl
    case cyc => exact hcont _ rfl
    case tipPgd => exact EM.wlp_mono (wlp_off (s0 := s) hr ho h2 hb) (fun _ _ h => .inr h) (fun _ _ h => h)
    all_goals first | exact ih tm | exact (EM.wlp_pure _ _ _ _).2 (.inl ⟨rfl, rfl⟩)

/-! ## APL12 -/

/-- Packets that may be between OVF and its FUP. -/
def passed : Packet → Bool
  | .unknown | .pad | .mnt .. | .cbr .. | .tsc .. | .tma .. | .mtc .. | .cyc .. | .invalid => true
  | _ => false

/-- From `d`, the next FUP ends `n` bytes ahead, at `d'`. -/
inductive Gap (c : EvtCfg) : PktDec → List Packet → Nat → PktDec → Prop
  | fup (d d1 : PktDec) (a b n : Nat) (ps : List Packet) : pktDecNext c.pkt d = (d1, .ok (.fup a b, n)) → 0 < n →
    Gap c d (.fup a b :: ps) n d1
  | step (d d1 d2 : PktDec) (p : Packet) (n m : Nat) (ps : List Packet) : pktDecNext c.pkt d = (d1, .ok (p, n)) → 0 < n →
    passed p = true → Gap c d1 ps m d2 → Gap c d (p :: ps) (n + m) d2

theorem findOvf_gap (hcb : CbProgress c.pkt) : ∀ (n : Nat) (d : PktDec) (off m : Nat) (ps : List Packet), Left c fin d ps →
    findOvfFup c n d off = .ok (m + 1) → ∃ x d', Gap c d ps x d' ∧ m + 1 = off + x ∧ Left c fin d' (TraceView.behindFup ps)
  | 0, _, _, _, _, _, h => by cases h
  | n + 1, d, off, m, [], hl, h => by
    obtain ⟨d', h1⟩ := hl.nil_err
    unfold findOvfFup at h
    rw [h1] at h
    cases h
  | n + 1, d, off, m, p :: ps, hl, h => by
    obtain ⟨d1, k, h1, h2⟩ := hl.cons_ok
    obtain ⟨_, hk, _⟩ := next_ok hcb h1
    unfold findOvfFup at h
    rw [h1] at h
    dsimp only at h
    rw [if_neg (by omega)] at h
    by_cases ho : 2 ^ 31 ≤ off + k
    · rw [if_pos ho] at h; cases h
    · rw [if_neg ho] at h
      have ih : findOvfFup c n d1 (off + k) = .ok (m + 1) → passed p = true →
          TraceView.behindFup (p :: ps) = TraceView.behindFup ps →
          ∃ x d', Gap c d (p :: ps) x d' ∧ m + 1 = off + x ∧ Left c fin d' (TraceView.behindFup (p :: ps)) := by
        intro h3 h4 h5
        obtain ⟨x, d', k1, k2, k3⟩ := findOvf_gap hcb n d1 (off + k) m ps h2 h3
        exact ⟨k + x, d', .step _ _ _ _ _ _ _ h1 hk h4 k1, by omega, by rw [h5]; exact k3⟩
      cases p
      case fup a b =>
        injection h with h
        exact ⟨k, d1, .fup _ _ _ _ _ _ h1 hk, h.symm, h2⟩
      all_goals first | exact ih h rfl rfl | cases h

theorem Gap.pos {d d' : PktDec} {ps : List Packet} {x : Nat} (h : Gap c d ps x d') :
    0 < x ∧ ∃ pos, d.pos = some pos ∧ d' = { d with pos := some (pos + x) } ∧ pos + x ≤ c.pkt.mem.length := by
  have key : ∀ {d d1 : PktDec} {p : Packet} {n : Nat}, pktDecNext c.pkt d = (d1, .ok (p, n)) → p ≠ .ovf →
      ∃ pos, d.pos = some pos ∧ d1 = { d with pos := some (pos + n) } ∧ (p ≠ .invalid → pos + n ≤ c.pkt.mem.length) := by
    intro d d1 p n h hp
    unfold pktDecNext at h
    cases hd : d.pos with
    | none => simp [hd, pktNext] at h
    | some pos =>
      rw [hd] at h
      cases hk : pktDecode c.pkt pos with
      | err e => simp [pktNext, hk] at h
      | ub => simp [pktNext, hk] at h
      | ok r =>
        obtain ⟨p1, n1, k1⟩ := r
        have h1 := pktDecode_size hk
        simp only [pktNext, hk, Res.bind_ok, Res.pure_eq] at h
        have e1 : d1 = { d with pos := some (pos + k1 + n1) } := by injection h with a b; exact a.symm
        have e2 : p1 = p ∧ n1 = n := by
          injection h with a b; injection b with b; injection b with b1 b2; exact ⟨b1, b2⟩
        obtain ⟨rfl, rfl⟩ := e2
        rcases h1.2.2.2 with ⟨rfl, h2⟩ | ⟨rfl, _, h2, _⟩ | ⟨_, _, h2, _⟩
        · exact ⟨pos, rfl, e1, fun _ => h2⟩
        · exact ⟨pos, rfl, e1, fun h3 => absurd h2 h3⟩
        · exact absurd h2 hp
  induction h with
  | fup d d1 a b n ps h1 hn =>
    obtain ⟨pos, k1, k2, k3⟩ := key h1 (by simp)
    exact ⟨hn, pos, k1, k2, k3 (by simp)⟩
  | step d d1 d2 p n m ps h1 hn hp _ ih =>
    obtain ⟨pos, k1, k2, _⟩ := key h1 (by rintro rfl; cases hp)
    obtain ⟨i1, pos1, i2, i3, i4⟩ := ih
    subst k2
    injection i2 with i2
    subst i2
    exact ⟨by omega, pos, k1, by rw [i3, Nat.add_assoc], by omega⟩

/-- What the loop of `pt_evt_handle_apl12` finds. -/
theorem apl12Loop_go {off : Nat} : ∀ (n : Nat) (d : PktDec) (ps : List Packet) (s : Evd) (Q : Bool → Evd → Prop) (E : Err → Evd → Prop),
    Left c fin d ps → (TraceView.unused fin ps = none → ∀ e s', E e s') → (TraceView.unused fin ps = some false → Q true s) →
    (TraceView.unused fin ps = some true → EM.wlp (recoverOvfAtOffset c off) Q E s) → EM.wlp (apl12Loop c off n d) Q E s
  | 0, _, _, _, _, _, _, _, _, _ => (EM.wlp_undef _ _ _).2 trivial
  | n + 1, d, [], s, Q, E, hl, h1, h2, h3 => by
    obtain ⟨d', k1⟩ := hl.nil_err
    unfold apl12Loop
    rw [k1]
    unfold TraceView.unused at h1 h2
    by_cases hf : fin = .eos
    · subst hf; exact (EM.wlp_pure _ _ _ _).2 (h2 rfl)
    · rw [if_neg hf] at h1
      have := (EM.wlp_fail (α := Bool) fin Q E s).2 (h1 rfl _ _)
      cases fin <;> first | exact absurd rfl hf | exact this
  | n + 1, d, p :: ps, s, Q, E, hl, h1, h2, h3 => by
    obtain ⟨d1, k, k1, k2⟩ := hl.cons_ok
    have ih := apl12Loop_go (off := off) n d1 ps s Q E k2
    unfold apl12Loop
    rw [k1]
    dsimp only
    cases p
    case psb =>
      unfold TraceView.unused at h1 h2 h3
      dsimp only
      rcases headerFup_found (c := c) (fin := fin) c.fuel d1 ps k2 with h4 | h4
      · rw [h4]; exact (EM.wlp_undef _ _ _).2 trivial
      · unfold FoundH at h4
        rcases hx : TraceView.headerIp fin ps with e | _ | ⟨ipc, ip⟩
        · rw [hx] at h4 h1 h2
          dsimp only at h4 h1 h2
          rw [h4]
          by_cases h5 : e = .eos
          · subst h5; exact (EM.wlp_pure _ _ _ _).2 (h2 rfl)
          · rw [if_neg h5] at h1
            have := (EM.wlp_fail (α := Bool) e Q E s).2 (h1 rfl _ _)
            cases e <;> first | exact absurd rfl h5 | exact this
        · rw [hx] at h4 h3
          dsimp only at h4
          rw [h4]
          exact h3 rfl
        · rw [hx] at h4 h2
          dsimp only at h4
          rw [h4]
          exact (EM.wlp_pure _ _ _ _).2 (h2 rfl)
    all_goals first | exact ih h1 h2 h3 | exact h3 rfl | exact (EM.wlp_pure _ _ _ _).2 (h2 rfl)

theorem apl12_time {p : Packet} {x : TimePkt} {k : Nat} {tm : Timing} {ps : List Packet} (h : TraceView.timeOf p = some x) :
    v.apl12 c k tm (p :: ps) = match tm.apply c.time x with
      | (tm, .ok _) => v.apl12 c (k + 1) tm ps
      | _ => .bad := by
  rw [TraceView.apl12.eq_def]
  dsimp only
  rw [h]
  dsimp only
  rcases tm.apply c.time x with ⟨_, _ | _ | _⟩ <;> rfl

/-- `pt_evt_recover_ovf_at_offset`: up to the FUP. -/
theorem toFup_go {x : Nat} {d' : PktDec} {ps : List Packet} {d : PktDec} (hg : Gap c d ps x d') :
    ∀ (n : Nat) (pre : List Packet) (s : Evd) (v : TraceView) (Q : Unit → Evd → Prop) (E : Err → Evd → Prop), s.pd = d →
    Rel c s v → s.bound = false →
    (cont c fin (v.apl12 c pre.length v.tm ps) (pre ++ ps) = ([], false) → ∀ e s', E e s') →
    (∀ s' tm, s'.pd = d' → Rel c s' { v with tm := tm } → s'.bound = false →
      cont c fin (v.apl12 c pre.length v.tm ps) (pre ++ ps) =
        cont c fin (({ v with tm := tm } : TraceView).says { data := .overflow 0, ipSuppressed := true }) (TraceView.behindFup ps) →
      Q () s') → EM.wlp (recoverAtOffsetLoop c n x) Q E s := by
  induction hg with
  | fup d d1 a b k ps h1 hk =>
    intro n pre s v Q E hd hr hb hE hq
    cases n with
    | zero => exact (EM.wlp_undef _ _ _).2 trivial
    | succ n =>
      unfold EM.wlp recoverAtOffsetLoop
      rw [hd, h1]
      dsimp only
      rw [if_neg (by omega), if_pos rfl]
      dsimp only
      refine hq _ v.tm rfl ⟨hr.ip, hr.tm, hr.on, hr.mode, hr.q, hr.fit, hr.hdr⟩ hb ?_
      exact cont_skip1 (v := v) _ hr.hdr.2.1 pre _ ps
  | step d d1 d2 p k m ps h1 hk hp hg ih =>
    intro n pre s v Q E hd hr hb hE hq
    cases n with
    | zero => exact (EM.wlp_undef _ _ _).2 trivial
    | succ n =>
      have hm := hg.pos.1
      have hgo : ∀ tm, v.apl12 c pre.length v.tm (p :: ps) = v.apl12 c (pre.length + 1) tm ps →
          EM.wlp (recoverAtOffsetLoop c n m) Q E { s with pd := d1, packet := p, size := k, tm := tm } := by
        intro tm htm
        have e1 : ∀ tm' k', (({ v with tm := tm } : TraceView).apl12 c k' tm' ps) = v.apl12 c k' tm' ps := by
          clear hE hq ih hg htm
          induction ps with
          | nil => intro _ _; rfl
          | cons q ps ih =>
            intro tm' k'
            unfold TraceView.apl12
            simp only [ih]
        refine ih n (pre ++ [p]) { s with pd := d1, packet := p, size := k, tm := tm } { v with tm := tm } Q E rfl
          ⟨hr.ip, rfl, hr.on, hr.mode, hr.q, hr.fit, hr.hdr⟩ hb ?_ ?_
        · intro h3
          refine hE ?_
          rw [htm]
          simpa [e1] using h3
        · intro s' tm' j1 j2 j3 j4
          refine hq s' tm' j1 j2 j3 ?_
          rw [htm]
          have hbf : TraceView.behindFup (p :: ps) = TraceView.behindFup ps := by cases p <;> first | rfl | cases hp
          rw [hbf, ← j4]
          simp [e1]
      refine EM.wlp_of_eq (m' := fun s0 =>
        match p.timing with
        | some t => (do applyTm c t; recoverAtOffsetLoop c n m) { s with pd := d1, packet := p, size := k }
        | none =>
          match p with
          | .modeExec .. | .modeTsx .. | .modeOther .. | .pip .. | .vmcs .. | .invalid | .unknown =>
            ({ s with pd := d1, packet := p, size := k }, .err .internal)
          | _ => recoverAtOffsetLoop c n m { s with pd := d1, packet := p, size := k }) ?_ ?_
      · rw [recoverAtOffsetLoop]
        dsimp only
        rw [hd, h1]
        dsimp only
        rw [if_neg (by omega), if_neg (by omega), show k + m - k = m by omega]
        cases p <;> rfl
      · have htime : ∀ t, TraceView.timeOf p = some t → EM.wlp (do applyTm c t; recoverAtOffsetLoop c n m) Q E
            { s with pd := d1, packet := p, size := k } := by
          intro t ht
          rw [EM.wlp_bind]
          unfold EM.wlp applyTm
          dsimp only
          rw [hr.tm]
          rcases hx : v.tm.apply c.time t with ⟨tm, _ | _ | _⟩
          · exact hgo tm (by rw [apl12_time ht, hx])
          · refine hE ?_ _ _
            rw [apl12_time ht, hx]; rfl
          · trivial
        have hsame : ({ s with pd := d1, packet := p, size := k } : Evd) = { s with pd := d1, packet := p, size := k, tm := v.tm } := by
          rw [← hr.tm]
        cases p
        case tsc => exact htime _ rfl
        case cbr => exact htime _ rfl
        case tma => exact htime _ rfl
        case mtc => exact htime _ rfl
        case cyc => exact htime _ rfl
        case unknown => exact hE rfl _ _
        case invalid => exact hE rfl _ _
        case pad => exact hsame ▸ hgo v.tm rfl
        case mnt => exact hsame ▸ hgo v.tm rfl
        all_goals cases hp

/-- What remains if no erratum applies. -/
def ovfDefault (c : EvtCfg) (r : Res Nat) : EM Bool :=
  match r with
  | .ub => EM.undef
  | .err .eos | .ok _ => aloneDone c { data := .overflow 0, ipSuppressed := true }
  | .err e => EM.fail e

theorem ovfNoFup_eq (c : EvtCfg) (r : Res Nat) : ovfNoFup c r = (do
  let s ← EM.get
  orElse (if c.pkt.errata.skd010 = true then skd010Loop c c.fuel s.pd s.tm none else pure true) do
  let s ← EM.get
  orElse (if c.pkt.errata.apl11 = true ∧ r = .err .badContext then apl11Loop c c.fuel s.pd s.tm else pure true)
    (ovfDefault c r)) := rfl

theorem ovf_go (hcb : CbProgress c.pkt) (htm : s.tm = v.tm) (hl : Left c fin s.pd rest)
    (ht : t = cont c fin (v.ovf c fin rest) rest) : EM.wlp (ovfEvent c) (Out c fin t) (Bad fin t) s := by
  unfold ovfEvent
  rw [EM.wlp_bind, EM.wlp_modify, EM.wlp_bind, EM.wlp_get]
  unfold TraceView.ovf at ht
  dsimp only at ht
  have hr : Rel c (ovfReset c s)
      { tm := ⟨v.tm.time, if c.keepTcalOnOvf = true then v.tm.tcal.updateOvf else {}⟩, lost := true } := by
    refine ⟨rfl, ?_, rfl, rfl, init_holds, by simp, rfl, rfl, rfl⟩
    show (⟨s.tm.time, if c.keepTcalOnOvf = true then s.tm.tcal.updateOvf else {}⟩ : Timing) = _
    rw [htm]
  generalize hvv : ({ tm := ⟨v.tm.time, if c.keepTcalOnOvf = true then v.tm.tcal.updateOvf else {}⟩, lost := true } : TraceView) = w
    at ht hr
  have hw : w.waiting = [] := by rw [← hvv]
  have htw : w.tm = ⟨v.tm.time, if c.keepTcalOnOvf = true then v.tm.tcal.updateOvf else {}⟩ := by rw [← hvv]
  rw [← htw] at ht
  have hl' : Left c fin (ovfReset c s).pd rest := hl
  have ho : Ord w.waiting := by rw [hw]; exact ord_nil
  have hg : Go c fin (ovfReset c s) w rest := ⟨⟨hr, ho, hl', rfl⟩, rfl⟩
  have hno : ∀ r, TraceView.resumes fin rest ≠ .ok true → r ≠ .ub → Found fin r rest →
      EM.wlp (ovfNoFup c r) (Out c fin t) (Bad fin t) (ovfReset c s) := by
    intro r h1 h2 h3
    have hlast : ∀ x, (x = none ∨ c.pkt.errata.skd010 = true ∧ ∃ o, x = some o) →
        t = cont c fin ((x : Option Outcome).getD (w.ovfOff c (TraceView.resumes fin rest) rest)) rest → x = none →
        EM.wlp (orElse (if c.pkt.errata.apl11 = true ∧ r = .err .badContext then
            apl11Loop c c.fuel (ovfReset c s).pd (ovfReset c s).tm else pure true)
          (ovfDefault c r)) (Out c fin t) (Bad fin t) (ovfReset c s) := by
      intro x _ ht hx
      subst hx
      dsimp only [Option.getD] at ht
      unfold TraceView.ovfOff at ht
      unfold Found at h3
      unfold orElse
      rw [EM.wlp_bind]
      rcases hx : TraceView.resumes fin rest with e | b
      · rw [hx] at ht h3
        obtain ⟨rfl, h4⟩ := h3
        dsimp only at ht
        by_cases ha : c.pkt.errata.apl11 = true ∧ e = .badContext
        · obtain ⟨ha, rfl⟩ := ha
          rw [if_pos ⟨ha, rfl⟩] at ht
          rw [if_pos ⟨ha, rfl⟩, hr.tm]
          refine EM.wlp_mono (apl11_go (v := w) c.fuel _ w.tm [] rest _ hr ho rfl hl') ?_ ?_
          · intro b s' h5
            rcases h5 with ⟨rfl, h5⟩ | ⟨rfl, h5⟩
            · rw [if_pos rfl]
              exact (EM.wlp_fail _ _ _ _).2 (bad_of (ht.trans h5))
            · rw [if_neg (by simp), EM.wlp_pure, ht]
              exact h5
          · intro e s' h5
            rw [ht]
            exact h5
        · rw [if_neg ha] at ht
          rw [if_neg (by rintro ⟨h5, h6⟩; cases h6; exact ha ⟨h5, rfl⟩), EM.wlp_pure, if_pos rfl]
          cases e <;> first | exact absurd rfl h4 | exact (EM.wlp_fail _ _ _ _).2 (bad_of ht)
      · cases b with
        | true => exact absurd hx h1
        | false =>
          rw [hx] at ht h3
          rcases h3 with rfl | rfl
          · rw [if_neg (by simp), EM.wlp_pure, if_pos rfl]
            exact hg.says ht
          · rw [if_neg (by simp), EM.wlp_pure, if_pos rfl]
            exact hg.says ht
    have ht' : t = cont c fin (((if c.pkt.errata.skd010 = true then w.skd010 c fin 0 w.tm none rest else none)).getD
        (w.ovfOff c (TraceView.resumes fin rest) rest)) rest := by
      rcases hx : TraceView.resumes fin rest with e | b
      · rw [hx] at ht; exact ht
      · cases b
        · rw [hx] at ht; exact ht
        · exact absurd hx h1
    rw [ovfNoFup_eq, EM.wlp_bind, EM.wlp_get]
    rw [orElse, EM.wlp_bind]
    by_cases hk : c.pkt.errata.skd010 = true
    · rw [if_pos hk] at ht' ⊢
      rw [hr.tm]
      refine EM.wlp_mono (skd010_go (v := w) c.fuel _ w.tm none [] rest _ hr hw rfl hl') ?_ ?_
      · intro b s' h5
        unfold Decl at h5
        rw [List.length_nil] at h5
        rcases hx : w.skd010 c fin 0 w.tm none rest with _ | o
        · rw [hx] at h5 ht'
          obtain ⟨rfl, rfl⟩ := h5
          rw [if_pos rfl, EM.wlp_bind, EM.wlp_get]
          exact hlast none (.inl rfl) ht' rfl
        · rw [hx] at h5 ht'
          obtain ⟨rfl, h5⟩ := h5
          rw [if_neg (by simp), EM.wlp_pure, ht']
          exact h5
      · intro e s' h5
        unfold DeclE at h5
        rw [List.length_nil] at h5
        rcases hx : w.skd010 c fin 0 w.tm none rest with _ | o
        · rw [hx] at h5; exact h5.elim
        · rw [hx] at h5 ht'
          rw [ht']
          exact h5
    · rw [if_neg hk] at ht' ⊢
      rw [EM.wlp_pure, if_pos rfl, EM.wlp_bind, EM.wlp_get]
      exact hlast none (.inl rfl) ht' rfl
  rcases findOvf_found hcb c.fuel (ovfReset c s).pd 0 rest hl' with h1 | h1
  · rw [h1]; exact (EM.wlp_undef _ _ _).2 trivial
  · cases hrr : findOvfFup c c.fuel (ovfReset c s).pd 0 with
    | ub => exact (EM.wlp_undef _ _ _).2 trivial
    | err e =>
      rw [hrr] at h1
      refine hno (.err e) ?_ (by simp) h1
      intro hx
      unfold Found at h1
      rw [hx] at h1
      obtain ⟨k, h1⟩ := h1
      cases h1
    | ok k =>
      rw [hrr] at h1
      cases k with
      | zero =>
        refine hno (.ok 0) ?_ (by simp) h1
        intro hx
        unfold Found at h1
        rw [hx] at h1
        obtain ⟨k, h1⟩ := h1
        cases h1
      | succ k =>
        have hx : TraceView.resumes fin rest = .ok true := by
          unfold Found at h1
          rcases hx : TraceView.resumes fin rest with _ | _ | _
          · rw [hx] at h1; obtain ⟨h1, _⟩ := h1; cases h1
          · rw [hx] at h1; rcases h1 with h1 | h1 <;> cases h1
          · rfl
        rw [hx] at ht
        dsimp only at ht ⊢
        unfold TraceView.ovfOn at ht
        have hfup : t = cont c fin (.quiet (w.wait (w.now { data := .overflow 0 }) .ownFup)) rest →
            EM.wlp ovfFup (Out c fin t) (Bad fin t) (ovfReset c s) := by
          intro ht
          unfold ovfFup
          rw [EM.wlp_bind]
          refine wlp_enqSlots hg.rel.q (by simp [lst, hw]) ?_
          intro q' k1 k2 k3 _ _
          unfold updEv
          rw [EM.wlp_bind, EM.wlp_modify, EM.wlp_pure]
          rw [wait_ok (by simp [hw]), cont_quiet, hw] at ht
          have p1 := put_last_holds k2 (i := ((ovfReset c s).q.begin + (lst w.waiting).length) % 16) (by rw [k3])
            (({ data := .overflow 0 } : Event).timed (ovfReset c s).tm.time)
          rw [hr.tm, timed_now] at p1
          refine St.more (v := { w with waiting := [(w.now { data := .overflow 0 }, .ownFup)] })
            ⟨⟨hr.ip, hr.tm, hr.on, hr.mode, ?_, ?_, hr.hdr⟩, ?_, hl', rfl⟩ ht
          · have e1 := hr.tm
            show (q'.put _ (Event.timed _ (ovfReset c s).tm.time)).Holds _
            rw [e1, timed_now]
            rw [hw] at p1
            rw [hw]
            exact p1
          · intro x hx; rw [List.mem_singleton.1 hx]; rfl
          · exact .inl (by intro y hy; rw [List.mem_singleton.1 hy]; simp)
        unfold orElse
        rw [EM.wlp_bind]
        by_cases ha : c.pkt.errata.apl12 = true
        · rw [if_pos ha] at ht ⊢
          obtain ⟨x, d', g1, g2, g3⟩ := findOvf_gap hcb _ _ _ _ _ hl' hrr
          obtain ⟨hx0, pos, g4, g5, g6⟩ := g1.pos
          unfold handleApl12
          rw [EM.wlp_bind, EM.wlp_get]
          have g7 : k + 1 = x := by omega
          rw [g7, g4]
          dsimp only [Option.getD]
          rw [if_neg (by omega), ← g5]
          refine apl12Loop_go (fin := fin) _ d' _ _ _ _ g3 ?_ ?_ ?_
          · intro h5 e s'; rw [h5] at ht; exact bad_of ht
          · intro h5; rw [h5] at ht; rw [if_pos rfl]; exact hfup ht
          · intro h5
            rw [h5] at ht
            unfold recoverOvfAtOffset
            rw [if_neg (by omega), EM.wlp_bind]
            refine toFup_go (fin := fin) g1 _ [] _ w _ _ rfl hr rfl ?_ ?_
            · intro h6 e s'; exact bad_of (ht.trans h6)
            · intro s' tm j1 j2 j3 j4
              unfold aloneDone alone timeEv updEv
              simp only [EM.wlp_bind, EM.wlp_modify, EM.wlp_pure]
              have h8 : EM.wlp (aloneDone c { data := .overflow 0, ipSuppressed := true }) (Out c fin t) (Bad fin t) s' :=
                aloneDone_says (v := { w with tm := tm }) (rest := TraceView.behindFup rest) j2 ho (by rw [j1]; exact g3) j3
                  (ht.trans j4)
              unfold aloneDone alone timeEv updEv at h8
              simp only [EM.wlp_bind, EM.wlp_modify, EM.wlp_pure] at h8
              refine EM.wlp_mono (wlp_fetchFalse h8) ?_ (fun _ _ h => h)
              rintro b s2 ⟨rfl, h9⟩
              rw [if_neg (by simp), EM.wlp_pure]
              exact h9
        · rw [if_neg ha] at ht ⊢
          rw [EM.wlp_pure, if_pos rfl]
          exact hfup ht

end Ipt.Events
