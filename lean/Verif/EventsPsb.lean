import Verif.EventsOvf

/-! Helper lemmas: the event decoder follows `Spec.trace`.  PSB+. -/

set_option linter.unusedSimpArgs false

namespace Ipt.Events

open Ipt Ipt.Spec

variable {c : EvtCfg} {fin : Err} {s : Evd} {v : TraceView} {rest : List Packet} {t : List Event × Bool} {st : List Event} {i : Nat}

/-- The decoder state `s` matches the view `v`, inside PSB+. -/
structure InH (c : EvtCfg) (fin : Err) (s : Evd) (v : TraceView) (st : List Event) (i : Nat) (rest : List Packet) : Prop where
  ip : s.ip = v.ip
  tm : s.tm = v.tm
  on : s.enabled = v.on
  mode : v.mode = if s.modeValid = true then some (s.csl, s.csd, c.enableIflags && s.iflag) else none
  q : s.q.Holds ((({ statusUpdate := true } : Event), evbPsbend) :: st.map (·, evbPsbend))
  i : i = s.q.begin
  kind : ∀ e ∈ st, e.data.inHeader = true
  wait : v.waiting = []
  hdr : v.header = some st ∧ v.skip = 0 ∧ s.status = if v.lost = true then some .nosync else none
  left : Left c fin s.pd rest
  bound : s.bound = false
  ev : s.event = none

/-- At the end of PSB+. -/
def EndH (c : EvtCfg) (fin : Err) (t : List Event × Bool) (s : Evd) : Prop :=
  ∃ v l rest, Hd c fin s v l rest ∧ s.event = none ∧
    t = (l.map v.settled ++ (trace c fin v (s.packet :: rest)).1, (trace c fin v (s.packet :: rest)).2)

/-- The result of a packet in PSB+. -/
def ResH (c : EvtCfg) (fin : Err) (t : List Event × Bool) (i : Nat) (rest : List Packet) (b : Bool) (s : Evd) : Prop :=
  if b = true then EndH c fin t s else ∃ v st, InH c fin s v st i rest ∧ t = trace c fin v rest

theorem kind_snoc {e : Event} (h : ∀ e ∈ st, e.data.inHeader = true) (he : e.data.inHeader = true) :
    ∀ x ∈ st ++ [e], x.data.inHeader = true := by
  intro x hx
  rcases List.mem_append.1 hx with hx | hx
  · exact h x hx
  · rw [List.mem_singleton.1 hx]; exact he

/-- One status event. -/
theorem wlp_status {e : Event} {Q : Unit → Evd → Prop} {E : Err → Evd → Prop} (h : InH c fin s v st i rest)
    (hk : e.data.inHeader = true) (hE : v.status st e = none → ∀ e s', E e s')
    (hq : ∀ q', v.status st e = some { v with header := some (st ++ [e]) } →
      InH c fin { s with q := q' } { v with header := some (st ++ [e]) } (st ++ [e]) i rest → Q () { s with q := q' }) :
    EM.wlp (enq evbPsbend e) Q E s := by
  refine wlp_enqs h.q ?_ ?_
  · intro hl
    simp only [List.length_cons, List.length_map] at hl
    exact hE (by unfold TraceView.status; rw [if_neg (by omega)]) _ _
  · intro q' hl h1 h2
    simp only [List.length_cons, List.length_map] at hl
    refine hq q' (by unfold TraceView.status; rw [if_pos (by omega)]) ⟨h.ip, h.tm, h.on, h.mode, ?_, ?_, kind_snoc h.kind hk, h.wait, ⟨rfl, h.hdr.2⟩, h.left, h.bound, h.ev⟩
    · simpa using h1
    · rw [h.i]; exact h2.symm

theorem wlp_clockH {tp : TimePkt} {Q : Unit → Evd → Prop} {E : Err → Evd → Prop} (h : InH c fin s v st i rest)
    (hE : v.clock c tp = none → ∀ e s', E e s')
    (hq : ∀ tm, v.clock c tp = some { v with tm := tm } → InH c fin { s with tm := tm } { v with tm := tm } st i rest →
      Q () { s with tm := tm }) : EM.wlp (applyTm c tp) Q E s := by
  unfold EM.wlp applyTm
  rw [h.tm]
  unfold TraceView.clock at hE hq
  rcases hx : v.tm.apply c.time tp with ⟨tm, ⟨⟩ | e | _⟩
  · rw [hx] at hq; exact hq tm rfl ⟨h.ip, rfl, h.on, h.mode, h.q, h.i, h.kind, h.wait, h.hdr, h.left, h.bound, h.ev⟩
  · rw [hx] at hE; exact hE rfl _ _
  · trivial

theorem wlp_gotoH {ipc ip : Nat} {Q : Unit → Evd → Prop} {E : Err → Evd → Prop} (h : InH c fin s v st i rest)
    (hE : v.goto ipc ip = none → ∀ e s', E e s')
    (hq : ∀ l, v.goto ipc ip = some { v with ip := l } → InH c fin { s with ip := l } { v with ip := l } st i rest →
      Q () { s with ip := l }) : EM.wlp (updIp ipc ip) Q E s := by
  unfold EM.wlp updIp
  rw [h.ip]
  unfold TraceView.goto at hE hq
  rcases hx : v.ip.update ipc ip with ⟨l, ⟨⟩ | e | _⟩
  · rw [hx] at hq; exact hq l rfl ⟨rfl, h.tm, h.on, h.mode, h.q, h.i, h.kind, h.wait, h.hdr, h.left, h.bound, h.ev⟩
  · rw [hx] at hE; exact hE rfl _ _
  · trivial

theorem wlp_modeH {csl csd f : Bool} {Q : Unit → Evd → Prop} {E : Err → Evd → Prop} (h : InH c fin s v st i rest)
    (hE : ¬ (v.mode = none ∨ v.mode = some (csl, csd, TraceView.ifBit c f)) → ∀ e s', E e s')
    (hq : ∀ s', (v.mode = none ∨ v.mode = some (csl, csd, TraceView.ifBit c f)) →
      InH c fin s' { v with mode := some (csl, csd, TraceView.ifBit c f) } st i rest → Q () s') :
    EM.wlp (checkModeExec c csl csd f) Q E s := by
  unfold EM.wlp checkModeExec
  have hm := h.mode
  unfold TraceView.ifBit at *
  by_cases hv : s.modeValid = true
  · rw [if_pos hv] at hm ⊢
    have key : (v.mode = none ∨ v.mode = some (csl, csd, c.enableIflags && f)) ↔
        (s.csl = csl ∧ s.csd = csd ∧ (c.enableIflags && s.iflag) = (c.enableIflags && f)) := by
      rw [hm]; simp
    by_cases h1 : c.enableIflags = true ∧ s.iflag ≠ f
    · rw [if_pos h1]
      refine hE ?_ _ _
      rw [key]
      rintro ⟨_, _, h4⟩
      rw [h1.1] at h4
      exact h1.2 (by simpa using h4)
    · rw [if_neg h1]
      by_cases h2 : s.csd ≠ csd
      · rw [if_pos h2]; exact hE (by rw [key]; exact fun h => h2 h.2.1) _ _
      · rw [if_neg h2]
        by_cases h3 : s.csl ≠ csl
        · rw [if_pos h3]; exact hE (by rw [key]; exact fun h => h3 h.1) _ _
        · rw [if_neg h3]
          have h2 : s.csd = csd := by simpa using h2
          have h3 : s.csl = csl := by simpa using h3
          have h4 : (c.enableIflags && s.iflag) = (c.enableIflags && f) := by
            revert h1; cases c.enableIflags <;> simp
          refine hq s (key.2 ⟨h3, h2, h4⟩) ⟨h.ip, h.tm, h.on, ?_, h.q, h.i, h.kind, h.wait, h.hdr, h.left, h.bound, h.ev⟩
          rw [if_pos hv, h2, h3, h4]
  · rw [if_neg hv] at hm ⊢
    exact hq _ (.inl hm) ⟨h.ip, h.tm, h.on, by rw [if_pos rfl], h.q, h.i, h.kind, h.wait, h.hdr, h.left, h.bound, h.ev⟩

/-- The status is complete. -/
theorem endH {e : Event} {b : Bool} (h : InH c fin s v st i rest) (hp : s.packet = .psbend ∨ s.packet = .ovf)
    (hk : e.data.inHeader = true) (hb : b = decide (s.packet = .psbend))
    (he : v.allStatus st b = (e :: st).map v.settled)
    (ht : t = trace c fin v (s.packet :: rest)) : EndH c fin t (s.setEv (.slot i) e) := by
  have hq := put_in_holds h.q (j := 0) (by simp) (i := i) (by rw [h.i]; have := h.q.begin; omega) e
  refine ⟨{ v with header := none }, e :: st, rest, ⟨h.ip, h.tm, h.on, h.mode, by simpa [Evd.setEv] using hq, ?_, h.wait, ⟨rfl, h.hdr.2⟩, h.left, hp, h.bound⟩, h.ev, ?_⟩
  · intro x hx
    rcases List.mem_cons.1 hx with rfl | hx
    · exact hk
    · exact h.kind x hx
  · show t = ((e :: st).map v.settled ++ (trace c fin { v with header := none } (s.packet :: rest)).1, (trace c fin { v with header := none } (s.packet :: rest)).2)
    rw [← he, ht, trace_cons h.hdr.2.1, trace_cons (v := { v with header := none }) h.hdr.2.1]
    unfold TraceView.fresh
    rw [h.hdr.1]
    rcases hp with hp | hp <;> rw [hp] at hb ⊢
    · rw [show b = true from hb]; rfl
    · rw [show b = false from hb]
      exact cont_after _ _ _

/-- A packet in PSB+ that is not the last one. -/
theorem trace_in (hh : v.header = some st) (hk : v.skip = 0) (p : Packet) (h1 : p ≠ .psbend) (h2 : p ≠ .ovf) :
    trace c fin v (p :: rest) = cont c fin (.quiet (v.inHeader c fin st p rest)) rest := by
  rw [trace_cons hk]
  unfold TraceView.fresh
  rw [hh]
  cases p <;> first | rfl | exact absurd rfl h1 | exact absurd rfl h2

/-- More packets in PSB+. -/
theorem resH_more {v' : TraceView} {st' : List Event} {o : Option TraceView} (h : InH c fin s v' st' i rest) (ho : o = some v')
    (ht : t = cont c fin (.quiet o) rest) : ResH c fin t i rest false s := by
  unfold ResH
  rw [if_neg (by simp)]
  refine ⟨v', st', h, ?_⟩
  rw [ht, ho, cont_quiet]

theorem statusH {e : Event} (h : InH c fin s v st i rest) (hk : e.data.inHeader = true)
    (ht : t = cont c fin (.quiet (v.status st e)) rest) :
    EM.wlp (do enq evbPsbend e; return false) (ResH c fin t i rest) (Bad fin t) s := by
  rw [EM.wlp_bind]
  refine wlp_status h hk ?_ ?_
  · intro hn _ _; rw [hn] at ht; exact bad_of ht
  · intro q' h1 h2
    rw [EM.wlp_pure]
    exact resH_more h2 h1 ht

theorem clockH {tp : TimePkt} (h : InH c fin s v st i rest) (ht : t = cont c fin (.quiet (v.clock c tp)) rest) :
    EM.wlp (do applyTm c tp; return false) (ResH c fin t i rest) (Bad fin t) s := by
  rw [EM.wlp_bind]
  refine wlp_clockH h ?_ ?_
  · intro hn _ _; rw [hn] at ht; exact bad_of ht
  · intro tm h1 h2
    rw [EM.wlp_pure]
    exact resH_more h2 h1 ht

theorem updH {f : Evd → Event → Event} {e : Event} {b : Bool} (h : InH c fin s v st i rest) (hp : s.packet = .psbend ∨ s.packet = .ovf)
    (hf : f s { statusUpdate := true } = e) (hk : e.data.inHeader = true) (hb : b = decide (s.packet = .psbend))
    (he : v.allStatus st b = (e :: st).map v.settled)
    (ht : t = trace c fin v (s.packet :: rest)) :
    EM.wlp (do updEv (.slot i) f; return true) (ResH c fin t i rest) (Bad fin t) s := by
  unfold updEv
  rw [EM.wlp_bind, EM.wlp_modify, EM.wlp_pure]
  unfold ResH
  rw [if_pos rfl]
  have hg : s.ev (.slot i) = { statusUpdate := true } := by
    have := get_in_holds h.q (j := 0) (by simp)
    show s.q.get i = _
    have hbg := h.q.begin
    rw [h.i]
    rw [Nat.add_zero, Nat.mod_eq_of_lt hbg] at this
    rw [this]; rfl
  rw [hg, hf]
  exact endH h hp hk hb he ht

/-- What `pt_evt_check_bdm70` finds. -/
theorem bdm70_found : ∀ (n : Nat) (d : PktDec) (ps : List Packet), Left c fin d ps →
    bdm70Loop c n d = .ub ∨ match TraceView.reenables fin ps with
      | some b => bdm70Loop c n d = .ok b
      | none => ∃ e, bdm70Loop c n d = .err e
  | 0, _, _, _ => .inl rfl
  | n + 1, d, [], h => by
    obtain ⟨d', h1⟩ := h.nil_err
    right
    unfold bdm70Loop TraceView.reenables
    rw [h1]
    by_cases hf : fin = .eos
    · subst hf; rfl
    · rw [if_neg hf]
      refine ⟨fin, ?_⟩
      cases fin <;> first | exact absurd rfl hf | rfl
  | n + 1, d, p :: ps, h => by
    obtain ⟨d1, k, h1, h2⟩ := h.cons_ok
    unfold bdm70Loop
    rw [h1]
    have ih := bdm70_found n d1 ps h2
    cases p <;> first | exact ih | exact .inr rfl

theorem wlp_bdm70 {Q : Bool → Evd → Prop} {E : Err → Evd → Prop} (hl : Left c fin s.pd rest)
    (hE : TraceView.bdm70 c fin rest = none → ∀ e s', E e s')
    (hq : ∀ b, TraceView.bdm70 c fin rest = some b → Q b s) : EM.wlp (checkBdm70 c) Q E s := by
  unfold EM.wlp checkBdm70
  unfold TraceView.bdm70 at hE hq
  by_cases hb : c.pkt.errata.bdm70 = true
  · rw [if_pos hb] at hE hq
    rw [if_pos hb]
    rcases bdm70_found (c := c) (fin := fin) c.fuel s.pd rest hl with h | h
    · rw [h]; trivial
    · rcases hx : TraceView.reenables fin rest with _ | b
      · rw [hx] at h
        obtain ⟨e, h⟩ := h
        rw [h]
        exact hE hx _ _
      · rw [hx] at h
        dsimp only at h
        rw [h]
        exact hq b hx
  · rw [if_neg hb] at hE hq
    rw [if_neg hb]
    exact hq false rfl

theorem psbPacket_go {p : Packet} (h : InH c fin s v st i rest) (hp : s.packet = p)
    (ht : t = trace c fin v (p :: rest)) : EM.wlp (psbPacket c i) (ResH c fin t i rest) (Bad fin t) s := by
  by_cases h1 : p = .psbend
  · subst h1
    by_cases hon : s.enabled = true
    · refine EM.wlp_of_eq (m' := do updEv (.slot i) fun _ e => { e with data := .enabled 0 }; return true) (by unfold psbPacket; rw [hp]; dsimp only; rw [if_pos hon]) ?_
      exact updH h (.inl hp) rfl rfl (by rw [hp]) (by unfold TraceView.allStatus; rw [← h.on, if_pos hon]) (by rw [hp]; exact ht)
    · refine EM.wlp_of_eq (m' := do updEv (.slot i) fun _ e => { e with data := .disabled 0, ipSuppressed := true }; return true) (by unfold psbPacket; rw [hp]; dsimp only; rw [if_neg hon]) ?_
      exact updH h (.inl hp) rfl rfl (by rw [hp]) (by unfold TraceView.allStatus; rw [← h.on, if_neg hon, if_pos (by simp)]) (by rw [hp]; exact ht)
  by_cases h2 : p = .ovf
  · subst h2
    by_cases hon : s.enabled = true
    · refine EM.wlp_of_eq (m' := do updEv (.slot i) fun _ e => { e with data := .enabled 0 }; return true) (by unfold psbPacket; rw [hp]; dsimp only; rw [if_pos hon]) ?_
      exact updH h (.inr hp) rfl rfl (by rw [hp]) (by unfold TraceView.allStatus; rw [← h.on, if_pos hon]) (by rw [hp]; exact ht)
    · refine EM.wlp_of_eq (m' := do psbDropHead i; return true) (by unfold psbPacket; rw [hp]; dsimp only; rw [if_neg hon]) ?_
      unfold psbDropHead
      rw [EM.wlp_bind, EM.wlp_bind]
      refine wlp_deq h.q ?_ ?_
      · intro hn; simp [firstMatch, List.findIdx?_cons, matches_, evbPsbend] at hn
      · intro j x q' k1 k2 k3 k4 _
        have hj : j = 0 := by
          simp [firstMatch, List.findIdx?_cons, matches_, evbPsbend] at k1; exact k1.symm
        subst hj
        dsimp only
        rw [if_pos h.i.symm, EM.wlp_pure, EM.wlp_pure]
        unfold ResH
        rw [if_pos rfl]
        refine ⟨{ v with header := none }, st, rest, ⟨h.ip, h.tm, h.on, h.mode, by simpa using k3, h.kind, h.wait, ⟨rfl, h.hdr.2⟩, h.left, .inr hp, h.bound⟩, h.ev, ?_⟩
        rw [ht, hp, trace_cons h.hdr.2.1, trace_cons (v := { v with header := none }) h.hdr.2.1]
        unfold TraceView.fresh
        rw [h.hdr.1]
        dsimp only
        rw [cont_after]
        unfold TraceView.allStatus
        rw [← h.on, if_neg hon, if_neg (by simp)]
        rfl
  rw [trace_in h.hdr.1 h.hdr.2.1 p h1 h2] at ht
  have hbad : v.inHeader c fin st p rest = none → EM.wlp (fun s => (s, .err .badContext)) (ResH c fin t i rest) (Bad fin t) s := by
    intro hn
    rw [hn] at ht
    exact bad_of (s := s) ht
  have hskip : v.inHeader c fin st p rest = some v → EM.wlp (fun s => (s, .ok false)) (ResH c fin t i rest) (Bad fin t) s := by
    intro hn
    exact resH_more h hn ht
  cases p with
  | psbend => exact absurd rfl h1
  | ovf => exact absurd rfl h2
  | invalid =>
    unfold TraceView.inHeader at ht
    dsimp only at ht
    have hst := h.hdr.2.2
    rcases Bool.eq_false_or_eq_true v.lost with hx | hx
    · rw [hx, if_pos rfl] at ht hst
      refine EM.wlp_of_eq (m' := EM.fail .nosync) (by unfold psbPacket; rw [hp]; dsimp only; rw [hst]; rfl) ?_
      exact (EM.wlp_fail _ _ _ _).2 (bad_of ht)
    · rw [hx, if_neg (by simp)] at ht hst
      refine EM.wlp_of_eq (m' := pure false) (by unfold psbPacket; rw [hp]; dsimp only; rw [hst]; rfl) ?_
      rw [EM.wlp_pure]
      exact resH_more h rfl ht
  | fup a b =>
    refine EM.wlp_of_eq (m' := do headerFup c a b; return false) (by unfold psbPacket; rw [hp]) ?_
    unfold headerFup
    rw [EM.wlp_bind, EM.wlp_bind]
    unfold TraceView.inHeader at ht
    dsimp only at ht
    refine wlp_bdm70 h.left ?_ ?_
    · intro hn _ _; rw [hn] at ht; exact bad_of ht
    intro hit hx
    rw [hx] at ht
    dsimp only [Option.bind] at ht
    by_cases ha : a = 0 ∨ hit = true
    · rw [if_pos ha] at ht
      rw [if_pos ha, EM.wlp_modify, EM.wlp_pure]
      exact resH_more (v' := { v with on := false }) ⟨h.ip, h.tm, rfl, h.mode, h.q, h.i, h.kind, h.wait, h.hdr, h.left, h.bound, h.ev⟩ rfl ht
    · rw [if_neg ha] at ht
      rw [if_neg ha, EM.wlp_bind, EM.wlp_modify]
      have h' : InH c fin { s with enabled := true } { v with on := true } st i rest := ⟨h.ip, h.tm, rfl, h.mode, h.q, h.i, h.kind, h.wait, h.hdr, h.left, h.bound, h.ev⟩
      refine wlp_gotoH h' ?_ ?_
      · intro hn _ _; rw [hn] at ht; exact bad_of ht
      · intro l k1 k2
        rw [EM.wlp_pure]
        exact resH_more k2 k1 ht
  | modeExec a b f =>
    refine EM.wlp_of_eq (m' := do headerModeExec c a b f; return false) (by unfold psbPacket; rw [hp]) ?_
    unfold headerModeExec
    rw [EM.wlp_bind, EM.wlp_bind]
    unfold TraceView.inHeader at ht
    dsimp only at ht
    refine wlp_modeH h ?_ ?_
    · intro hn _ _; rw [if_neg hn] at ht; exact bad_of ht
    · intro s' hm h'
      rw [if_pos hm, ← execMode_modeOf] at ht
      rw [EM.wlp_bind]
      refine wlp_status h' rfl ?_ ?_
      · intro hn _ _; rw [hn] at ht; exact bad_of ht
      · intro q' k1 k2
        rw [k1] at ht
        replace ht : t = cont c fin (.quiet (if c.enableIflags = true then _ else _)) rest := ht
        refine EM.wlp_ite ?_ ?_
        · intro hi
          rw [if_pos hi] at ht
          refine wlp_status k2 rfl ?_ ?_
          · intro hn _ _; rw [hn] at ht; exact bad_of ht
          · intro q2 j1 j2
            rw [EM.wlp_pure]
            exact resH_more j2 j1 ht
        · intro hi
          rw [if_neg hi] at ht
          rw [EM.wlp_pure, EM.wlp_pure]
          exact resH_more k2 rfl ht
  | modeTsx a b => exact EM.wlp_of_eq (by unfold psbPacket; rw [hp]) (statusH h rfl ht)
  | modeOther a => exact EM.wlp_of_eq (by unfold psbPacket; rw [hp]) (hskip rfl)
  | pad => exact EM.wlp_of_eq (by unfold psbPacket; rw [hp]) (hskip rfl)
  | pip a b => exact EM.wlp_of_eq (by unfold psbPacket; rw [hp]) (statusH h rfl ht)
  | vmcs a => exact EM.wlp_of_eq (by unfold psbPacket; rw [hp]) (statusH h rfl ht)
  | mnt a => exact EM.wlp_of_eq (by unfold psbPacket; rw [hp]) (statusH h rfl ht)
  | tsc a => exact EM.wlp_of_eq (by unfold psbPacket; rw [hp]) (clockH h ht)
  | tma a b => exact EM.wlp_of_eq (by unfold psbPacket; rw [hp]) (clockH h ht)
  | mtc a => exact EM.wlp_of_eq (by unfold psbPacket; rw [hp]) (clockH h ht)
  | cyc a => exact EM.wlp_of_eq (by unfold psbPacket; rw [hp]) (clockH h ht)
  | cbr r =>
    refine EM.wlp_of_eq (m' := do
      applyTm c (.hCbr r)
      enq evbPsbend { data := .cbr r, statusUpdate := true }
      return false) (by unfold psbPacket; rw [hp]) ?_
    rw [EM.wlp_bind]
    unfold TraceView.inHeader at ht
    dsimp only at ht
    refine wlp_clockH h ?_ ?_
    · intro hn _ _; rw [hn] at ht; exact bad_of ht
    · intro tm k1 k2
      rw [k1] at ht
      exact statusH k2 rfl ht
  | _ => exact EM.wlp_of_eq (by unfold psbPacket; rw [hp]) (hbad rfl)

theorem psbLoop_go (n : Nat) : ∀ (s : Evd) (v : TraceView) (st : List Event) (rest : List Packet),
    InH c fin s v st i rest → t = trace c fin v rest →
    EM.wlp (psbLoop c i n) (fun _ => EndH c fin t) (Bad fin t) s := by
  induction n with
  | zero => intro _ _ _ _ _ _; exact (EM.wlp_undef _ _ _).2 trivial
  | succ n ih =>
    intro s v st rest h ht
    unfold psbLoop
    rw [EM.wlp_bind]
    refine wlp_fetch_left h.left ?_ ?_
    · intro pd p size k ps h1 h2 h4
      rw [EM.wlp_bind]
      rw [h1, trace_pads h.hdr.2.1] at ht
      have h' : InH c fin { s with pd := pd, packet := p, size := size } v st i ps :=
        ⟨h.ip, h.tm, h.on, h.mode, h.q, h.i, h.kind, h.wait, h.hdr, h4, h.bound, h.ev⟩
      refine EM.wlp_mono (psbPacket_go h' rfl ht) ?_ (fun _ _ h => h)
      intro b s' hb
      unfold ResH at hb
      cases b with
      | true => rw [if_pos rfl] at hb ⊢; rw [EM.wlp_pure]; exact hb
      | false =>
        rw [if_neg (by simp)] at hb ⊢
        obtain ⟨v', st', k1, k2⟩ := hb
        exact ih s' v' st' ps k1 k2
    · intro pd k h1
      rw [EM.wlp_bind]
      have := trace_pads (c := c) (fin := fin) h.hdr.2.1 k []
      rw [List.append_nil] at this
      rw [h1, this] at ht
      exact ⟨by rw [ht]; rfl, fun _ => rfl⟩

theorem decodePsb_go (h : Go c fin s v rest)
    (ht : t = cont c fin (if v.waiting = [] then .quiet (some { v with on := false, ip := {}, header := some [] }) else .bad) rest) :
    EM.wlp (decodePsb c) (fun _ => EndH c fin t) (Bad fin t) s := by
  unfold decodePsb
  rw [EM.wlp_bind]
  unfold psbPending
  unfold EM.wlp
  dsimp only
  rw [pending_holds h.rel.q]
  have hq := h.rel.q
  cases hw : v.waiting with
  | cons x l' =>
    have : (lst (x :: l')).any (matches_ (2 ^ 32 - 1)) = true := by
      unfold lst
      rw [List.any_map, List.any_cons, show (matches_ (2 ^ 32 - 1) ∘ fun x : Event × Waits => (x.1, mask x.2)) x = true from any_pred x.2]; rfl
    rw [this]
    rw [hw, if_neg (by simp)] at ht
    exact bad_of ht
  | nil =>
    rw [hw] at hq
    rw [hw, if_pos rfl, cont_quiet] at ht
    refine (?_ : EM.wlp _ _ _ _)
    rw [EM.wlp_bind, EM.wlp_modify, EM.wlp_bind]
    refine wlp_enqSlots (s := { s with ip := {}, enabled := false }) hq (by simp [lst]) fun q' _ a2 a3 _ _ => ?_
    unfold updEv
    rw [EM.wlp_bind, EM.wlp_modify]
    have hb' := hq.begin
    refine psbLoop_go _ _ { v with on := false, ip := {}, header := some [] } [] rest
      ⟨rfl, h.rel.tm, rfl, h.rel.mode, ?_, ?_, by simp, hw, ⟨rfl, h.rel.hdr.2⟩, h.left, h.bd, h.ev⟩ ?_
    · exact put_last_holds (l := []) a2 (by rw [a3]; rfl) _
    · show _ = q'.begin
      rw [a3]
      simp only [lst, List.map_nil, List.length_nil, Nat.add_zero]
      omega
    · rw [ht, hw]

end Ipt.Events
