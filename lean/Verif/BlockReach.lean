import Verif.BlockWait

/-!
# Helper lemmas: proceeding to an event, by its type
-/

set_option linter.unusedSimpArgs false

namespace Ipt

open Ild Spec Props BM

variable {c : BlkCfg} {f0 f : Flow} {n0 : Int} {is : List Insn} {its : List Item} {s s' : Bdec} {i : Insn} {e0 e : Event}

/-! ### Address filters -/

theorem hit_noerr (g : AddrFilter) (ty ip : Nat) : ∀ (n k : Nat) (er : Err), g.hit ty ip n k ≠ .err er
  | 0, _, _ => by unfold AddrFilter.hit; simp
  | n + 1, k, er => by
    unfold AddrFilter.hit
    split
    · exact hit_noerr g ty ip n _ er
    · have ha : (∃ a, g.addrA k = .ok a) ∨ g.addrA k = .ub := by
        unfold AddrFilter.addrA
        split
        · exact .inl ⟨_, rfl⟩
        · split
          · exact .inl ⟨_, rfl⟩
          · exact .inr rfl
      have hb : (∃ a, g.addrB k = .ok a) ∨ g.addrB k = .ub := by
        unfold AddrFilter.addrB
        split
        · exact .inl ⟨_, rfl⟩
        · split
          · exact .inl ⟨_, rfl⟩
          · exact .inr rfl
      rcases ha with ⟨a, ha⟩ | ha <;> rw [ha]
      · rcases hb with ⟨b, hb⟩ | hb <;> rw [hb]
        · show (if a ≤ ip ∧ ip ≤ b then Res.ok true else g.hit ty ip n (k + 1)) ≠ _
          split
          · simp
          · exact hit_noerr g ty ip n _ er
        · show Res.ub ≠ _
          simp
      · show Res.ub ≠ _
        simp

theorem check_noerr (g : AddrFilter) (ip : Nat) (er : Err) : g.check ip ≠ .err er := by
  unfold AddrFilter.check AddrFilter.checkStop
  rcases h : g.hit 2 ip filterNcfg 0 with b | x | _
  · show (if (!b) = false then Res.ok false else g.checkFilter ip) ≠ _
    split
    · simp
    · unfold AddrFilter.checkFilter
      rcases h : g.hit 1 ip filterNcfg 0 with b | x | _
      · show (if b = true then Res.ok true else Res.ok _) ≠ _
        split <;> simp
      · exact absurd h (hit_noerr _ _ _ _ _ _)
      · show Res.ub ≠ _
        simp
  · exact absurd h (hit_noerr _ _ _ _ _ _)
  · show Res.ub ≠ _
    simp

theorem addr_inj {t t' : Nat} {v : Int} (h : Addr t v) (h' : Addr t' v) : t = t' := by
  obtain ⟨h1, k, h2⟩ := h
  obtain ⟨h3, k', h4⟩ := h'
  omega

/-! ### The instruction flow decoder's view -/

/-- The flag that says that an event of this kind was shown for the postponed instruction. -/
def Bdec.boundTo (s : Bdec) : Kind → Bool
  | .paging => s.boundPaging
  | .vmcs => s.boundVmcs
  | .ptwrite => s.boundPtwrite
  | .iret => s.boundIret
  | .vmentry => s.boundVmentry
  | .uiret => s.boundUiret

/-- Set it. -/
def Bdec.mark (k : Kind) (s : Bdec) : Bdec :=
  match k with
  | .paging => { s with boundPaging := true }
  | .vmcs => { s with boundVmcs := true }
  | .ptwrite => { s with boundPtwrite := true }
  | .iret => { s with boundIret := true }
  | .vmentry => { s with boundVmentry := true }
  | .uiret => { s with boundUiret := true }

/-- What proceeding to an event ends with. -/
inductive Reach (c : BlkCfg) (f0 : Flow) (e0 : Event) (n0 : Int) (s : Bdec) : Flags → Bdec → Prop
  /-- The event is not reached. -/
  | some {is : List Insn} {f : Flow} {e : Event} {s' : Bdec} : Wait c f0 e0 n0 is s' f e → s'.quiet = s.quiet → Reach c f0 e0 n0 s {} s'
  /-- The event comes next. -/
  | event {is : List Insn} {f : Flow} {e : Event} {s' : Bdec} {fl : Flags} : Wait c f0 e0 n0 is s' f e → s'.quiet = s.quiet → f.Comes e → fl.eventPending = true →
    Reach c f0 e0 n0 s fl s'
  /-- An instruction the event belongs to. -/
  | held {is : List Insn} {f : Flow} {i : Insn} {k : Kind} {l : Option Nat} {s' : Bdec} {fl : Flags} : Held c f0 e0 n0 is s' f e0 i → s'.quiet = s.quiet → s.enabled = true →
    Kind.of e0.data = .some (k, l) → Belongs e0 k l i → fl.eventPending = true →
    Reach c f0 e0 n0 s fl { s'.mark k with insn := .some i }
  /-- An instruction that disables tracing. -/
  | leave {is : List Insn} {f : Flow} {e : Event} {i : Insn} {ip t : Nat} {s' : Bdec} {fl : Flags} : Held c f0 e0 n0 is s' f e i → s'.quiet = s.quiet → e.data = .disabled ip →
    e.statusUpdate = false → Leaves c e i t → fl.eventPending = true → Reach c f0 e0 n0 s fl { s' with ip := t }

theorem Wait.enabled (h : Wait c f0 e0 n0 is s f e) : f.enabled = f0.enabled := by
  rw [h.so.walk.same]

theorem Wait.quietIp (h : Wait c f0 e0 n0 is s f e) : f.ip = s.ip := h.so.stands.ip

/-- `pt_blk_proceed_skl014` -/
theorem skl014_wait (henv : c.env.Ok) (hcb : CbNoBq c) {ip : Nat} (hd : e.data = .disabled ip) (hs : e.ipSuppressed = true)
    (hu : e.statusUpdate = false) (hf : c.filter.cfg ≠ 0) (hk : c.evt.pkt.errata.skl014 = true) (h1 : c.endOnCall = false)
    (h2 : c.endOnJump = false) :
    ∀ (n : Nat) (is : List Insn) (s : Bdec) (f : Flow), Wait c f0 e0 n0 is s f e →
    wp (skl014Loop c n) (fun b s' => s'.quiet = s.quiet ∧ ∃ is' f',
        if b = true then ∃ i, Held c f0 e0 n0 is' s' f' e i ∧ (changesCr3 i.ext = true ∨ Outside c i)
        else Wait c f0 e0 n0 is' s' f' e)
      (Stops c f0 e0 e n0 s.quiet) s
  | 0, is, s, f, h => trivial
  | n + 1, is, s, f, h => by
    have hnear : ∀ x t, nearer x t e = e := by intro x t; unfold nearer; rw [hd]
    have hat : ∀ g : Flow, ¬ g.IsAt e := by
      intro g hg
      unfold Flow.IsAt at hg
      rw [hd] at hg
      dsimp only at hg
      rw [hs, hu] at hg
      simp at hg
    unfold skl014Loop
    rw [wp_bind]
    refine wp_mono (toInsn_wait henv hcb isSkl014 (fun g i hp => ?_) _ is s f h) (fun b s1 hb => ?_) fun er s1 he hq => he hq
    · refine ⟨hat g, ?_, hnear⟩
      intro ho
      unfold IsOn at ho
      rw [hd] at ho
      obtain ⟨-, ⟨h3, h4⟩ | ⟨-, -, h3, h4, -⟩⟩ := ho
      · unfold isSkl014 at hp
        rw [h3] at hp
        dsimp only at hp
        rw [h4] at hp
        cases hp
      · unfold isSkl014 at hp
        rcases h3 with h3 | h3 <;> rw [h3] at hp <;> dsimp only at hp
        · rw [h4.1] at hp; cases hp
        · rw [if_neg h4.2, h4.1] at hp; cases hp
    obtain ⟨hq, is1, f1, h3⟩ := hb
    rcases b with _ | _
    · rw [if_neg (by decide), wp_pure]
      rw [if_neg (by decide)] at h3
      exact ⟨hq, is1, f1, h3⟩
    rw [if_pos rfl] at h3
    obtain ⟨i, h4, h5⟩ := h3
    rw [if_pos rfl, wp_bind]
    refine wp_insn fun j hj => ?_
    have : j = i := by rw [h4.out] at hj; cases hj; rfl
    subst this
    rw [wp_ite]
    refine ⟨fun hp => ⟨hq, is1, f1, ?_⟩, fun hp => ?_⟩
    · rw [if_pos rfl]
      exact ⟨j, h4, .inl hp⟩
    have hcl : (j.ext.cls = .call ∨ j.ext.cls = .jump) ∧ Direct j := by
      have hsh := Spec.Flow.Known.shape h4.mid.known
      unfold isSkl014 at h5
      rcases hc : j.ext.cls <;> simp only [hc] at h5 <;> (try (cases h5; done))
      · exact absurd h5 hp
      · refine ⟨.inl rfl, h5, fun hx => ?_⟩
        have := hsh.1 hx
        rw [hc] at this; cases this
      · split at h5
        · cases h5
        · rename_i hx
          exact ⟨.inr rfl, h5, hx⟩
    have hn : nextIp j = .ok (addDisp ((j.ip + j.size) % 2 ^ 64) j.ext.displacement) := by
      unfold nextIp
      rcases hcl.1 with hc | hc <;> simp only [hc]
      · rw [if_pos hcl.2.1]
      · rw [if_neg hcl.2.2, if_pos hcl.2.1]
    rw [wp_bind, wp_lift, hn]
    dsimp only
    rw [wp_bind, wp_lift]
    have hadr := addr_target j j.ext.displacement
    rcases hck : c.filter.check (addDisp ((j.ip + j.size) % 2 ^ 64) j.ext.displacement) with b | er | _
    · rcases b with _ | _
      · dsimp only
        rw [if_neg (by decide), wp_pure]
        refine ⟨hq, is1, f1, ?_⟩
        rw [if_pos rfl]
        exact ⟨j, h4, .inr ⟨hk, hf, hcl.1, hcl.2, _, hadr, hck⟩⟩
      · dsimp only
        rw [if_pos rfl, wp_bind, wp_modify]
        have hno : ¬ IsOn c e j := by
          intro ho
          unfold IsOn at ho
          rw [hd] at ho
          obtain ⟨-, ⟨-, h4⟩ | ⟨-, -, -, -, t, h5, h6⟩⟩ := ho
          · exact hp h4
          · rw [addr_inj h5 hadr, hck] at h6
            cases h6
        have := next_wait h4 (hat f1) hno
        unfold nextInsn at this
        rw [wp_bind, wp_lift, hn] at this
        dsimp only at this
        rw [wp_modify] at this
        obtain ⟨t, calls, h6, h7, h8, h9⟩ := this
        rw [hnear] at h9
        have hend : c.endsBlock j = false := by unfold BlkCfg.endsBlock; rw [h1, h2]; rfl
        rw [hend, if_neg (by decide)]
        refine wp_mono (skl014_wait henv hcb hd hs hu hf hk h1 h2 n _ _ _ ⟨h8, h9, h4.event, h4.maps⟩) (fun b s3 hs => ?_)
          fun er s3 he hb => ?_
        · exact ⟨hs.1.trans hq, hs.2⟩
        · exact ⟨(he hb).1.trans hq, (he hb).2⟩
    · exact absurd hck (check_noerr _ _ _)
    · trivial

theorem asking_resume (h : Asking i) (hsh : (i.ext.inst = .jmpabs → i.ext.cls = .jump)) :
    Resume i (setDisableResumeIp i s).ip := by
  unfold Resume setDisableResumeIp
  have hd := h.2
  rcases hc : i.ext.cls <;> dsimp only <;> (try rfl)
  all_goals (try exact addr_fall i)
  · exact absurd (by rw [hc]; simp) h.1
  · have : i.ext.isDirect = false := by
      rcases hd with hd | hd
      · rw [hc] at hd; cases hd
      · rcases hb : i.ext.isDirect with _ | _
        · rfl
        · exact absurd ⟨hb, fun hx => by have := hsh hx; rw [hc] at this; cases this⟩ hd
    rw [this, if_neg (by decide)]
    exact addr_fall i
  · rw [if_neg]
    rcases hd with hd | hd
    · rw [hc] at hd; cases hd
    · exact hd
  · exact absurd (by rw [hc]; simp) h.1

theorem setDisable_eq : setDisableResumeIp i s = { s with ip := (setDisableResumeIp i s).ip } := by
  unfold setDisableResumeIp
  split <;> rfl

/-- A disabled event. -/
theorem reachDisabled_wait (henv : c.env.Ok) (hcb : CbNoBq c)
    (hend : c.evt.pkt.errata.skl014 = true → c.filter.cfg ≠ 0 → c.endOnCall = false ∧ c.endOnJump = false) {ip : Nat}
    (hd : e.data = .disabled ip) (h : Wait c f0 e0 n0 is s f e) :
    wp (reachDisabled c e ip) (Reach c f0 e0 n0 s) (fun _ _ => True) s := by
  have hnear : ∀ x t, nearer x t e = e := by intro x t; unfold nearer; rw [hd]
  have hon : ∀ j, IsOn c e j ↔ e.ipSuppressed = true ∧ (j.ext.cls = .other ∧ changesCr3 j.ext = true ∨ Outside c j) := by
    intro j
    unfold IsOn
    rw [hd]
  unfold reachDisabled
  rw [wp_ite]
  refine ⟨fun hu => ?_, fun hu => ?_⟩
  · refine .event h rfl ?_ rfl
    unfold Flow.Comes
    rw [hd]
    exact .inl hu
  have hu : e.statusUpdate = false := by simpa using hu
  rw [wp_bind, wp_try]
  have hat : ∀ g : Flow, g.IsAt e ↔ e.ipSuppressed = false ∧ g.ip = ip := by
    intro g
    unfold Flow.IsAt
    rw [hd]
    dsimp only
    rw [hu]
    simp
  have stop : ∀ er s1, Stops c f0 e0 e n0 s.quiet er s1 → wp (match ((none, some er) : Option Bool × Option Err) with
      | (some true, _) => blkStatus true
      | (some false, _) => pure {}
      | (none, some .badQuery) => do
        let i ← BM.insn
        BM.modify (setDisableResumeIp i)
        blkStatus true
      | (none, some e) => BM.fail e
      | (none, none) => BM.undef : BM Flags) (Reach c f0 e0 n0 s) (fun _ _ => True) s1 := by
    intro er s1 hst
    by_cases hb : er = .badQuery
    · subst hb
      obtain ⟨hq, is', f', i, h1, h2⟩ := hst rfl
      dsimp only
      rw [wp_bind]
      refine wp_insn fun j hj => ?_
      have : j = i := by rw [h1.out] at hj; cases hj; rfl
      subst this
      rw [wp_bind, wp_modify, setDisable_eq]
      exact .leave h1 hq hd hu (.inl ⟨h2, asking_resume h2 (Spec.Flow.Known.shape h1.mid.known).1⟩) rfl
    · cases er <;> first | trivial | exact absurd rfl hb
  have left : ∀ b s1, (s1.quiet = s.quiet ∧ ∃ is' f',
        if b = true then ∃ i, Held c f0 e0 n0 is' s1 f' e i ∧ (changesCr3 i.ext = true ∨ Outside c i)
        else Wait c f0 e0 n0 is' s1 f' e) → e.ipSuppressed = true → wp (match ((some b, none) : Option Bool × Option Err) with
      | (some true, _) => blkStatus true
      | (some false, _) => pure {}
      | (none, some .badQuery) => do
        let i ← BM.insn
        BM.modify (setDisableResumeIp i)
        blkStatus true
      | (none, some e) => BM.fail e
      | (none, none) => BM.undef : BM Flags) (Reach c f0 e0 n0 s) (fun _ _ => True) s1 := by
    intro b s1 ⟨hq, is', f', h1⟩ hsup
    rcases b with _ | _
    · rw [if_neg (by decide)] at h1
      exact .some h1 hq
    · rw [if_pos rfl] at h1
      obtain ⟨i, h1, h2⟩ := h1
      have := Reach.leave (fl := { eventPending := true, ipSuppressed := !s1.enabled, eos := s1.status == some .eos }) h1 hq hd hu
        (t := s1.ip) (.inr ⟨hsup, h2, by rw [← h1.mid.ip]; exact (Spec.Flow.Known.ip h1.mid.known).symm⟩) rfl
      exact this
  unfold toDisabled
  rw [wp_ite]
  refine ⟨fun hsup => ?_, fun hsup => ?_⟩
  · rw [wp_ite]
    refine ⟨fun hk => ?_, fun hk => ?_⟩
    · obtain ⟨he1, he2⟩ := hend hk.2 hk.1
      exact wp_mono (skl014_wait henv hcb hd hsup hu hk.1 hk.2 he1 he2 _ _ _ _ h) (fun b s1 hb => left b s1 hb hsup) stop
    · refine wp_mono (toInsn_wait henv hcb changesCr3 (fun g i hp => ?_) _ _ _ _ h) (fun b s1 hb => ?_) stop
      · refine ⟨fun hx => ?_, fun hx => ?_, hnear⟩
        · rw [hat, hsup] at hx; cases hx.1
        · rw [hon] at hx
          rcases hx with ⟨-, ⟨-, hx⟩ | ⟨h1, h2, -⟩⟩
          · rw [hp] at hx; cases hx
          · exact hk ⟨h2, h1⟩
      · refine left b s1 ⟨hb.1, ?_⟩ hsup
        obtain ⟨-, is', f', hb⟩ := hb
        refine ⟨is', f', ?_⟩
        rcases b with _ | _
        · exact hb
        · obtain ⟨i, h1, h2⟩ := hb
          exact ⟨i, h1, .inl h2⟩
  · have hsup' : e.ipSuppressed = false := by simpa using hsup
    refine wp_mono (toIp_wait henv hcb ip (fun g i hne _ => ?_) _ _ _ _ h) (fun b s1 hb => ?_) stop
    · refine ⟨fun hx => ?_, fun hx => ?_, fun t => hnear _ t⟩
      · rw [hat] at hx; exact hne hx.2
      · rw [hon] at hx; exact hsup hx.1
    · obtain ⟨hq, is', f', h1, h2⟩ := hb
      rcases b with _ | _
      · exact .some h1 hq
      · refine .event h1 hq ?_ rfl
        unfold Flow.Comes
        rw [hd]
        exact .inr ⟨hsup', by rw [h1.quietIp]; exact h2 rfl⟩

/-! ### Events that belong to instructions -/

theorem comes_here (hd : ∀ ip, e.data ≠ .disabled ip) (ht : ∀ ip, e.data ≠ .tip ip) (hn : ∀ b n, e.data ≠ .tnt b n)
    (h : (Kind.of e.data ≠ none → f.enabled = false) ∧ f.Reached e ∧ (countdown e = 0 ∨ f.enabled = false)) : f.Comes e := by
  unfold Flow.Comes
  rcases hx : e.data <;> dsimp only <;> (try rw [hx] at h) <;> first | exact h | exact absurd hx (hd _) | exact absurd hx (ht _) | exact absurd hx (hn _ _)

theorem isAt_here (hd : ∀ ip, e.data ≠ .disabled ip) : f.IsAt e → Kind.of e.data = none ∧ (∀ x, location e = some x → f.ip = x) ∧
    countdown e = 0 := by
  intro h
  unfold Flow.IsAt at h
  rcases hx : e.data <;> simp only [hx] at h <;> first | exact h | exact absurd hx (hd _)

theorem isOn_kind (hd : ∀ ip, e.data ≠ .disabled ip) : IsOn c e i → ∃ k l, Kind.of e.data = some (k, l) ∧ Belongs e k l i := by
  intro h
  unfold IsOn at h
  rcases hx : e.data <;> simp only [hx] at h <;> first | exact h | exact absurd hx (hd _)

theorem nearer_same (ht : ∀ a n m x, e.data ≠ .trig a n m x) (x t : Nat) : nearer x t e = e := by
  unfold nearer
  rcases hx : e.data <;> dsimp only
  exact absurd hx (ht _ _ _ _)

theorem kind_plain {k : Kind} {l : Option Nat} (h : Kind.of e.data = some (k, l)) :
    (∀ ip, e.data ≠ .disabled ip) ∧ (∀ a n m x, e.data ≠ .trig a n m x) ∧ (∀ ip, e.data ≠ .tip ip) ∧
    (∀ b n, e.data ≠ .tnt b n) ∧ location e = none ∧ countdown e = 0 := by
  unfold location countdown
  rcases hx : e.data <;> rw [hx] at h <;> first | (simp; done) | cases h

theorem held_reach {mk : Bdec → Bdec}
    (h : ∃ i, Held c f0 e0 n0 is s' f e0 i ∧ ∃ k l, Kind.of e0.data = some (k, l) ∧ Belongs e0 k l i ∧ mk = Bdec.mark k)
    (hq : s'.quiet = s.quiet) (hen : s.enabled = true) :
    wp (do BM.modify mk; postponeInsn) (Reach c f0 e0 n0 s) (fun _ _ => True) s' := by
  obtain ⟨i, h1, k, l, h2, h3, rfl⟩ := h
  rw [wp_bind, wp_modify]
  unfold postponeInsn
  rw [wp_bind]
  refine wp_insn fun j hj => ?_
  have : j = i := by
    have ho : (s'.mark k).out = s'.out := by cases k <;> rfl
    rw [ho, h1.out] at hj; cases hj; rfl
  subst this
  rw [wp_bind, wp_get, wp_ite]
  refine ⟨fun _ => trivial, fun _ => ?_⟩
  rw [wp_bind, wp_modify]
  exact .held h1 hq hen h2 h3 rfl

/-- An event without a location that belongs to an instruction. -/
theorem reachFits_wait (henv : c.env.Ok) (hcb : CbNoBq c) {k : Kind} {l : Option Nat} (hk : Kind.of e0.data = some (k, l))
    (hl : l = none ∨ e0.ipSuppressed = true) (hen : s.enabled = true) (h : Wait c f0 e0 n0 is s f e0) :
    wp (reachInsn (toInsn c k.fits) (Bdec.mark k)) (Reach c f0 e0 n0 s) (fun _ _ => True) s := by
  have hp := kind_plain hk
  have hb : ∀ j, Belongs e0 k l j ↔ k.fits j.ext = true := by
    intro j
    unfold Belongs
    rcases hl with rfl | hl
    · rfl
    · rcases l with _ | x
      · rfl
      · dsimp only; rw [if_pos hl]
  unfold reachInsn
  rw [wp_bind]
  refine wp_mono (toInsn_wait henv hcb _ (fun g j hj => ?_) _ _ _ _ h) (fun b s1 hs => ?_) fun _ _ _ => trivial
  · refine ⟨fun ha => ?_, fun ho => ?_, nearer_same hp.2.1⟩
    · rw [(isAt_here hp.1 ha).1] at hk; cases hk
    · obtain ⟨k', l', h1, h2⟩ := isOn_kind hp.1 ho
      rw [hk] at h1
      cases h1
      rw [hb, hj] at h2
      cases h2
  · obtain ⟨hq, is', f', h1⟩ := hs
    rcases b with _ | _
    · rw [if_neg (by decide)] at h1
      exact .some h1 hq
    · rw [if_pos rfl] at h1
      obtain ⟨i, h1, h2⟩ := h1
      rw [if_pos rfl]
      exact held_reach ⟨i, h1, k, l, hk, (hb i).2 h2, rfl⟩ hq hen

/-- An event that belongs to an instruction. -/
theorem reachKind_wait (henv : c.env.Ok) (hcb : CbNoBq c) {k : Kind} {ip : Nat} (hk : Kind.of e0.data = some (k, some ip))
    (hen : s.enabled = true) (h : Wait c f0 e0 n0 is s f e0) :
    wp (reachInsn (toKind c e0 k.fits ip) (Bdec.mark k)) (Reach c f0 e0 n0 s) (fun _ _ => True) s := by
  have hp := kind_plain hk
  by_cases hs : e0.ipSuppressed = true
  · have := reachFits_wait henv hcb hk (.inr hs) hen h
    unfold toKind
    rw [if_pos hs]
    exact this
  have hb : ∀ j, Belongs e0 k (some ip) j ↔ j.ip = ip := by
    intro j
    unfold Belongs
    dsimp only
    rw [if_neg hs]
  unfold reachInsn toKind
  rw [if_neg hs, wp_bind, wp_bind]
  refine wp_mono (toIp_wait henv hcb ip (fun g j hne hj => ?_) _ _ _ _ h) (fun b s1 hs => ?_) fun _ _ _ => trivial
  · refine ⟨fun ha => ?_, fun ho => ?_, fun t => nearer_same hp.2.1 _ t⟩
    · rw [(isAt_here hp.1 ha).1] at hk; cases hk
    · obtain ⟨k', l', h1, h2⟩ := isOn_kind hp.1 ho
      rw [hk] at h1
      cases h1
      rw [hb, hj] at h2
      exact hne h2
  · obtain ⟨hq, is', f', h1, h2⟩ := hs
    rcases b with _ | _
    · rw [if_neg (by decide), wp_pure, if_neg (by decide)]
      exact .some h1 hq
    · rw [if_pos rfl]
      refine wp_mono (one_wait henv hcb h1) (fun b s2 hs => ?_) fun _ _ _ => trivial
      obtain ⟨h3, h4⟩ := hs
      have hq' := (quiet_of_still h3).trans hq
      rcases b with _ | _
      · rw [if_neg (by decide)] at h4 ⊢
        exact .some h4.1 hq'
      · rw [if_pos rfl] at h4 ⊢
        obtain ⟨i, h4⟩ := h4
        refine held_reach ⟨i, h4, k, _, hk, (hb i).2 ?_, rfl⟩ hq' hen
        rw [Spec.Flow.Known.ip h4.mid.known, h1.quietIp]
        exact h2 rfl

/-- An event at a location. -/
theorem reachIp_wait (henv : c.env.Ok) (hcb : CbNoBq c) {x : Nat} (hk : Kind.of e.data = none) (hd : ∀ ip, e.data ≠ .disabled ip)
    (ht : ∀ a n m x, e.data ≠ .trig a n m x) (hl : location e = some x) (h : Wait c f0 e0 n0 is s f e) :
    wp (toIp c x) (fun b s' => s'.quiet = s.quiet ∧ ∃ is' f', Wait c f0 e0 n0 is' s' f' e ∧ (b = true → s'.ip = x ∧ f'.Comes e))
      (fun _ _ => True) s := by
  refine wp_mono (toIp_wait henv hcb x (fun g j hne hj => ?_) _ _ _ _ h) (fun b s1 hs => ?_) fun _ _ _ => trivial
  · refine ⟨fun ha => ?_, fun ho => ?_, fun t => nearer_same ht _ t⟩
    · exact hne ((isAt_here hd ha).2.1 x hl)
    · obtain ⟨k', l', h1, h2⟩ := isOn_kind hd ho
      rw [hk] at h1
      cases h1
  · obtain ⟨hq, is', f', h1, h2⟩ := hs
    refine ⟨hq, is', f', h1, fun hb => ⟨h2 hb, comes_here hd ?_ ?_ ⟨fun h => absurd hk h, fun y hy => .inl ?_, .inl ?_⟩⟩⟩
    · intro ip hx; unfold location at hl; rw [hx] at hl; cases hl
    · intro b n hx; unfold location at hl; rw [hx] at hl; cases hl
    · rw [hl] at hy; cases hy; rw [h1.quietIp]; exact h2 hb
    · unfold countdown
      rcases hx : e.data <;> dsimp only
      exact absurd hx (ht _ _ _ _)

theorem reachAt_wait (henv : c.env.Ok) (hcb : CbNoBq c) {x : Nat} (hk : Kind.of e.data = none) (hd : ∀ ip, e.data ≠ .disabled ip)
    (ht : ∀ a n m x, e.data ≠ .trig a n m x) (hl : location e = some x) (h : Wait c f0 e0 n0 is s f e) :
    wp (reachIp c x) (Reach c f0 e0 n0 s) (fun _ _ => True) s := by
  unfold reachIp
  rw [wp_bind]
  refine wp_mono (reachIp_wait henv hcb hk hd ht hl h) (fun b s1 hs => ?_) fun _ _ _ => trivial
  obtain ⟨hq, is', f', h1, h2⟩ := hs
  rcases b with _ | _
  · exact .some h1 hq
  · exact .event h1 hq (h2 rfl).2 rfl

/-! ### TRIG events -/

theorem Wait.located {a n : Nat} {m : Bool} {k : Nat} (h : Wait c f0 e0 n0 is s f e) (hd : e.data = .trig a n m 0)
    (hs : e.ipSuppressed = false) (hk : k ≤ n) :
    Wait c f0 e0 n0 is { s with event := some { e with data := .trig a (n - k) m s.ip } } f
      { e with data := .trig a (n - k) m f.ip } := by
  refine ⟨⟨h.so.walk, ⟨h.so.stands.ip, h.so.stands.mode, h.so.stands.asid, h.so.stands.sections, h.so.stands.calls⟩, h.so.count,
    h.so.lt, h.so.icnt, h.so.ends, h.so.trunc, h.so.wf, h.so.inv, h.so.mode⟩, ?_, ?_, h.maps⟩
  · have := h.waits.append (.locate a n m k hd hs hk (.nil _ _))
    rwa [List.append_nil] at this
  · rw [h.quietIp]

theorem trigLoop_wait (henv : c.env.Ok) (hcb : CbNoBq c) {a : Nat} {m : Bool} (hs : e.ipSuppressed = false) :
    ∀ (n : Nat) (is : List Insn) (s : Bdec) (f : Flow), Wait c f0 e0 n0 is s f { e with data := .trig a n m f.ip } →
    wp (trigLoop c e a m n) (fun b s' => s'.quiet = s.quiet ∧ ∃ is' f' n', Wait c f0 e0 n0 is' s' f' { e with data := .trig a n' m f'.ip } ∧
        (b = true → n' = 0)) (fun _ _ => True) s
  | 0, is, s, f, h => ⟨rfl, is, f, 0, h, fun _ => rfl⟩
  | n + 1, is, s, f, h => by
    unfold trigLoop
    rw [wp_bind]
    refine wp_mono (one_wait henv hcb h) (fun b s1 hb => ?_) fun _ _ _ => trivial
    obtain ⟨h1, h4⟩ := hb
    have hq := quiet_of_still h1
    rcases b with _ | _
    · rw [if_neg (by decide)] at h4
      exact ⟨hq, is, f, n + 1, h4.1, by simp⟩
    · rw [if_pos rfl] at h4
      obtain ⟨i, h5⟩ := h4
      rw [if_pos rfl, wp_bind]
      refine wp_insn fun j hj => ?_
      have : j = i := by rw [h5.out] at hj; cases hj; rfl
      subst this
      rw [wp_bind]
      refine wp_mono (next_wait h5 ?_ ?_) (fun _ s2 hs2 => ?_) fun _ _ _ => trivial
      · intro ha
        have := (isAt_here (by simp) ha).2.2
        unfold countdown at this
        dsimp only at this
        rw [if_neg (by simp [hs])] at this
        cases this
      · intro ho
        obtain ⟨k', l', h1, h2⟩ := isOn_kind (by simp) ho
        cases h1
      · obtain ⟨t, calls, rfl, -, hso, hw⟩ := hs2
        have hn : nearer f.ip t { e with data := .trig a (n + 1) m f.ip } = { e with data := .trig a n m t } := by
          unfold nearer
          dsimp only
          rw [if_pos rfl]
          rfl
        rw [hn] at hw
        rw [wp_bind, wp_modify]
        refine wp_mono (trigLoop_wait henv hcb hs n (is ++ [j])
          { s1 with ip := t, event := some { e with data := .trig a n m t } } { f with ip := t, calls := calls }
          ⟨⟨hso.walk, ⟨hso.stands.ip, hso.stands.mode, hso.stands.asid, hso.stands.sections, hso.stands.calls⟩, hso.count,
            hso.lt, hso.icnt, hso.ends, hso.trunc, hso.wf, hso.inv, hso.mode⟩, hw, rfl, h5.maps⟩)
          (fun b s3 hs => ⟨hs.1.trans hq, hs.2⟩) fun _ _ _ => trivial

theorem reachTrig_wait (henv : c.env.Ok) (hcb : CbNoBq c) {a n x : Nat} {m : Bool} (hd : e.data = .trig a n m x)
    (hen : f0.enabled = s.enabled) (h : Wait c f0 e0 n0 is s f e) :
    wp (do if ← toTrig c e a n m x then blkStatus true else pure {}) (Reach c f0 e0 n0 s) (fun _ _ => True) s := by
  have hdd : ∀ ip, e.data ≠ .disabled ip := by rw [hd]; simp
  have htt : ∀ ip, e.data ≠ .tip ip := by rw [hd]; simp
  have hnn : ∀ b n, e.data ≠ .tnt b n := by rw [hd]; simp
  have hkk : Kind.of e.data = none := by rw [hd]; rfl
  rw [wp_bind]
  unfold toTrig
  rw [wp_ite]
  refine ⟨fun hs => ?_, fun hs => ?_⟩
  · rw [wp_pure, if_pos rfl]
    refine .event h rfl (comes_here hdd htt hnn ⟨fun hh => absurd hkk hh, fun y hy => ?_, .inl ?_⟩) rfl
    · unfold location at hy; rw [hd] at hy; dsimp only at hy; rw [if_pos hs] at hy; cases hy
    · unfold countdown; rw [hd]; dsimp only; rw [if_pos hs]
  have hs' : e.ipSuppressed = false := by simpa using hs
  have key : ∀ (n x : Nat) (s1 : Bdec) (e1 : Event), e1 = { e with data := .trig a n m x } → Wait c f0 e0 n0 is s1 f e1 →
      s1.quiet = s.quiet → wp (do
        let s ← BM.get
        if s.enabled = false then
          if n = 0 then BM.fail .internal else pure true
        else
          if ← toIp c x then trigLoop c e a m n else pure false)
        (fun b s' => wp (if b = true then blkStatus true else pure {}) (Reach c f0 e0 n0 s) (fun _ _ => True) s') (fun _ _ => True) s1 := by
    intro n x s1 e1 he1 h1 hq1
    have hen1 : s1.enabled = s.enabled := congrArg (·.enabled) hq1
    rw [wp_bind, wp_get, wp_ite]
    refine ⟨fun hdis => ?_, fun hena => ?_⟩
    · rw [wp_ite]
      refine ⟨fun _ => trivial, fun hn => ?_⟩
      rw [wp_pure, if_pos rfl]
      have hfd : f.enabled = false := by rw [h.enabled, hen, ← hen1]; exact hdis
      subst he1
      refine .event h1 hq1 (comes_here (by simp) (by simp) (by simp) ⟨fun hh => absurd rfl hh, fun y hy => .inr ⟨hfd, trivial⟩, .inr hfd⟩) rfl
    · rw [wp_bind]
      subst he1
      have H : ∀ (g : Flow) (i : Insn), g.ip ≠ x → i.ip = g.ip → ¬ g.IsAt { e with data := .trig a n m x } ∧
          ¬ IsOn c { e with data := .trig a n m x } i ∧
          ∀ t, nearer g.ip t { e with data := .trig a n m x } = { e with data := .trig a n m x } := by
        intro g j hne hj
        refine ⟨fun ha => ?_, fun ho => ?_, fun t => ?_⟩
        · refine hne ((isAt_here (by simp) ha).2.1 x ?_)
          unfold location
          dsimp only
          rw [if_neg hs]
        · obtain ⟨k', l', h1, h2⟩ := isOn_kind (by simp) ho
          cases h1
        · unfold nearer
          dsimp only
          rw [if_neg (Ne.symm hne)]
      refine wp_mono (toIp_wait henv hcb x H _ _ _ _ h1) (fun b s2 hs2 => ?_) fun _ _ _ => trivial
      obtain ⟨hq2, is', f', h2, h3⟩ := hs2
      rcases b with _ | _
      · exact .some h2 (hq2.trans hq1)
      · rw [if_pos rfl]
        have hx : f'.ip = x := by rw [h2.quietIp]; exact h3 rfl
        rw [← hx] at h2
        refine wp_mono (trigLoop_wait henv hcb hs' n is' s2 f' h2) (fun b s3 hs3 => ?_) fun _ _ _ => trivial
        obtain ⟨hq3, is3, f3, n3, h4, h5⟩ := hs3
        rcases b with _ | _
        · exact .some h4 (hq3.trans (hq2.trans hq1))
        · refine .event h4 (hq3.trans (hq2.trans hq1)) (comes_here (by simp) (by simp) (by simp)
            ⟨fun hh => absurd rfl hh, fun y hy => .inl ?_, .inl ?_⟩) rfl
          · unfold location at hy; dsimp only at hy; rw [if_neg hs] at hy; cases hy; rfl
          · unfold countdown; dsimp only; rw [if_neg hs]; exact h5 rfl
  unfold provideTrigAnchor
  rw [wp_bind, wp_bind, wp_get, wp_ite, wp_ite, wp_ite]
  refine ⟨fun hx => ?_, fun hx => ⟨fun _ => trivial, fun hi => ⟨fun _ => trivial, fun hlt => ?_⟩⟩⟩
  · rw [wp_pure]
    exact key n x s e (by rw [← hd]) h rfl
  · rw [wp_bind, wp_modify, wp_pure]
    have hx0 : x = 0 := by simpa using hx
    subst hx0
    have hl := h.located hd hs' (k := s.icnt) (by omega)
    rw [h.quietIp] at hl
    exact key (n - s.icnt) s.ip _ _ rfl hl rfl

/-! ### The function -/

theorem comes_status (hk : Kind.of e.data = none ∨ f.enabled = false) (hd : ∀ ip, e.data ≠ .disabled ip) (ht : ∀ ip, e.data ≠ .tip ip)
    (hn : ∀ b n, e.data ≠ .tnt b n) (hl : location e = none ∨ (f.enabled = false ∧ (∃ ip, e.data = .exstop ip) ∨
      (f.enabled = false ∧ ∃ a b ip, e.data = .mwait a b ip))) (hc : countdown e = 0) : f.Comes e := by
  refine comes_here hd ht hn ⟨fun h => ?_, fun y hy => ?_, .inl hc⟩
  · rcases hk with hk | hk
    · exact absurd hk h
    · exact hk
  · rcases hl with hl | ⟨hl, ip, hx⟩ | ⟨hl, a, b, ip, hx⟩
    · rw [hl] at hy; cases hy
    · exact .inr ⟨hl, by rw [hx]; trivial⟩
    · exact .inr ⟨hl, by rw [hx]; trivial⟩

/-- `pt_blk_handle_erratum_skd022` -/
theorem skd022_wait (henv : c.env.Ok) (hcb : CbNoBq c) {at_ ip : Nat} (hs : c.evt.pkt.errata.skd022 = true)
    (hd : e.data = .asyncDisabled at_ ip) (hip : s.ip = at_) (h : Wait c f0 e0 n0 is s f e) :
    wp (blkSkd022 c at_) (fun b s' => s'.quiet = s.quiet ∧ Wait c f0 e0 n0 is s' f e ∧
        (b = true → f0.Waits c s'.blk.isid e0 is f { e with data := .disabled ip })) (fun _ _ => True) s := by
  unfold blkSkd022
  rw [wp_bind, wp_get, wp_bind, wp_try]
  have keep : ∀ s', Looked s s' f → NoBq s'.maps → s'.quiet = s.quiet ∧ s'.blk = s.blk ∧ Wait c f0 e0 n0 is s' f e := by
    intro s' hl hm
    have hst := hl.state
    have hb : s'.blk = s.blk := by rw [hst]
    have hsc : s'.sc = { s.sc with img := s'.sc.img } := by
      have := congrArg (·.sc) hst
      exact this
    refine ⟨by rw [hst]; rfl, hb, ⟨by rw [hb]; exact h.so.walk, ⟨?_, ?_, ?_, hl.sections, ?_⟩, ?_, h.so.lt, ?_, ?_, ?_, h.so.wf, ?_, ?_⟩,
      by rw [hb]; exact h.waits, by rw [hst]; exact h.event, hm⟩
    · rw [hst]; exact h.so.stands.ip
    · rw [hst]; exact h.so.stands.mode
    · rw [hsc]; exact h.so.stands.asid
    · rw [hst]; exact h.so.stands.calls
    · rw [hb]; exact h.so.count
    · rw [hst]; exact h.so.icnt
    · rw [hb]; exact h.so.ends
    · rw [hb]; exact h.so.trunc
    · intro m hm; rw [hsc] at hm ⊢; exact h.so.inv m hm
    · rw [hb]; exact h.so.mode
  refine wp_mono (wp_and (decodeAt_flow henv h.so.stands.asid h.so.stands.sections h.so.wf) (decodeAt_bq hcb h.maps))
    (fun i s1 hi => ?_) fun er s1 he => ?_
  · obtain ⟨⟨h1, h2, h3⟩, h4⟩ := hi
    obtain ⟨k1, k2, k3⟩ := keep s1 h1 h4
    rw [wp_pure]
    refine ⟨k1, k3, fun hb => ?_⟩
    have hfip : f.ip = at_ := by rw [h.quietIp]; exact hip
    have hat : f.At c.toInsnCfg i := by
      have := h2
      rw [← h.so.stands.mode, ← hfip] at this
      exact this.at
    have hi : i.ext.inst = .vmlaunch ∨ i.ext.inst = .vmresume := by simpa using hb
    rw [k2]
    have := h.waits.append (.skd022 at_ ip i hs hd hfip hat hi (.nil _ _))
    rwa [List.append_nil] at this
  · obtain ⟨k1, k2, k3⟩ := keep s1 he.1 he.2.2
    rw [wp_pure]
    exact ⟨k1, k3, by simp⟩

/-- `pt_blk_proceed_event` -/
theorem proceedEvent_wait (henv : c.env.Ok) (hcb : CbNoBq c)
    (hend : c.evt.pkt.errata.skl014 = true → c.filter.cfg ≠ 0 → c.endOnCall = false ∧ c.endOnJump = false)
    (hen : f0.enabled = s.enabled) (h : Wait c f0 e0 n0 [] s f0 e0) :
    wp (proceedEvent c) (Reach c f0 e0 n0 s) (fun _ _ => True) s := by
  unfold proceedEvent
  have h0 : Wait c f0 e0 n0 [] { s with out := none } f0 e0 :=
    ⟨⟨h.so.walk, ⟨h.so.stands.ip, h.so.stands.mode, h.so.stands.asid, h.so.stands.sections, h.so.stands.calls⟩, h.so.count,
      h.so.lt, h.so.icnt, h.so.ends, h.so.trunc, h.so.wf, h.so.inv, h.so.mode⟩, h.waits, h.event, h.maps⟩
  have hen0 : f0.enabled = ({ s with out := none } : Bdec).enabled := hen
  have hr : ∀ fl s', Reach c f0 e0 n0 { s with out := none } fl s' → Reach c f0 e0 n0 s fl s' := by
    intro fl s' hr
    cases hr with
    | some a b => exact .some a b
    | event a b d g => exact .event a b d g
    | held a b d g x y => exact .held a b d g x y
    | leave a b d g x y => exact .leave a b d g x y
  rw [wp_bind, wp_modify]
  refine wp_mono ?_ (fun fl s' => hr fl s') fun _ _ h => h
  generalize ({ s with out := none } : Bdec) = s at h0 hen0
  rw [wp_bind, wp_get, h0.event]
  dsimp only
  have now : f0.Comes e0 → wp (blkStatus true) (Reach c f0 e0 n0 s) (fun _ _ => True) s :=
    fun hc => .event h0 rfl hc rfl
  have kindOff : ∀ k l, Kind.of e0.data = some (k, l) → s.enabled = false → f0.Comes e0 := by
    intro k l hk hdis
    have hp := kind_plain hk
    exact comes_status (.inr (hen0.trans hdis)) hp.1 hp.2.2.1 hp.2.2.2.1 (.inl hp.2.2.2.2.1) hp.2.2.2.2.2
  rcases hd : e0.data <;> dsimp only
  case disabled ip => exact reachDisabled_wait henv hcb hend hd h0
  case asyncDisabled at_ ip =>
    rw [wp_bind]
    refine wp_mono (reachIp_wait (x := at_) henv hcb (by rw [hd]; rfl) (by simp [hd]) (by simp [hd]) (by simp [location, hd]) h0)
      (fun b s1 hs => ?_) fun _ _ _ => trivial
    obtain ⟨hq, is', f', h1, h2⟩ := hs
    rcases b with _ | _
    · exact .some h1 hq
    · rw [if_pos rfl, wp_ite]
      refine ⟨fun hsk => ?_, fun hsk => .event h1 hq (h2 rfl).2 rfl⟩
      rw [wp_bind]
      refine wp_mono (skd022_wait (ip := ip) henv hcb hsk hd (h2 rfl).1 h1) (fun b s2 hs => ?_) fun _ _ _ => trivial
      obtain ⟨hq2, h3, h4⟩ := hs
      rcases b with _ | _
      · exact .event h3 (hq2.trans hq) (h2 rfl).2 rfl
      · rw [if_pos rfl, wp_bind, wp_modify]
        have h5 : Wait c f0 e0 n0 is' { s2 with out := none, event := some { e0 with data := .disabled ip } } f'
            { e0 with data := .disabled ip } :=
          ⟨⟨h3.so.walk, ⟨h3.so.stands.ip, h3.so.stands.mode, h3.so.stands.asid, h3.so.stands.sections, h3.so.stands.calls⟩,
            h3.so.count, h3.so.lt, h3.so.icnt, h3.so.ends, h3.so.trunc, h3.so.wf, h3.so.inv, h3.so.mode⟩, h4 rfl, rfl, h3.maps⟩
        refine wp_mono (reachDisabled_wait (ip := ip) henv hcb hend rfl h5) (fun fl s3 hs => ?_) fun _ _ _ => trivial
        have hq3 : ({ s2 with out := none, event := some { e0 with data := .disabled ip } } : Bdec).quiet = s.quiet := hq2.trans hq
        cases hs with
        | some a b => exact .some a (b.trans hq3)
        | event a b d g => exact .event a (b.trans hq3) d g
        | held a b d g x y => rw [hd] at g; cases g
        | leave a b d g x y => exact .leave a (b.trans hq3) d g x y
  case asyncBranch a b =>
    exact reachAt_wait henv hcb (by rw [hd]; rfl) (by simp [hd]) (by simp [hd]) (by simp [location, hd]) h0
  case trig a n m x => exact reachTrig_wait henv hcb hd hen0 h0
  case tip => trivial
  case tnt => trivial
  case paging =>
    rw [wp_ite]
    refine ⟨fun hx => now (kindOff .paging none (by rw [hd]; rfl) hx), fun hx => ?_⟩
    exact reachFits_wait (k := .paging) (l := none) henv hcb (by rw [hd]; rfl) (.inl rfl) (by simpa using hx) h0
  case vmcs =>
    rw [wp_ite]
    refine ⟨fun hx => now (kindOff .vmcs none (by rw [hd]; rfl) hx), fun hx => ?_⟩
    exact reachFits_wait (k := .vmcs) (l := none) henv hcb (by rw [hd]; rfl) (.inl rfl) (by simpa using hx) h0
  case ptwrite a b x =>
    rw [wp_ite]
    refine ⟨fun hx => now (kindOff .ptwrite (some x) (by rw [hd]; rfl) hx), fun hx => ?_⟩
    exact reachKind_wait (k := .ptwrite) henv hcb (by rw [hd]; rfl) (by simpa using hx) h0
  case iret x =>
    rw [wp_ite]
    refine ⟨fun hx => now (kindOff .iret (some x) (by rw [hd]; rfl) hx), fun hx => ?_⟩
    exact reachKind_wait (k := .iret) henv hcb (by rw [hd]; rfl) (by simpa using hx) h0
  case vmentry x =>
    rw [wp_ite]
    refine ⟨fun hx => now (kindOff .vmentry (some x) (by rw [hd]; rfl) hx), fun hx => ?_⟩
    exact reachKind_wait (k := .vmentry) henv hcb (by rw [hd]; rfl) (by simpa using hx) h0
  case uiret x =>
    rw [wp_ite]
    refine ⟨fun hx => now (kindOff .uiret (some x) (by rw [hd]; rfl) hx), fun hx => ?_⟩
    exact reachKind_wait (k := .uiret) henv hcb (by rw [hd]; rfl) (by simpa using hx) h0
  case exstop x =>
    rw [wp_ite]
    refine ⟨fun hx => now ?_, fun hx => ?_⟩
    · refine comes_status (.inl (by rw [hd]; rfl)) (by simp [hd]) (by simp [hd]) (by simp [hd]) ?_ (by simp [countdown, hd])
      rcases hx with hx | hx
      · exact .inr (.inl ⟨hen0.trans hx, x, hd⟩)
      · exact .inl (by simp [location, hd, hx])
    · have : e0.ipSuppressed = false := by
        rcases hb : e0.ipSuppressed with _ | _
        · rfl
        · exact absurd (.inr hb) hx
      exact reachAt_wait henv hcb (by rw [hd]; rfl) (by simp [hd]) (by simp [hd]) (by simp [location, hd, this]) h0
  case mwait a b x =>
    rw [wp_ite]
    refine ⟨fun hx => now ?_, fun hx => ?_⟩
    · refine comes_status (.inl (by rw [hd]; rfl)) (by simp [hd]) (by simp [hd]) (by simp [hd]) ?_ (by simp [countdown, hd])
      rcases hx with hx | hx
      · exact .inr (.inr ⟨hen0.trans hx, a, b, x, hd⟩)
      · exact .inl (by simp [location, hd, hx])
    · have : e0.ipSuppressed = false := by
        rcases hb : e0.ipSuppressed with _ | _
        · rfl
        · exact absurd (.inr hb) hx
      exact reachAt_wait henv hcb (by rw [hd]; rfl) (by simp [hd]) (by simp [hd]) (by simp [location, hd, this]) h0
  all_goals first
    | exact now (comes_status (.inl (by rw [hd]; rfl)) (by simp [hd]) (by simp [hd]) (by simp [hd]) (.inl (by simp [location, hd]))
        (by simp [countdown, hd]))
    | (rw [wp_ite]
       refine ⟨fun hx => now (comes_status (.inl (by rw [hd]; rfl)) (by simp [hd]) (by simp [hd]) (by simp [hd])
        (.inl (by simp [location, hd, hx])) (by simp [countdown, hd])), fun hx => ?_⟩
       exact reachAt_wait henv hcb (by rw [hd]; rfl) (by simp [hd]) (by simp [hd]) (by simp [location, hd, hx]) h0)

end Ipt
