import Verif.InsnFlowBase

/-!
# Helper lemmas: executing an instruction
-/

set_option linter.unusedSimpArgs false

namespace Ipt

open Ild Spec Props

variable {c : InsnCfg} {s s' s'' : Idec} {f f' f'' : Flow}

theorem addr_mod (n : Nat) : Addr (n % 2 ^ 64) n := ⟨by omega, -(n / 2 ^ 64 : Nat), by omega⟩

theorem addr_fall (i : Insn) : Addr ((i.ip + i.size) % 2 ^ 64) (i.ip + i.size) := by
  have := addr_mod (i.ip + i.size)
  simpa using this

theorem addr_disp (n : Nat) (d : Int) : Addr (addDisp n d) (n + d) := (isAddr_add (ip := n) (d := d)).1 rfl

theorem addr_mod_disp (n : Nat) (d : Int) : Addr (addDisp (n % 2 ^ 64) d) (n + d) := by
  have : addDisp (n % 2 ^ 64) d = addDisp n d := by unfold addDisp; omega
  rw [this]
  exact addr_disp n d

theorem addr_target (i : Insn) (d : Int) : Addr (addDisp ((i.ip + i.size) % 2 ^ 64) d) (i.ip + i.size + d) := by
  have := addr_mod_disp (i.ip + i.size) d
  simpa using this

theorem eventPending_flow {r : Option Event} (hc : Core c s f) (h : eventPending c s = (s', .ok r)) :
    ∃ f', Core c s' f' ∧ Tr c s f [] s' f' ∧ f' = { f with pend := r } ∧
      s' = { s with q := s'.q, event := s'.event, processEvent := s'.processEvent, status := s'.status } ∧
      (r = none → s'.processEvent = false ∧ s'.status.eventPending = false) ∧
      (∀ e, r = some e → s'.processEvent = true ∧ s'.event = some e) := by
  unfold eventPending at h
  simp only [IM.get_bind, IM.ite_ok] at h
  rcases h with ⟨h1, h⟩ | ⟨h1, ⟨h2, h⟩ | ⟨h2, h⟩⟩
  · rcases he : s.event with _ | e <;> simp only [he] at h
    · rw [IM.undef_ok] at h; exact h.elim
    · rw [IM.pure_ok] at h
      obtain ⟨rfl, rfl⟩ := h
      have hp : f.pend = some e := by rw [hc.pend, Idec.pend, if_pos h1, he]
      exact ⟨f, hc, .refl rfl fun a b => ⟨a, b⟩, by rw [← hp], rfl, by simp, fun e' he' => by cases he'; exact ⟨h1, he⟩⟩
  · rw [IM.pure_ok] at h
    obtain ⟨rfl, rfl⟩ := h
    have hp : f.pend = none := by rw [hc.pend, Idec.pend, if_neg h1]
    exact ⟨f, hc, .refl rfl fun a b => ⟨a, b⟩, by rw [← hp], rfl, fun _ => ⟨by simpa using h1, h2⟩, by simp⟩
  · simp only [IM.bind_ok, IM.query_ok] at h
    obtain ⟨s1, ⟨e, fl⟩, ⟨q, hq, rfl⟩, s2, _, h3, h⟩ := h
    rw [IM.modify_ok] at h3
    subst h3
    rw [IM.pure_ok] at h
    obtain ⟨rfl, rfl⟩ := h
    have hp : f.pend = none := by rw [hc.pend, Idec.pend, if_neg h1]
    refine ⟨{ f with pend := some e }, ?_, ?_, rfl, rfl, by simp, fun e' he' => by cases he'; exact ⟨rfl, rfl⟩⟩
    · exact ⟨hc.enabled, hc.mode, hc.spec, hc.asid, hc.secs, hc.calls, hc.count, rfl, by simp, hc.icnt, hc.inv, hc.wf⟩
    · refine .one (q := .event) (it := .event e) (fl := fl) ?_ (fun _ b => absurd b h2) fun rest _ => Run.one (.take f e hp)
      rw [run_event, hq]; rfl

theorem insnTick_inv {ip : Nat} (h : insnTick ip s = (s', .ok ())) : s' = s ∨ (s.enabled = true ∧ s.processEvent = false ∧
    ∃ e : Event, e.data = .tick ip ∧ e.ipSuppressed = false ∧ s' = { s with event := some e, processEvent := true }) := by
  unfold insnTick at h
  simp only [IM.get_bind, IM.ite_ok, IM.fail_ok, IM.pure_ok, and_false, false_or] at h
  rcases h with ⟨h0, ⟨h1, rfl, -⟩ | ⟨h1, h⟩⟩
  · exact .inl rfl
  · rcases he : s.event with _ | e <;> simp only [he] at h
    · rw [IM.undef_ok] at h; exact h.elim
    · simp only [IM.ite_ok, IM.pure_ok, IM.modify_ok] at h
      rcases h with ⟨_, rfl, -⟩ | ⟨_, rfl⟩
      · exact .inl rfl
      · exact .inr ⟨by simpa using h0, by simpa using h1, _, rfl, rfl, rfl⟩

theorem insnTick_err {ip : Nat} {e : Err} (hen : s.enabled = true) (h : insnTick ip s = (s', .err e)) : False := by
  unfold insnTick at h
  simp only [IM.get_bind] at h
  rw [if_neg (by simp [hen])] at h
  by_cases h1 : s.processEvent = true
  · rw [if_pos h1] at h; cases h
  · rw [if_neg h1] at h
    rcases he : s.event with _ | e <;> simp only [he] at h
    · cases h
    · split at h <;> cases h

/-- After a query: an optional tick. -/
def Ticked (c : InsnCfg) (s s' : Idec) : Prop :=
  s' = s ∨ (c.tick = true ∧ s.enabled = true ∧ s.processEvent = false ∧
    ∃ (ip : Nat) (e : Event), e.data = .tick ip ∧ e.ipSuppressed = false ∧
      s' = { s with event := some e, processEvent := true })

theorem ticked_of {ip : Nat} (h : IM.when c.tick (insnTick ip) s = (s', .ok ())) : Ticked c s s' := by
  rw [IM.when_ok] at h
  rcases h with ⟨h1, h⟩ | ⟨_, rfl⟩
  · rcases insnTick_inv h with rfl | ⟨a, b, e, h2⟩
    · exact .inl rfl
    · exact .inr ⟨h1, a, b, ip, e, h2⟩
  · exact .inl rfl

theorem insnCond_inv {b : Bool} {fl : Flags} (h : insnCond c s = (s', .ok (b, fl))) :
    ∃ q, Query.cond.run c.evt s.q = (q, .ok (.bit b, fl)) ∧ Ticked c { s with q := q } s' := by
  unfold insnCond at h
  simp only [IM.bind_ok, IM.query_ok, IM.get_ok, IM.pure_ok] at h
  obtain ⟨_, ⟨b', fl'⟩, ⟨q, hq, rfl⟩, _, _, ⟨rfl, rfl⟩, s2, _, h2, rfl, h3⟩ := h
  cases h3
  refine ⟨q, by rw [run_cond, hq]; rfl, ticked_of h2⟩

theorem insnCond_err {e : Err} (he : s.enabled = true) (h : insnCond c s = (s', .err e)) :
    ∃ q, Query.cond.run c.evt s.q = (q, .err e) ∧ s' = { s with q := q } := by
  unfold insnCond at h
  rw [IM.bind_err] at h
  rcases h with h | ⟨s1, r, h1, h⟩
  · unfold IM.query at h
    rcases hq : condBranch c.evt s.q with ⟨q, r⟩
    rw [hq] at h
    cases h
    exact ⟨q, by rw [run_cond, hq]; rfl, rfl⟩
  · exfalso
    rw [IM.query_ok] at h1
    obtain ⟨q, -, rfl⟩ := h1
    rw [IM.get_bind, IM.bind_err] at h
    rcases h with h | ⟨_, _, _, h⟩
    · unfold IM.when at h
      split at h
      · exact insnTick_err (by exact he) h
      · cases h
    · cases h

theorem insnIndirect_inv {fl : Flags} (h : insnIndirect c s = (s', .ok fl)) :
    ∃ q ip, Query.indirect.run c.evt s.q = (q, .ok (.target ip, fl)) ∧
      Ticked c { s with q := q, ip := ip.getD s.ip } s' := by
  unfold insnIndirect at h
  simp only [IM.get_bind, IM.bind_ok, IM.query_ok] at h
  obtain ⟨_, ⟨ip, fl'⟩, ⟨q, hq, rfl⟩, h⟩ := h
  simp only [IM.bind_ok, IM.pure_ok, IM.modify_ok] at h
  obtain ⟨_, _, rfl, s2, _, h2, rfl, rfl⟩ := h
  exact ⟨q, ip, by rw [run_indirect, hq]; rfl, ticked_of h2⟩

theorem updateTrig_inv {x : Nat} (hi : s.icnt < 2 ^ 32) (h : updateTrig x s = (s', .ok ())) :
    (s.hasIcnt = false ∧ s' = s) ∨ (s.hasIcnt = true ∧ s' = { s with icnt := s.icnt + 1, event := s'.event } ∧
      s.icnt + 1 < 2 ^ 32 ∧ s'.pend = s.pend.map (nearer x s.ip)) := by
  unfold updateTrig at h
  simp only [IM.get_bind, IM.modify_bind, IM.ite_ok, IM.fail_ok, IM.pure_ok, and_false, false_or] at h
  rcases h with ⟨h0, rfl, -⟩ | ⟨h0, h1, h2, h⟩
  · exact .inl ⟨h0, rfl⟩
  · right
    have e1 : (s.icnt + 1) % 2 ^ 32 = s.icnt + 1 := by omega
    rw [e1] at h
    refine ⟨by simpa using h0, ?_⟩
    rcases h with ⟨h3, h⟩ | ⟨h3, rfl, -⟩
    · rcases he : s.event with _ | ev <;> simp only [he] at h
      · rw [IM.undef_ok] at h; exact h.elim
      · have hp : s.pend = some ev := by unfold Idec.pend; rw [if_pos h3, he]
        rcases ev with ⟨d, a1, a2, a3, a4, a5, a6⟩
        cases d <;> dsimp only at h
        case trig trbv n mult evip =>
          simp only [IM.ite_ok, IM.fail_ok, and_false, false_or, IM.modify_ok, IM.pure_ok] at h
          rcases h with ⟨rfl, h4, rfl⟩ | ⟨h4, rfl, -⟩
          · exact ⟨rfl, by omega, by unfold Idec.pend; simp [h3, he, nearer]⟩
          · refine ⟨rfl, by omega, ?_⟩
            rw [hp]; unfold Idec.pend; simp [h3, he, nearer, h4]
        all_goals
          rw [IM.pure_ok] at h
          obtain ⟨rfl, -⟩ := h
          refine ⟨rfl, by omega, ?_⟩
          rw [hp]; unfold Idec.pend; simp [h3, he, nearer]
    · exact ⟨rfl, by omega, by unfold Idec.pend; simp [h3]⟩

theorem takeTip_suppressed {q q' : Qdec} {sup : Bool} {x : Nat} {ip : Option Nat} {fl : Flags}
    (h : takeTip c.evt sup x q = (q', .ok (ip, fl))) : fl.ipSuppressed = ip.isNone := by
  unfold takeTip at h
  rcases hf : qryFetch c.evt { q with lastTime := q.ev.tm.time } with ⟨q1, _ | _ | _⟩ <;> simp only [hf] at h
  · skip
    rcases hf : q1.flags with _ | _ | _ <;> rw [hf] at h <;> cases h
    cases sup <;> rfl
  · cases h
  · cases h

theorem indirect_suppressed {q q' : Qdec} {ip : Option Nat} {fl : Flags}
    (h : indirectBranch c.evt q = (q', .ok (ip, fl))) : fl.ipSuppressed = ip.isNone := by
  unfold indirectBranch at h
  rcases hs : q.status with _ | e <;> rw [hs] at h
  · rcases ht : q.event.tip with (_ | ⟨sup, x⟩) | e | _ <;> simp only [ht] at h
    · rcases hct : cacheTnt c.evt q with ⟨q1, _ | _ | _⟩ <;> simp only [hct] at h
      · rcases ht : q1.event.tip with (_ | ⟨sup, x⟩) | e | _ <;> simp only [ht] at h
        · rcases hs : q1.status with _ | e <;> rw [hs] at h <;> cases h
        · exact takeTip_suppressed h
        · cases h
        · cases h
      · cases h
      · cases h
    · exact takeTip_suppressed h
    · cases h
    · cases h
  · cases h

theorem run_indirect_suppressed {q q' : Qdec} {ip : Option Nat} {fl : Flags}
    (h : Query.indirect.run c.evt q = (q', .ok (.target ip, fl))) : fl.ipSuppressed = ip.isNone := by
  rw [run_indirect] at h
  rcases hq : indirectBranch c.evt q with ⟨q1, ⟨ip', fl'⟩ | _ | _⟩ <;> rw [hq] at h <;> cases h
  exact indirect_suppressed hq

/-- What executing an instruction does. -/
structure Executed (c : InsnCfg) (s : Idec) (f : Flow) (s' : Idec) (f' : Flow) : Prop where
  core : Core c s' f'
  tr : Tr c s f [] s' f'
  ip : f'.ip = s'.ip
  cur : f'.cur = none
  insn : s'.insn = s.insn
  enabled : s'.enabled = s.enabled
  bound : ∀ k, s'.boundTo k = s.boundTo k

/-- The instruction itself tells the next address. -/
theorem exec_flow {i : Insn} {t : Nat} {calls : List Nat} {r : RetStack} (hc : Core c s f) (hen : s.enabled = true)
    (hcur : f.cur = some i) (hq : s.processEvent = true ∨ s.status.eventPending = false)
    (hd : ∀ e, f.pend = some e → ¬ f.Due c e) (hx : Exec i f.calls [] t calls) (hr : r.Holds calls)
    (h : updateTrig i.ip { s with ip := t, retstack := r } = (s', .ok ())) : ∃ f', Executed c s f s' f' := by
  have hpn : ∀ rest, Prom s rest → f.pend = none → ¬ startsWithEvent rest := by
    intro rest hp hn
    have := hc.noPend hn
    exact hp this (by rw [this] at hq; simpa using hq)
  have hen' : f.enabled = true := by rw [hc.enabled, hen]
  have hs := fun rest hp => Flow.Step.exec (c := c) (rest := rest) f i t calls hen' hcur hx hd (hpn rest hp)
  have h0 := updateTrig_inv (s := { s with ip := t, retstack := r }) (by exact hc.icnt) h
  rcases h0 with ⟨h1, h2⟩ | ⟨h1, h2, h3, h4⟩
  · have hn : f.count = none := by rw [hc.count, Idec.count, if_neg (by simp at h1; simp [h1])]
    have hcn : f.counted i.ip t = f := by unfold Flow.counted; rw [hn]
    rw [hcn] at hs
    subst h2
    refine ⟨_, ⟨?_, .zero rfl (fun a b => ⟨a, b⟩) fun rest hp => Run.one (hs rest hp), rfl, rfl, rfl, rfl, fun _ => rfl⟩⟩
    exact ⟨hc.enabled, hc.mode, hc.spec, hc.asid, hc.secs, hr, hc.count, hc.pend, hc.noPend, hc.icnt, hc.inv, hc.wf⟩
  · have hn : f.count = some s.icnt := by rw [hc.count, Idec.count, if_pos (by simpa using h1)]
    have hcn : f.counted i.ip t = { f with count := some (s.icnt + 1), pend := f.pend.map (nearer i.ip t) } := by
      unfold Flow.counted; rw [hn]
    rw [hcn] at hs
    have hpe : s'.pend = f.pend.map (nearer i.ip t) := by rw [h4, hc.pend]; rfl
    generalize s'.event = ev at h2
    subst h2
    refine ⟨_, ⟨?_, .zero rfl (fun a b => ⟨a, b⟩) fun rest hp => Run.one (hs rest hp), rfl, rfl, rfl, rfl, fun _ => rfl⟩⟩
    refine ⟨hc.enabled, hc.mode, hc.spec, hc.asid, hc.secs, hr, ?_, hpe.symm, ?_, h3, hc.inv, hc.wf⟩
    · unfold Idec.count; rw [if_pos (by exact h1)]
    · intro hn'
      exact hc.noPend (by simpa using hn')

/-- The trace tells the next address. -/
theorem told_flow {i : Insn} {t x : Nat} {calls : List Nat} {r r' : RetStack} {q : Query} {q' : Qdec} {it : Item}
    {fl fl' : Flags} {s1 : Idec} (hc : Core c s f) (hen : s.enabled = true) (hcur : f.cur = some i)
    (hit : ¬ startsWithEvent [it]) (hd : ∀ e, f.pend = some e → ¬ f.Due c e) (hx : Exec i f.calls [it] t calls)
    (hr : r.Holds calls) (hq : q.run c.evt s.q = (q', .ok (it, fl')))
    (h1 : Ticked c { s with q := q', ip := x, retstack := r' } s1)
    (h : s' = anchor { s1 with status := fl, ip := t, retstack := r }) : ∃ f', Executed c s f s' f' := by
  have hen' : f.enabled = true := by rw [hc.enabled, hen]
  have hs := fun rest => Flow.Step.told (c := c) (rest := rest) f i it t calls hen' hcur hx hd
  subst h
  rcases h1 with rfl | ⟨a1, a2, a3, ip, e, a4, a5, rfl⟩
  · refine ⟨_, ⟨?_, .one (q := q) (by exact hq) (fun _ _ => hit) fun rest hp => Run.one (hs rest), rfl, rfl, rfl, rfl, fun _ => rfl⟩⟩
    exact ⟨hc.enabled, hc.mode, hc.spec, hc.asid, hc.secs, hr, rfl, hc.pend, hc.noPend, by simp [anchor], hc.inv, hc.wf⟩
  · have hpn : f.pend = none := by
      rw [hc.pend, Idec.pend, if_neg (by simp at a3; simp [a3])]
    refine ⟨{ f with ip := t, calls := calls, cur := none, count := some 0, pend := some e },
      ⟨?_, .one (q := q) (by exact hq) (fun _ _ => hit) fun rest hp => ?_, rfl, rfl, rfl, rfl, fun _ => rfl⟩⟩
    · exact ⟨hc.enabled, hc.mode, hc.spec, hc.asid, hc.secs, hr, rfl, rfl, by simp, by simp [anchor], hc.inv, hc.wf⟩
    · refine .cons (hs _) (Run.one (f := { f with ip := t, calls := calls, cur := none, count := some 0 }) (its := []) (out := []) ?_)
      exact .tick _ e ip a1 hen' hpn a4 a5

theorem proceedBranch_flow {i : Insn} {x : Nat} {r : RetStack} (hc : Core c s f) (hen : s.enabled = true)
    (hcur : f.cur = some i) (hq : s.processEvent = true ∨ s.status.eventPending = false)
    (hd : ∀ e, f.pend = some e → ¬ f.Due c e) (hx : x = (i.ip + i.size) % 2 ^ 64)
    (hcl : i.ext.cls ∉ [.other, .ptwrite, .unknown, .condJump])
    (hr : r.Holds (calling i f.calls x))
    (h : proceedBranch c i { s with ip := x, retstack := r } = (s', .ok ())) : ∃ f', Executed c s f s' f' := by
  subst hx
  unfold proceedBranch at h
  rw [IM.ite_ok] at h
  rcases h with ⟨h1, h⟩ | ⟨h1, h⟩
  · rw [IM.modify_bind] at h
    exact exec_flow hc hen hcur hq hd (.direct _ _ hcl h1 (addr_target i _) (addr_fall i)) hr h
  · rw [IM.bind_ok] at h
    obtain ⟨s1, fl, h2, h⟩ := h
    simp only [IM.modify_bind, IM.ite_ok, IM.fail_ok, and_false, false_or, IM.modify_ok] at h
    obtain ⟨h3, h⟩ := h
    obtain ⟨q, ip, h4, h5⟩ := insnIndirect_inv h2
    have hs := run_indirect_suppressed h4
    rcases ip with _ | t
    · exact absurd hs h3
    · refine told_flow (fl := fl) (it := .target (some t)) hc hen hcur (by simp [startsWithEvent]) hd
        (.target t _ hcl h1 (addr_fall i)) hr (by exact h4) h5 (h.trans ?_)
      rcases h5 with rfl | ⟨a1, a2, a3, ip, e, a4, a5, rfl⟩ <;> rfl

theorem calling_of_ne {i : Insn} {l : List Nat} {x : Nat} (h : i.ext.cls ≠ .call) : calling i l x = l := by
  unfold calling; rw [if_neg (by simp [h])]

/-- Executing an instruction. -/
theorem proceed_flow {i : Insn} (hc : Core c s f) (hen : s.enabled = true) (hip : s.ip = i.ip)
    (hcur : f.cur = some i) (hq : s.processEvent = true ∨ s.status.eventPending = false)
    (hd : ∀ e, f.pend = some e → ¬ f.Due c e) (h : proceed c i s = (s', .ok ())) : ∃ f', Executed c s f s' f' := by
  unfold proceed at h
  rw [IM.modify_bind] at h
  rw [hip] at h
  have br : ∀ s' : Idec, i.ext.cls ∉ [.other, .ptwrite, .unknown, .condJump, .call] →
      proceedBranch c i { s with ip := (i.ip + i.size) % 2 ^ 64 } = (s', .ok ()) → ∃ f', Executed c s f s' f' := by
    intro s' h1 h
    simp only [List.mem_cons, List.not_mem_nil, or_false, not_or] at h1
    exact proceedBranch_flow (r := s.retstack) hc hen hcur hq hd rfl (by simp [h1])
      (by rw [calling_of_ne h1.2.2.2.2]; exact hc.calls) h
  have fall : ∀ s' : Idec, i.ext.cls = .other ∨ i.ext.cls = .ptwrite →
      updateTrig i.ip { s with ip := (i.ip + i.size) % 2 ^ 64 } = (s', .ok ()) → ∃ f', Executed c s f s' f' := by
    intro s' h1 h
    exact exec_flow (r := s.retstack) hc hen hcur hq hd (.fall _ h1 (addr_fall i)) hc.calls h
  rcases hcl : i.ext.cls with _ | _ | _ | _ | _ | _ | _ | _ | _ | _ | _ <;> simp only [hcl] at h
  all_goals first
    | (rw [IM.fail_ok] at h; exact h.elim)
    | exact br s' (by simp [hcl]) h
    | exact fall s' (by simp [hcl]) h
    | skip
  case call =>
    rw [IM.get_bind, IM.bind_ok] at h
    obtain ⟨s1, _, h1, h⟩ := h
    simp only [IM.when_ok] at h1
    rcases h1 with ⟨h1, h2⟩ | ⟨h1, rfl⟩
    · obtain ⟨r, h3, h4⟩ := push_holds hc.calls ((i.ip + i.size) % 2 ^ 64)
      unfold pushRet at h2
      simp only [h3] at h2
      cases h2
      refine proceedBranch_flow hc hen hcur hq hd rfl (by simp [hcl]) ?_ h
      unfold calling
      rw [if_pos]
      · exact h4
      · refine ⟨hcl, ?_⟩
        rintro ⟨a, b⟩
        simp [a, b] at h1
    · refine proceedBranch_flow (r := s.retstack) hc hen hcur hq hd rfl (by simp [hcl]) ?_ h
      unfold calling
      rw [if_neg]
      · exact hc.calls
      · rintro ⟨-, a⟩
        simp only [decide_eq_false_iff_not, not_or, ne_eq, not_not, Bool.not_eq_false] at h1
        exact a ⟨h1.2, h1.1⟩
  case condJump =>
    rw [IM.bind_ok] at h
    obtain ⟨s1, ⟨b, fl⟩, h2, h⟩ := h
    obtain ⟨q, h4, h5⟩ := insnCond_inv h2
    dsimp only at h
    rw [IM.modify_bind, IM.bind_ok] at h
    obtain ⟨s2, _, h6, h⟩ := h
    rw [IM.modify_ok] at h
    rw [IM.when_ok, IM.modify_ok] at h6
    have hxip : s1.ip = (i.ip + i.size) % 2 ^ 64 := by
      rcases h5 with rfl | ⟨a1, a2, a3, ip, e, a4, a5, rfl⟩ <;> rfl
    refine told_flow (fl := fl) (it := .bit b) (t := if b = true then addDisp s1.ip i.ext.displacement else s1.ip)
      (r := s.retstack) hc hen hcur (by simp [startsWithEvent]) hd (.cond b _ hcl ?_) hc.calls (by exact h4)
      h5 (h.trans ?_)
    · rw [hxip]
      cases b
      · have := addr_fall i
        simpa using this
      · exact addr_target i _
    · have hr : s1.retstack = s.retstack := by
        rcases h5 with rfl | ⟨a1, a2, a3, ip, e, a4, a5, rfl⟩ <;> rfl
      rw [← hr]
      rcases h6 with ⟨rfl, rfl⟩ | ⟨rfl, rfl⟩ <;> rfl
  case «return» =>
    rw [IM.bind_ok] at h
    obtain ⟨s1, r, h2, h⟩ := h
    rw [IM.try_ok] at h2
    rcases h2 with ⟨⟨b, fl⟩, h2, rfl⟩ | ⟨e, h2, rfl⟩
    · obtain ⟨q, h4, h5⟩ := insnCond_inv h2
      dsimp only at h
      rw [IM.modify_bind, IM.ite_ok, IM.fail_ok] at h
      simp only [and_false, false_or] at h
      obtain ⟨hb, h⟩ := h
      have hb : b = true := by simpa using hb
      subst hb
      rw [IM.bind_ok] at h
      obtain ⟨s2, t, h6, h⟩ := h
      rw [IM.modify_ok] at h
      have hr : s1.retstack = s.retstack := by
        rcases h5 with rfl | ⟨a1, a2, a3, ip, e, a4, a5, rfl⟩ <;> rfl
      unfold popRet at h6
      simp only [hr] at h6
      have hh := hc.calls
      rcases hl : f.calls with _ | ⟨t', l⟩ <;> rw [hl] at hh <;> have hp := pop_holds hh
      · dsimp only at hp
        rw [hp] at h6
        cases h6
      · obtain ⟨r', hp1, hp2⟩ := hp
        rw [hp1] at h6
        cases h6
        exact told_flow (fl := fl) (it := .bit true) hc hen hcur (by simp [startsWithEvent]) hd
          (.ret t l hcl hl) hp2 (by exact h4) h5 (by rw [h])
    · dsimp only at h
      obtain ⟨q, h4, rfl⟩ := insnCond_err (by exact hen) h2
      have tr : Tr c s f [] { s with q := q } f := .refused (by exact h4) fun a b => ⟨a, b⟩
      have hc' : Core c { s with q := q } f := ⟨hc.enabled, hc.mode, hc.spec, hc.asid, hc.secs, hc.calls, hc.count,
        hc.pend, hc.noPend, hc.icnt, hc.inv, hc.wf⟩
      obtain ⟨f', hf⟩ := proceedBranch_flow (r := s.retstack) hc' (by exact hen) hcur (by exact hq) hd rfl
        (by simp [hcl]) (by rw [calling_of_ne (by simp [hcl])]; exact hc.calls) h
      exact ⟨f', hf.core, tr.trans hf.tr, hf.ip, hf.cur, hf.insn, hf.enabled, hf.bound⟩

end Ipt
