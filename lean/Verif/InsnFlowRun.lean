import Verif.InsnFlowStep
import Verif.Props.QueryFlags

/-!
# Helper lemmas: a user of the instruction flow decoder
-/

set_option linter.unusedSimpArgs false

namespace Ipt

open Ild Spec Props

variable {c : InsnCfg} {s s' s'' : Idec} {f f' f'' : Flow}

theorem due_sections {e : Event} {g : Msec → Prop} : ({ f with sections := g } : Flow).Due c e ↔ f.Due c e := by
  constructor
  · rintro (⟨h1, h2, h3, h4⟩ | ⟨_, _, h1, h2, h3⟩ | ⟨_, _, _, h1, h2, h3, h4⟩ | ⟨_, _, h1, h2, h3, h4⟩)
    · exact .between h1 h2 h3 h4
    · exact .later _ _ h1 h2 h3
    · exact .belongs _ _ _ h1 h2 h3 h4
    · exact .disable _ _ h1 h2 h3 h4
  · rintro (⟨h1, h2, h3, h4⟩ | ⟨_, _, h1, h2, h3⟩ | ⟨_, _, _, h1, h2, h3, h4⟩ | ⟨_, _, h1, h2, h3, h4⟩)
    · exact .between h1 h2 h3 h4
    · exact .later _ _ h1 h2 h3
    · exact .belongs _ _ _ h1 h2 h3 h4
    · exact .disable _ _ h1 h2 h3 h4

theorem Core.setImage (hc : Core c s f) {i : Img} (h : ∀ m ∈ i.secs, m.WF c.env) :
    Core c { s with sc := scSetImage s.sc i } { f with sections := fun m => m ∈ i.secs } :=
  ⟨hc.enabled, hc.mode, hc.spec, hc.asid, fun _ => Iff.rfl, hc.calls, hc.count, hc.pend, hc.noPend, hc.icnt, hc.inv, h⟩

theorem image_flow {fl : Flags} {i : Img} (ho : FlowOut c s f fl) (h : ∀ m ∈ i.secs, m.WF c.env) :
    Tr c s f [.image i.secs] { s with sc := scSetImage s.sc i } { f with sections := fun m => m ∈ i.secs } ∧
      FlowOut c { s with sc := scSetImage s.sc i } { f with sections := fun m => m ∈ i.secs } fl := by
  refine ⟨.zero rfl (fun a b => ⟨a, b⟩) fun _ _ => Run.one (.image f i.secs), ho.suppressed, fun hp => ?_, fun hp => ?_⟩
  · rcases ho.pending hp with ⟨e, hp, he, hd⟩ | ⟨e, k, l, i, hc, hip, hcur, hi, he, hk, hb, hkn, hbd, hloc⟩ |
      ⟨e, ip, i, hc, hcur, he, hdat, hsu, hdis, hres, hi, hbd⟩
    · exact .between e ⟨hp.core.setImage h, hp.ip, hp.cur, hp.insn, hp.bound⟩ he (due_sections.2 hd)
    · exact .belongs e k l i (hc.setImage h) hip hcur hi he hk hb hkn hbd hloc
    · exact .disable e ip i (hc.setImage h) hcur he hdat hsu hdis hres hi hbd
  · have hp := ho.idle hp
    exact ⟨⟨hp.core.setImage h, hp.ip, hp.cur, hp.insn, hp.bound⟩, hp.quiet, hp.none⟩

theorem follows_flow (henv : c.env.Ok) {fl fl' : Flags} {out : List Seen} (h : Follows c s fl out s' fl') :
    ∀ f, FlowOut c s f fl → ∃ f', Tr c s f out s' f' ∧ FlowOut c s' f' fl' := by
  induction h with
  | done s fl => exact fun f ho => ⟨f, .refl rfl fun a b => ⟨a, b⟩, ho⟩
  | next hp hn _ ih =>
    intro f ho
    obtain ⟨f1, t1, o1⟩ := next_flow henv (ho.idle hp) hn
    obtain ⟨f2, t2, o2⟩ := ih f1 o1
    exact ⟨f2, t1.trans t2, o2⟩
  | event hp hn _ ih =>
    intro f ho
    obtain ⟨f1, t1, o1⟩ := event_flow henv (ho.pending hp) hn
    obtain ⟨f2, t2, o2⟩ := ih f1 o1
    exact ⟨f2, t1.trans t2, o2⟩
  | image hw _ ih =>
    intro f ho
    obtain ⟨t1, o1⟩ := image_flow ho hw
    obtain ⟨f2, t2, o2⟩ := ih _ o1
    exact ⟨f2, t1.trans t2, o2⟩

/-! ## Synchronization -/

theorem run_ip {o : SyncCall} {q q' : Qdec} {fq : Flags} {ip : Option Nat} (ho : o ≠ .backward) {e : EvtCfg}
    (h : o.run e q = (q', .ok (fq, ip))) : q'.flags = .ok { fq with ipSuppressed := false } ∧ fq.ipSuppressed = ip.isNone := by
  have key : ∀ (m : EM Unit), onEvt m (qryStart e) (qryReset q) = (q', .ok (fq, ip)) →
      ∃ f0, q'.flags = .ok f0 ∧ fq = { f0 with ipSuppressed := ip.isNone } := by
    intro m h
    unfold onEvt at h
    split at h
    · exact qryStart_flags h
    · cases h
    · cases h
  have : ∃ f0, q'.flags = .ok f0 ∧ fq = { f0 with ipSuppressed := ip.isNone } := by
    cases o with
    | backward => exact absurd rfl ho
    | forward => exact key _ h
    | set off => exact key _ h
  obtain ⟨f0, h1, rfl⟩ := this
  have := flags_ip h1
  refine ⟨?_, rfl⟩
  rw [h1]
  rcases f0 with ⟨a, b, d⟩
  simp only [Res.ok.injEq] at *
  simp [this]

theorem sync_insn {o : SyncCall} {fl : Flags} (h : o.insn c s = (s', .ok fl)) :
    ∃ q fq ip, o.run c.evt s.q = (q, .ok (fq, ip)) ∧
      checkIpEvent c none { insnReset s with q := q, ip := ip.getD 0, status := fq, enabled := !fq.ipSuppressed } = (s', .ok fl) := by
  have key : ∀ (m : QM (Flags × Option Nat)), (IM.modify insnReset >>= fun _ => IM.query m >>= fun r =>
      IM.modify (fun s => { s with ip := r.2.getD s.ip }) >>= fun _ => insnStart c r.1) s = (s', .ok fl) →
      ∃ q fq ip, m s.q = (q, .ok (fq, ip)) ∧
        checkIpEvent c none { insnReset s with q := q, ip := ip.getD 0, status := fq, enabled := !fq.ipSuppressed } = (s', .ok fl) := by
    intro m h
    rw [IM.modify_bind, IM.bind_ok] at h
    obtain ⟨s1, ⟨fq, ip⟩, h1, h⟩ := h
    rw [IM.query_ok] at h1
    obtain ⟨q, h1, rfl⟩ := h1
    rw [IM.modify_bind] at h
    unfold insnStart at h
    rw [IM.modify_bind] at h
    exact ⟨q, fq, ip, h1, h⟩
  cases o with
  | forward => exact key _ h
  | backward => exact key _ h
  | set off => exact key _ h

theorem start_flow (henv : c.env.Ok) {o : SyncCall} {fl : Flags} (ht : Typed s)
    (hw : ∀ m ∈ s.sc.img.secs, m.WF c.env) (h : o.insn c s = (s', .ok fl)) :
    ∃ s0 fq ip f, o.run c.evt s.q = (s0.q, .ok (fq, ip)) ∧
      Tr c s0 { Flow.start ip s.sc.img.secs with enabled := !fq.ipSuppressed } [] s' f ∧ FlowOut c s' f fl := by
  obtain ⟨q, fq, ip, h1, h2⟩ := sync_insn h
  have hp : FlowPre c { insnReset s with q := q, ip := ip.getD 0, status := fq, enabled := !fq.ipSuppressed }
      { Flow.start ip s.sc.img.secs with enabled := !fq.ipSuppressed } := by
    refine ⟨⟨rfl, rfl, rfl, rfl, fun _ => Iff.rfl, ?_, rfl, rfl, fun _ => rfl, ht.1, ?_, hw⟩, rfl, rfl, rfl, fun k => ?_⟩
    · exact ⟨ht.2, by simp [insnReset, RetStack.init], by simp [insnReset, RetStack.init, Flow.start], by simp [Flow.start],
        by simp [Flow.start]⟩
    · intro m _
      exact sameSpace_unknown _
    · cases k <;> rfl
  obtain ⟨f, t, o⟩ := checkIp_out henv hp h2
  exact ⟨_, fq, ip, f, h1, t, o⟩

/-! ## Runs of the machine -/

theorem step_out {rest its : List Item} {out : List Seen} (h : Flow.Step c rest f its out f') : out.length ≤ 1 := by
  cases h <;> simp

theorem run_split {rest its : List Item} {out : List Seen} (h : Flow.Run c rest f its out f') :
    ∀ a b, out = a ++ b → ∃ x y g, its = x ++ y ∧ Flow.Run c (y ++ rest) f x a g ∧ Flow.Run c rest g y b f' := by
  induction h with
  | nil f =>
    intro a b hab
    obtain ⟨rfl, rfl⟩ := List.append_eq_nil_iff.1 hab.symm
    exact ⟨[], [], f, rfl, .nil f, .nil f⟩
  | @cons f g h its its' out out' hs hr ih =>
    intro a b hab
    have hl := step_out hs
    rcases a with _ | ⟨v, a⟩
    · obtain rfl : out ++ out' = b := hab
      exact ⟨[], its ++ its', f, rfl, .nil f, .cons hs hr⟩
    · rcases out with _ | ⟨w, out⟩
      · obtain ⟨x, y, k, rfl, h1, h2⟩ := ih (v :: a) b hab
        refine ⟨its ++ x, y, k, by simp, ?_, h2⟩
        exact .cons (by rw [← List.append_assoc] ; exact hs) h1
      · obtain rfl : out = [] := by simpa using hl
        simp only [List.cons_append, List.nil_append, List.cons.injEq] at hab
        obtain ⟨rfl, hab⟩ := hab
        obtain ⟨x, y, k, rfl, h1, h2⟩ := ih a b hab
        refine ⟨its ++ x, y, k, by simp, ?_, h2⟩
        exact .cons (by rw [← List.append_assoc] ; exact hs) h1

theorem run_quiet {rest its : List Item} {out post : List Seen} {j : Insn} {sp : Bool} (hb : c.evt.pkt.errata.bdm64 = false)
    (h : Flow.Run c rest f its out f') : f.cur = none → out = .insn j sp :: post → j.ip = f.ip := by
  induction h with
  | nil f => intro _ h; cases h
  | @cons f g h its its' out out' hs hr ih =>
    intro hc ho
    cases hs with
    | fetch i h1 h2 h3 => cases ho; exact h3.ip
    | told i it t calls h1 h2 => rw [hc] at h2; cases h2
    | exec i t calls h1 h2 => rw [hc] at h2; cases h2
    | drop h1 => exact ih rfl ho
    | take e h1 => exact ih hc ho
    | tick => exact ih hc ho
    | locate => exact ih hc ho
    | skd022 => exact ih hc ho
    | bdm64 e s i h1 => rw [hb] at h1; cases h1
    | event => cases ho
    | belongs => cases ho
    | disable => cases ho
    | image => cases ho

theorem run_exec {rest its : List Item} {out post : List Seen} {i j : Insn} {sp : Bool} (hb : c.evt.pkt.errata.bdm64 = false)
    (h : Flow.Run c rest f its out f') : f.enabled = true → f.cur = some i → out = .insn j sp :: post →
      ∃ a x b calls', its = a ++ x ++ b ∧ Exec i f.calls x j.ip calls' := by
  induction h with
  | nil f => intro _ _ h; cases h
  | @cons f g h its its' out out' hs hr ih =>
    intro he hc ho
    cases hs with
    | fetch i h1 h2 h3 => rw [hc] at h2; cases h2
    | told k it t calls h1 h2 h3 =>
      rw [hc] at h2; cases h2
      have := run_quiet hb hr rfl ho
      exact ⟨[], [it], its', calls, by simp, by rw [this]; exact h3⟩
    | exec k t calls h1 h2 h3 =>
      rw [hc] at h2; cases h2
      have := run_quiet hb hr rfl ho
      exact ⟨[], [], its', calls, by simp, by rw [this]; exact h3⟩
    | drop h1 => rw [he] at h1; cases h1
    | take e h1 =>
      obtain ⟨a, x, b, y, rfl, h⟩ := ih he hc ho
      exact ⟨.event e :: a, x, b, y, rfl, h⟩
    | tick => exact ih he hc ho
    | locate => exact ih he hc ho
    | skd022 => exact ih he hc ho
    | bdm64 e s i h1 => rw [hb] at h1; cases h1
    | event => cases ho
    | belongs => cases ho
    | disable => cases ho
    | image => cases ho

theorem run_pair {rest its : List Item} {out post : List Seen} {i j : Insn} {sp sp' : Bool}
    (hb : c.evt.pkt.errata.bdm64 = false) (h : Flow.Run c rest f its out f') :
    out = .insn i sp :: .insn j sp' :: post → ∃ a x b calls calls', its = a ++ x ++ b ∧ Exec i calls x j.ip calls' := by
  induction h with
  | nil f => intro h; cases h
  | @cons f g h its its' out out' hs hr ih =>
    intro ho
    cases hs with
    | fetch k h1 h2 h3 =>
      cases ho
      obtain ⟨a, x, b, y, rfl, h⟩ := run_exec hb hr h1 rfl rfl
      exact ⟨a, x, b, _, y, rfl, h⟩
    | told k it =>
      obtain ⟨a, x, b, y, z, rfl, h⟩ := ih ho
      exact ⟨it :: a, x, b, y, z, rfl, h⟩
    | take e =>
      obtain ⟨a, x, b, y, z, rfl, h⟩ := ih ho
      exact ⟨.event e :: a, x, b, y, z, rfl, h⟩
    | exec => exact ih ho
    | drop => exact ih ho
    | tick => exact ih ho
    | locate => exact ih ho
    | skd022 => exact ih ho
    | bdm64 => exact ih ho
    | event => cases ho
    | belongs => cases ho
    | disable => cases ho
    | image => cases ho

end Ipt
