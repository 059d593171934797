import Verif.InsnFlowMem
import Verif.QueryInv
import Verif.Props.RetStack

/-!
# Helper lemmas: the instruction flow decoder and the machine that follows a program
-/

set_option linter.unusedSimpArgs false

namespace Ipt

open Ild Spec Props

namespace IM

variable {α β : Type} {s s' : Idec}

theorem bind_ok {m : IM α} {f : α → IM β} {b : β} :
    (m >>= f) s = (s', .ok b) ↔ ∃ s1 a, m s = (s1, .ok a) ∧ f a s1 = (s', .ok b) := by
  show IM.bind m f s = _ ↔ _
  unfold IM.bind
  rcases h : m s with ⟨s1, a | e | _⟩
  · constructor
    · intro h'; exact ⟨s1, a, rfl, h'⟩
    · rintro ⟨s2, a2, h1, h2⟩; cases h1; exact h2
  · constructor
    · intro h'; cases h'
    · rintro ⟨s2, a2, h1, h2⟩; cases h1
  · constructor
    · intro h'; cases h'
    · rintro ⟨s2, a2, h1, h2⟩; cases h1

theorem pure_ok {a b : α} : (pure a : IM α) s = (s', .ok b) ↔ s' = s ∧ b = a := by
  show (s, Res.ok a) = (s', .ok b) ↔ _
  constructor
  · intro h; cases h; exact ⟨rfl, rfl⟩
  · rintro ⟨rfl, rfl⟩; rfl

theorem fail_ok {e : Err} {b : α} : (IM.fail e : IM α) s = (s', .ok b) ↔ False := by
  constructor
  · intro h; cases h
  · exact False.elim

theorem undef_ok {b : α} : (IM.undef : IM α) s = (s', .ok b) ↔ False := by
  constructor
  · intro h; cases h
  · exact False.elim

theorem get_ok {b : Idec} : IM.get s = (s', .ok b) ↔ s' = s ∧ b = s := by
  constructor
  · intro h; cases h; exact ⟨rfl, rfl⟩
  · rintro ⟨rfl, rfl⟩; rfl

theorem modify_ok {f : Idec → Idec} {b : Unit} : IM.modify f s = (s', .ok b) ↔ s' = f s := by
  constructor
  · intro h; cases h; rfl
  · rintro rfl; rfl

theorem lift_ok {r : Res α} {b : α} : IM.lift r s = (s', .ok b) ↔ s' = s ∧ r = .ok b := by
  constructor
  · intro h; cases h; exact ⟨rfl, rfl⟩
  · rintro ⟨rfl, rfl⟩; rfl

theorem query_ok {f : QM α} {b : α} :
    IM.query f s = (s', .ok b) ↔ ∃ q, f s.q = (q, .ok b) ∧ s' = { s with q := q } := by
  unfold IM.query
  rcases f s.q with ⟨q, r⟩
  simp only [Prod.mk.injEq]
  constructor
  · rintro ⟨rfl, rfl⟩; exact ⟨q, ⟨rfl, rfl⟩, rfl⟩
  · rintro ⟨q', ⟨rfl, rfl⟩, rfl⟩; exact ⟨rfl, rfl⟩

theorem ite_ok {p : Prop} [Decidable p] {m n : IM α} {b : α} :
    (if p then m else n) s = (s', .ok b) ↔ (p ∧ m s = (s', .ok b)) ∨ (¬ p ∧ n s = (s', .ok b)) := by
  by_cases h : p <;> simp [h]

theorem try_ok {m : IM α} {b : Option α × Option Err} : IM.try_ m s = (s', .ok b) ↔
    (∃ a, m s = (s', .ok a) ∧ b = (some a, none)) ∨ (∃ e, m s = (s', .err e) ∧ b = (none, some e)) := by
  unfold IM.try_
  rcases m s with ⟨s1, a | e | _⟩ <;> simp [Prod.mk.injEq, eq_comm]

theorem get_bind {f : Idec → IM β} : (IM.get >>= f) s = f s s := rfl

theorem modify_bind {g : Idec → Idec} {f : Unit → IM β} : (IM.modify g >>= f) s = f () (g s) := rfl

theorem pure_bind {a : α} {f : α → IM β} : (pure a >>= f : IM β) s = f a s := rfl

theorem when_ok {b : Bool} {m : IM Unit} {u : Unit} :
    IM.when b m s = (s', .ok u) ↔ (b = true ∧ m s = (s', .ok ())) ∨ (b = false ∧ s' = s) := by
  cases b <;> simp [IM.when, pure_ok]

theorem bind_err {m : IM α} {f : α → IM β} {e : Err} : (m >>= f) s = (s', .err e) ↔
    m s = (s', .err e) ∨ ∃ s1 a, m s = (s1, .ok a) ∧ f a s1 = (s', .err e) := by
  show IM.bind m f s = _ ↔ _
  unfold IM.bind
  rcases h : m s with ⟨s1, a | e | _⟩
  · constructor
    · intro h'; exact .inr ⟨s1, a, rfl, h'⟩
    · rintro (h1 | ⟨s2, a2, h1, h2⟩)
      · cases h1
      · cases h1; exact h2
  · constructor
    · intro h'; cases h'; exact .inl rfl
    · rintro (h1 | ⟨s2, a2, h1, h2⟩)
      · cases h1; rfl
      · cases h1
  · constructor
    · intro h'; cases h'
    · rintro (h1 | ⟨s2, a2, h1, h2⟩)
      · cases h1
      · cases h1

end IM

/-- The instruction has an event of this kind. -/
def Idec.boundTo (s : Idec) : Kind → Bool
  | .paging => s.boundPaging
  | .vmcs => s.boundVmcs
  | .ptwrite => s.boundPtwrite
  | .iret => s.boundIret
  | .vmentry => s.boundVmentry
  | .uiret => s.boundUiret

/-- The pending event. -/
def Idec.pend (s : Idec) : Option Event := if s.processEvent = true then s.event else none

/-- The number of instructions since the last anchor. -/
def Idec.count (s : Idec) : Option Nat := if s.hasIcnt = true then some s.icnt else none

/-- The decoder and the machine agree, up to the current instruction. -/
structure Core (c : InsnCfg) (s : Idec) (f : Flow) : Prop where
  enabled : f.enabled = s.enabled
  mode : f.mode = s.mode
  spec : f.speculative = s.speculative
  asid : f.asid = s.sc.asid
  secs : ∀ m, m ∈ s.sc.img.secs ↔ f.sections m
  calls : s.retstack.Holds f.calls
  count : f.count = s.count
  pend : f.pend = s.pend
  noPend : f.pend = none → s.processEvent = false
  icnt : s.icnt < 2 ^ 32
  inv : ScInv s.sc
  wf : ∀ m, f.sections m → m.WF c.env

/-- The decoder promises not to ask for an event next. -/
def Prom (s : Idec) (rest : List Item) : Prop :=
  s.processEvent = false → s.status.eventPending = false → ¬ startsWithEvent rest

/-- The decoder goes from `s` to `s'` while the machine goes from `f` to `f'`. -/
def Tr (c : InsnCfg) (s : Idec) (f : Flow) (out : List Seen) (s' : Idec) (f' : Flow) : Prop :=
  ∃ qs, s'.q = afterQueries c.evt qs s.q ∧ ∀ rest, Prom s' rest →
    Prom s (handed c.evt qs s.q ++ rest) ∧ Flow.Run c rest f (handed c.evt qs s.q) out f'

theorem Run.one {c : InsnCfg} {rest : List Item} {f f' : Flow} {its : List Item} {out : List Seen}
    (h : Flow.Step c rest f its out f') : Flow.Run c rest f its out f' := by
  have := Flow.Run.cons (c := c) (rest := rest) (its' := []) (out' := []) h (.nil f')
  rwa [List.append_nil, List.append_nil] at this

theorem Run.append {c : InsnCfg} {rest : List Item} {f g h : Flow} {its its' : List Item} {out out' : List Seen}
    (h1 : Flow.Run c (its' ++ rest) f its out g) (h2 : Flow.Run c rest g its' out' h) :
    Flow.Run c rest f (its ++ its') (out ++ out') h := by
  generalize hr : its' ++ rest = r at h1
  induction h1 with
  | nil f => exact h2
  | cons hs _ ih =>
    subst hr
    rw [List.append_assoc, List.append_assoc]
    refine .cons ?_ (ih h2)
    rwa [List.append_assoc]

variable {c : InsnCfg} {s s' s'' : Idec} {f f' f'' : Flow}

theorem Tr.trans {out out' : List Seen} (h1 : Tr c s f out s' f') (h2 : Tr c s' f' out' s'' f'') :
    Tr c s f (out ++ out') s'' f'' := by
  obtain ⟨q1, e1, k1⟩ := h1
  obtain ⟨q2, e2, k2⟩ := h2
  refine ⟨q1 ++ q2, ?_, fun rest hr => ?_⟩
  · rw [afterQueries_append, ← e1, e2]
  · obtain ⟨p2, r2⟩ := k2 rest hr
    obtain ⟨p1, r1⟩ := k1 _ p2
    rw [handed_append, ← e1, List.append_assoc]
    exact ⟨p1, Run.append r1 r2⟩

/-- No query. -/
theorem Tr.zero {out : List Seen} (hq : s'.q = s.q)
    (hp : s.processEvent = false → s.status.eventPending = false →
      s'.processEvent = false ∧ s'.status.eventPending = false)
    (h : ∀ rest, Prom s' rest → Flow.Run c rest f [] out f') : Tr c s f out s' f' :=
  ⟨[], hq, fun rest hr => ⟨fun a b => hr (hp a b).1 (hp a b).2, h rest hr⟩⟩

theorem Tr.refl (hq : s'.q = s.q)
    (hp : s.processEvent = false → s.status.eventPending = false →
      s'.processEvent = false ∧ s'.status.eventPending = false) : Tr c s f [] s' f :=
  .zero hq hp fun _ _ => .nil f

/-- One query. -/
theorem Tr.one {o : List Seen} {q : Query} {it : Item} {fl : Flags} (hq : q.run c.evt s.q = (s'.q, .ok (it, fl)))
    (hp : s.processEvent = false → s.status.eventPending = false → ¬ startsWithEvent [it])
    (h : ∀ rest, Prom s' rest → Flow.Run c rest f [it] o f') : Tr c s f o s' f' := by
  refine ⟨[q], by simp [afterQueries, hq], fun rest hr => ?_⟩
  rw [handed_one]
  have ho : out c.evt q s.q = [it] := by unfold Ipt.out; rw [hq]; rfl
  rw [ho]
  refine ⟨fun a b => ?_, h rest hr⟩
  have := hp a b
  cases it <;> simpa [startsWithEvent] using this

/-- A refused query. -/
theorem Tr.refused {q : Query} {e : Err} (hq : q.run c.evt s.q = (s'.q, .err e))
    (hp : s.processEvent = false → s.status.eventPending = false →
      s'.processEvent = false ∧ s'.status.eventPending = false) : Tr c s f [] s' f := by
  refine ⟨[q], by simp [afterQueries, hq], fun rest hr => ?_⟩
  rw [handed_one]
  have ho : out c.evt q s.q = [] := by unfold Ipt.out; rw [hq]; rfl
  rw [ho]
  exact ⟨fun a b => hr (hp a b).1 (hp a b).2, .nil f⟩

theorem insnStatus_ok {p : Bool} {fl : Flags} : insnStatus p s = (s', .ok fl) ↔
    s' = s ∧ fl = { eventPending := p, ipSuppressed := !s.enabled, eos := s.status.eos && !s.processEvent } := by
  simp [insnStatus, IM.bind_ok, IM.get_ok, IM.pure_ok]

end Ipt
