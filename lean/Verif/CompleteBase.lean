import Verif.CompleteQuery
import Verif.CompleteFetch

/-!
# Helper lemmas: the instruction flow decoder gets on
-/

set_option linter.unusedSimpArgs false

namespace Ipt

open Ild Spec Props

variable {c : InsnCfg} {s s' : Idec} {f : Flow}

/-- The instruction is known, and returns are not direct. -/
structure Known (x : Iext) : Prop where
  cls : x.cls ≠ .unknown
  ret : x.cls = .return → x.isDirect = false

theorem ild_known {raw : List UInt8} {n k : Nat} {m : Mode} {x : Iext} (h : ildDecode raw n m = (k, .ok x)) : Known x := by
  unfold ildDecode at h
  rcases hd : decode raw n m with ⟨s, sz⟩ | e | _ <;> rw [hd] at h <;> simp only [Prod.mk.injEq] at h
  · replace h := h.2
    have br : ∀ {cls inst}, cls ≠ .unknown → cls ≠ .return → branchTarget raw s cls inst = .ok x → Known x := by
      intro cls inst h1 h2 h
      obtain ⟨rfl, -⟩ := branchTarget_inv h
      exact ⟨h1, fun h => absurd h h2⟩
    unfold classify at h
    repeat' split at h
    all_goals first
      | (cases h; exact ⟨by simp, by simp⟩)
      | exact br (by simp) (by simp) h
  · cases h.2
  · cases h.2

/-- An event the decoder can handle. -/
structure Tame (c : InsnCfg) (e : Event) : Prop where
  tip : ∀ ip, e.data ≠ .tip ip
  tnt : ∀ p n, e.data ≠ .tnt p n
  sup : e.data = .rsm ∨ (∃ v, e.data = .sipi v) → e.ipSuppressed = true
  abort : c.evt.pkt.errata.bdm64 = true → ∀ sp x, e.data = .tsx sp true x → e.ipSuppressed = true

theorem nearer_cases (x t : Nat) (e : Event) : nearer x t e = e ∨
    ∃ a n m y, e.data = .trig a n m y ∧ nearer x t e = { e with data := .trig a (n - 1) m t } := by
  unfold nearer
  rcases he : e.data <;> dsimp only
  case trig a n m y =>
    split
    · exact .inr ⟨a, n, m, y, rfl, rfl⟩
    · exact .inl rfl
  all_goals exact .inl rfl

theorem tame_trig {e : Event} {a n : Nat} {m : Bool} {y : Nat} (h : e.data = .trig a n m y) : Tame c e := by
  refine ⟨?_, ?_, ?_, ?_⟩
  · intro ip hd; rw [hd] at h; cases h
  · intro p n hd; rw [hd] at h; cases h
  · rintro (hd | ⟨v, hd⟩) <;> rw [hd] at h <;> cases h
  · intro _ sp x hd; rw [hd] at h; cases h

theorem tame_nearer {x t : Nat} {e : Event} : Tame c (nearer x t e) ↔ Tame c e := by
  rcases nearer_cases x t e with h | ⟨a, n, m, y, h1, h2⟩
  · rw [h]
  · exact ⟨fun _ => tame_trig h1, fun _ => by rw [h2]; exact tame_trig rfl⟩

theorem ahead_cases (its : List Item) (n : Option Nat) (x t : Nat) (l : List Item) : ahead its n x t l = l ∨
    ∃ e l', l = .event e :: l' ∧ ahead its n x t l = .event (nearer x t e) :: l' := by
  rcases l with _ | ⟨it, l⟩
  · exact .inl rfl
  · cases it with
    | event e =>
      unfold ahead
      dsimp only
      split
      · exact .inr ⟨e, l, rfl, rfl⟩
      · exact .inl rfl
    | _ => exact .inl rfl

theorem ahead_tame {its : List Item} {n : Option Nat} {x t : Nat} {l : List Item} :
    (∀ e, .event e ∈ ahead its n x t l → Tame c e) ↔ ∀ e, .event e ∈ l → Tame c e := by
  rcases ahead_cases its n x t l with h | ⟨e, l', rfl, h⟩
  · rw [h]
  · rw [h]
    simp only [List.mem_cons, Item.event.injEq]
    constructor
    · rintro h e' (rfl | h')
      · exact tame_nearer.1 (h _ (.inl rfl))
      · exact h _ (.inr h')
    · rintro h e' (rfl | h')
      · exact tame_nearer.2 (h _ (.inl rfl))
      · exact h _ (.inr h')

theorem Traced.tame {out : List Seen} {l : List Item} (h : Traced c f out l)
    (hab : c.evt.pkt.errata.bdm64 = true → ∀ e, .event e ∈ l → ∀ sp x, e.data = .tsx sp true x → e.ipSuppressed = true) :
    ∀ e, .event e ∈ l → Tame c e := by
  have due : ∀ {f : Flow} {e : Event}, f.Due c e → (∀ ip, e.data ≠ .tip ip) ∧ ∀ p n, e.data ≠ .tnt p n := by
    intro f e h
    rcases h with ⟨-, h, -⟩ | ⟨_, _, -, h, -⟩ | ⟨_, _, _, -, h, -⟩ | ⟨_, _, -, h, -⟩
    · constructor <;> (intros; intro hd; simp [Between, hd] at h)
    all_goals constructor <;> (intros; intro hd; rw [hd] at h; simp [Kind.of] at h)
  induction h with
  | done => intro e he; cases he
  | insn f i out l h1 h2 h3 h4 h5 h6 ih => exact ih hab
  | belongs f i e k loc out l h1 h2 h3 h4 h5 ih =>
    intro e' he'
    rcases List.mem_cons.1 he' with he' | he'
    · cases he'
      refine ⟨(due h4).1, (due h4).2, ?_, ?_⟩
      · rintro (hd | ⟨v, hd⟩) <;> rw [hd] at h3 <;> cases h3
      · intro _ sp x hd; rw [hd] at h3; cases h3
    · exact ih (fun h e he => hab h e (by simp [he])) e' he'
  | exec f i its t calls out l h1 h2 h3 h4 h5 h5' h6 ih =>
    intro e' he'
    rcases List.mem_append.1 he' with he' | he'
    · cases h3 <;> simp at he'
    · refine ahead_tame.1 (ih fun h => ?_) e' he'
      rcases ahead_cases its f.count i.ip t l with k | ⟨e, l', rfl, k⟩
      · rw [k]
        exact fun e he => hab h e (by simp [he])
      · rw [k]
        intro e'' he''
        rcases List.mem_cons.1 he'' with he'' | he''
        · cases he''
          rcases nearer_cases i.ip t e with g | ⟨a, n, m, y, -, g⟩
          · rw [g]; exact hab h e (by simp)
          · rw [g]; intro sp x hd; cases hd
        · exact hab h e'' (by simp [he''])
  | disable f i e ip t out l h1 h2 h3 h4 h5 h6 ih =>
    intro e' he'
    rcases List.mem_cons.1 he' with he' | he'
    · cases he'
      refine ⟨(due h4).1, (due h4).2, ?_, ?_⟩
      · rintro (hd | ⟨v, hd⟩) <;> rw [hd] at h3 <;> cases h3
      · intro _ sp x hd; rw [hd] at h3; cases h3
    · exact ih (fun h e he => hab h e (by simp [he])) e' he'
  | event f e out l h1 h2 h3 h4 h5 h6 ih =>
    intro e' he'
    rcases List.mem_cons.1 he' with he' | he'
    · cases he'
      refine ⟨(due h2).1, (due h2).2, ?_, fun h => hab h e (by simp)⟩
      rintro (hd | ⟨v, hd⟩) <;> simpa [Flow.Allows, hd] using h3
    · exact ih (fun h e he => hab h e (by simp [he])) e' he'
  | skd022 f e x y out l h1 h2 h3 h4 h5 h6 h7 ih =>
    intro e' he'
    rcases List.mem_cons.1 he' with he' | he'
    · cases he'
      refine ⟨?_, ?_, ?_, ?_⟩
      · intro ip hd; rw [hd] at h3; cases h3
      · intro p n hd; rw [hd] at h3; cases h3
      · rintro (hd | ⟨v, hd⟩) <;> rw [hd] at h3 <;> cases h3
      · intro _ sp x hd; rw [hd] at h3; cases h3
    · refine ih (fun h e he => ?_) e' (by simp [he'])
      rcases List.mem_cons.1 he with he | he
      · cases he
        intro sp x hd; cases hd
      · exact hab h e (by simp [he])
  | locate f e a n m k out l h1 h2 h3 h4 h5 h6 h7 ih =>
    intro e' he'
    rcases List.mem_cons.1 he' with he' | he'
    · cases he'
      exact tame_trig h2
    · refine ih (fun h e he => ?_) e' (by simp [he'])
      rcases List.mem_cons.1 he with he | he
      · cases he
        intro sp x hd; cases hd
      · exact hab h e (by simp [he])

/-- The items the decoder has to handle: the pending event, and those in the trace. -/
inductive Has (c : InsnCfg) (s : Idec) : List Item → Prop
  | pend (e : Event) (l : List Item) : s.processEvent = true → s.event = some e → QHas c.evt s.q l →
    s.status.eventPending = evNext l → s.status.eos = l.isEmpty → Has c s (.event e :: l)
  | idle (l : List Item) : s.processEvent = false → QHas c.evt s.q l → s.status.eventPending = evNext l →
    s.status.eos = l.isEmpty → (c.tick = true → s.event ≠ none ∨ evNext l = true ∨ l = []) → Has c s l

theorem Has.of_eq {l : List Item} (h : Has c s l) (h1 : s'.processEvent = s.processEvent) (h2 : s'.event = s.event)
    (h3 : s'.q = s.q) (h4 : s'.status = s.status) : Has c s' l := by
  cases h with
  | pend e l a1 a2 a3 a4 a5 => exact .pend e l (h1.trans a1) (h2.trans a2) (h3 ▸ a3) (h4 ▸ a4) (h4 ▸ a5)
  | idle l a1 a2 a3 a4 a5 => exact .idle l (h1.trans a1) (h3 ▸ a2) (h4 ▸ a3) (h4 ▸ a4) (by rw [h2]; exact a5)

/-- The event at the head. -/
def headEvent : List Item → Option Event
  | .event e :: _ => some e
  | _ => none

theorem headEvent_some {l : List Item} {e : Event} (h : headEvent l = some e) : ∃ l', l = .event e :: l' := by
  cases l with
  | nil => cases h
  | cons a l => cases a <;> cases h; exact ⟨l, rfl⟩

theorem evNext_head (l : List Item) : evNext l = (headEvent l).isSome := by
  cases l with
  | nil => rfl
  | cons a l => cases a <;> rfl

/-- Looking for an event. -/
theorem pending_fwd {l : List Item} (hu : Usable c.evt) (h : Has c s l) : ∃ s1, eventPending c s = (s1, .ok (headEvent l)) ∧
    Has c s1 l ∧ s1 = { s with q := s1.q, event := s1.event, processEvent := s1.processEvent, status := s1.status } ∧
    ∀ e, headEvent l = some e → s1.processEvent = true ∧ s1.event = some e := by
  unfold eventPending
  cases h with
  | pend e l a1 a2 a3 a4 a5 =>
    refine ⟨s, ?_, .pend e l a1 a2 a3 a4 a5, rfl, ?_⟩
    · rw [IM.get_bind, if_pos a1, a2]; rfl
    · rintro e' ⟨⟩; exact ⟨a1, a2⟩
  | idle l a1 a2 a3 a4 a5 =>
    rw [IM.get_bind, if_neg (by simp [a1])]
    rcases hh : headEvent l with _ | e
    · have : evNext l = false := by rw [evNext_head, hh]; rfl
      rw [if_pos (a3.trans this)]
      exact ⟨s, rfl, .idle l a1 a2 a3 a4 a5, rfl, by simp⟩
    · obtain ⟨l', rfl⟩ := headEvent_some hh
      rw [if_neg (by rw [a3]; simp [evNext])]
      obtain ⟨q', b1, b2⟩ := a2.event hu
      refine ⟨{ s with q := q', event := some e, processEvent := true, status := flagsFor l' }, ?_, ?_, rfl, ?_⟩
      · rw [IM.bind_ok]
        refine ⟨{ s with q := q' }, (e, flagsFor l'), ?_, rfl⟩
        rw [IM.query_ok]
        exact ⟨q', b1, rfl⟩
      · exact .pend e l' rfl rfl b2 rfl rfl
      · rintro e' ⟨⟩; exact ⟨rfl, rfl⟩

/-- The decoder is at the location of an event between two instructions. -/
def atEvent (s : Idec) (e : Event) : Bool :=
  match e.data with
  | .disabled _ => e.statusUpdate
  | .asyncDisabled x _ | .asyncBranch x _ => x == s.ip
  | .tsx _ _ x | .asyncPaging _ _ x | .asyncVmcs _ x => e.ipSuppressed || s.ip == x
  | .paging .. | .vmcs .. | .ptwrite .. | .iret .. | .vmentry .. | .uiret .. => !s.enabled
  | .execMode _ x | .exstop x | .mwait _ _ x | .iflags _ x | .interrupt _ _ x | .smi x | .init x | .vmexit _ _ _ x
  | .shutdown x | .uintr _ x => !s.enabled || e.ipSuppressed || s.ip == x
  | .trig _ n _ x => e.ipSuppressed || (n == 0 && (!s.enabled || x == s.ip))
  | _ => true

theorem ipFor_fwd {e : Event} (h1 : ∀ x y, e.data = .asyncDisabled x y → x = s.ip → c.evt.pkt.errata.skd022 = false) (ht : Tame c e)
    (hul : ¬ Unlocated e) (i : Option Insn) : checkIpFor c i (some e) s = insnStatus (atEvent s e) s := by
  unfold checkIpFor
  dsimp only
  rw [IM.get_bind]
  rcases hd : e.data <;> simp only [atEvent, hd]
  case tip ip => exact absurd hd (ht.tip ip)
  case tnt p n => exact absurd hd (ht.tnt p n)
  case trig a n m ip =>
    unfold checkTrig
    cases hs : e.ipSuppressed
    · have hip : ip ≠ 0 := by rintro rfl; exact hul ⟨hs, a, n, m, hd⟩
      rw [if_neg (by simp), IM.get_bind]
      unfold locateTrig
      show IM.bind _ _ _ = _
      unfold IM.bind
      rw [IM.get_bind, if_neg hip]
      show (if n ≠ 0 then insnStatus false
        else if s.enabled = true ∧ ip ≠ s.ip then insnStatus false
        else insnStatus true) s = _
      by_cases hn : n = 0
      · rw [if_neg (by simpa using hn)]
        cases he : s.enabled
        · rw [if_neg (by simp)]; simp [hn]
        · by_cases hx : ip = s.ip
          · rw [if_neg (by simp [hx])]; simp [hn, hx]
          · rw [if_pos ⟨rfl, hx⟩, show (ip == s.ip) = false by simpa using hx]; simp
      · rw [if_pos hn, show (n == 0) = false by simpa using hn]; rfl
    · rfl
  case rsm => rw [if_neg (by simp [ht.sup (.inl hd)])]
  case sipi v => rw [if_neg (by simp [ht.sup (.inr ⟨v, hd⟩)])]
  case asyncDisabled x y =>
    by_cases hx : x = s.ip
    · rw [if_neg (by simpa using hx), if_neg (by simp [h1 x y hd hx]), show (x == s.ip) = true by simpa using hx]
    · rw [if_pos hx, show (x == s.ip) = false by simpa using hx]
  case tsx a b x =>
    unfold postponeTsx
    cases hs : e.ipSuppressed
    · rw [if_neg (by simp)]
      have e1 : (s.ip == x) = !(s.ip != x) := by simp [bne]
      rw [Bool.false_or, e1]
      cases i
      · rfl
      · cases hb : c.evt.pkt.errata.bdm64
        · rfl
        · cases b
          · rfl
          · have := ht.abort hb _ _ hd
            rw [hs] at this
            cases this
    · rfl
  case asyncPaging a b x | asyncVmcs a x =>
    congr 1
    cases e.ipSuppressed <;> simp [bne, BEq.comm (a := x)]
  case execMode | exstop | mwait | iflags | interrupt | smi | init | vmexit | shutdown | uintr =>
    unfold waitFor
    rw [IM.get_bind]
    congr 1
    cases s.enabled <;> cases e.ipSuppressed <;> simp [bne]

theorem atEvent_due {e : Event} (ht : Tame c e) (hcur : f.cur = none) (hip : f.ip = s.ip) (hen : f.enabled = s.enabled) :
    atEvent s e = true ↔ f.Due c e := by
  have due : f.Due c e ↔ (Between e ∧ f.Reached e ∧ countdown e = 0) ∨ (∃ k l, Kind.of e.data = some (k, l) ∧ f.enabled = false) := by
    constructor
    · rintro (⟨-, a, b, d⟩ | ⟨k, l, -, a, b⟩ | ⟨k, l, i, a, -⟩ | ⟨ip, i, a, -⟩)
      · exact .inl ⟨a, b, d⟩
      · exact .inr ⟨k, l, a, b⟩
      · rw [hcur] at a; cases a
      · rw [hcur] at a; cases a
    · rintro (⟨a, b, d⟩ | ⟨k, l, a, b⟩)
      · exact .between hcur a b d
      · exact .later k l hcur a b
  rw [due]
  unfold Flow.Reached
  rw [hip, hen]
  rcases hd : e.data
  case tip ip => exact absurd hd (ht.tip ip)
  case tnt p n => exact absurd hd (ht.tnt p n)
  case trig a n m ip =>
    simp only [atEvent, hd, Between, Kind.of, location, countdown]
    cases hen' : s.enabled <;> cases hs : e.ipSuppressed <;> simp
    exact ⟨fun h => ⟨h.2.symm, h.1⟩, fun h => ⟨h.2, h.1.symm⟩⟩
  all_goals
    simp only [atEvent, hd, Between, Kind.of, location, countdown]
    cases hen' : s.enabled <;> cases hs : e.ipSuppressed <;> simp <;> try exact ⟨Eq.symm, Eq.symm⟩

theorem insnStatus_run (p : Bool) : insnStatus p s =
    (s, .ok { eventPending := p, ipSuppressed := !s.enabled, eos := s.status.eos && !s.processEvent }) := rfl

theorem Has.eos {l : List Item} (h : Has c s l) : (s.status.eos && !s.processEvent) = l.isEmpty := by
  cases h with
  | pend e l a1 a2 a3 a4 a5 => simp [a1]
  | idle l a1 a2 a3 a4 a5 => simp [a1, a4]

/-- What looking for events changes. -/
def OnlyEvent (s s1 : Idec) : Prop :=
  s1 = { s with q := s1.q, event := s1.event, processEvent := s1.processEvent, status := s1.status }

/-- Looking for an event between two instructions. -/
theorem checkIp_fwd {l : List Item} (hu : Usable c.evt)
    (h1 : ∀ e x y, headEvent l = some e → e.data = .asyncDisabled x y → x = s.ip → c.evt.pkt.errata.skd022 = false) (ht : ∀ e, headEvent l = some e → Tame c e) (hul : ∀ e, headEvent l = some e → ¬ Unlocated e)
    (h : Has c s l) (i : Option Insn) :
    ∃ s1 fl, checkIpEvent c i s = (s1, .ok fl) ∧ Has c s1 l ∧ OnlyEvent s s1 ∧ fl.eos = l.isEmpty ∧
      match headEvent l with
      | none => fl.eventPending = false
      | some e => fl.eventPending = atEvent s e ∧ s1.processEvent = true ∧ s1.event = some e := by
  obtain ⟨s1, a1, a2, a3, a4⟩ := pending_fwd hu h
  rw [checkIp_eq]
  rcases hh : headEvent l with _ | e
  · rw [hh] at a1
    refine ⟨s1, { eventPending := false, ipSuppressed := !s1.enabled, eos := s1.status.eos && !s1.processEvent }, ?_, a2, a3,
      a2.eos, rfl⟩
    rw [IM.bind_ok]
    exact ⟨s1, none, a1, insnStatus_run false⟩
  · rw [hh] at a1
    have : atEvent s1 e = atEvent s e := by
      rw [a3]; rfl
    refine ⟨s1, { eventPending := atEvent s1 e, ipSuppressed := !s1.enabled, eos := s1.status.eos && !s1.processEvent }, ?_,
      a2, a3, a2.eos, this, a4 e hh⟩
    rw [IM.bind_ok]
    refine ⟨s1, some e, a1, ?_⟩
    rw [ipFor_fwd (fun x y hd hx => h1 e x y hh hd (hx.trans (by rw [a3]))) (ht e hh) (hul e hh)]
    rfl

end Ipt
