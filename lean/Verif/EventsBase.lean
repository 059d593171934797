import Verif.Spec.Events
import Verif.PsbLemmas
import Verif.Props.Psb
import Verif.PacketErr

/-! Helper lemmas: the event decoder follows `Spec.trace`.  The relation between decoder states and views, and the basic
operations. -/

set_option linter.unusedSimpArgs false

namespace Ipt.Events

open Ipt Ipt.Spec

variable {c : EvtCfg} {fin : Err} {s : Evd}

/-- The binding of a pending event. -/
def mask : Waits → Nat
  | .tip => evbTip
  | .fup => evbFup
  | .ownFup => evbFupBound
  | .tipOrFup => evbTip ||| evbFupBound
  | .exstop => evbExstop
  | .cfe => evbCfe

/-- The queue. -/
def lst (l : List (Event × Waits)) : List (Event × Nat) := l.map fun x => (x.1, mask x.2)

theorem lst_append (l l' : List (Event × Waits)) : lst (l ++ l') = lst l ++ lst l' := List.map_append

theorem lst_length (l : List (Event × Waits)) : (lst l).length = l.length := List.length_map _

/-- The kinds of events that wait for a packet. -/
def fitData : Waits → EvData → Bool → Bool
  | .tip, .asyncBranch .., _ | .tip, .asyncPaging .., _ | .tip, .asyncVmcs .., _ => true
  | .tipOrFup, .execMode .., _ | .tipOrFup, .iflags .., _ | .tipOrFup, .tick .., _ => true
  | .exstop, .mwait _ _ a, _ => decide (a = 0)
  | .cfe, .interrupt .., _ | .cfe, .vmexit .., _ => true
  | .fup, d, sup | .ownFup, d, sup =>
    match d with
    | .overflow .. | .tsx .. | .exstop .. | .mwait .. | .ptwrite .. | .interrupt .. | .iret .. | .smi .. | .init ..
    | .vmentry .. | .vmexit .. | .shutdown .. | .uintr .. | .uiret .. | .trig .. | .tick .. => true
    | .rsm | .sipi .. => sup
    | _ => false
  | _, _, _ => false

/-- A pending event is of the right kind. -/
def Fit (x : Event × Waits) : Prop := fitData x.2 x.1.data x.1.ipSuppressed = true

/-- An asynchronous branch precedes what belongs to it. -/
def Ord (l : List (Event × Waits)) : Prop :=
  (∀ y ∈ l, y.2 ≠ .tip) ∨
    ∃ l1 x l2, l = l1 ++ x :: l2 ∧ TraceView.isBranch x.1 = true ∧ x.2 = .tip ∧ ∀ y ∈ l1, y.2.atTip = false

theorem ord_nil : Ord [] := .inl (by simp)

theorem ord_snoc {l : List (Event × Waits)} {x : Event × Waits} (h : Ord l) (hx : x.2 ≠ .tip) : Ord (l ++ [x]) := by
  rcases h with h | ⟨l1, y, l2, rfl, h⟩
  · refine .inl fun y hy => ?_
    rcases List.mem_append.1 hy with hy | hy
    · exact h y hy
    · rw [List.mem_singleton.1 hy]; exact hx
  · exact .inr ⟨l1, y, l2 ++ [x], by simp, h⟩

theorem fit_branch {x : Event × Waits} (h : Fit x) (hb : TraceView.isBranch x.1 = true) : x.2 = .tip := by
  obtain ⟨e, w⟩ := x
  unfold Fit at h
  unfold TraceView.isBranch at hb
  revert h hb
  dsimp only
  cases e.data <;> cases w <;> simp [fitData]

theorem fit_paging {x : Event × Waits} (h : Fit x) (hb : TraceView.isPaging x.1 = true) : x.2 = .tip := by
  obtain ⟨e, w⟩ := x
  unfold Fit at h
  unfold TraceView.isPaging at hb
  revert h hb
  dsimp only
  cases e.data <;> cases w <;> simp [fitData]

theorem ord_tip {l : List (Event × Waits)} {x : Event × Waits} (h : Ord l) (hf : ∀ y ∈ l, Fit y)
    (hb : (l.any fun x => TraceView.isBranch x.1) = true) : Ord (l ++ [x]) := by
  rcases h with h | ⟨l1, y, l2, rfl, h⟩
  · obtain ⟨y, h1, h2⟩ := List.any_eq_true.1 hb
    exact absurd (fit_branch (hf y h1) h2) (h y h1)
  · exact .inr ⟨l1, y, l2 ++ [x], by simp, h⟩

theorem ord_branch {l : List (Event × Waits)} {x : Event × Waits} (h : Ord l) (hn : ∀ y ∈ l, y.2 ≠ .tipOrFup)
    (hb : TraceView.isBranch x.1 = true) (hx : x.2 = .tip) : Ord (l ++ [x]) := by
  rcases h with h | ⟨l1, y, l2, rfl, h⟩
  · refine .inr ⟨l, x, [], rfl, hb, hx, fun y hy => ?_⟩
    have h1 := h y hy
    have h2 := hn y hy
    revert h1 h2
    cases y.2 <;> simp [Waits.atTip]
  · exact .inr ⟨l1, y, l2 ++ [x], by simp, h⟩

theorem ord_erase {l1 l2 : List (Event × Waits)} {x : Event × Waits} (h : Ord (l1 ++ x :: l2)) (hx : x.2 ≠ .tip) :
    Ord (l1 ++ l2) := by
  rcases h with h | ⟨m1, y, m2, he, h1, h2, h3⟩
  · refine .inl fun y hy => h y ?_
    rcases List.mem_append.1 hy with hy | hy
    · exact List.mem_append_left _ hy
    · exact List.mem_append_right _ (List.mem_cons_of_mem _ hy)
  · rcases List.append_eq_append_iff.1 he with ⟨a, ha, hb⟩ | ⟨a, ha, hb⟩
    · -- m1 = l1 ++ a
      cases a with
      | nil =>
        simp only [List.nil_append, List.cons.injEq] at hb
        rw [hb.1] at hx; exact absurd h2 hx
      | cons z a =>
        simp only [List.cons_append, List.cons.injEq] at hb
        obtain ⟨rfl, hb⟩ := hb
        refine .inr ⟨l1 ++ a, y, m2, by rw [hb]; simp, h1, h2, fun y hy => h3 y ?_⟩
        rw [ha]
        rcases List.mem_append.1 hy with hy | hy
        · exact List.mem_append_left _ hy
        · exact List.mem_append_right _ (List.mem_cons_of_mem _ hy)
    · cases a with
      | nil =>
        simp only [List.nil_append, List.cons.injEq] at hb
        rw [← hb.1] at hx; exact absurd h2 hx
      | cons z a =>
        simp only [List.cons_append, List.cons.injEq] at hb
        obtain ⟨rfl, hb⟩ := hb
        exact .inr ⟨m1, y, a ++ l2, by rw [ha]; simp, h1, h2, h3⟩

theorem ord_set {l1 l2 : List (Event × Waits)} {x x' : Event × Waits} (h : Ord (l1 ++ x :: l2)) (hx : x'.2 = x.2)
    (hb : TraceView.isBranch x.1 = false) : Ord (l1 ++ x' :: l2) := by
  rcases h with h | ⟨m1, y, m2, he, h1, h2, h3⟩
  · refine .inl fun y hy => ?_
    rcases List.mem_append.1 hy with hy | hy
    · exact h y (List.mem_append_left _ hy)
    · rcases List.mem_cons.1 hy with rfl | hy
      · rw [hx]; exact h x (by simp)
      · exact h y (List.mem_append_right _ (List.mem_cons_of_mem _ hy))
  · rcases List.append_eq_append_iff.1 he with ⟨a, ha, hb'⟩ | ⟨a, ha, hb'⟩
    · cases a with
      | nil =>
        simp only [List.nil_append, List.cons.injEq] at hb'
        rw [hb'.1, h1] at hb; cases hb
      | cons z a =>
        simp only [List.cons_append, List.cons.injEq] at hb'
        obtain ⟨rfl, hb'⟩ := hb'
        refine .inr ⟨l1 ++ x' :: a, y, m2, by rw [hb']; simp, h1, h2, fun y hy => ?_⟩
        rw [ha] at h3
        rcases List.mem_append.1 hy with hy | hy
        · exact h3 y (List.mem_append_left _ hy)
        · rcases List.mem_cons.1 hy with rfl | hy
          · rw [hx]; exact h3 x (by simp)
          · exact h3 y (List.mem_append_right _ (List.mem_cons_of_mem _ hy))
    · cases a with
      | nil =>
        simp only [List.nil_append, List.cons.injEq] at hb'
        rw [← hb'.1, h1] at hb; cases hb
      | cons z a =>
        simp only [List.cons_append, List.cons.injEq] at hb'
        obtain ⟨rfl, hb'⟩ := hb'
        exact .inr ⟨m1, y, a ++ x' :: l2, by rw [ha]; simp, h1, h2, h3⟩

/-- The decoder state `s` matches the view `v`, outside of PSB+. -/
structure Rel (c : EvtCfg) (s : Evd) (v : TraceView) : Prop where
  ip : s.ip = v.ip
  tm : s.tm = v.tm
  on : s.enabled = v.on
  mode : v.mode = if s.modeValid = true then some (s.csl, s.csd, c.enableIflags && s.iflag) else none
  q : s.q.Holds (lst v.waiting)
  fit : ∀ x ∈ v.waiting, Fit x
  hdr : v.header = none ∧ v.skip = 0 ∧ s.status = if v.lost = true then some .nosync else none

/-- The packets that are left, and the error after them. -/
def Left (c : EvtCfg) (fin : Err) (d : PktDec) (ps : List Packet) : Prop :=
  ∃ d' d'', Reads c.pkt d ps d' ∧ pktDecNext c.pkt d' = (d'', .err fin)

theorem Left.nil_err {d : PktDec} (h : Left c fin d []) : ∃ d', pktDecNext c.pkt d = (d', .err fin) := by
  obtain ⟨d', d'', h1, h2⟩ := h
  cases h1
  exact ⟨_, h2⟩

theorem Left.cons_ok {d : PktDec} {p : Packet} {ps : List Packet} (h : Left c fin d (p :: ps)) :
    ∃ d1 n, pktDecNext c.pkt d = (d1, .ok (p, n)) ∧ Left c fin d1 ps := by
  obtain ⟨d', d'', h1, h2⟩ := h
  cases h1 with
  | cons d d1 d' p n ps h hs => exact ⟨d1, n, h, d', d'', hs, h2⟩

/-- Fetching the next packet. -/
theorem wlp_fetch_left {ps : List Packet} {Q : Unit → Evd → Prop} {E : Err → Evd → Prop} (hl : Left c fin s.pd ps)
    (h1 : ∀ pd p size k rest, ps = List.replicate k .pad ++ p :: rest → p ≠ .pad → Left c fin pd rest →
      Q () { s with pd := pd, packet := p, size := size })
    (h2 : ∀ pd k, ps = List.replicate k .pad → Q () { s with pd := pd, packet := .invalid, size := 0, status := some fin }) :
    EM.wlp (fetchPacket c) Q E s := by
  have key : ∀ n pd0 p0 sz0 k qs, ps = List.replicate k .pad ++ qs → Left c fin pd0 qs →
      EM.wlp (fetchLoop c n) Q E { s with pd := pd0, packet := p0, size := sz0 } := by
    intro n
    induction n with
    | zero => intro _ _ _ _ _ _ _; exact (EM.wlp_undef _ _ _).2 trivial
    | succ n ih =>
      intro pd0 p0 sz0 k qs hk hq
      unfold EM.wlp fetchLoop
      dsimp only
      cases qs with
      | nil =>
        obtain ⟨d', h⟩ := hq.nil_err
        rw [h]
        exact h2 pd0 k (by simpa using hk)
      | cons p qs =>
        obtain ⟨d1, n1, h, hq⟩ := hq.cons_ok
        rw [h]
        dsimp only
        by_cases hp : p = .pad
        · rw [if_pos hp]
          refine ih d1 p n1 (k + 1) qs ?_ hq
          rw [hk, hp, List.replicate_succ', List.append_assoc]; rfl
        · rw [if_neg hp]
          exact h1 d1 p n1 k qs hk hp hq
  exact key c.fuel s.pd s.packet s.size 0 ps rfl hl

/-! ## The specification -/

/-- The meaning of the packets from an outcome on. -/
def cont (c : EvtCfg) (fin : Err) (o : Outcome) (ps : List Packet) : List Event × Bool :=
  match o with
  | (es, some v) => (es ++ (trace c fin v ps).1, (trace c fin v ps).2)
  | (es, none) => (es, false)

theorem trace_cons {v : TraceView} (hs : v.skip = 0) (p : Packet) (ps : List Packet) :
    trace c fin v (p :: ps) = cont c fin (v.fresh c fin p ps) ps := by
  rw [trace]
  have : v.packet c fin p ps = v.fresh c fin p ps := by unfold TraceView.packet; rw [hs]
  rw [this]
  unfold cont
  rcases v.fresh c fin p ps with ⟨es, _ | v'⟩ <;> rfl

theorem cont_quiet (v : TraceView) (ps : List Packet) : cont c fin (.quiet (some v)) ps = trace c fin v ps := by
  unfold cont Outcome.quiet; simp

theorem cont_bad (ps : List Packet) : cont c fin .bad ps = ([], false) := rfl

theorem cont_quiet_none (ps : List Packet) : cont c fin (.quiet none) ps = ([], false) := rfl

theorem cont_cons (e : Event) (es : List Event) (o : Option TraceView) (ps : List Packet) :
    cont c fin (e :: es, o) ps = (e :: (cont c fin (es, o) ps).1, (cont c fin (es, o) ps).2) := by
  unfold cont; cases o <;> rfl

theorem cont_after (es : List Event) (o : Outcome) (ps : List Packet) :
    cont c fin (o.after es) ps = (es ++ (cont c fin o ps).1, (cont c fin o ps).2) := by
  obtain ⟨es', o⟩ := o
  unfold cont Outcome.after; cases o <;> simp

theorem trace_pads {v : TraceView} (hs : v.skip = 0) (k : Nat) (ps : List Packet) :
    trace c fin v (List.replicate k .pad ++ ps) = trace c fin v ps := by
  induction k with
  | zero => rfl
  | succ k ih =>
    rw [List.replicate_succ, List.cons_append, trace_cons hs, ← ih]
    have : v.fresh c fin .pad (List.replicate k .pad ++ ps) = .quiet (some v) := by
      unfold TraceView.fresh
      cases hv : v.header with
      | none => rfl
      | some st => rfl
    rw [this, cont_quiet]

/-- Packets that have been taken into account. -/
theorem trace_skip (v : TraceView) (ps : List Packet) :
    ∀ l : List Packet, trace c fin { v with skip := l.length } (l ++ ps) = trace c fin { v with skip := 0 } ps
  | [] => rfl
  | p :: l => by
    rw [List.cons_append, trace]
    have : TraceView.packet c fin { v with skip := (p :: l).length } p (l ++ ps) =
        .quiet (some { v with skip := l.length }) := rfl
    rw [this]
    unfold Outcome.quiet
    dsimp only
    rw [trace_skip v ps l]
    simp

/-- The current packet, some of whose events may have been delivered already. -/
def mid (c : EvtCfg) (fin : Err) (v : TraceView) (b : Bool) (p : Packet) (rest : List Packet) : Outcome :=
  match p with
  | .fup ipc ip => match v.goto ipc ip with | some v' => v'.fup b | none => .bad
  | .tip ipc ip =>
    if v.on = true then (match v.goto ipc ip with | some v' => if b = true then v'.tipRest else v'.tip | none => .bad)
    else .bad
  | .tipPge ipc ip => match v.goto ipc ip with | some v' => if b = true then v'.pgeRest else v'.pge | none => .bad
  | .tipPgd ipc ip => match v.goto ipc ip with | some v' => v'.pgd b | none => .bad
  | p => v.plain c fin p rest

theorem mid_false (v : TraceView) (p : Packet) (rest : List Packet) : mid c fin v false p rest = v.plain c fin p rest := by
  cases p <;> rfl

/-- The packets that may have several events. -/
def slow : Packet → Bool
  | .fup .. | .tip .. | .tipPge .. | .tipPgd .. => true
  | _ => false

/-- A TIP packet. -/
def tips : Packet → Bool
  | .tip .. | .tipPge .. | .tipPgd .. => true
  | _ => false

/-- TIP.PGD. -/
def pgds : Packet → Bool
  | .tipPgd .. => true
  | _ => false

/-- In state `s`, the decoder has the current packet, outside of PSB+. -/
structure Cur (c : EvtCfg) (fin : Err) (s : Evd) (v : TraceView) (rest : List Packet) : Prop where
  rel : Rel c s v
  left : Left c fin s.pd rest
  ord : Ord v.waiting ∨ (s.bound = true ∧ tips s.packet = true)
  bound : s.bound = true → slow s.packet = true ∧ (pgds s.packet = true → v.on = false)

/-- At the end of PSB+, with the status events `l` to be delivered. -/
structure Hd (c : EvtCfg) (fin : Err) (s : Evd) (v : TraceView) (l : List Event) (rest : List Packet) : Prop where
  ip : s.ip = v.ip
  tm : s.tm = v.tm
  on : s.enabled = v.on
  mode : v.mode = if s.modeValid = true then some (s.csl, s.csd, c.enableIflags && s.iflag) else none
  q : s.q.Holds (l.map (·, evbPsbend))
  kind : ∀ e ∈ l, e.data.inHeader = true
  wait : v.waiting = []
  hdr : v.header = none ∧ v.skip = 0 ∧ s.status = if v.lost = true then some .nosync else none
  left : Left c fin s.pd rest
  pk : s.packet = .psbend ∨ s.packet = .ovf
  bound : s.bound = false

/-- In state `s`, `pt_evt_next` is going to deliver the events `t.1`, and then an error: `fin`, if `t.2`. -/
def Todo (c : EvtCfg) (fin : Err) (s : Evd) (t : List Event × Bool) : Prop :=
  (∃ v rest, Cur c fin s v rest ∧ t = cont c fin (mid c fin v s.bound s.packet rest) rest) ∨
  (s.packet = .invalid ∧ s.status = some fin ∧ s.bound = false ∧ t = ([], true)) ∨
  (∃ v l rest, Hd c fin s v l rest ∧
    t = (l.map v.settled ++ (trace c fin v (s.packet :: rest)).1, (trace c fin v (s.packet :: rest)).2))

/-- The result of decoding a packet: further packets are needed, or there is an event. -/
def Out (c : EvtCfg) (fin : Err) (t : List Event × Bool) (more : Bool) (s : Evd) : Prop :=
  if more = true then
    s.event = none ∧ ∃ v rest, Rel c s v ∧ Ord v.waiting ∧ Left c fin s.pd rest ∧ t = trace c fin v rest
  else ∃ p es, s.event = some p ∧ t.1 = s.ev p :: es ∧ Todo c fin { s with event := none } (es, t.2)

/-- An error. -/
def Bad (fin : Err) (t : List Event × Bool) (e : Err) (_ : Evd) : Prop := t.1 = [] ∧ (t.2 = true → e = fin)

theorem bad_of {t : List Event × Bool} {e : Err} {s : Evd} (h : t = ([], false)) : Bad fin t e s := by
  subst h; exact ⟨rfl, fun h => absurd h (by simp)⟩

end Ipt.Events
