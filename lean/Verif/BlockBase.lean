import Verif.Spec.Block
import Verif.InsnFlow

/-!
# Helper lemmas: reasoning about the block decoder
-/

set_option linter.unusedSimpArgs false

namespace Ipt

open Ild Spec Props

namespace BM

variable {α β : Type} {s s' : Bdec}

/-- Whatever the result, it is a good one: `Q` holds on success, `E` on failure. -/
def wp (m : BM α) (Q : α → Bdec → Prop) (E : Err → Bdec → Prop) (s : Bdec) : Prop :=
  match m s with
  | (s', .ok a) => Q a s'
  | (s', .err e) => E e s'
  | (_, .ub) => True

variable {Q : α → Bdec → Prop} {R : β → Bdec → Prop} {E : Err → Bdec → Prop}

theorem wp_ok {m : BM α} {a : α} (h : wp m Q E s) (hm : m s = (s', .ok a)) : Q a s' := by
  unfold wp at h; rw [hm] at h; exact h

theorem wp_err {m : BM α} {e : Err} (h : wp m Q E s) (hm : m s = (s', .err e)) : E e s' := by
  unfold wp at h; rw [hm] at h; exact h

theorem wp_of {m : BM α} (h1 : ∀ a s', m s = (s', .ok a) → Q a s') (h2 : ∀ e s', m s = (s', .err e) → E e s') :
    wp m Q E s := by
  unfold wp
  rcases h : m s with ⟨s', a | e | _⟩
  · exact h1 a s' h
  · exact h2 e s' h
  · trivial

theorem wp_mono {m : BM α} {Q' : α → Bdec → Prop} {E' : Err → Bdec → Prop} (h : wp m Q E s)
    (h1 : ∀ a s', Q a s' → Q' a s') (h2 : ∀ e s', E e s' → E' e s') : wp m Q' E' s :=
  wp_of (fun a s' hm => h1 a s' (wp_ok h hm)) fun e s' hm => h2 e s' (wp_err h hm)

theorem wp_bind {m : BM α} {f : α → BM β} :
    wp (m >>= f) R E s = wp m (fun a s' => wp (f a) R E s') E s := by
  show wp (BM.bind m f) R E s = _
  unfold wp BM.bind
  rcases h : m s with ⟨s', a | e | _⟩ <;> rfl

theorem wp_pure {a : α} : wp (pure a) Q E s = Q a s := rfl
theorem wp_fail {e : Err} : wp (BM.fail e : BM α) Q E s = E e s := rfl
theorem wp_undef : wp (BM.undef : BM α) Q E s = True := rfl
theorem wp_get {Q : Bdec → Bdec → Prop} : wp BM.get Q E s = Q s s := rfl
theorem wp_modify {Q : Unit → Bdec → Prop} {f : Bdec → Bdec} : wp (BM.modify f) Q E s = Q () (f s) := rfl
theorem wp_block {Q : Unit → Bdec → Prop} {f : Block → Block} :
    wp (BM.block f) Q E s = Q () { s with blk := f s.blk } := rfl
theorem wp_available {Q : Bool → Bdec → Prop} :
    wp BM.available Q E s = Q (s.avail.headD true) { s with avail := s.avail.tail } := rfl

theorem wp_lift {r : Res α} : wp (BM.lift r) Q E s =
    match r with | .ok a => Q a s | .err e => E e s | .ub => True := by
  unfold wp BM.lift
  rcases r with a | e | _ <;> rfl

theorem wp_ite {p : Prop} [Decidable p] {m n : BM α} :
    wp (if p then m else n) Q E s ↔ (p → wp m Q E s) ∧ (¬ p → wp n Q E s) := by
  by_cases h : p <;> simp [h]

theorem wp_when {b : Bool} {m : BM Unit} {Q : Unit → Bdec → Prop} :
    wp (BM.when b m) Q E s ↔ (b = true → wp m Q E s) ∧ (b = false → Q () s) := by
  cases b <;> simp [BM.when, wp_pure]

theorem wp_try {m : BM α} {Q : Option α × Option Err → Bdec → Prop} :
    wp (BM.try_ m) Q E s = wp m (fun a s' => Q (some a, none) s') (fun e s' => Q (none, some e) s') s := by
  unfold wp BM.try_
  rcases h : m s with ⟨s', a | e | _⟩ <;> rfl

theorem wp_orQuery {m f : BM α} :
    wp (BM.orQuery m f) Q E s ↔ wp m Q (fun e s' => (e = .badQuery → wp f Q E s') ∧ (e ≠ .badQuery → E e s')) s := by
  unfold wp BM.orQuery
  rcases h : m s with ⟨s', a | e | _⟩
  · rfl
  · cases e <;> simp
  · rfl

theorem wp_evt {f : EM α} :
    wp (BM.evt f) Q E s = wp (fun s => ({ s with ev := (f s.ev).1 }, (f s.ev).2)) Q E s := rfl

end BM

/-- What does not change while instructions are executed without trace. -/
def Bdec.still (s : Bdec) : Bdec :=
  { s with
    sc := { s.sc with img := ⟨[], fun _ => 0⟩ }, maps := [], bc := fun _ _ => {}, reqs := [], avail := [], others := []
    retstack := {}, ip := 0, icnt := 0, blk := {}, out := none }

theorem still_inv {s s' : Bdec} (h : s'.still = s.still) :
    s'.mode = s.mode ∧ s'.sc.asid = s.sc.asid ∧ s'.sc.cache = s.sc.cache ∧ s'.ev = s.ev ∧ s'.event = s.event ∧
    s'.insn = s.insn ∧ s'.hasIcnt = s.hasIcnt ∧ s'.enabled = s.enabled ∧ s'.status = s.status :=
  ⟨congrArg (·.mode) h, congrArg (·.sc.asid) h, congrArg (·.sc.cache) h, congrArg (·.ev) h, congrArg (·.event) h,
    congrArg (·.insn) h, congrArg (·.hasIcnt) h, congrArg (·.enabled) h, congrArg (·.status) h⟩

/-! ### Walks -/

theorem _root_.Ipt.Spec.Flow.Walk.mono {P Q : Flow → Insn → Prop} (h : ∀ f i, P f i → Q f i) {f g : Flow} {is : List Insn}
    {its : List Item} (hw : f.Walk P is its g) : f.Walk Q is its g := by
  induction hw with
  | nil f => exact .nil f
  | cons h1 h2 _ ih => exact .cons (h _ _ h1) h2 ih

theorem _root_.Ipt.Spec.Flow.Walk.append {P : Flow → Insn → Prop} {f g h : Flow} {is js : List Insn} {its jts : List Item}
    (h1 : f.Walk P is its g) (h2 : g.Walk P js jts h) : f.Walk P (is ++ js) (its ++ jts) h := by
  induction h1 with
  | nil f => exact h2
  | cons a b _ ih => rw [List.append_assoc]; exact .cons a b (ih h2)

theorem _root_.Ipt.Spec.Flow.Walk.one {P : Flow → Insn → Prop} {f : Flow} {i : Insn} {its : List Item} {t : Nat} {calls : List Nat}
    (h1 : P f i) (h2 : Exec i f.calls its t calls) : f.Walk P [i] its { f with ip := t, calls := calls } := by
  have := Flow.Walk.cons h1 h2 (.nil _)
  rwa [List.append_nil] at this

/-- A walk changes the address and the calls only. -/
theorem _root_.Ipt.Spec.Flow.Walk.same {P : Flow → Insn → Prop} {f g : Flow} {is : List Insn} {its : List Item}
    (hw : f.Walk P is its g) : g = { f with ip := g.ip, calls := g.calls } := by
  induction hw with
  | nil f => rfl
  | cons _ _ _ ih => rw [ih]

/-! ### Instructions -/

/-- A section contains an instruction completely. -/
def Fits (env : SecEnv) (m : Msec) (mode : Mode) (ip n : Nat) (x : Iext) : Prop :=
  Within env m.sec mode (m.offset + (ip - m.vaddr)) n x ∧ m.vaddr ≤ ip ∧ ip + n ≤ m.vaddr + m.size

theorem wf_end {env : SecEnv} (henv : env.Ok) {m : Msec} (h : m.WF env) {x : Nat} (hc : m.Covers x) :
    m.end_ = m.vaddr + m.size ∧ m.vaddr + m.size < 2 ^ 64 ∧ m.offset + m.size ≤ env.size m.sec ∧ env.size m.sec < 2 ^ 63 := by
  have := henv m.sec
  obtain ⟨h1, h2⟩ := h
  obtain ⟨h3, h4⟩ := hc
  unfold Msec.end_ at *
  omega

theorem unmap_eq {env : SecEnv} (henv : env.Ok) {m : Msec} (h : m.WF env) {x : Nat} (hc : m.Covers x) :
    m.unmap x = m.offset + (x - m.vaddr) := by
  have := wf_end henv h hc
  have := hc.1
  have := hc.2
  unfold Msec.unmap
  omega

/-- The instruction in a section. -/
def secInsn (env : SecEnv) (m : Msec) (mode : Mode) (ip n : Nat) (x : Iext) : Insn :=
  { ip := ip, mode := mode, isid := m.isid, size := n, ext := x
    raw := (List.range n).map fun k => env.byte m.sec (m.offset + (ip - m.vaddr) + k) }

theorem fits_at {c : InsnCfg} {f : Flow} (henv : c.env.Ok) {m : Msec} (hm : f.sections m) (hwf : m.WF c.env)
    (hs : SameSpace m.asid f.asid) (he : m.vaddr + m.size < 2 ^ 64) {n : Nat} {x : Iext}
    (h : Fits c.env m f.mode f.ip n x) :
    f.At c (secInsn c.env m f.mode f.ip n x) := by
  obtain ⟨h1, h2, h3⟩ := h
  have hw := hwf.2
  have := henv m.sec
  have h0 := h1.inside
  refine ⟨rfl, rfl, h1.size, fun k hk => ?_, h1.decodes⟩
  change k < n at hk
  refine ⟨c.env.byte m.sec (m.offset + (f.ip - m.vaddr) + k), by simp [secInsn, hk], .inl ⟨m, hm, ?_, ?_, hs, ?_⟩⟩
  · show m.vaddr ≤ (f.ip + k) % 2 ^ 64
    omega
  · show (f.ip + k) % 2 ^ 64 < m.vaddr + m.size
    omega
  · have : (f.ip + k) % 2 ^ 64 = f.ip + k := by omega
    show _ = c.env.byte m.sec (m.offset + ((f.ip + k) % 2 ^ 64 - m.vaddr))
    rw [this]
    congr 1
    omega

theorem fits_from {c : InsnCfg} {f : Flow} {m : Msec} (hm : f.sections m) (hs : SameSpace m.asid f.asid)
    (h1 : m.vaddr ≤ f.ip) (h2 : f.ip < m.vaddr + m.size) : f.From c m.isid :=
  .inl ⟨m, hm, hs, h1, h2, rfl⟩

theorem signed_bound {d : List UInt8} {v : Int} (h : IsSigned d v) (hl : d.length ≤ 4) :
    -2 ^ 31 ≤ v ∧ v < 2 ^ 31 := by
  obtain ⟨h1, h2, -⟩ := h
  have : d.length = 0 ∨ d.length = 1 ∨ d.length = 2 ∨ d.length = 3 ∨ d.length = 4 := by omega
  rcases this with h | h | h | h | h <;> rw [h] at h1 h2 <;> omega

/-- The classes of direct branches. -/
theorem direct_shape {raw : List UInt8} {max n : Nat} {mode : Mode} {x : Iext} (hl : max ≤ raw.length)
    (h : ildDecode raw max mode = (n, .ok x)) :
    (x.inst = .jmpabs → x.cls = .jump) ∧
    (x.isDirect = true → x.inst ≠ .jmpabs → (x.cls = .call ∨ x.cls = .jump ∨ x.cls = .condJump) ∧
      -2 ^ 31 ≤ x.displacement ∧ x.displacement < 2 ^ 31) := by
  refine ⟨fun hj => (Ild.abs_sound h hj hl).1, fun hd hj => ?_⟩
  obtain ⟨P, op, d, near, -, -, h3, h4, h5⟩ := C40_direct_sound raw max mode n x hl h hd hj
  refine ⟨?_, signed_bound h5 ?_⟩
  · unfold directOp at h3
    have some_inj : ∀ {a b : Bool} {k l : Iclass}, some (a, k) = some (b, l) → l = k := by
      intro a b k l h; cases h; rfl
    split at h3
    · split at h3
      · simp [some_inj h3]
      · split at h3
        · simp [some_inj h3]
        · split at h3
          · simp [some_inj h3]
          · split at h3
            · simp [some_inj h3]
            · split at h3
              · simp [some_inj h3]
              · cases h3
    · split at h3
      · simp [some_inj h3]
      · cases h3
    · cases h3
  · rw [h4]; unfold dispWidth; split <;> (try split) <;> (try split) <;> omega

end Ipt
