import Verif.HistorySync
import Verif.HistoryImage
import Verif.InsnSafe

/-!
# What the instruction flow decoder keeps when it is reset

`pt_insn_reset` does not clear the event, the instruction counter, the contents of the return stack and the cached
section.  The order of the sections in the image depends on what was read before.
-/

namespace Ipt

open Spec Ild

/-- The event is not in use: there are no ticks or, if `b` is 2, the query decoder does not answer queries for
branches.  It is in use if `b` is zero. -/
def Loose (c : InsnCfg) (b : Nat) (s : Idec) : Prop :=
  (1 ≤ b ∧ (s.enabled = false ∨ c.tick = false)) ∨ (2 ≤ b ∧ Blocked c.evt s.q)

/-- Two states that differ at most in what is not in use. -/
structure IAlike (c : InsnCfg) (b : Nat) (s t : Idec) : Prop where
  q : QAlike c.evt s.q t.q
  sc : ScAlike s.sc t.sc
  maps : s.maps = []
  maps' : t.maps = []
  event : t.event = s.event ∨ (s.processEvent = false ∧ Loose c b s)
  ret : ∃ l, s.retstack.Holds l ∧ t.retstack.Holds l
  icnt : s.hasIcnt = true → t.icnt = s.icnt
  insn : t.insn = s.insn
  ip : t.ip = s.ip
  mode : t.mode = s.mode
  status : t.status = s.status
  enabled : t.enabled = s.enabled
  processEvent : t.processEvent = s.processEvent
  speculative : t.speculative = s.speculative
  hasIcnt : t.hasIcnt = s.hasIcnt
  boundPaging : t.boundPaging = s.boundPaging
  boundVmcs : t.boundVmcs = s.boundVmcs
  boundPtwrite : t.boundPtwrite = s.boundPtwrite
  boundIret : t.boundIret = s.boundIret
  boundVmentry : t.boundVmentry = s.boundVmentry
  boundUiret : t.boundUiret = s.boundUiret

theorem IAlike.reader {c : InsnCfg} {b : Nat} {s t : Idec} (h : IAlike c b s t) : c.reader t = c.reader s := by
  unfold InsnCfg.reader
  rw [h.sc.asid]

theorem IAlike.resumed {c : InsnCfg} {b : Nat} {s t : Idec} (h : IAlike c b s t) (ev : Event) :
    resumed t ev = resumed s ev := by
  unfold Ipt.resumed
  rw [h.ip]

theorem not_loose {c : InsnCfg} {s : Idec} : ¬ Loose c 0 s := by unfold Loose; omega

theorem IAlike.weaken {c : InsnCfg} {b d : Nat} {s t : Idec} (h : IAlike c d s t) (hd : d ≤ b) : IAlike c b s t :=
  { h with event := h.event.imp_right fun k => ⟨k.1, k.2.imp (fun x => ⟨by omega, x.2⟩) (fun x => ⟨by omega, x.2⟩)⟩ }

theorem IAlike.eq {c : InsnCfg} {s t : Idec} (h : IAlike c 0 s t) : t.event = s.event :=
  h.event.resolve_right fun k => not_loose k.2

theorem IAlike.strict {c : InsnCfg} {b : Nat} {s t : Idec} (h : IAlike c b s t) (he : t.event = s.event) :
    IAlike c 0 s t := { h with event := .inl he }

theorem IAlike.pending {c : InsnCfg} {b : Nat} {s t : Idec} (h : IAlike c b s t) (hp : s.processEvent = true) :
    IAlike c 0 s t :=
  h.strict (h.event.resolve_right fun k => by rw [hp] at k; cases k.1)

/-- The function takes states that are alike to states that are alike, with the same result. -/
structure ISim (c : InsnCfg) (b : Nat) (m : IM α) : Prop where
  run : ∀ s t, IAlike c b s t → (m t).2 = (m s).2 ∧ IAlike c b (m s).1 (m t).1

variable {c : InsnCfg} {b : Nat}

theorem ISim.pure (a : α) : ISim c b (pure a : IM α) := ⟨fun _ _ h => ⟨rfl, h⟩⟩

theorem ISim.fail (e : Err) : ISim c b (IM.fail e : IM α) := ⟨fun _ _ h => ⟨rfl, h⟩⟩

theorem ISim.undef : ISim c b (IM.undef : IM α) := ⟨fun _ _ h => ⟨rfl, h⟩⟩

theorem ISim.lift (r : Res α) : ISim c b (IM.lift r : IM α) := ⟨fun _ _ h => ⟨rfl, h⟩⟩

theorem ISim.bind {m : IM α} {f : α → IM β} (hm : ISim c b m) (hf : ∀ a, ISim c b (f a)) : ISim c b (m >>= f) := by
  refine ⟨fun s t h => ?_⟩
  obtain ⟨h1, h2⟩ := hm.run s t h
  show (IM.bind m f t).2 = (IM.bind m f s).2 ∧ IAlike c b (IM.bind m f s).1 (IM.bind m f t).1
  unfold IM.bind
  rcases hs : m s with ⟨s', r⟩
  rcases ht : m t with ⟨t', r'⟩
  rw [hs, ht] at h1 h2
  dsimp only at h1 h2
  subst h1
  cases r' with
  | ok a => exact (hf a).run s' t' h2
  | err e => exact ⟨rfl, h2⟩
  | ub => exact ⟨rfl, h2⟩

theorem ISim.try_ {m : IM α} (hm : ISim c b m) : ISim c b (IM.try_ m) := by
  refine ⟨fun s t h => ?_⟩
  obtain ⟨h1, h2⟩ := hm.run s t h
  unfold IM.try_
  rcases hs : m s with ⟨s', r⟩
  rcases ht : m t with ⟨t', r'⟩
  rw [hs, ht] at h1 h2
  dsimp only at h1 h2
  subst h1
  cases r' <;> exact ⟨rfl, h2⟩

theorem ISim.get' {k : Idec → IM β} (hk : ∀ s t, IAlike c b s t → (k t t).2 = (k s s).2 ∧ IAlike c b (k s s).1 (k t t).1) :
    ISim c b (IM.get >>= k) := ⟨fun s t h => hk s t h⟩

theorem ISim.get {k : Idec → IM β} (hk : ∀ s, ISim c b (k s)) (he : ∀ s t, IAlike c b s t → k t = k s) :
    ISim c b (IM.get >>= k) := by
  refine ISim.get' fun s t h => ?_
  rw [he s t h]
  exact (hk s).run _ _ h

theorem ISim.modify {f : Idec → Idec} (hf : ∀ s t, IAlike c b s t → IAlike c b (f s) (f t)) : ISim c b (IM.modify f) :=
  ⟨fun s t h => ⟨rfl, hf s t h⟩⟩

theorem ISim.ite {p : Prop} [Decidable p] {m n : IM α} (hm : ISim c b m) (hn : ISim c b n) :
    ISim c b (if p then m else n) := by
  split
  · exact hm
  · exact hn

theorem ISim.when {x : Bool} {m : IM Unit} (hm : ISim c b m) : ISim c b (IM.when x m) := by
  unfold IM.when
  exact ISim.ite hm (ISim.pure _)

/-- Queries for branches. -/
theorem ISim.branch {f : QM α} (hf : QSim c.evt f)
    (hb : ∀ q, Blocked c.evt q → ∃ q' x, f q = (q', .err x) ∧ Blocked c.evt q')
    {g : α → IM β} (hg : ∀ d, d ≤ b → d ≤ 1 → ∀ a, ISim c d (g a)) : ISim c b (IM.query f >>= g) := by
  refine ⟨fun s t h => ?_⟩
  obtain ⟨h1, h2⟩ := hf.run _ _ h.q
  have go : ∀ d, d ≤ b → d ≤ 1 → IAlike c d s t → ((IM.query f >>= g) t).2 = ((IM.query f >>= g) s).2 ∧
      IAlike c b ((IM.query f >>= g) s).1 ((IM.query f >>= g) t).1 := by
    intro d hd hd1 h
    have : ISim c d (IM.query f >>= g) := by
      refine ISim.bind ⟨fun s t h => ?_⟩ (hg d hd hd1)
      obtain ⟨h1, h2⟩ := hf.run _ _ h.q
      refine ⟨h1, { h with q := h2, event := h.event.imp_right fun k => ⟨k.1, .inl ?_⟩ }⟩
      exact k.2.resolve_right (by omega)
    have := this.run s t h
    exact ⟨this.1, this.2.weaken hd⟩
  rcases h.event with he | ⟨hp, hl | ⟨hb2, hbl⟩⟩
  · exact go 0 (Nat.zero_le _) (by omega) (h.strict he)
  · exact go 1 hl.1 (by omega) { h with event := .inr ⟨hp, .inl ⟨by omega, hl.2⟩⟩ }
  · obtain ⟨q', x, hq, hbl'⟩ := hb _ hbl
    show (IM.bind (IM.query f) g t).2 = (IM.bind (IM.query f) g s).2 ∧
      IAlike c b (IM.bind (IM.query f) g s).1 (IM.bind (IM.query f) g t).1
    unfold IM.bind IM.query
    rcases ht : f t.q with ⟨q'', r⟩
    rw [hq, ht] at h1 h2
    dsimp only at h1 h2
    subst h1
    rw [hq]
    exact ⟨rfl, { h with q := h2, event := .inr ⟨hp, .inr ⟨hb2, hbl'⟩⟩ }⟩

theorem ISim.mapped {k : Res Unit → IM α} (hk : ISim c b (k (.ok ()))) : ISim c b (IM.mapped >>= k) := by
  refine ⟨fun s t h => ?_⟩
  have key : ∀ u : Idec, u.maps = [] → (IM.mapped >>= k) u = k (.ok ()) u := by
    intro u hu
    show IM.bind IM.mapped k u = _
    unfold IM.bind IM.mapped
    obtain ⟨q, sc, maps, ev⟩ := u
    dsimp only at hu
    subst hu
    rfl
  rw [key s h.maps, key t h.maps']
  exact hk.run s t h

theorem ISim.image {f : Img × List (Res Unit) → (Img × List (Res Unit)) × Res α}
    (hf : ∀ u v s t, SameImg u v s t → (f t).2 = (f s).2 ∧ SameImg u v (f s).1 (f t).1) : ISim c b (IM.image f) := by
  refine ⟨fun s t h => ?_⟩
  obtain ⟨h1, h2⟩ := hf s.sc.img.uc t.sc.img.uc (s.sc.img, s.maps) (t.sc.img, t.maps)
    ⟨h.maps, h.maps', h.sc.secs, h.sc.unamb, rfl, rfl⟩
  refine ⟨h1, { h with maps := h2.maps, maps' := h2.maps', sc := ?_ }⟩
  refine ⟨h.sc.asid, h2.secs, h2.unamb, h.sc.fits, h.sc.fits', fun sec => ?_, fun sec => ?_⟩
  · have := h.sc.room sec
    show (f (s.sc.img, s.maps)).1.1.uc sec < _
    rw [h2.uc]; exact this
  · have := h.sc.room' sec
    show (f (t.sc.img, t.maps)).1.1.uc sec < _
    rw [h2.uc']; exact this

theorem ISim.cache {f : ScSt → ScSt × Res α} (hf : ∀ s t, ScAlike s t → (f t).2 = (f s).2 ∧ ScAlike (f s).1 (f t).1) :
    ISim c b (IM.cache f) := by
  refine ⟨fun s t h => ?_⟩
  obtain ⟨h1, h2⟩ := hf _ _ h.sc
  exact ⟨h1, { h with sc := h2 }⟩

/-- A step of a proof of `ISim`. -/
syntax "isim1" : tactic

/-- Rewrite with the fields that are equal. -/
macro "ifields" h:ident : tactic => `(tactic| simp only [($h).insn, ($h).ip, ($h).mode, ($h).status, ($h).enabled,
  ($h).processEvent, ($h).speculative, ($h).hasIcnt, ($h).boundPaging, ($h).boundVmcs, ($h).boundPtwrite, ($h).boundIret,
  ($h).boundVmentry, ($h).boundUiret, ($h).reader, ($h).q.time])

/-- The fields after a modification. -/
macro "imod" h:ident : tactic => `(tactic| (constructor <;> first
  | exact ($h).q | exact ($h).sc | exact ($h).maps | exact ($h).maps' | exact ($h).event | exact ($h).ret | exact ($h).icnt
  | exact .inl rfl | exact .inl ($h).eq
  | exact ($h).insn | exact ($h).ip | exact ($h).mode | exact ($h).status | exact ($h).enabled | exact ($h).processEvent
  | exact ($h).speculative | exact ($h).hasIcnt | exact ($h).boundPaging | exact ($h).boundVmcs | exact ($h).boundPtwrite
  | exact ($h).boundIret | exact ($h).boundVmentry | exact ($h).boundUiret | rfl | exact (fun _ => rfl)
  | exact (fun h => by cases h)
  | (ifields $h; done) | (refine .inl ?_; ifields $h; done)))

macro_rules | `(tactic| isim1) => `(tactic| dsimp only)
macro_rules | `(tactic| isim1) => `(tactic| split)
macro_rules | `(tactic| isim1) => `(tactic| with_reducible exact ISim.pure _)
macro_rules | `(tactic| isim1) => `(tactic| with_reducible exact ISim.fail _)
macro_rules | `(tactic| isim1) => `(tactic| with_reducible exact ISim.undef)
macro_rules | `(tactic| isim1) => `(tactic| with_reducible exact ISim.lift _)
macro_rules | `(tactic| isim1) => `(tactic| ((with_reducible refine ISim.modify ?_); intro s t h; imod h; done))
macro_rules | `(tactic| isim1) => `(tactic| with_reducible apply ISim.bind)
macro_rules | `(tactic| isim1) => `(tactic| with_reducible apply ISim.ite)
macro_rules | `(tactic| isim1) => `(tactic| with_reducible apply ISim.when)
macro_rules | `(tactic| isim1) => `(tactic| with_reducible apply ISim.try_)
macro_rules | `(tactic| isim1) => `(tactic| with_reducible apply ISim.mapped)
macro_rules | `(tactic| isim1) => `(tactic| ((with_reducible refine ISim.get ?_ ?_); rotate_left; (focus (intro s t h; ifields h; done))))
macro_rules | `(tactic| isim1) => `(tactic| assumption)
macro_rules | `(tactic| isim1) => `(tactic| intro _)

/-- All steps. -/
macro "isim" : tactic => `(tactic| repeat' isim1)

theorem insnStatus_sim (p : Bool) : ISim c b (insnStatus p) := by unfold insnStatus; isim
macro_rules | `(tactic| isim1) => `(tactic| with_reducible exact insnStatus_sim _)

theorem anchor_sim : ISim c b (IM.modify anchor) := by
  refine ISim.modify fun s t h => ?_
  unfold anchor
  imod h
macro_rules | `(tactic| isim1) => `(tactic| with_reducible exact anchor_sim)

theorem tick_sim (hb1 : b ≤ 1) (ip : Nat) : ISim c b (IM.when c.tick (insnTick ip)) := by
  unfold IM.when
  split
  · rename_i hc
    unfold insnTick
    refine ISim.get' fun s t h => ?_
    dsimp only
    ifields h
    by_cases he : s.enabled = false
    · simp only [he, if_true]
      exact ⟨rfl, h⟩
    · simp only [if_neg he]
      by_cases hp : s.processEvent = true
      · simp only [if_pos hp]
        exact ⟨rfl, h⟩
      · simp only [if_neg hp]
        have hev : t.event = s.event := h.event.resolve_right fun k => by
          rcases k.2 with ⟨-, k | k⟩ | ⟨k, -⟩
          · exact he k
          · rw [hc] at k; cases k
          · omega
        have hs := h.strict hev
        rw [hev]
        cases s.event with
        | none => exact ⟨rfl, h⟩
        | some ev =>
          dsimp only
          split
          · exact ⟨rfl, h⟩
          · refine ⟨rfl, ?_⟩
            unfold IM.modify
            dsimp only
            imod h
  · exact ISim.pure _

theorem blocked_cond' (hu : Usable c.evt) (q : Qdec) (h : Blocked c.evt q) :
    ∃ q' x, condBranch c.evt q = (q', .err x) ∧ Blocked c.evt q' := by
  obtain ⟨d, es, h1, h2⟩ := h
  rcases cond_step hu h1 with ⟨b, bs, _, _, h, -⟩ | ⟨-, x, -, h⟩ | ⟨-, e, he, h⟩
  · cases h
  · exact ⟨_, _, h, blocked_time ⟨d, es, h1, h2⟩⟩
  · rcases h with ⟨p, n, b, bs, s', f, h, -⟩ | ⟨-, h⟩
    · have := h2 e he.2.1; rw [isBranch_tnt h] at this; cases this
    · exact ⟨_, _, h, blocked_time ⟨d, es, h1, h2⟩⟩

theorem blocked_indirect' (hu : Usable c.evt) (q : Qdec) (h : Blocked c.evt q) :
    ∃ q' x, indirectBranch c.evt q = (q', .err x) ∧ Blocked c.evt q' := by
  obtain ⟨d, es, h1, h2⟩ := h
  rcases indirect_step hu h1 with ⟨x, -, h⟩ | ⟨e, he, h⟩
  · exact ⟨_, _, h, ⟨d, es, h1, h2⟩⟩
  · rcases h with ⟨ip, _, _, h, -⟩ | ⟨p, n, h⟩ | ⟨-, h⟩
    · have := h2 e he.2.1; rw [isBranch_tip h] at this; cases this
    · have := h2 e he.2.1; rw [isBranch_tnt h] at this; cases this
    · exact ⟨_, _, h, ⟨d, es, h1, h2⟩⟩

theorem blocked_event' (hu : Usable c.evt) (q : Qdec) (h : Blocked c.evt q) :
    (∃ x, qryEvent c.evt q = (q, .err x)) ∨ ∃ q' r, qryEvent c.evt q = (q', .ok r) := by
  obtain ⟨d, es, h1, h2⟩ := h
  rcases event_step hu h1 with ⟨-, h⟩ | ⟨-, x, -, h⟩ | ⟨-, e, -, h⟩
  · exact .inl ⟨_, h⟩
  · exact .inl ⟨_, h⟩
  · rcases h with ⟨-, _, _, h, -⟩ | ⟨-, h⟩
    · exact .inr ⟨_, _, h⟩
    · exact .inl ⟨_, h⟩

variable (hu : Usable c.evt)
include hu

theorem insnIndirect_sim : ISim c b (insnIndirect c) := by
  unfold insnIndirect
  refine ISim.get (fun s => ?_) (by intro s t h; ifields h)
  dsimp only
  refine ISim.branch indirectBranch_sim (blocked_indirect' hu) fun d hd hd1 a => ?_
  have := tick_sim (c := c) hd1 s.ip
  isim
macro_rules | `(tactic| isim1) => `(tactic| with_reducible exact insnIndirect_sim (by assumption))

theorem insnCond_sim : ISim c b (insnCond c) := by
  unfold insnCond
  refine ISim.branch condBranch_sim (blocked_cond' hu) fun d hd hd1 a => ?_
  refine ISim.get (fun s => ?_) (by intro s t h; ifields h)
  have := tick_sim (c := c) hd1 s.ip
  isim
macro_rules | `(tactic| isim1) => `(tactic| with_reducible exact insnCond_sim (by assumption))

theorem eventPending_sim : ISim c b (eventPending c) := by
  unfold eventPending
  refine ISim.get' fun s t h => ?_
  dsimp only
  rw [h.processEvent, h.status]
  by_cases hp : s.processEvent = true
  · have hs := h.pending hp
    rw [if_pos hp, if_pos hp, hs.eq]
    cases s.event <;> exact ⟨rfl, h⟩
  · rw [if_neg hp, if_neg hp]
    by_cases he : s.status.eventPending = false
    · rw [if_pos he]; exact ⟨rfl, h⟩
    · rw [if_neg he]
      obtain ⟨h1, h2⟩ := (qryEvent_sim (c := c.evt)).run _ _ h.q
      have hbl := fun hb => blocked_event' hu s.q hb
      show (IM.bind (IM.query (qryEvent c.evt)) _ t).2 = (IM.bind (IM.query (qryEvent c.evt)) _ s).2 ∧
        IAlike c b (IM.bind (IM.query (qryEvent c.evt)) _ s).1 (IM.bind (IM.query (qryEvent c.evt)) _ t).1
      unfold IM.bind IM.query
      rcases hs : qryEvent c.evt s.q with ⟨s', r⟩
      rcases ht : qryEvent c.evt t.q with ⟨t', r'⟩
      rw [hs, ht] at h1 h2
      rw [hs] at hbl
      dsimp only at h1 h2
      subst h1
      have hev : (∀ a, r' ≠ .ok a) → t.event = s.event ∨ (s.processEvent = false ∧ Loose c b { s with q := s' }) := by
        intro hr
        refine h.event.imp_right fun k => ⟨k.1, k.2.imp_right fun x => ⟨x.1, ?_⟩⟩
        rcases hbl x.2 with ⟨y, hy⟩ | ⟨q', a, hy⟩
        · cases hy; exact x.2
        · cases hy; exact absurd rfl (hr a)
      cases r' with
      | ok a =>
        obtain ⟨e, f⟩ := a
        exact ⟨rfl, { h with q := h2, event := .inl rfl, processEvent := rfl, status := rfl }⟩
      | err e => exact ⟨rfl, { h with q := h2, event := hev (fun a ha => by cases ha) }⟩
      | ub => exact ⟨rfl, { h with q := h2, event := hev (fun a ha => by cases ha) }⟩
macro_rules | `(tactic| isim1) => `(tactic| with_reducible exact eventPending_sim (by assumption))

omit hu

theorem checkSkd022_sim : ISim c b (checkSkd022 c) := by
  unfold checkSkd022
  refine ISim.get (fun s => ?_) (by intro s t h; ifields h)
  refine ISim.bind (ISim.try_ (ISim.image fun u v i j h => ?_)) fun x => ?_
  · exact insnDecode_sim (imgReader_sim _ _ _ _ _) _ _ h _
  · isim
macro_rules | `(tactic| isim1) => `(tactic| with_reducible exact checkSkd022_sim)

theorem updateTrig_sim (ip : Nat) : ISim c b (updateTrig ip) := by
  unfold updateTrig
  refine ISim.get' fun s t h => ?_
  dsimp only
  rw [h.hasIcnt, h.enabled, h.processEvent]
  by_cases hi : s.hasIcnt = false
  · rw [if_pos hi, if_pos hi]; exact ⟨rfl, h⟩
  · have hi' : s.hasIcnt = true := by simpa using hi
    rw [if_neg hi, if_neg hi, h.icnt hi']
    by_cases hp : s.processEvent = true
    · have hs := h.pending hp
      rw [hs.eq]
      have : ISim c 0 (if s.enabled = false then IM.fail .internal
          else if (s.icnt + 1) % 2 ^ 32 = 0 then IM.fail .overflow
          else do
            IM.modify fun u => { u with icnt := (s.icnt + 1) % 2 ^ 32 }
            if s.processEvent = true then
              match s.event with
              | none => IM.undef
              | some ev =>
                match ev.data with
                | .trig trbv n mult evip =>
                  if evip = ip then
                    if n = 0 then IM.fail .internal
                    else IM.modify fun s => { s with event := some { ev with data := .trig trbv (n - 1) mult s.ip } }
                  else pure ()
                | _ => pure ()
            else pure ()) := by
        isim
      have := this.run _ _ hs
      exact ⟨this.1, this.2.weaken (Nat.zero_le _)⟩
    · simp only [if_neg hp]
      have : ISim c b (if s.enabled = false then IM.fail .internal
          else if (s.icnt + 1) % 2 ^ 32 = 0 then IM.fail .overflow
          else do
            IM.modify fun u => { u with icnt := (s.icnt + 1) % 2 ^ 32 }
            pure ()) := by isim
      exact this.run _ _ h
macro_rules | `(tactic| isim1) => `(tactic| with_reducible exact updateTrig_sim _)

theorem pushRet_sim (ip : Nat) : ISim c b (pushRet ip) := by
  refine ⟨fun s t h => ?_⟩
  obtain ⟨l, h1, h2⟩ := h.ret
  obtain ⟨s', e1, k1⟩ := push_holds h1 ip
  obtain ⟨t', e2, k2⟩ := push_holds h2 ip
  unfold pushRet
  rw [e1, e2]
  exact ⟨rfl, { h with ret := ⟨_, k1, k2⟩ }⟩
macro_rules | `(tactic| isim1) => `(tactic| with_reducible exact pushRet_sim _)

theorem popRet_sim : ISim c b popRet := by
  refine ⟨fun s t h => ?_⟩
  obtain ⟨l, h1, h2⟩ := h.ret
  have k1 := pop_holds h1
  have k2 := pop_holds h2
  unfold popRet
  cases l with
  | nil =>
    dsimp only at k1 k2
    rw [k1, k2]
    exact ⟨rfl, h⟩
  | cons ip l =>
    obtain ⟨s', e1, k1⟩ := k1
    obtain ⟨t', e2, k2⟩ := k2
    rw [e1, e2]
    exact ⟨rfl, { h with ret := ⟨_, k1, k2⟩ }⟩
macro_rules | `(tactic| isim1) => `(tactic| with_reducible exact popRet_sim)

theorem proceedBranch_sim (hu : Usable c.evt) (i : Insn) : ISim c b (proceedBranch c i) := by unfold proceedBranch; isim
macro_rules | `(tactic| isim1) => `(tactic| with_reducible exact proceedBranch_sim (by assumption) _)

theorem proceed_sim (hu : Usable c.evt) (i : Insn) : ISim c b (proceed c i) := by unfold proceed; isim
macro_rules | `(tactic| isim1) => `(tactic| with_reducible exact proceed_sim (by assumption) _)

theorem postpone_sim (i : Insn) : ISim c b (postpone i) := by unfold postpone; isim
macro_rules | `(tactic| isim1) => `(tactic| with_reducible exact postpone_sim _)

theorem clearPostponed_sim : ISim c b (IM.modify clearPostponed) := by
  refine ISim.modify fun s t h => ?_
  unfold clearPostponed
  imod h
macro_rules | `(tactic| isim1) => `(tactic| with_reducible exact clearPostponed_sim)

theorem proceedPostponed_sim (hu : Usable c.evt) : ISim c b (proceedPostponed c) := by unfold proceedPostponed; isim
macro_rules | `(tactic| isim1) => `(tactic| with_reducible exact proceedPostponed_sim (by assumption))

theorem resumeIp_sim (i : Insn) : ISim c b (resumeIp i) := by unfold resumeIp; isim
macro_rules | `(tactic| isim1) => `(tactic| with_reducible exact resumeIp_sim _)

theorem bindOnce_sim (bound : Bool) (ev : Event) (k : Bool) (evip : Nat) (mark : Idec → Idec) (i : Insn)
    (hm : ISim c b (IM.modify mark)) : ISim c b (bindOnce bound ev k evip mark i) := by unfold bindOnce; isim
macro_rules | `(tactic| isim1) => `(tactic| with_reducible apply bindOnce_sim)

theorem checkInsnEvent_sim (hu : Usable c.evt) (i : Insn) : ISim c b (checkInsnEvent c i) := by unfold checkInsnEvent; isim
macro_rules | `(tactic| isim1) => `(tactic| with_reducible exact checkInsnEvent_sim (by assumption) _)

theorem handleBdm64_sim (a : Bool) (evip : Nat) (i : Insn) : ISim c b (handleBdm64 c a evip i) := by
  unfold handleBdm64
  refine ISim.ite (ISim.pure _) (ISim.ite (ISim.pure _) ?_)
  refine ISim.get (fun s => ?_) (by intro s t h; ifields h)
  refine ISim.bind (ISim.try_ (ISim.image fun u v i j h => ?_)) fun x => ?_
  · exact rangeContiguous_sim (imgReader_sim _ _ _ _ _) _ _ _ _ h _
  · isim
macro_rules | `(tactic| isim1) => `(tactic| with_reducible exact handleBdm64_sim _ _ _)

theorem postponeTsx_sim (ev : Event) (a : Bool) (evip : Nat) (i : Option Insn) : ISim c b (postponeTsx c ev a evip i) := by
  unfold postponeTsx; isim
macro_rules | `(tactic| isim1) => `(tactic| with_reducible exact postponeTsx_sim _ _ _ _)

theorem waitFor_sim (ev : Event) (evip : Nat) : ISim c b (waitFor ev evip) := by unfold waitFor; isim
macro_rules | `(tactic| isim1) => `(tactic| with_reducible exact waitFor_sim _ _)

theorem locateTrig_sim (ev : Event) (trbv n : Nat) (mult : Bool) (evip : Nat) :
    ISim c b (locateTrig ev trbv n mult evip) := by
  unfold locateTrig
  refine ISim.get' fun s t h => ?_
  rw [h.hasIcnt, h.ip]
  split
  · by_cases hi : s.hasIcnt = false
    · rw [if_pos hi, if_pos hi]; exact ⟨rfl, h⟩
    · have hi' : s.hasIcnt = true := by simpa using hi
      rw [if_neg hi, if_neg hi, h.icnt hi']
      by_cases hn : n < s.icnt
      · rw [if_pos hn]; exact ⟨rfl, h⟩
      · rw [if_neg hn]
        refine ⟨rfl, { h with event := .inl ?_ }⟩
        show some { ev with data := EvData.trig trbv (n - t.icnt) mult t.ip } =
          some { ev with data := EvData.trig trbv (n - s.icnt) mult s.ip }
        rw [h.icnt hi', h.ip]
  · exact ⟨rfl, h⟩
macro_rules | `(tactic| isim1) => `(tactic| with_reducible exact locateTrig_sim _ _ _ _ _)

theorem checkTrig_sim (ev : Event) (trbv n : Nat) (mult : Bool) (evip : Nat) :
    ISim c b (checkTrig ev trbv n mult evip) := by
  unfold checkTrig; isim
macro_rules | `(tactic| isim1) => `(tactic| with_reducible exact checkTrig_sim _ _ _ _ _)

/-- The part of `pt_insn_check_ip_event` after looking for an event. -/
def checkIpFor (c : InsnCfg) (i : Option Insn) (e : Option Event) : IM Flags :=
  match e with
  | none => insnStatus false
  | some ev => do
    let s ← IM.get
    match ev.data with
    | .disabled _ => insnStatus ev.statusUpdate
    | .enabled _ => insnStatus true
    | .asyncDisabled at_ ip =>
      if at_ ≠ s.ip then insnStatus false
      else if c.evt.pkt.errata.skd022 = true then do
        if ← checkSkd022 c then
          IM.modify fun s => { s with event := some { ev with data := .disabled ip } }
          insnStatus false
        else insnStatus true
      else insnStatus true
    | .tsx _ aborted ip => do
      let p ← postponeTsx c ev aborted ip i
      insnStatus (!p)
    | .asyncBranch from_ _ => insnStatus (from_ == s.ip)
    | .overflow _ => insnStatus true
    | .execMode _ ip => waitFor ev ip
    | .paging .. | .vmcs .. | .ptwrite .. | .iret .. | .vmentry .. | .uiret .. => insnStatus (!s.enabled)
    | .asyncPaging _ _ ip | .asyncVmcs _ ip => insnStatus (!(!ev.ipSuppressed && ip != s.ip))
    | .stop => insnStatus true
    | .exstop ip | .mwait _ _ ip => waitFor ev ip
    | .pwre .. | .pwrx .. | .tick .. | .cbr .. | .mnt .. => insnStatus true
    | .tip .. | .tnt .. => IM.fail .internal
    | .iflags _ ip | .interrupt _ _ ip | .smi ip | .init ip | .vmexit _ _ _ ip | .shutdown ip | .uintr _ ip =>
      waitFor ev ip
    | .rsm | .sipi _ => if ev.ipSuppressed = false then IM.fail .internal else insnStatus true
    | .trig trbv n mult ip => checkTrig ev trbv n mult ip

theorem checkIp_eq (i : Option Insn) : checkIpEvent c i = eventPending c >>= checkIpFor c i := rfl

theorem checkIpFor_sim (i : Option Insn) (e : Option Event) : ISim c b (checkIpFor c i e) := by
  unfold checkIpFor
  cases e with
  | none => exact insnStatus_sim _
  | some ev =>
    dsimp only
    refine ISim.get (fun s => ?_) (by intro s t h; ifields h)
    isim
macro_rules | `(tactic| isim1) => `(tactic| with_reducible exact checkIpFor_sim _ _)

theorem checkIpEvent_sim (hu : Usable c.evt) (i : Option Insn) : ISim c b (checkIpEvent c i) := by rw [checkIp_eq]; isim
macro_rules | `(tactic| isim1) => `(tactic| with_reducible exact checkIpEvent_sim (by assumption) _)

theorem fetchInsn_sim : ISim c b (fetchInsn c) := by
  unfold fetchInsn
  refine ISim.mapped (ISim.mapped ?_)
  refine ISim.get (fun s => ?_) (by intro s t h; ifields h)
  dsimp only
  refine ISim.bind (ISim.try_ (ISim.cache fun x y h => msecLookup_sim h _)) fun r => ?_
  have hi : ∀ m i, ISim c b (IM.image fun im => insnDecodeCached c.env (c.reader s) m im i) := fun m i =>
    ISim.image fun u v x y h => insnDecodeCached_sim (imgReader_sim _ _ _ _ _) _ _ _ _ h _
  rcases r with ⟨_ | m, _ | e⟩
  · exact ISim.undef
  · exact ISim.ite (ISim.fail _) (hi _ _)
  · exact hi _ _
  · exact hi _ _
macro_rules | `(tactic| isim1) => `(tactic| with_reducible exact fetchInsn_sim)

theorem insnNext_sim (hu : Usable c.evt) : ISim c b (insnNext c) := by unfold insnNext; isim

theorem processEnabled_sim (ev : Event) (ip : Nat) : ISim c 0 (processEnabled ev ip) := by
  unfold processEnabled; dsimp only [anchor]; isim
macro_rules | `(tactic| isim1) => `(tactic| with_reducible exact processEnabled_sim _ _)

theorem processDisabled_sim (ev : Event) : ISim c 0 (processDisabled ev) := by unfold processDisabled; isim
macro_rules | `(tactic| isim1) => `(tactic| with_reducible exact processDisabled_sim _)

theorem processAsyncBranch_sim (ev : Event) (x : Nat) : ISim c 0 (processAsyncBranch ev x) := by
  unfold processAsyncBranch; dsimp only [anchor]; isim
macro_rules | `(tactic| isim1) => `(tactic| with_reducible exact processAsyncBranch_sim _ _)

theorem processPaging_sim (cr3 : Nat) : ISim c 0 (processPaging cr3) := by
  unfold processPaging
  exact ISim.mapped (ISim.cache fun x y h => setCr3_sim h _)
macro_rules | `(tactic| isim1) => `(tactic| with_reducible exact processPaging_sim _)

theorem processOverflow_sim (ev : Event) (ip : Nat) : ISim c 0 (processOverflow ev ip) := by
  unfold processOverflow; dsimp only [anchor]; isim
macro_rules | `(tactic| isim1) => `(tactic| with_reducible exact processOverflow_sim _ _)

theorem processExecMode_sim (ev : Event) (m : Mode) : ISim c 0 (processExecMode ev m) := by
  unfold processExecMode; dsimp only [anchor]; isim
macro_rules | `(tactic| isim1) => `(tactic| with_reducible exact processExecMode_sim _ _)

theorem processTsx_sim (x : Bool) : ISim c 0 (processTsx x) := by
  unfold processTsx; dsimp only [anchor]; isim
macro_rules | `(tactic| isim1) => `(tactic| with_reducible exact processTsx_sim _)

theorem processStop_sim (ev : Event) : ISim c 0 (processStop ev) := by unfold processStop; isim
macro_rules | `(tactic| isim1) => `(tactic| with_reducible exact processStop_sim _)

theorem processVmcs_sim (ev : Event) (x : Nat) : ISim c 0 (processVmcs ev x) := by
  unfold processVmcs
  refine ISim.mapped (ISim.bind (ISim.cache fun x y h => setVmcs_sim h _) fun _ => ?_)
  isim
macro_rules | `(tactic| isim1) => `(tactic| with_reducible exact processVmcs_sim _ _)

theorem mustBeAt_sim (ev : Event) (x : Nat) : ISim c 0 (mustBeAt ev x) := by unfold mustBeAt; isim
macro_rules | `(tactic| isim1) => `(tactic| with_reducible exact mustBeAt_sim _ _)

theorem processEvent_sim (ev : Event) : ISim c 0 (processEvent ev) := by unfold processEvent; isim
macro_rules | `(tactic| isim1) => `(tactic| with_reducible exact processEvent_sim _)

/-- The part of `pt_insn_event` after looking at the event. -/
def eventFor (c : InsnCfg) (ev : Event) (r : Bool) (i : Option Insn) : IM EventOut := do
  processEvent ev
  IM.modify fun s => { s with processEvent := false }
  let done f := pure (f := IM) (⟨ev, r, f⟩ : EventOut)
  match i with
  | none => checkIpEvent c none >>= done
  | some i =>
    match ← checkInsnEvent c i with
    | some f => done f
    | none => do
      proceedPostponed c
      checkIpEvent c none >>= done

theorem eventFor_sim (hu : Usable c.evt) (ev : Event) (r : Bool) (i : Option Insn) : ISim c 0 (eventFor c ev r i) := by
  unfold eventFor; isim

theorem insnEvent_sim (hu : Usable c.evt) : ISim c b (insnEvent c) := by
  have key : insnEvent c = IM.get >>= fun s => if s.processEvent = false then IM.fail .badQuery
    else match s.event with
    | none => IM.undef
    | some ev => eventFor c ev (resumed s ev) s.insn := rfl
  rw [key]
  refine ISim.get' fun s t h => ?_
  rw [h.processEvent]
  by_cases hp : s.processEvent = false
  · rw [if_pos hp, if_pos hp]; exact ⟨rfl, h⟩
  · rw [if_neg hp, if_neg hp]
    have hs := h.pending (by simpa using hp)
    rw [hs.eq]
    cases s.event with
    | none => exact ⟨rfl, h⟩
    | some ev =>
      dsimp only
      rw [h.resumed, h.insn]
      have := (eventFor_sim hu ev (resumed s ev) s.insn).run _ _ hs
      exact ⟨this.1, this.2.weaken (Nat.zero_le _)⟩

/-! ### Synchronization -/

theorem retInit_holds {r : RetStack} (h : r.stack.length = 65) : r.init.Holds [] :=
  ⟨h, (by show 0 < 65; omega), (by show 0 = (0 + 65 - 0) % 65; rfl), by simp, by simp⟩

/-- What two decoders must have in common for their behaviour to be the same after synchronizing them. -/
structure Resettable (s t : Idec) : Prop where
  secs : SameSecs s.sc.img.secs t.sc.img.secs
  unamb : Unambiguous s.sc.img.secs
  room : Room s.sc
  room' : Room t.sc
  maps : s.maps = []
  maps' : t.maps = []
  ret : s.retstack.stack.length = 65
  ret' : t.retstack.stack.length = 65

theorem insn_forgets (hu : Usable c.evt) (o : SyncCall) (hb : o = .backward → Props.IsolatedPsbs c.evt.pkt.mem) (s t : Idec)
    (h : t.q.ev.pd = s.q.ev.pd ∨ ∃ off, o = .set off) (hr : Resettable s t) :
    (o.insn c t).2 = (o.insn c s).2 ∧ (∀ u, (o.insn c s).2 = .ok u → IAlike c 2 (o.insn c s).1 (o.insn c t).1) := by
  have key : ∀ s, o.insn c s = IM.bind (IM.query (o.run c.evt)) (fun x : Flags × Option Nat =>
      IM.bind (IM.modify fun s => { s with ip := x.2.getD s.ip }) fun _ => insnStart c x.1) (insnReset s) := by
    intro s
    cases o <;> rfl
  rw [key, key]
  obtain ⟨h1, h2⟩ := qry_forgets (c := c.evt) o s.q t.q h
  have ht := sync_total hu o hb s.q
  unfold IM.bind IM.query
  have e1 : o.run c.evt (insnReset s).q = o.run c.evt s.q := rfl
  have e2 : o.run c.evt (insnReset t).q = o.run c.evt t.q := rfl
  rw [e1, e2]
  rcases hs : o.run c.evt s.q with ⟨q, r⟩
  rcases ht' : o.run c.evt t.q with ⟨q', r'⟩
  rw [hs, ht'] at h1 h2
  rw [hs] at ht
  dsimp only at h1 h2
  subst h1
  cases r' with
  | err e => exact ⟨rfl, fun u hu => by cases hu⟩
  | ub => exact ⟨rfl, fun u hu => by cases hu⟩
  | ok x =>
    obtain ⟨f, ip⟩ := x
    obtain ⟨d, hd, hsy⟩ := ht
    have hbl := synced_blocked hu hd hsy
    have := (checkIpEvent_sim (b := 2) hu none).run
      { insnReset s with q := q, ip := ip.getD 0, status := f, enabled := false || !f.ipSuppressed }
      { insnReset t with q := q', ip := ip.getD 0, status := f, enabled := false || !f.ipSuppressed }
      { q := h2 _ rfl
        sc := ⟨rfl, hr.secs, hr.unamb, fun m _ => Props.sameSpace_unknown _, fun m _ => Props.sameSpace_unknown _, hr.room, hr.room'⟩
        maps := hr.maps
        maps' := hr.maps'
        event := .inr ⟨rfl, .inr ⟨by omega, hbl⟩⟩
        ret := ⟨[], retInit_holds hr.ret, retInit_holds hr.ret'⟩
        icnt := fun h => by cases h
        insn := rfl
        ip := rfl
        mode := rfl
        status := rfl
        enabled := rfl
        processEvent := rfl
        speculative := rfl
        hasIcnt := rfl
        boundPaging := rfl
        boundVmcs := rfl
        boundPtwrite := rfl
        boundIret := rfl
        boundVmentry := rfl
        boundUiret := rfl }
    exact ⟨this.1, fun u _ => this.2⟩

end Ipt
