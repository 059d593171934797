import Verif.EventDecoderSafe

/-! Helper lemmas: no event decoder function delivers the internal `tick` event, from any state. -/

set_option linter.unusedSimpArgs false

namespace Ipt

/-- Not the internal event; and, if `k`, the number of outcomes in a TNT event is in range. -/
@[simp] def Fine (k : Prop) : EvData → Prop
  | .tick .. => False
  | .tnt b n => k → 1 ≤ n ∧ n ≤ 47 ∧ b < 2 ^ n
  | _ => True

/-- The number of outcomes in a TNT packet is in range. -/
def TntOk : Packet → Prop
  | .tnt8 n b | .tnt64 n b => 1 ≤ n ∧ n ≤ 47 ∧ b < 2 ^ n
  | _ => True

variable {k : Prop}

/-- The current event is not the internal one. -/
def GoodEvent (k : Prop) (s : Evd) : Prop := ∃ p, s.event = some p ∧ Fine k ((s.ev p).data)

/-- If the function reports that it created an event then it is not the internal one. -/
def DelQ (k : Prop) (b : Bool) (s : Evd) : Prop := b = false → GoodEvent k s

/-- `m` does not deliver the internal event, from any state. -/
def Del (k : Prop) (m : EM Bool) : Prop := ∀ s, EM.wlp m (DelQ k) (fun _ _ => True) s

theorem wlp_true {α : Type} (m : EM α) (Q : α → Evd → Prop) (h : ∀ a s, Q a s) (s : Evd) :
    EM.wlp m Q (fun _ _ => True) s := by
  unfold EM.wlp
  rcases m s with ⟨s', a | e | _⟩
  · exact h _ _
  · trivial
  · trivial

namespace Del

theorem bind {α : Type} {m : EM α} {f : α → EM Bool} (h : ∀ a, Del k (f a)) : Del k (m >>= f) := by
  intro s
  rw [EM.wlp_bind]
  exact wlp_true _ _ (fun a s => h a s) s

theorem ite {p : Prop} [Decidable p] {m m' : EM Bool} (h1 : Del k m) (h2 : Del k m') : Del k (if p then m else m') := by
  split <;> assumption

theorem more : Del k (pure true) := fun s => by rw [EM.wlp_pure]; intro h; cases h

theorem fail (e : Err) : Del k (EM.fail e) := fun s => by rw [EM.wlp_fail]; trivial

theorem undef : Del k EM.undef := fun s => by rw [EM.wlp_undef]; trivial

theorem of {m : EM Bool} (f : Evd → EM Bool) (h : ∀ s, m s = f s s) (hf : ∀ s, Del k (f s)) : Del k m := by
  intro s
  have := hf s s
  unfold EM.wlp at *
  rw [h s]; exact this

end Del

theorem put_get_tick (q : Evq Event) (i : Nat) {e : Event} (h : Fine k (e.data)) : Fine k (((q.put i e).get i).data) := by
  unfold Evq.put Evq.get Evq.entry
  dsimp only
  rw [List.getD_eq_getElem?_getD, List.getElem?_set_self']
  cases q.queue[i]? with
  | none => trivial
  | some a => exact h

theorem setIp_tick {d : EvData} (ip : Nat) (h : Fine k (d)) : Fine k (d.setIp ip) := by
  cases d <;> first | exact h | trivial

theorem withIp_tick {e : Event} (l : LastIp) (h : Fine k (e.data)) : Fine k ((e.withIp l).data) := by
  unfold Event.withIp
  split <;> exact setIp_tick _ h

theorem setEv_good {s : Evd} {p : EvPtr} {e : Event} (h : s.event = some p) (he : Fine k (e.data)) :
    GoodEvent k (s.setEv p e) := by
  cases p with
  | alone => exact ⟨.alone, h, he⟩
  | slot i => exact ⟨.slot i, h, put_get_tick _ _ he⟩

theorem good_at {s : Evd} {p : EvPtr} (h : s.event = some p) (hg : GoodEvent k s) : Fine k ((s.ev p).data) := by
  obtain ⟨p', h1, h2⟩ := hg
  rw [h] at h1; cases h1; exact h2

theorem setEv_event (s : Evd) (p : EvPtr) (e : Event) : (s.setEv p e).event = s.event := by cases p <;> rfl

/-- Update the current event. -/
theorem wlp_updEv_good {p : EvPtr} {f : Evd → Event → Event} {s : Evd} {Q : Unit → Evd → Prop}
    (h : s.event = some p) (hf : Fine k ((f s (s.ev p)).data))
    (hq : ∀ s', s'.event = some p → GoodEvent k s' → Q () s') : EM.wlp (updEv p f) Q (fun _ _ => True) s := by
  unfold updEv
  rw [EM.wlp_modify]
  exact hq _ (by rw [setEv_event]; exact h) (setEv_good h hf)

theorem timeEv_good {p : EvPtr} {s : Evd} (h : s.event = some p) (hg : GoodEvent k s) :
    EM.wlp (timeEv p) (DelQ k) (fun _ _ => True) s := by
  unfold timeEv
  rw [EM.wlp_bind]
  refine wlp_updEv_good h (good_at h hg) fun s' _ hg' => ?_
  rw [EM.wlp_pure]
  intro _; exact hg'

theorem timeEv_good' {p : EvPtr} {s : Evd} {Q : Bool → Evd → Prop} (h : s.event = some p) (hg : GoodEvent k s)
    (hq : ∀ b s', s'.event = some p → GoodEvent k s' → Q b s') :
    EM.wlp (timeEv p) Q (fun _ _ => True) s := by
  unfold timeEv
  rw [EM.wlp_bind]
  refine wlp_updEv_good h (good_at h hg) fun s' h' hg' => ?_
  rw [EM.wlp_pure]
  exact hq _ _ h' hg'

theorem ipTimeEv_good {p : EvPtr} {s : Evd} (h : s.event = some p) (hg : GoodEvent k s) :
    EM.wlp (ipTimeEv p) (DelQ k) (fun _ _ => True) s := by
  unfold ipTimeEv
  rw [EM.wlp_bind]
  exact wlp_updEv_good h (withIp_tick _ (good_at h hg)) fun s' h' hg' => timeEv_good h' hg'

theorem fetchLoop_good (c : EvtCfg) : ∀ n s, GoodEvent k s →
    EM.wlp (fetchLoop c n) (fun _ s' => GoodEvent k s') (fun _ _ => True) s := by
  intro n
  induction n with
  | zero => intro s _; exact (EM.wlp_undef _ _ _).2 trivial
  | succ n ih =>
    intro s hs
    unfold EM.wlp fetchLoop
    rcases pktDecNext c.pkt s.pd with ⟨pd, ⟨p, size⟩ | e | _⟩
    · dsimp only
      by_cases hp : p = .pad
      · rw [if_pos hp]
        exact ih { s with pd := pd, packet := p, size := size } hs
      · rw [if_neg hp]; exact hs
    · exact hs
    · trivial

theorem fetchDone_good {c : EvtCfg} {s : Evd} (hg : GoodEvent k s) :
    EM.wlp (fetchDone c) (DelQ k) (fun _ _ => True) s := by
  unfold fetchDone
  rw [EM.wlp_bind]
  refine EM.wlp_mono (fetchLoop_good c _ s hg) (fun _ s' h => ?_) (fun _ _ h => h)
  rw [EM.wlp_pure]; intro _; exact h

theorem alone_good {e : Event} (he : Fine k (e.data)) {s : Evd} {Q : Unit → Evd → Prop}
    (hq : ∀ s', s'.event = some .alone → GoodEvent k s' → Q () s') : EM.wlp (alone e) Q (fun _ _ => True) s := by
  unfold alone
  rw [EM.wlp_modify]
  exact hq _ rfl ⟨.alone, rfl, he⟩

theorem aloneDone_del {c : EvtCfg} {e : Event} (he : Fine k (e.data)) : Del k (aloneDone c e) := by
  intro s
  unfold aloneDone
  rw [EM.wlp_bind]
  refine alone_good he fun s' h1 h2 => ?_
  rw [EM.wlp_bind]
  exact timeEv_good' h1 h2 fun _ s' _ h2 => fetchDone_good h2

theorem enqMore_del (evb : Nat) (e : Event) : Del k (enqMore evb e) := Del.bind fun _ => Del.more

/-- The common part of the decode functions. -/
theorem publish_del {i : Nat} {f : Event → EM Bool}
    (h : ∀ e s, s.event = some (.slot i) → s.q.get i = e → EM.wlp (f e) (DelQ k) (fun _ _ => True) s) :
    Del k (publish i f) := by
  intro s
  unfold publish setEvent
  rw [EM.wlp_bind, EM.wlp_modify, EM.wlp_bind, EM.wlp_get]
  exact h _ _ rfl rfl

theorem fail_good {Q : Bool → Evd → Prop} {e : Err} {s : Evd} : EM.wlp (EM.fail e) Q (fun _ _ => True) s :=
  (EM.wlp_fail _ _ _ _).2 trivial

theorem psbendEvent_good {i : Nat} {e : Event} {s : Evd} (h : s.event = some (.slot i)) (hi : s.q.get i = e) :
    EM.wlp (psbendEvent i e) (DelQ k) (fun _ _ => True) s := by
  have hg : Fine k (e.data) → GoodEvent k s := fun he => ⟨_, h, by unfold Evd.ev; dsimp only; rw [hi]; exact he⟩
  unfold psbendEvent
  split
  all_goals first
    | exact fail_good
    | exact ipTimeEv_good h (hg (by simp_all))
    | exact timeEv_good h (hg (by simp_all))

theorem decodePsbend_del : Del k decodePsbend := by
  unfold decodePsbend
  refine Del.bind fun j => ?_
  cases j with
  | none => exact Del.more
  | some i => exact publish_del fun e s h hi => psbendEvent_good h hi

theorem fupEvent_good {i : Nat} {e : Event} {s : Evd} {again : EM Bool} (ha : Del k again)
    (h : s.event = some (.slot i)) (hi : s.q.get i = e) :
    EM.wlp (fupEvent i again e) (DelQ k) (fun _ _ => True) s := by
  have hg : Fine k (e.data) → GoodEvent k s := fun he => ⟨_, h, by unfold Evd.ev; dsimp only; rw [hi]; exact he⟩
  unfold fupEvent
  split
  all_goals first
    | exact fail_good
    | exact ipTimeEv_good h (hg (by simp_all))
    | skip
  · rw [EM.wlp_bind]
    refine wlp_updEv_good h (withIp_tick _ (good_at h (hg (by simp_all)))) fun s' h' hg' => ?_
    rw [EM.wlp_bind, EM.wlp_modify, EM.wlp_pure]
    intro _; exact hg'
  · rw [EM.wlp_bind]
    refine timeEv_good' h (hg (by simp_all)) fun _ s' h' hg' => ?_
    split
    · rw [EM.wlp_pure]; intro _; exact hg'
    · exact fail_good
  · rw [EM.wlp_bind]
    refine timeEv_good' h (hg (by simp_all)) fun _ s' h' hg' => ?_
    split
    · rw [EM.wlp_pure]; intro _; exact hg'
    · exact fail_good
  · exact Del.bind (fun _ => ha) s

theorem decodeFup_del (ipc ip : Nat) : ∀ n, Del k (decodeFup ipc ip n) := by
  intro n
  induction n with
  | zero => exact Del.undef
  | succ n ih =>
    unfold decodeFup
    refine Del.bind fun _ => Del.bind fun _ => Del.bind fun j => ?_
    cases j with
    | none => exact Del.bind fun s => Del.ite Del.more (Del.bind fun _ => enqMore_del _ _)
    | some i => exact publish_del fun e s h hi => fupEvent_good ih h hi

theorem recoverOvfAtIp_wlp {d : PktDec} {p : Packet} {size ipc ip : Nat} {tm : Timing} {Q : Bool → Evd → Prop} {s : Evd}
    (hq : ∀ s', GoodEvent k s' → Q false s') : EM.wlp (recoverOvfAtIp d p size ipc ip tm) Q (fun _ _ => True) s := by
  unfold recoverOvfAtIp
  rw [EM.wlp_bind]
  apply wlp_true
  intro _ s
  rw [EM.wlp_bind]
  refine alone_good (k := k) (by simp) fun s h1 h2 => ?_
  rw [EM.wlp_bind]
  refine timeEv_good' h1 h2 fun _ s h1 h2 => ?_
  rw [EM.wlp_bind, EM.wlp_modify, EM.wlp_bind]
  refine wlp_updEv_good (s := { s with pd := d, packet := p, size := size, tm := tm, enabled := true }) h1
    (withIp_tick _ (good_at (s := { s with pd := d, packet := p, size := size, tm := tm, enabled := true }) h1 h2))
    fun s' _ h2 => ?_
  rw [EM.wlp_pure]
  exact hq _ h2

theorem recoverOvfAtIp_del (d : PktDec) (p : Packet) (size ipc ip : Nat) (tm : Timing) :
    Del k (recoverOvfAtIp d p size ipc ip tm) := fun _ => recoverOvfAtIp_wlp fun _ h _ => h

theorem recoverOvfDisabled_del (c : EvtCfg) (d : PktDec) (p : Packet) (size : Nat) (tm : Timing) :
    Del k (recoverOvfDisabled c d p size tm) := by
  intro s
  unfold recoverOvfDisabled
  rw [EM.wlp_bind]
  refine alone_good (k := k) (by simp) fun s h1 h2 => ?_
  rw [EM.wlp_bind]
  refine timeEv_good' h1 h2 fun _ s h1 h2 => ?_
  rw [EM.wlp_bind, EM.wlp_modify]
  exact fetchDone_good (s := { s with pd := d, packet := p, size := size, tm := tm }) h2

theorem recoverOvfAtOffset_del (c : EvtCfg) (off : Nat) : Del k (recoverOvfAtOffset c off) :=
  Del.ite (Del.fail _) (Del.bind fun _ => aloneDone_del (by simp))

theorem skd010Fup_del (d : PktDec) (size ipc ip : Nat) (tm : Timing) (tsx : Option (Bool × Bool)) :
    Del k (skd010Fup d size ipc ip tm tsx) := by
  refine Del.bind fun _ => ?_
  cases tsx with
  | none => exact recoverOvfAtIp_del _ _ _ _ _ _
  | some p => exact Del.bind fun _ => recoverOvfAtIp_del _ _ _ _ _ _

theorem skd010Loop_del (c : EvtCfg) : ∀ n d tm tsx, Del k (skd010Loop c n d tm tsx) := by
  intro n
  induction n with
  | zero => intro _ _ _; exact Del.undef
  | succ n ih =>
    intro d tm tsx
    unfold skd010Loop
    repeat' split
    all_goals first
      | exact ih _ _ _
      | exact Del.more
      | exact Del.fail _
      | exact Del.undef
      | exact recoverOvfDisabled_del _ _ _ _ _
      | exact recoverOvfAtIp_del _ _ _ _ _ _
      | exact skd010Fup_del _ _ _ _ _ _
      | skip
    intro s
    rw [EM.wlp_bind]
    exact recoverOvfAtIp_wlp fun s h => fetchDone_good h

theorem apl11Loop_del (c : EvtCfg) : ∀ n d tm, Del k (apl11Loop c n d tm) := by
  intro n
  induction n with
  | zero => intro _ _; exact Del.undef
  | succ n ih =>
    intro d tm
    unfold apl11Loop
    repeat' split
    all_goals first
      | exact ih _ _
      | exact Del.more
      | exact Del.fail _
      | exact Del.undef
      | exact recoverOvfDisabled_del _ _ _ _ _

theorem apl12Loop_del (c : EvtCfg) (off : Nat) : ∀ n d, Del k (apl12Loop c off n d) := by
  intro n
  induction n with
  | zero => intro _; exact Del.undef
  | succ n ih =>
    intro d
    unfold apl12Loop
    repeat' split
    all_goals first
      | exact ih _
      | exact Del.more
      | exact Del.fail _
      | exact Del.undef
      | exact recoverOvfAtOffset_del _ _

theorem orElse_del {f g : EM Bool} (h1 : Del k f) (h2 : Del k g) : Del k (orElse f g) := by
  intro s
  unfold orElse
  rw [EM.wlp_bind]
  refine EM.wlp_mono (h1 s) (fun b s' h => ?_) (fun _ _ h => h)
  cases b with
  | true => exact h2 s'
  | false => exact h

theorem decodeOvf_del (c : EvtCfg) : Del k (decodeOvf c) := by
  refine orElse_del decodePsbend_del ?_
  unfold ovfEvent
  refine Del.bind fun _ => Del.bind fun s => ?_
  split
  · exact Del.undef
  · exact orElse_del (Del.ite (Del.bind fun _ => Del.ite (Del.fail _) (apl12Loop_del _ _ _ _)) Del.more)
      (Del.bind fun _ => Del.bind fun _ => Del.more)
  · unfold ovfNoFup
    refine Del.bind fun s => orElse_del (Del.ite (skd010Loop_del _ _ _ _ _) Del.more) (Del.bind fun s =>
      orElse_del (Del.ite (apl11Loop_del _ _ _ _) Del.more) ?_)
    split
    all_goals first | exact Del.undef | exact Del.fail _ | exact aloneDone_del (by simp)

theorem tipBranch_del : Del k tipBranch := by
  unfold tipBranch
  refine Del.bind fun _ => Del.bind fun s => ?_
  split
  · unfold tipAsync
    refine Del.bind fun j => ?_
    cases j with
    | none => exact Del.fail _
    | some i =>
      have key : Del k (do
          let s ← EM.get
          if (s.q.get i).isAsyncBranch = true then do
              setEvent (some (EvPtr.slot i))
              ipTimeEv (EvPtr.slot i)
            else EM.fail Err.internal) := ?_
      · exact Del.ite key (Del.bind fun _ => key)
      intro s
      rw [EM.wlp_bind, EM.wlp_get]
      split
      · rename_i h
        rw [EM.wlp_bind]
        unfold setEvent
        rw [EM.wlp_modify]
        refine ipTimeEv_good rfl ⟨_, rfl, ?_⟩
        unfold Evd.ev
        dsimp only
        revert h
        unfold Event.isAsyncBranch
        split
        · rename_i hh; rw [hh]; intro _; trivial
        · intro h; cases h
      · exact fail_good
  · intro s
    rw [EM.wlp_bind]
    exact alone_good (by simp) fun s h1 h2 => ipTimeEv_good h1 h2

theorem tipEvent_good {i : Nat} {e : Event} {s : Evd} {again : EM Bool} (ha : Del k again)
    (h : s.event = some (.slot i)) (hi : s.q.get i = e) :
    EM.wlp (tipEvent i again e) (DelQ k) (fun _ _ => True) s := by
  have hg : Fine k (e.data) → GoodEvent k s := fun he => ⟨_, h, by unfold Evd.ev; dsimp only; rw [hi]; exact he⟩
  unfold tipEvent
  split
  all_goals first
    | exact fail_good
    | exact ipTimeEv_good h (hg (by simp_all))
    | skip
  exact Del.bind (fun _ => ha) s

theorem decodeTip_del (ipc ip : Nat) : ∀ n, Del k (decodeTip ipc ip n) := by
  intro n
  induction n with
  | zero => exact Del.undef
  | succ n ih =>
    unfold decodeTip
    refine Del.bind fun _ => Del.ite (Del.fail _) (Del.bind fun _ => Del.ite tipBranch_del (Del.bind fun j => ?_))
    cases j with
    | none => exact Del.more
    | some i => exact publish_del fun e s h hi => tipEvent_good ih h hi

theorem tipPgeEvent_good {i : Nat} {e : Event} {s : Evd} {again : EM Bool} (ha : Del k again)
    (h : s.event = some (.slot i)) (hi : s.q.get i = e) :
    EM.wlp (tipPgeEvent i again e) (DelQ k) (fun _ _ => True) s := by
  have hg : Fine k (e.data) → GoodEvent k s := fun he => ⟨_, h, by unfold Evd.ev; dsimp only; rw [hi]; exact he⟩
  unfold tipPgeEvent
  split
  all_goals first
    | exact fail_good
    | exact ipTimeEv_good h (hg (by simp_all))
    | skip
  exact Del.bind (fun _ => ha) s

theorem tipPgeEnable_del : Del k tipPgeEnable := by
  intro s
  unfold tipPgeEnable
  rw [EM.wlp_bind]
  refine alone_good (k := k) (by simp) fun s h1 h2 => ?_
  rw [EM.wlp_bind, EM.wlp_modify]
  exact ipTimeEv_good (s := { s with enabled := true, bound := true }) h1 h2

theorem decodeTipPge_del (ipc ip : Nat) : ∀ n, Del k (decodeTipPge ipc ip n) := by
  intro n
  induction n with
  | zero => exact Del.undef
  | succ n ih =>
    unfold decodeTipPge
    refine Del.bind fun _ => Del.bind fun _ => Del.ite tipPgeEnable_del (Del.bind fun j => ?_)
    cases j with
    | none => exact Del.more
    | some i => exact publish_del fun e s h hi => tipPgeEvent_good ih h hi

theorem tipPgdEvent_good {i : Nat} {e : Event} {s : Evd} (h : s.event = some (.slot i)) (hi : s.q.get i = e) :
    EM.wlp (tipPgdEvent i e) (DelQ k) (fun _ _ => True) s := by
  have hg : Fine k (e.data) → GoodEvent k s := fun he => ⟨_, h, by unfold Evd.ev; dsimp only; rw [hi]; exact he⟩
  have hsup : Fine k (e.data) → EM.wlp (do
      updEv (.slot i) fun _ e => { e with ipSuppressed := true }
      timeEv (.slot i)) (DelQ k) (fun _ _ => True) s := by
    intro he
    rw [EM.wlp_bind]
    exact wlp_updEv_good h (good_at h (hg he)) fun s h1 h2 => timeEv_good h1 h2
  unfold tipPgdEvent
  rw [EM.wlp_bind, EM.wlp_get]
  dsimp only
  split
  · rw [EM.wlp_bind]
    refine wlp_updEv_good (k := k) h (by simp) fun s h1 h2 => ?_
    rw [EM.wlp_bind, EM.wlp_modify]
    exact ipTimeEv_good (s := { s with enabled := false, bound := true }) h1 h2
  · split
    · exact fail_good
    · exact hsup (by simp_all)
  · split
    · exact fail_good
    · exact hsup (by simp_all)
  · exact hsup (by simp_all)
  · exact fail_good

theorem decodeTipPgd_del (c : EvtCfg) (ipc ip : Nat) : Del k (decodeTipPgd c ipc ip) := by
  unfold decodeTipPgd
  refine Del.bind fun _ => Del.bind fun j => ?_
  cases j with
  | none =>
    refine Del.bind fun _ => Del.ite Del.more ?_
    intro s
    rw [EM.wlp_bind]
    refine alone_good (k := k) (by simp) fun s h1 h2 => ?_
    rw [EM.wlp_bind]
    unfold ipTimeEv
    rw [EM.wlp_bind]
    refine wlp_updEv_good h1 (withIp_tick _ (good_at h1 h2)) fun s h1 h2 => ?_
    refine timeEv_good' h1 h2 fun _ s h1 h2 => ?_
    rw [EM.wlp_bind, EM.wlp_modify]
    exact fetchDone_good (s := { s with enabled := false }) h2
  | some i => exact publish_del fun e s h hi => tipPgdEvent_good h hi

theorem decodeExstop_del (c : EvtCfg) (ip : Bool) : Del k (decodeExstop c ip) := by
  have hx : Del k (exstopEvent c ip) := Del.ite (enqMore_del _ _) (aloneDone_del (by simp))
  unfold decodeExstop
  refine Del.bind fun j => ?_
  cases j with
  | none => exact hx
  | some i =>
    refine Del.bind fun s => ?_
    split
    · refine Del.ite (Del.bind fun _ => Del.bind fun _ => hx) ?_
      intro s
      rw [EM.wlp_bind]
      unfold updEv setEvent
      rw [EM.wlp_modify, EM.wlp_bind, EM.wlp_modify]
      exact timeEv_good rfl ⟨_, rfl, put_get_tick _ _ (by simp)⟩
    · exact Del.fail _

theorem cfeFresh_del {c : EvtCfg} {d : EvData} (hd : Fine k (d)) (a b e : Bool) : Del k (cfeFresh c a b e d) :=
  Del.bind fun _ => Del.ite (enqMore_del _ _) (Del.ite (enqMore_del _ _) (aloneDone_del hd))

/-- The event `*p` is not the internal one. -/
theorem cfeQueued_good {c : EvtCfg} {ip : Bool} {p : EvPtr} {s : Evd} (h : Fine k ((s.ev p).data)) :
    EM.wlp (cfeQueued c ip p) (DelQ k) (fun _ _ => True) s := by
  have keep : ∀ (s : Evd) (e : Event), Fine k (e.data) → Fine k (((s.setEv p e).ev p).data) := by
    intro s e he
    cases p with
    | alone => exact he
    | slot i => exact put_get_tick _ _ he
  have rq : ∀ evb, Del k (requeueMore p evb) := fun evb => Del.bind fun _ => Del.bind fun _ => Del.more
  unfold cfeQueued
  rw [EM.wlp_bind, EM.wlp_get]
  split
  · exact rq _ s
  · split
    · exact rq _ s
    · unfold timeEv updEv setEvent
      rw [EM.wlp_bind, EM.wlp_bind, EM.wlp_modify, EM.wlp_pure, EM.wlp_bind, EM.wlp_modify, EM.wlp_bind,
        EM.wlp_modify]
      refine fetchDone_good ⟨p, rfl, ?_⟩
      have := keep (s.setEv p ((s.ev p).timed s.tm.time))
        { ((s.setEv p ((s.ev p).timed s.tm.time)).ev p) with ipSuppressed := true }
        (keep s ((s.ev p).timed s.tm.time) h)
      cases p <;> exact this

theorem cfeIntr_del (c : EvtCfg) (v : Nat) (ip : Bool) (p : EvPtr) : Del k (cfeIntr c v ip p) := by
  intro s
  unfold cfeIntr
  rw [EM.wlp_bind, EM.wlp_get]
  split
  · rw [EM.wlp_bind]
    unfold updEv
    rw [EM.wlp_modify]
    apply cfeQueued_good
    cases p with
    | alone => trivial
    | slot i => exact put_get_tick _ _ (by simp)
  · exact fail_good

theorem cfeVmexit_del (c : EvtCfg) (b : Bool) (v : Nat) (ip : Bool) (p : EvPtr) : Del k (cfeVmexit c b v ip p) := by
  intro s
  unfold cfeVmexit
  rw [EM.wlp_bind, EM.wlp_get]
  split
  · rw [EM.wlp_bind]
    unfold updEv
    rw [EM.wlp_modify]
    apply cfeQueued_good
    cases p with
    | alone => trivial
    | slot i => exact put_get_tick _ _ (by simp)
  · exact fail_good

theorem decodeCfe_del (c : EvtCfg) (t v : Nat) (ip : Bool) : Del k (decodeCfe c t v ip) := by
  unfold decodeCfe
  refine Del.bind fun j => ?_
  repeat' (with_reducible apply Del.ite)
  all_goals first
    | exact Del.fail _
    | exact Del.more
    | exact enqMore_del _ _
    | exact cfeFresh_del (by simp) _ _ _
    | exact Del.bind fun p => cfeIntr_del _ _ _ _
    | exact Del.bind fun p => cfeVmexit_del _ _ _ _ _

theorem decodeEvd_del (t v : Nat) : Del k (decodeEvd t v) := by
  unfold decodeEvd
  refine Del.bind fun s => Del.ite (Del.ite (Del.fail _) (enqMore_del _ _)) (Del.ite (Del.bind fun i => Del.bind fun s => ?_) Del.more)
  split
  · exact Del.ite (Del.ite (Del.fail _) (Del.bind fun _ => Del.more)) (Del.ite (Del.fail _) (Del.bind fun _ => Del.more))
  · exact Del.fail _

theorem decodeTrig_del (c : EvtCfg) (a : Nat) (b : Option Nat) (d e : Bool) : Del k (decodeTrig c a b d e) := by
  unfold decodeTrig
  refine Del.ite ?_ (Del.bind fun _ => Del.bind fun s => ?_)
  · split
    · exact enqMore_del _ _
    · exact Del.fail _
  · split
    · exact Del.ite (Del.fail _) (aloneDone_del (by simp))
    · exact aloneDone_del (by simp)

theorem decodeVmcs_del (c : EvtCfg) (base : Nat) : Del k (decodeVmcs c base) := by
  unfold decodeVmcs
  refine Del.bind fun s => ?_
  split
  · exact Del.bind fun _ => Del.bind fun _ => Del.bind fun _ => Del.more
  · exact Del.ite (enqMore_del _ _) (aloneDone_del (by simp))

theorem decodeOther_del (c : EvtCfg) {s : Evd} (hk : k → TntOk s.packet) :
    EM.wlp (decodeOther c) (DelQ k) (fun _ _ => True) s := by
  have h2 : ∀ {m : EM Bool}, Del k m → decodeOther c s = m s → EM.wlp (decodeOther c) (DelQ k) (fun _ _ => True) s := by
    intro m hm he
    have := hm s
    unfold EM.wlp at *
    rw [he]; exact this
  cases hp : s.packet
  case psb => refine h2 Del.undef ?_; unfold decodeOther; rw [hp]; rfl
  case unknown => refine h2 Del.more ?_; unfold decodeOther; rw [hp]; rfl
  case pad => refine h2 Del.more ?_; unfold decodeOther; rw [hp]; rfl
  case modeOther a => refine h2 (Del.fail .badOpc) ?_; unfold decodeOther; rw [hp]; rfl
  case invalid =>
    refine h2 (m := decodeInvalid) ?_ (by unfold decodeOther; rw [hp])
    intro s
    unfold EM.wlp decodeInvalid
    split
    · rename_i s' a h
      split at h
      · injection h with h3 h4; cases h4
      · injection h with h3 h4; cases h4; intro h; cases h
    · trivial
    · trivial
  case tnt8 a b =>
    refine h2 (m := decodeTnt c b a) ?_ (by unfold decodeOther; rw [hp])
    refine Del.bind fun _ => Del.ite (Del.fail _) (aloneDone_del ?_)
    rw [hp] at hk; exact hk
  case tnt64 a b =>
    refine h2 (m := decodeTnt c b a) ?_ (by unfold decodeOther; rw [hp])
    refine Del.bind fun _ => Del.ite (Del.fail _) (aloneDone_del ?_)
    rw [hp] at hk; exact hk
  case modeTsx a b =>
    refine h2 (m := decodeModeTsx c a b) ?_ (by unfold decodeOther; rw [hp])
    exact Del.bind fun _ => Del.ite (enqMore_del _ _) (aloneDone_del (by simp))
  case pip a b =>
    refine h2 (m := decodePip c a b) ?_ (by unfold decodeOther; rw [hp])
    exact Del.bind fun _ => Del.ite (enqMore_del _ _) (aloneDone_del (by simp))
  case ptw a b d =>
    refine h2 (m := decodePtw c a b d) ?_ (by unfold decodeOther; rw [hp])
    exact Del.bind fun _ => Del.ite (enqMore_del _ _) (aloneDone_del (by simp))
  case modeExec a b d =>
    refine h2 (m := decodeModeExec c a b d) ?_ (by unfold decodeOther; rw [hp])
    exact Del.bind fun _ => Del.bind fun _ => Del.bind fun _ => Del.more
  case cyc v => exact h2 (m := decodeTiming c (.cyc v)) (Del.bind fun _ => Del.more) (by unfold decodeOther; rw [hp])
  case mtc v => exact h2 (m := decodeTiming c (.mtc v)) (Del.bind fun _ => Del.more) (by unfold decodeOther; rw [hp])
  case tsc v => exact h2 (m := decodeTiming c (.tsc v)) (Del.bind fun _ => Del.more) (by unfold decodeOther; rw [hp])
  case tma v w => exact h2 (m := decodeTiming c (.tma v w)) (Del.bind fun _ => Del.more) (by unfold decodeOther; rw [hp])
  case cbr v =>
    exact h2 (m := decodeCbr c v) (Del.bind fun _ => aloneDone_del (by simp)) (by unfold decodeOther; rw [hp])
  case fup a b => exact h2 (decodeFup_del a b evqFuel) (by unfold decodeOther; rw [hp])
  case tip a b => exact h2 (decodeTip_del a b evqFuel) (by unfold decodeOther; rw [hp])
  case tipPge a b => exact h2 (decodeTipPge_del a b evqFuel) (by unfold decodeOther; rw [hp])
  case tipPgd a b => exact h2 (decodeTipPgd_del c a b) (by unfold decodeOther; rw [hp])
  case psbend => exact h2 decodePsbend_del (by unfold decodeOther; rw [hp])
  case exstop a => exact h2 (decodeExstop_del c a) (by unfold decodeOther; rw [hp])
  case mwait a b => exact h2 (m := decodeMwait a b) (enqMore_del _ _) (by unfold decodeOther; rw [hp])
  case vmcs a => exact h2 (decodeVmcs_del c a) (by unfold decodeOther; rw [hp])
  case ovf => exact h2 (decodeOvf_del c) (by unfold decodeOther; rw [hp])
  case cfe a b d => exact h2 (decodeCfe_del c a b d) (by unfold decodeOther; rw [hp])
  case evd a b => exact h2 (decodeEvd_del a b) (by unfold decodeOther; rw [hp])
  case trig a b d e => exact h2 (decodeTrig_del c a b d e) (by unfold decodeOther; rw [hp])
  case stop => exact h2 (aloneDone_del (c := c) (e := { data := .stop }) (by simp)) (by unfold decodeOther; rw [hp])
  case mnt a => exact h2 (aloneDone_del (c := c) (e := { data := .mnt a }) (by simp)) (by unfold decodeOther; rw [hp])
  case pwre a b d =>
    exact h2 (aloneDone_del (c := c) (e := { data := .pwre a b d }) (by simp)) (by unfold decodeOther; rw [hp])
  case pwrx a b d e f =>
    exact h2 (aloneDone_del (c := c) (e := { data := .pwrx a b d e f }) (by simp)) (by unfold decodeOther; rw [hp])

theorem decodePacket_del (c : EvtCfg) {s : Evd} (h : k → TntOk s.packet) :
    EM.wlp (decodePacket c) (DelQ k) (fun _ _ => True) s := by
  by_cases hp : s.packet = .psb
  · refine EM.wlp_of_eq (m' := do decodePsb c; decodeOther c) (by unfold decodePacket; rw [hp]) ?_
    rw [EM.wlp_bind]
    have : EM.wlp (decodePsb c) (fun _ s' => s'.packet = .psbend ∨ s'.packet = .ovf) (fun _ _ => True) s := by
      have h2 := fun s' => decodePsb_packet (c := c) (s := s) (s' := s')
      unfold EM.wlp
      revert h2
      rcases decodePsb c s with ⟨s', a | e | _⟩ <;> intro h2
      · exact h2 s' rfl
      · trivial
      · trivial
    refine EM.wlp_mono this (fun _ s' h => decodeOther_del c fun _ => ?_) (fun _ _ h => h)
    rcases h with h | h <;> rw [h] <;> trivial
  · refine EM.wlp_of_eq (m' := decodeOther c) ?_ (decodeOther_del c h)
    unfold decodePacket
    split
    · contradiction
    · rfl

theorem fetchEventLoop_good (c : EvtCfg) : ∀ n s, EM.wlp (fetchEventLoop c n) (fun _ s' => GoodEvent False s') (fun _ _ => True) s := by
  intro n
  induction n with
  | zero => intro s; exact (EM.wlp_undef _ _ _).2 trivial
  | succ n ih =>
    intro s
    unfold fetchEventLoop
    rw [EM.wlp_bind]
    refine EM.wlp_mono (decodePacket_del (k := False) c False.elim) (fun b s' h => ?_) (fun _ _ h => h)
    split
    · rw [EM.wlp_bind, EM.wlp_get]
      split
      · rw [EM.wlp_fail]; trivial
      · rw [EM.wlp_bind, EM.wlp_modify, EM.wlp_bind]
        exact wlp_true _ _ (fun _ s => ih s) _
    · rename_i hb
      rw [EM.wlp_pure]
      exact h (by simpa using hb)

theorem evtNext_tick {c : EvtCfg} {s s' : Evd} {e : Event} (h : evtNext c s = (s', .ok e)) : ∀ x, e.data ≠ .tick x := by
  have : EM.wlp (evtNext c) (fun e _ => ∀ x, e.data ≠ .tick x) (fun _ _ => True) s := by
    unfold evtNext
    rw [EM.wlp_bind]
    refine EM.wlp_mono (fetchEventLoop_good c _ s) (fun _ s h => ?_) (fun _ _ h => h)
    rw [EM.wlp_bind, EM.wlp_get, EM.wlp_bind, EM.wlp_modify]
    obtain ⟨p, h1, h2⟩ := h
    rw [h1]
    refine (EM.wlp_pure _ _ _ _).2 fun x h3 => ?_
    rw [h3] at h2; exact h2
  exact EM.wlp_ok this h

end Ipt
