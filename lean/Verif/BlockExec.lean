import Verif.BlockFlow

/-!
# Helper lemmas: executing an instruction of a block
-/

set_option linter.unusedSimpArgs false

namespace Ipt

open Ild Spec Props BM

/-- What does not change while instructions are executed with trace. -/
def Bdec.calm (s : Bdec) : Bdec :=
  { s.still with
    ev := {}, event := none, tsc := 0, hasTsc := false, lostMtc := 0, lostCyc := 0, status := none, hasIcnt := false }

variable {c : BlkCfg} {f0 f : Flow} {n0 : Int} {is : List Insn} {its : List Item} {s s' : Bdec} {i : Insn}

theorem _root_.Ipt.Spec.Flow.Known.ip {isid : Nat} (h : f.Known c.toInsnCfg isid i) : i.ip = f.ip := by
  rcases h.1 with h | h
  · exact h.ip
  · exact h.1

theorem _root_.Ipt.Spec.Flow.At.shape {c : InsnCfg} (h : f.At c i) :
    (i.ext.inst = .jmpabs → i.ext.cls = .jump) ∧
    (i.ext.isDirect = true → i.ext.inst ≠ .jmpabs → (i.ext.cls = .call ∨ i.ext.cls = .jump ∨ i.ext.cls = .condJump) ∧
      -2 ^ 31 ≤ i.ext.displacement ∧ i.ext.displacement < 2 ^ 31) := by
  refine direct_shape ?_ h.decodes
  have hs := h.size
  obtain ⟨b, hb, -⟩ := h.bytes (i.size - 1) (by omega)
  have := (List.getElem?_eq_some_iff.1 hb).1
  omega

theorem _root_.Ipt.Spec.Within.shape {env : SecEnv} {sec off n : Nat} {mode : Mode} {x : Iext} (h : Within env sec mode off n x) :
    (x.inst = .jmpabs → x.cls = .jump) ∧
    (x.isDirect = true → x.inst ≠ .jmpabs → (x.cls = .call ∨ x.cls = .jump ∨ x.cls = .condJump) ∧
      -2 ^ 31 ≤ x.displacement ∧ x.displacement < 2 ^ 31) :=
  direct_shape (by simp) h.decodes

theorem _root_.Ipt.Spec.Flow.Known.shape {isid : Nat} (h : f.Known c.toInsnCfg isid i) :
    (i.ext.inst = .jmpabs → i.ext.cls = .jump) ∧
    (i.ext.isDirect = true → i.ext.inst ≠ .jmpabs → (i.ext.cls = .call ∨ i.ext.cls = .jump ∨ i.ext.cls = .condJump) ∧
      -2 ^ 31 ≤ i.ext.displacement ∧ i.ext.displacement < 2 ^ 31) := by
  rcases h.1 with h | ⟨-, -, -, -, m, -, -, -, -, -, h⟩
  · exact h.shape
  · exact Within.shape h

theorem Mid.done (h : Mid c f0 n0 is its s f i) {its' : List Item} {t : Nat} {calls : List Nat}
    (hx : Exec i f.calls its' t calls) (hc : s'.calm = s.calm) (hsc : s'.sc.img.secs = s.sc.img.secs)
    (hb : s'.blk = s.blk) (hip : s'.ip = t) (hr : s'.retstack.Holds calls) {n1 : Int}
    (hi : s'.hasIcnt = true → s'.icnt = n1 + is.length + 1) :
    Sofar c f0 n1 (is ++ [i]) (its ++ its') s' { f with ip := t, calls := calls } := by
  have ha : s'.sc.asid = s.sc.asid := congrArg (·.sc.asid) hc
  have hcc : s'.sc.cache = s.sc.cache := congrArg (·.sc.cache) hc
  have hm : s'.mode = s.mode := congrArg (·.mode) hc
  have hlen : (is ++ [i]).length = is.length + 1 := by simp
  refine ⟨?_, ⟨hip.symm, h.fmode.trans hm.symm, h.asid.trans ha.symm, fun m => ?_, hr⟩, ?_, ?_, ?_, ?_, ?_, h.wf, ?_, ?_⟩
  · rw [hb]; exact h.walk.append (.one h.known hx)
  · rw [hsc]; exact h.sections m
  · rw [hb, hlen]; exact h.count
  · rw [hlen]; exact h.lt
  · intro h1; rw [hi h1, hlen]; omega
  · intro j hj
    rw [hb]
    simp only [List.getLast?_append, List.getLast?_singleton, Option.some_or, Option.some.injEq] at hj
    subst hj
    exact .inl h.ends
  · simp
  · intro m hm; rw [hcc] at hm; rw [ha]; exact h.inv m hm
  · rw [hb]; exact h.mode

/-- The instruction can only be executed with trace. -/
def NeedsTrace (i : Insn) : Prop := i.ext.cls ∉ [.other, .ptwrite, .unknown] ∧ (i.ext.cls = .condJump ∨ ¬ Direct i)

theorem nextInsn_flow (h : Mid c f0 n0 is its s f i) :
    wp (nextInsn i)
      (fun _ s' => ∃ t calls, Exec i f.calls [] t calls ∧ s' = { s with ip := t } ∧
        Sofar c f0 n0 (is ++ [i]) its s' { f with ip := t, calls := calls } ∧ nextIp i = .ok t)
      (fun e s' => s' = s ∧ (e = .badQuery → NeedsTrace i)) s := by
  unfold nextInsn
  rw [wp_bind, wp_lift]
  have hsh := Spec.Flow.Known.shape h.known
  have key : ∀ t calls, Exec i f.calls [] t calls →
      calls = calling i f.calls ((i.ip + i.size) % 2 ^ 64) → 
      Sofar c f0 n0 (is ++ [i]) its { s with ip := t } { f with ip := t, calls := calls } := by
    intro t calls hx hc
    have := h.done (s' := { s with ip := t }) hx rfl rfl rfl rfl (by rw [hc]; exact h.calls) h.icnt
    rwa [List.append_nil] at this
  have main : ∀ r, nextIp i = r → match r with
      | .ok t => ∃ calls, Exec i f.calls [] t calls ∧
        Sofar c f0 n0 (is ++ [i]) its { s with ip := t } { f with ip := t, calls := calls }
      | .err e => e = .badQuery → NeedsTrace i
      | .ub => True := by
    intro r hr
    have direct : Direct i → i.ext.cls ∉ [.other, .ptwrite, .unknown, .condJump] →
        ∃ calls, Exec i f.calls [] (addDisp ((i.ip + i.size) % 2 ^ 64) i.ext.displacement) calls ∧
          Sofar c f0 n0 (is ++ [i]) its { s with ip := addDisp ((i.ip + i.size) % 2 ^ 64) i.ext.displacement }
            { f with ip := addDisp ((i.ip + i.size) % 2 ^ 64) i.ext.displacement, calls := calls } := by
      intro hd hcl
      have hx : Exec i f.calls [] (addDisp ((i.ip + i.size) % 2 ^ 64) i.ext.displacement)
          (calling i f.calls ((i.ip + i.size) % 2 ^ 64)) := .direct _ _ hcl hd (addr_target i _) (addr_fall i)
      exact ⟨_, hx, key _ _ hx rfl⟩
    have fall : i.ext.cls = .other ∨ i.ext.cls = .ptwrite →
        ∃ calls, Exec i f.calls [] ((i.ip + i.size) % 2 ^ 64) calls ∧
          Sofar c f0 n0 (is ++ [i]) its { s with ip := (i.ip + i.size) % 2 ^ 64 }
            { f with ip := (i.ip + i.size) % 2 ^ 64, calls := calls } := by
      intro hcl
      have hx : Exec i f.calls [] ((i.ip + i.size) % 2 ^ 64) f.calls := .fall _ hcl (addr_fall i)
      refine ⟨_, hx, key _ _ hx ?_⟩
      rw [calling_of_ne]
      rcases hcl with h | h <;> simp [h]
    have hno : i.ext.cls = .return ∨ i.ext.cls = .farCall ∨ i.ext.cls = .farReturn ∨ i.ext.cls = .farJump ∨
        i.ext.cls = .indirect → NeedsTrace i := by
      intro hcl
      refine ⟨by rcases hcl with h | h | h | h | h <;> simp [h], .inr ?_⟩
      rintro ⟨h1, h2⟩
      have := (hsh.2 h1 h2).1
      rcases hcl with h | h | h | h | h <;> simp [h] at this
    unfold nextIp at hr
    dsimp only at hr
    rcases hcl : i.ext.cls <;> simp only [hcl] at hr <;> (try subst hr)
    · simp
    · exact fall (.inl hcl)
    · -- call
      by_cases hd : i.ext.isDirect = true
      · rw [if_pos hd]
        refine direct ⟨hd, ?_⟩ (by simp [hcl])
        intro hj
        have := hsh.1 hj
        rw [hcl] at this; cases this
      · rw [if_neg hd]
        exact fun _ => ⟨by simp [hcl], .inr fun h => hd h.1⟩
    · exact fun _ => hno (by simp [hcl])
    · -- jump
      by_cases hj : i.ext.inst = .jmpabs
      · rw [if_pos hj]
        exact fun _ => ⟨by simp [hcl], .inr fun h => h.2 hj⟩
      · rw [if_neg hj]
        by_cases hd : i.ext.isDirect = true
        · rw [if_pos hd]
          exact direct ⟨hd, hj⟩ (by simp [hcl])
        · rw [if_neg hd]
          exact fun _ => ⟨by simp [hcl], .inr fun h => hd h.1⟩
    · exact fun _ => ⟨by simp [hcl], .inl hcl⟩
    · exact fun _ => hno (by simp [hcl])
    · exact fun _ => hno (by simp [hcl])
    · exact fun _ => hno (by simp [hcl])
    · exact fall (.inr hcl)
    · exact fun _ => hno (by simp [hcl])
  have := main _ rfl
  rcases hr : nextIp i with t | e | _ <;> rw [hr] at this <;> dsimp only at this ⊢
  · obtain ⟨calls, hx, hs⟩ := this
    exact ⟨t, calls, hx, rfl, hs, rfl⟩
  · exact ⟨rfl, this⟩

/-- The instruction was executed with trace. -/
def Told (c : BlkCfg) (f0 : Flow) (is : List Insn) (its : List Item) (s : Bdec) (f : Flow) (i : Insn) (s' : Bdec) : Prop :=
  ∃ it n1 t calls, (f0.Walk (Flow.Known c.toInsnCfg s'.blk.isid) is its f ∧ f.Known c.toInsnCfg s'.blk.isid i) ∧
    Exec i f.calls [it] t calls ∧ Takes c s.trace [it] s'.trace ∧
    Sofar c f0 n1 (is ++ [i]) (its ++ [it]) s' { f with ip := t, calls := calls } ∧
    s'.calm = s.calm ∧ s'.bc = s.bc ∧ s'.others = s.others

theorem wp_findTrigAnchor {ev : Event} {Q : Unit → Bdec → Prop} {E : Err → Bdec → Prop} (he : E .internal s)
    (hq : ∀ b n, (b = s.hasIcnt ∧ n = s.icnt) ∨ n = 0 → Q () { s with hasIcnt := b, icnt := n }) :
    wp (findTrigAnchor ev) Q E s := by
  have h1 : Q () s := hq s.hasIcnt s.icnt (.inl ⟨rfl, rfl⟩)
  have h2 : Q () (setTrigAnchor s) := hq true 0 (.inr rfl)
  have h3 : Q () (clearTrigAnchor s) := hq false 0 (.inr rfl)
  unfold findTrigAnchor
  split
  all_goals first
    | exact h1
    | exact h3
    | (rw [wp_ite]; exact ⟨fun _ => h1, fun _ => h2⟩)
    | (rw [wp_ite]; exact ⟨fun _ => he, fun _ => h2⟩)
    | (rw [wp_modify]; split <;> assumption)

/-- `pt_blk_fetch_event`. -/
theorem wp_fetch {Q : Unit → Bdec → Prop} {E : Err → Bdec → Prop} {e : Event} (hs : s.event = some e)
    (he : ∀ s', s'.calm = s.calm → SameCache s s' → E .internal s')
    (hq : ∀ s', s'.calm = s.calm → SameCache s s' → s'.blk = s.blk → s'.ip = s.ip → s'.retstack = s.retstack →
      s'.sc = s.sc → s'.maps = s.maps → s'.out = s.out →
      (s'.hasIcnt = s.hasIcnt ∧ s'.icnt = s.icnt ∨ s'.icnt = 0) →
      ((∃ e', evtNext c.evt s.ev = (s'.ev, .ok e') ∧ s'.event = some e' ∧ s'.status = s.status) ∨
        (∃ x, evtNext c.evt s.ev = (s'.ev, .err x) ∧ s'.event = none ∧ s'.status = some x)) →
      s'.tsc = e.tsc ∧ s'.hasTsc = e.hasTsc ∧ s'.lostMtc = e.lostMtc ∧ s'.lostCyc = e.lostCyc → Q () s') :
    wp (fetchEvent c) Q E s := by
  unfold fetchEvent
  rw [wp_bind, wp_get, hs]
  dsimp only
  rw [wp_bind, wp_modify, wp_bind]
  refine wp_findTrigAnchor (he _ rfl ⟨rfl, rfl⟩) fun b n hbn => ?_
  rw [wp_bind, wp_try]
  have hev : ∀ t : Bdec, BM.evt (evtNext c.evt) t = ({ t with ev := (evtNext c.evt t.ev).1 }, (evtNext c.evt t.ev).2) :=
    fun _ => rfl
  unfold wp
  rw [hev]
  dsimp only
  rcases hn : evtNext c.evt s.ev with ⟨d, e' | x | _⟩ <;> dsimp only
  · rw [show BM.modify (fun s => { s with event := some e' }) = fun s => ({ s with event := some e' }, .ok ()) from rfl]
    dsimp only
    refine hq _ rfl ⟨rfl, rfl⟩ rfl rfl rfl rfl rfl rfl ?_ (.inl ⟨e', hn, rfl, rfl⟩) ⟨rfl, rfl, rfl, rfl⟩
    rcases hbn with ⟨rfl, rfl⟩ | rfl
    · exact .inl ⟨rfl, rfl⟩
    · exact .inr rfl
  · rw [show BM.modify (fun s => { s with status := some x, event := none }) =
      fun s => ({ s with status := some x, event := none }, .ok ()) from rfl]
    dsimp only
    refine hq _ rfl ⟨rfl, rfl⟩ rfl rfl rfl rfl rfl rfl ?_ (.inr ⟨x, hn, rfl, rfl⟩) ⟨rfl, rfl, rfl, rfl⟩
    rcases hbn with ⟨rfl, rfl⟩ | rfl
    · exact .inl ⟨rfl, rfl⟩
    · exact .inr rfl

theorem items_tip' {e : Event} {ip : Nat} (h1 : e.data = .tip ip) (h2 : ¬ e.ipSuppressed = true) :
    items e = [.target (some ip)] := by
  unfold items; rw [h1]; simp [h2]

theorem items_tnt' {e : Event} {bits n : Nat} (h : e.data = .tnt bits (n + 1)) :
    items e = .bit (bits / 2 ^ n % 2 == 1) :: items { e with data := .tnt bits n } := by
  unfold items
  rw [h]
  simp only [tntBits, List.map_cons, List.cons.injEq, and_true, Item.bit.injEq]
  rw [Nat.testBit_eq_decide_div_mod_eq]
  rfl

/-- `pt_blk_proceed_indirect`. -/
theorem proceedIndirect_flow (h : Mid c f0 n0 is its s f i) (hcl : i.ext.cls ∉ [.other, .ptwrite, .unknown, .condJump])
    (hd : ¬ Direct i) : wp (proceedIndirect c) (fun _ s' => Told c f0 is its s f i s') (fun _ s' => SameCache s s') s := by
  have hx : ∀ t, Exec i f.calls [.target (some t)] t (calling i f.calls ((i.ip + i.size) % 2 ^ 64)) :=
    fun t => .target t _ hcl hd (addr_fall i)
  unfold proceedIndirect
  rw [wp_bind, wp_get]
  rcases he : s.event with _ | e
  · exact ⟨rfl, rfl⟩
  dsimp only
  rcases hda : e.data <;> dsimp only <;> (try exact ⟨rfl, rfl⟩)
  · rename_i ip
    rw [wp_ite]
    refine ⟨fun _ => ⟨rfl, rfl⟩, fun hs => ?_⟩
    rw [wp_bind, wp_modify]
    unfold blkTick
    rw [wp_bind, wp_get]
    dsimp only
    rw [he]
    dsimp only
    rw [wp_ite]
    have hit := items_tip' hda hs
    refine ⟨fun ht => ?_, fun ht => ?_⟩
    · rw [wp_modify]
      refine ⟨_, n0, ip, _, ⟨h.walk, h.known⟩, hx ip, ?_,
        h.done (s' := { s with ip := ip, event := some { e with data := .tick s.ip } }) (hx ip) rfl rfl rfl rfl h.calls h.icnt,
        rfl, rfl, rfl⟩
      have := Takes.tick (c := c) s.ev e ip s.ip s.status ht.1 hit
      unfold Bdec.trace
      rwa [he]
    · refine wp_fetch (e := e) rfl (fun s' _ hsc => hsc) ?_
      intro s' h1 h2 h3 h4 h5 h6 h7 h8 h9 h10 _
      refine ⟨_, if s'.hasIcnt = true then s'.icnt - (is.length + 1 : Nat) else 0, ip, _, by rw [h3]; exact ⟨h.walk, h.known⟩, hx ip, ?_,
        h.done (hx ip) ?_ ?_ h3 h4 ?_ ?_, ?_, h2.1, h2.2⟩
      · unfold Bdec.trace
        rw [he]
        rcases h10 with ⟨e', a, b, d⟩ | ⟨x, a, b, d⟩
        · rw [b, d]; exact .target _ _ _ _ _ _ hit a
        · rw [b, d]; exact .last _ _ _ _ _ _ hit a
      · rw [h1]; rfl
      · rw [h6]
      · rw [h5]; exact h.calls
      · intro h11; rw [if_pos h11]; omega
      · rw [h1]; rfl
  · rename_i bits n
    rw [wp_bind, wp_try]
    unfold wp
    rw [show BM.evt (evtNext c.evt) s = ({ s with ev := (evtNext c.evt s.ev).1 }, (evtNext c.evt s.ev).2) from rfl]
    dsimp only
    rcases hn : evtNext c.evt s.ev with ⟨d, e' | x | _⟩ <;> dsimp only
    · rcases hda' : e'.data <;> dsimp only
      all_goals first
        | exact ⟨rfl, rfl⟩
        | skip
      rename_i ip
      refine ⟨_, n0, ip, _, ⟨h.walk, h.known⟩, hx ip, ?_,
        h.done (s' := { s with ev := d, ip := ip }) (hx ip) rfl rfl rfl rfl h.calls h.icnt, rfl, rfl, rfl⟩
      unfold Bdec.trace
      dsimp only
      rw [he]
      exact .deferred _ _ _ _ _ _ _ _ hda hn hda'
    · exact ⟨rfl, rfl⟩

/-- `pt_blk_cond_branch`. -/
theorem wp_cond {Q : Bool → Bdec → Prop} {E : Err → Bdec → Prop} (he : ∀ e, E e s)
    (hq : ∀ b e e', s.event = some e → items e = .bit b :: items e' → Q b { s with event := some e' }) :
    wp blkCond Q E s := by
  unfold blkCond
  rw [wp_bind, wp_get]
  rcases hs : s.event with _ | e
  · exact he _
  dsimp only
  rcases hda : e.data <;> dsimp only <;> (try exact he _)
  rename_i bits n
  rw [wp_ite]
  refine ⟨fun _ => he _, fun hn => ?_⟩
  obtain ⟨n, rfl⟩ : ∃ k, n = k + 1 := ⟨n - 1, by omega⟩
  rw [wp_bind, wp_modify, wp_pure]
  exact hq _ e _ hs (items_tnt' hda)

/-- A conditional branch. -/
theorem cond_flow (h : Mid c f0 n0 is its s f i) (hcl : i.ext.cls = .condJump) {b : Bool} {e e' : Event}
    (hs : s.event = some e) (hit : items e = .bit b :: items e') {t : Nat}
    (ht : Addr t (i.ip + i.size + (if b = true then i.ext.displacement else 0))) :
    Told c f0 is its s f i { s with event := some e', ip := t } := by
  have hx : Exec i f.calls [.bit b] t f.calls := .cond b t hcl ht
  refine ⟨_, n0, t, _, ⟨h.walk, h.known⟩, hx, ?_, h.done (s' := { s with event := some e', ip := t }) hx rfl rfl rfl rfl ?_ h.icnt, rfl, rfl, rfl⟩
  · unfold Bdec.trace
    rw [hs]
    exact .bit _ _ _ _ _ hit
  · have := h.calls
    rwa [calling_of_ne (by simp [hcl])] at this

theorem wp_pop {Q : Unit → Bdec → Prop} {E : Err → Bdec → Prop} : wp blkPop Q E s =
    match s.retstack.pop with
    | (r, .ok a) => Q () { s with retstack := r, ip := a }
    | (r, .err e) => E e { s with retstack := r }
    | (_, .ub) => True := by
  unfold wp
  have : blkPop s = BM.bind (fun s => ({ s with retstack := s.retstack.pop.1 }, s.retstack.pop.2))
    (fun ip => BM.modify fun s => { s with ip := ip }) s := rfl
  rw [this]
  unfold BM.bind
  dsimp only
  rcases s.retstack.pop with ⟨r, a | e | _⟩ <;> rfl

/-- A near return. -/
theorem return_flow (h : Mid c f0 n0 is its s f i) (hcl : i.ext.cls = .return) :
    wp (compressedReturn (proceedIndirect c)) (fun _ s' => Told c f0 is its s f i s') (fun _ s' => SameCache s s') s := by
  have hsh := Spec.Flow.Known.shape h.known
  have hd : ¬ Direct i := by
    rintro ⟨h1, h2⟩
    have := (hsh.2 h1 h2).1
    simp [hcl] at this
  unfold compressedReturn
  rw [wp_bind, wp_try]
  refine wp_cond (fun e => ?_) fun b e e' hs hit => ?_
  · cases e <;> dsimp only <;> first | exact ⟨rfl, rfl⟩ | exact proceedIndirect_flow h (by simp [hcl]) hd
  · rcases b with _ | _ <;> dsimp only
    · exact ⟨rfl, rfl⟩
    · have hc := h.calls
      rw [calling_of_ne (by simp [hcl])] at hc
      rw [wp_pop]
      dsimp only
      rcases hcalls : f.calls with _ | ⟨t, rest⟩
      · rw [hcalls] at hc
        have hp := pop_holds hc
        dsimp only at hp
        rw [hp]
        exact ⟨rfl, rfl⟩
      · rw [hcalls] at hc
        have hp := pop_holds hc
        dsimp only at hp
        obtain ⟨r, hr, hh⟩ := hp
        rw [hr]
        dsimp only
        show Told c f0 is its s f i { s with event := some e', retstack := r, ip := t }
        have hx : Exec i f.calls [.bit true] t rest := .ret t rest hcl hcalls
        refine ⟨_, n0, t, _, ⟨h.walk, h.known⟩, hx, ?_, h.done (s' := { s with event := some e', retstack := r, ip := t })
          hx rfl rfl rfl rfl hh h.icnt, rfl, rfl, rfl⟩
        unfold Bdec.trace
        rw [hs]
        exact .bit _ _ _ _ _ hit

/-- `pt_blk_proceed_with_trace`. -/
theorem withTrace_flow (h : Mid c f0 n0 is its s f i) :
    wp (proceedWithTrace c i) (fun _ s' => Told c f0 is its s f i s') (fun _ s' => SameCache s s') s := by
  have hsh := Spec.Flow.Known.shape h.known
  have far : i.ext.cls = .farCall ∨ i.ext.cls = .farReturn ∨ i.ext.cls = .farJump ∨ i.ext.cls = .indirect →
      wp (proceedIndirect c) (fun _ s' => Told c f0 is its s f i s') (fun _ s' => SameCache s s') s := by
    intro hcl
    refine proceedIndirect_flow h (by rcases hcl with h | h | h | h <;> simp [h]) ?_
    rintro ⟨h1, h2⟩
    have := (hsh.2 h1 h2).1
    rcases hcl with h | h | h | h <;> simp [h] at this
  unfold proceedWithTrace
  rcases hcl : i.ext.cls <;> dsimp only <;> (try exact ⟨rfl, rfl⟩)
  · rw [wp_ite]
    exact ⟨fun _ => ⟨rfl, rfl⟩, fun hd => proceedIndirect_flow h (by simp [hcl]) fun h => hd h.1⟩
  · exact return_flow h hcl
  · rw [wp_ite, wp_ite]
    exact ⟨fun hj => proceedIndirect_flow h (by simp [hcl]) fun h => h.2 hj,
      fun hj => ⟨fun _ => ⟨rfl, rfl⟩, fun hd => proceedIndirect_flow h (by simp [hcl]) fun h => hd h.1⟩⟩
  · rw [wp_bind]
    refine wp_cond (fun e => ⟨rfl, rfl⟩) fun b e e' hs hit => ?_
    rw [wp_modify]
    refine cond_flow h hcl hs hit ?_
    rcases b with _ | _
    · simpa using addr_fall i
    · simpa using addr_target i i.ext.displacement
  · exact far (by simp [hcl])
  · exact far (by simp [hcl])
  · exact far (by simp [hcl])
  · exact far (by simp [hcl])

end Ipt
