import Verif.Spec.UserStruct

/-!
# Helper lemmas: structures of the user
-/

namespace Ipt

open Spec

variable {σ α β : Type} {size : Nat} {b : Buf} {st : List UInt8}

theorem store_all (h : b.length = st.length) : b.store 0 st = .ok st := by
  unfold Buf.store
  rw [if_pos (by omega)]
  simp [h]

theorem fitted_length (size : Nat) (st : List UInt8) : (fitted size st).length = size := by
  unfold fitted; simp; omega

theorem overlaid_length (old st : List UInt8) : (overlaid old st).length = old.length := by
  unfold overlaid; simp; omega

theorem fitted_same (h : st.length = size) : fitted size st = st := by
  unfold fitted; subst h; simp

theorem cutToUser_eq (h : b.length = size) : cutToUser b size st = .ok (overlaid b st) := by
  unfold cutToUser copyStruct Buf.store overlaid
  split
  · rename_i hs
    rw [if_pos (Nat.le_refl _), if_pos (by simp; omega)]
    simp [List.take_of_length_le (show st.length ≤ b.length by omega)]
  · rename_i hs
    rw [if_pos (by omega), if_pos (by simp; omega)]
    have : b.drop st.length = [] := by simp; omega
    simp [this, h, Nat.min_eq_left (show size ≤ st.length by omega)]

theorem toUser_eq (h : b.length = size) : toUser b size st = .ok (fitted size st) := by
  unfold toUser
  split
  · rename_i hs
    unfold Buf.store
    rw [if_pos (by simp; omega), Res.bind_ok]
    unfold copyStruct Buf.store
    rw [if_pos (Nat.le_refl _), if_pos (by simp; omega)]
    unfold fitted
    rw [List.take_of_length_le (show st.length ≤ size by omega)]
    have e1 : List.drop (st.length + (size - st.length)) b = [] := by simp; omega
    simp [e1, Nat.min_eq_left (show st.length ≤ b.length by omega)]
  · rename_i hs
    unfold copyStruct Buf.store
    rw [if_pos (by omega), if_pos (by simp; omega)]
    unfold fitted
    have e2 : size - st.length = 0 := by omega
    simp [e2, Nat.min_eq_left (show size ≤ st.length by omega)]
    omega

theorem fresh_length {α : Type} (l : Layout α) (a : α) : (l.fresh a).length = l.size := l.len _ _ (by simp)

theorem write_ok {s : σ} {b b' : Buf} {f : Buf → Res Buf} (h : f b = .ok b') : UM.write f (s, b) = ((s, b'), .ok ()) := by
  unfold UM.write; simp [h]

theorem put_eq {s : σ} {n : Nat} (h : b.length = size) (hs : st.length = n) :
    (UM.put n size st : UM σ Unit) (s, b) =
      ((s, fitted size st), .ok ()) := by
  unfold UM.put
  split
  · rename_i hn
    rw [fitted_same (by omega)]
    exact write_ok (store_all (by omega))
  · exact write_ok (toUser_eq h)

theorem um_bind (m : UM σ α) (f : α → UM σ β) (s : σ × Buf) :
    (m >>= f) s = match m s with
      | (s', .ok a) => f a s'
      | (s', .err e) => (s', .err e)
      | (s', .ub) => (s', .ub) := rfl

theorem um_call (m : σ → σ × Res α) (f : α → UM σ β) (s : σ) (b : Buf) :
    (UM.call m >>= f) (s, b) = match m s with
      | (s', .ok a) => f a (s', b)
      | (s', .err e) => ((s', b), .err e)
      | (s', .ub) => ((s', b), .ub) := by
  rw [um_bind]
  unfold UM.call
  rcases m s with ⟨s', _ | _ | _⟩ <;> rfl

theorem um_write {f : Buf → Res Buf} {b' : Buf} (h : f b = .ok b') (g : Unit → UM σ β) (s : σ) :
    (UM.write f >>= g) (s, b) = g () (s, b') := by
  rw [um_bind, write_ok h]

theorem um_store (h : b.length = st.length) (g : Unit → UM σ β) (s : σ) :
    (UM.write (fun b => b.store 0 st) >>= g) (s, b) = g () (s, st) :=
  um_write (f := fun b => b.store 0 st) (store_all h) g s

theorem um_user (h : b.length = size) (g : Unit → UM σ β) (s : σ) :
    (UM.write (fun b => toUser b size st) >>= g) (s, b) = g () (s, fitted size st) :=
  um_write (f := fun b => toUser b size st) (toUser_eq h) g s

theorem um_cut (h : b.length = size) (g : Unit → UM σ β) (s : σ) :
    (UM.write (fun b => cutToUser b size st) >>= g) (s, b) = g () (s, overlaid b st) :=
  um_write (f := fun b => cutToUser b size st) (cutToUser_eq h) g s

theorem um_put {n : Nat} (h : b.length = size) (hs : st.length = n) (g : Unit → UM σ β) (s : σ) :
    (UM.put n size st >>= g) (s, b) =
      g () (s, fitted size st) := by
  rw [um_bind, put_eq h hs]

theorem um_get (f : σ → UM σ β) (s : σ) (b : Buf) : (UM.get >>= f) (s, b) = f s (s, b) := rfl

theorem call_eq (m : σ → σ × Res α) (s : σ) (b : Buf) : UM.call m (s, b) = (((m s).1, b), (m s).2) := rfl

theorem um_evt (m : EM α) (f : α → UM Evd β) (s : Evd) (b : Buf) :
    (UM.evt m >>= f) (s, b) = match m s with
      | (s', .ok a) => f a (s', b)
      | (s', .err e) => ((s', b), .err e)
      | (s', .ub) => ((s', b), .ub) := by
  rw [um_bind]
  unfold UM.evt UM.call
  rcases m s with ⟨s', _ | _ | _⟩ <;> rfl

theorem um_qry (m : QM α) (f : α → UM Qdec β) (s : Qdec) (b : Buf) :
    (UM.qry m >>= f) (s, b) = match m s with
      | (s', .ok a) => f a (s', b)
      | (s', .err e) => ((s', b), .err e)
      | (s', .ub) => ((s', b), .ub) := by
  rw [um_bind]
  unfold UM.qry UM.call
  rcases m s with ⟨s', _ | _ | _⟩ <;> rfl

theorem um_insn (m : IM α) (f : α → UM Idec β) (s : Idec) (b : Buf) :
    (UM.insn m >>= f) (s, b) = match m s with
      | (s', .ok a) => f a (s', b)
      | (s', .err e) => ((s', b), .err e)
      | (s', .ub) => ((s', b), .ub) := by
  rw [um_bind]
  unfold UM.insn UM.call
  rcases m s with ⟨s', _ | _ | _⟩ <;> rfl

theorem um_blk (m : BM α) (f : α → UM Bdec β) (s : Bdec) (b : Buf) :
    (UM.blk m >>= f) (s, b) = match m s with
      | (s', .ok a) => f a (s', b)
      | (s', .err e) => ((s', b), .err e)
      | (s', .ub) => ((s', b), .ub) := by
  rw [um_bind]
  unfold UM.blk UM.call
  rcases m s with ⟨s', _ | _ | _⟩ <;> rfl

theorem insn_eq (m : IM α) (s : Idec) (b : Buf) : UM.insn m (s, b) = (((m s).1, b), (m s).2) := rfl

theorem blk_eq (m : BM α) (s : Bdec) (b : Buf) : UM.blk m (s, b) = (((m s).1, b), (m s).2) := rfl

theorem im_bind {α β : Type} (m : IM α) (f : α → IM β) (s : Idec) :
    (m >>= f) s = match m s with
      | (s', .ok a) => f a s'
      | (s', .err e) => (s', .err e)
      | (s', .ub) => (s', .ub) := rfl

theorem bm_bind {α β : Type} (m : BM α) (f : α → BM β) (s : Bdec) :
    (m >>= f) s = match m s with
      | (s', .ok a) => f a s'
      | (s', .err e) => (s', .err e)
      | (s', .ub) => (s', .ub) := rfl

/-- The results agree. -/
def Fetched (r : Idec × Res Insn) (b : Buf) (u : (Idec × Buf) × Res (Option Insn × Option Err)) : Prop :=
  u.1 = (r.1, b) ∧
    match r.2 with
    | .ok i => u.2 = .ok (some i, none)
    | .err e => u.2 = .ok (none, some e) ∨ u.2 = .err e
    | .ub => u.2 = .ub

theorem fetched_try (m : IM Insn) (s : Idec) (b : Buf) : Fetched (m s) b (UM.insn (IM.try_ m) (s, b)) := by
  rw [insn_eq]
  unfold IM.try_ Fetched
  rcases m s with ⟨s', _ | _ | _⟩
  · exact ⟨rfl, rfl⟩
  · exact ⟨rfl, Or.inl rfl⟩
  · exact ⟨rfl, rfl⟩

theorem fetchUser_eq (c : InsnCfg) (s : Idec) (b : Buf) : Fetched (fetchInsn c s) b (fetchUser c s (s, b)) := by
  unfold fetchUser fetchInsn
  rw [um_insn, im_bind]
  dsimp only [IM.mapped]
  rw [um_insn, im_bind]
  dsimp only [IM.mapped]
  rw [im_bind]
  dsimp only [IM.get]
  generalize s.maps.headD (.ok ()) = u
  generalize s.maps.tail.headD (.ok ()) = m
  rw [um_insn, im_bind]
  unfold IM.try_
  rcases (IM.cache fun sc => msecLookup sc u m s.ip) { s with maps := s.maps.tail.tail } with ⟨t, ms | e | _⟩
  · exact fetched_try _ _ _
  · dsimp only
    by_cases he : e ≠ .nomap
    · rw [if_pos he, if_pos he]
      exact ⟨rfl, Or.inr rfl⟩
    · rw [if_neg he, if_neg he]
      exact fetched_try _ _ _
  · exact ⟨rfl, rfl⟩

/-- Events other than TNT. -/
def blkOther (c : BlkCfg) (ev : Event) (s : Bdec) : Bdec × Res EventOut := (do
  blkProcessEvent ev
  fetchEvent c
  let f ← trailingEvent c false c.evt.fuel
  pure (⟨ev, blkResumed s ev, f⟩ : EventOut) : BM EventOut) s

theorem blkTick_eq (l : Layout (Event × Bool)) (c : BlkCfg) (hb : b.length = size) (ev : Event) (n : Nat) (s : Bdec) :
    ∃ b', b'.length = size ∧ blkTickUser l c size ev n (s, b) =
        (((blkTickEvent c ev n s).1, b'), only EventOut.flags (blkTickEvent c ev n s).2) ∧
      ∀ a, (blkTickEvent c ev n s).2 = .ok a → b' = overlaid b (l.fresh (a.event, a.resumed)) := by
  unfold blkTickUser blkTickEvent
  rw [um_get, bm_bind]
  dsimp only [BM.get]
  by_cases h1 : c.tick = false
  · rw [if_pos h1, if_pos h1]
    exact ⟨b, hb, rfl, by rintro _ ⟨⟩⟩
  rw [if_neg h1, if_neg h1]
  by_cases h2 : ev.hasTsc = false ∨ ev.tsc = s.tsc
  · rw [if_pos h2, if_pos h2]
    exact ⟨b, hb, rfl, by rintro _ ⟨⟩⟩
  rw [if_neg h2, if_neg h2, um_blk, bm_bind]
  dsimp only [BM.modify]
  rw [um_cut hb, um_blk, bm_bind]
  refine ⟨overlaid b (l.fresh ({ data := .tick s.ip, hasTsc := true, tsc := ev.tsc, lostMtc := ev.lostMtc, lostCyc := ev.lostCyc }, false)),
    (overlaid_length _ _).trans hb, ?_⟩
  rcases BM.when (n == 0) (fetchEvent c) { s with hasTsc := true, tsc := ev.tsc, lostMtc := ev.lostMtc, lostCyc := ev.lostCyc } with
    ⟨t, _ | x | _⟩
  · dsimp only
    rw [blk_eq, bm_bind]
    rcases trailingEvent c false c.evt.fuel t with ⟨t, f | x | _⟩
    · exact ⟨rfl, by rintro _ ⟨⟩; rfl⟩
    · exact ⟨rfl, by rintro _ ⟨⟩⟩
    · exact ⟨rfl, by rintro _ ⟨⟩⟩
  · exact ⟨rfl, by rintro _ ⟨⟩⟩
  · exact ⟨rfl, by rintro _ ⟨⟩⟩

end Ipt
