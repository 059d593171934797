import Verif.EventDecoderTick
import Verif.EventDecoderInv7

/-! Helper lemmas: TNT events hold at least one and at most 47 outcomes. -/

namespace Ipt

open Spec

variable {c : EvtCfg} {t : Bool} {s : Evd} {l : List (Event × Nat)}

theorem PktOk.tnt {p : Packet} (h : PktOk c p) : TntOk p := by
  rcases h.range with h | h | h
  · rw [h]; trivial
  · rw [h]; trivial
  · cases p <;> first | trivial | exact ⟨h.1, by have := h.2.1; omega, h.2.2⟩

theorem fetchEventLoop_tnt (hc : c.time.Sane) : ∀ (n : Nat) (s : Evd) (l : List (Event × Nat)),
    (Norm c t s l ∨ Hdr c t s l) → s.event = none →
    EM.wlp (fetchEventLoop c n) (fun _ s' => GoodEvent True s') (fun _ _ => True) s := by
  intro n
  induction n with
  | zero => intro s l _ _; exact wlp_Un
  | succ n ih =>
    intro s l h he
    unfold fetchEventLoop
    rw [EM.wlp_bind]
    have hk : PktOk c s.packet := by rcases h with h | h <;> exact h.pk
    refine EM.wlp_mono (EM.wlp_and (decodePacket_inv hc h he) (decodePacket_del (k := True) c fun _ => hk.tnt)) ?_
      (fun _ _ _ => trivial)
    intro b s' ⟨hb, hd⟩
    cases b with
    | false => rw [if_neg (by simp)]; exact (EM.wlp_pure _ _ _ _).2 (hd rfl)
    | true =>
      obtain ⟨l', h1, h2, h3⟩ := hb
      rw [if_pos rfl, EM.wlp_bind, EM.wlp_get]
      rw [if_neg (by rw [h3]; simp), EM.wlp_bind, EM.wlp_modify, EM.wlp_bind]
      refine wlp_fetch (s := { s' with bound := false }) h1.st fun pd p size st a1 a2 _ => ?_
      refine ih _ l' (.inl ⟨h1.holds, h1.typ, fun _ => h2, h1.en, a2, h1.tm, a1, fun hb => ?_⟩) h3
      cases hb

theorem evtNext_tnt (hc : c.time.Sane) (h : Inv c t s) (he : s.event = none) :
    EM.wlp (evtNext c) (fun e _ => Fine True e.data) (fun _ _ => True) s := by
  obtain ⟨l, h⟩ := h
  unfold evtNext
  rw [EM.wlp_bind]
  refine EM.wlp_mono (fetchEventLoop_tnt hc _ s l h he) ?_ (fun _ _ h => h)
  intro _ s' ⟨p, h1, h2⟩
  rw [EM.wlp_bind, EM.wlp_get, EM.wlp_bind, EM.wlp_modify, h1]
  exact (EM.wlp_pure _ _ _ _).2 h2

end Ipt
