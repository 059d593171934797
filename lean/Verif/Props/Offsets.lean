import Verif.Props.Sync
import Verif.PacketDispatch

/-!
# The offsets the packet decoder reports (C08)
-/

namespace Ipt.Spec

/-- The calls to the packet decoder that can move it. -/
inductive PktCall
  | next
  | forward
  | backward
  | set (offset : Nat)
deriving DecidableEq, Repr

/-- What the user saw: the size of a packet, a successful synchronization, or an error. -/
inductive PktSeen
  | packet (size : Nat)
  | synced
  | failed
deriving DecidableEq, Repr

/-- The bytes of the packets read since the last successful synchronization, newest call first. -/
def readSince : List PktSeen → Nat
  | .packet n :: t => n + readSince t
  | .failed :: t => readSince t
  | _ => 0

end Ipt.Spec

namespace Ipt
open Spec

/-- Perform a call. -/
def pktCall (c : PktCfg) (base : Nat) (d : PktDec) : PktCall → PktDec × PktSeen
  | .next => match pktDecNext c d with
    | (d, .ok (_, n)) => (d, .packet n)
    | (d, _) => (d, .failed)
  | .forward => match pktSyncForward c base d with
    | (d, .ok ()) => (d, .synced)
    | (d, _) => (d, .failed)
  | .backward => match pktSyncBackward c base d with
    | (d, .ok ()) => (d, .synced)
    | (d, _) => (d, .failed)
  | .set o => match pktSyncSet c d o with
    | (d, .ok ()) => (d, .synced)
    | (d, _) => (d, .failed)

/-- Perform calls on a new decoder; newest first. -/
def pktCalls (c : PktCfg) (base : Nat) : List PktCall → PktDec × List PktSeen
  | [] => ({}, [])
  | k :: ks =>
    let r := pktCalls c base ks
    ((pktCall c base r.1 k).1, (pktCall c base r.1 k).2 :: r.2)

theorem pktDecNext_moves {c : PktCfg} {d d' : PktDec} {p : Packet} {n : Nat} (he : c.errata.skd007 = false)
    (h : pktDecNext c d = (d', .ok (p, n))) : ∃ o, d.pos = some o ∧ d' = { d with pos := some (o + n) } := by
  unfold pktDecNext at h
  cases hn : pktNext c d.pos with
  | ub => rw [hn] at h; cases h
  | err e => rw [hn] at h; cases h
  | ok r =>
    obtain ⟨p', n', pos'⟩ := r
    rw [hn] at h
    simp only [Prod.mk.injEq, Res.ok.injEq] at h
    obtain ⟨rfl, rfl, rfl⟩ := h
    cases hp : d.pos with
    | none => rw [hp] at hn; cases hn
    | some o =>
      rw [hp] at hn
      simp only [pktNext] at hn
      obtain ⟨⟨r, s, k⟩, hr, hn⟩ := Res.bind_eq_ok.1 hn
      simp only [Res.pure_eq, Res.ok.injEq, Prod.mk.injEq] at hn
      obtain ⟨rfl, rfl, rfl⟩ := hn
      refine ⟨o, rfl, ?_⟩
      have hk : k = 0 := by
        rcases (pktDecode_size hr).2.2.2 with h | h | h
        · exact h.1
        · exact h.1
        · rw [he] at h; exact absurd h.2.1 (by simp)
      subst hk
      rfl

theorem pktDecNext_failed {c : PktCfg} {d : PktDec} (h : ∀ p n, (pktDecNext c d).2 ≠ .ok (p, n)) :
    (pktDecNext c d).1 = d := by
  unfold pktDecNext at h ⊢
  cases hn : pktNext c d.pos with
  | ub => rfl
  | err e => rfl
  | ok r => obtain ⟨p', n', pos'⟩ := r; rw [hn] at h; exact absurd rfl (h p' n')

end Ipt

namespace Ipt.Props
open Ipt Spec

/-- C08, what `pt_pkt_get_offset` and `pt_pkt_get_sync_offset` say after any sequence of calls: before the first successful
synchronization, that the decoder is not synchronized; from then on, the synchronization offset is where the decoder was after the
last successful synchronization, and the offset is the bytes of the packets that were read since behind it.  (Under SKD007 one more
byte is skipped at some OVF packets.) -/
theorem C08_offsets (c : PktCfg) (base : Nat) (he : c.errata.skd007 = false) (ks : List PktCall) :
    (.synced ∉ (pktCalls c base ks).2 →
      pktGetOffset (pktCalls c base ks).1 = .err .nosync ∧ pktGetSyncOffset (pktCalls c base ks).1 = .err .nosync) ∧
    (.synced ∈ (pktCalls c base ks).2 → ∃ q, pktGetSyncOffset (pktCalls c base ks).1 = .ok q ∧
      pktGetOffset (pktCalls c base ks).1 = .ok (q + readSince (pktCalls c base ks).2)) ∧
    (∀ k kt, ks = k :: kt → (pktCalls c base ks).2.head? = some .synced →
      ∃ q, pktGetSyncOffset (pktCalls c base ks).1 = .ok q ∧ (∀ o, k = .set o → q = o) ∧
        (k = .forward ∨ k = .backward → IsPsb c.mem q)) := by
  have key : (.synced ∉ (pktCalls c base ks).2 → (pktCalls c base ks).1 = {}) ∧
      (.synced ∈ (pktCalls c base ks).2 →
        ∃ q, (pktCalls c base ks).1 = { pos := some (q + readSince (pktCalls c base ks).2), sync := some q }) ∧
      (∀ k kt, ks = k :: kt → (pktCalls c base ks).2.head? = some .synced →
      ∃ q, (pktCalls c base ks).1.sync = some q ∧ (∀ o, k = .set o → q = o) ∧
        (k = .forward ∨ k = .backward → IsPsb c.mem q)) := by
    induction ks with
    | nil => exact ⟨fun _ => rfl, fun h => absurd h (by simp [pktCalls]), fun k kt h => by cases h⟩
    | cons k ks ih =>
      obtain ⟨ih1, ih2, -⟩ := ih
      simp only [pktCalls]
      revert ih1 ih2
      generalize (pktCalls c base ks).1 = d
      generalize (pktCalls c base ks).2 = l
      intro ih1 ih2
      have hfail : ∀ x : PktDec × PktSeen, x = (d, .failed) →
          (.synced ∉ x.2 :: l → x.1 = {}) ∧
          (.synced ∈ x.2 :: l → ∃ q, x.1 = { pos := some (q + readSince (x.2 :: l)), sync := some q }) ∧
          (∀ k' kt, k :: ks = k' :: kt → (x.2 :: l).head? = some .synced →
            ∃ q, x.1.sync = some q ∧ (∀ o, k' = .set o → q = o) ∧ (k' = .forward ∨ k' = .backward → IsPsb c.mem q)) := by
        rintro _ rfl
        exact ⟨fun h => ih1 (by simpa using h), fun h => ih2 (by simpa using h), fun _ _ _ h => by simp at h⟩
      have hsync : ∀ (x : PktDec × PktSeen) q, x = ({ pos := some q, sync := some q }, .synced) →
          (∀ o, k = .set o → q = o) → (k = .forward ∨ k = .backward → IsPsb c.mem q) →
          (.synced ∉ x.2 :: l → x.1 = {}) ∧
          (.synced ∈ x.2 :: l → ∃ q, x.1 = { pos := some (q + readSince (x.2 :: l)), sync := some q }) ∧
          (∀ k' kt, k :: ks = k' :: kt → (x.2 :: l).head? = some .synced →
            ∃ q, x.1.sync = some q ∧ (∀ o, k' = .set o → q = o) ∧ (k' = .forward ∨ k' = .backward → IsPsb c.mem q)) := by
        rintro _ q rfl h1 h2
        refine ⟨fun h => absurd h (by simp), fun _ => ⟨q, rfl⟩, ?_⟩
        intro k' kt hk _
        simp only [List.cons.injEq] at hk
        obtain ⟨rfl, rfl⟩ := hk
        exact ⟨q, rfl, h1, h2⟩
      cases k with
      | next =>
        cases hn : pktDecNext c d with
        | mk d' r =>
          cases r with
          | ok r =>
            obtain ⟨p, n⟩ := r
            obtain ⟨o, ho, hd⟩ := pktDecNext_moves he hn
            simp only [pktCall, hn]
            refine ⟨fun h => ?_, fun h => ?_, fun _ _ _ h => by simp at h⟩
            · rw [ih1 (by simpa using h)] at ho; cases ho
            · obtain ⟨q, hq⟩ := ih2 (by simpa using h)
              rw [hd, hq]
              rw [hq] at ho
              simp only [Option.some.injEq] at ho
              exact ⟨q, by simp only [readSince, ← ho]; rw [Nat.add_assoc, Nat.add_comm n]⟩
          | err e =>
            have := pktDecNext_failed (c := c) (d := d) (by rw [hn]; intro p n h; cases h)
            rw [hn] at this
            apply hfail; simp only [pktCall, hn]; rw [← this]
          | ub =>
            have := pktDecNext_failed (c := c) (d := d) (by rw [hn]; intro p n h; cases h)
            rw [hn] at this
            apply hfail; simp only [pktCall, hn]; rw [← this]
      | forward =>
        unfold pktCall pktSyncForward
        dsimp only
        cases hs : syncForward c.mem base (((if d.sync = some (d.pos.getD 0) then d.pos.getD 0 + 16 else d.pos.getD 0)) -
            (if 16 ≤ (if d.sync = some (d.pos.getD 0) then d.pos.getD 0 + 16 else d.pos.getD 0) then 16 - 1
              else (if d.sync = some (d.pos.getD 0) then d.pos.getD 0 + 16 else d.pos.getD 0))) with
        | ok q => exact hsync _ q rfl (by simp) (fun _ => (C08_sync_forward_sound _ _ _ _ hs).2.2.1)
        | err e => exact hfail _ rfl
        | ub => exact hfail _ rfl
      | backward =>
        unfold pktCall pktSyncBackward
        dsimp only
        cases hs : syncBackward c.mem base (d.pos.getD c.mem.length) with
        | ok q => exact hsync _ q rfl (by simp) (fun _ => (C09_sync_backward_sound _ _ _ _ hs).1)
        | err e => exact hfail _ rfl
        | ub => exact hfail _ rfl
      | set o =>
        unfold pktCall pktSyncSet
        dsimp only
        by_cases hl : c.mem.length < o
        · rw [if_pos hl]; exact hfail _ rfl
        · rw [if_neg hl]; exact hsync _ o rfl (by simp) (by simp)
  obtain ⟨k1, k2, k3⟩ := key
  refine ⟨fun h => ?_, fun h => ?_, fun k kt h1 h2 => ?_⟩
  · rw [k1 h]; exact ⟨rfl, rfl⟩
  · obtain ⟨q, hq⟩ := k2 h
    rw [hq]
    exact ⟨q, rfl, rfl⟩
  · obtain ⟨q, hq, h3⟩ := k3 k kt h1 h2
    exact ⟨q, by simp only [pktGetSyncOffset, hq], h3⟩

/-- A PSB at offset 3, a PSBEND and a PAD are read; then the end of the trace is reached. -/
example : (pktCalls { mem := somePsb } 5 [.next, .next, .next, .next, .forward, .next]).2 =
      [.failed, .packet 1, .packet 2, .packet 16, .synced, .failed] ∧
    pktGetOffset (pktCalls { mem := somePsb } 5 [.next, .next, .next, .next, .forward, .next]).1 = .ok 22 ∧
    pktGetSyncOffset (pktCalls { mem := somePsb } 5 [.next, .next, .next, .next, .forward, .next]).1 = .ok 3 := by
  decide +kernel

end Ipt.Props
