import Verif.SbPevent
import Verif.PeventRead
import Verif.Spec.Pevent

/-! # Lemmas: the current record of a perf event sideband decoder -/

namespace Ipt

open Spec

variable {c : PevConfig} {mem : List UInt8}

/-- Where the parts of a record are. -/
structure Shape (mem : List UInt8) (e : PevEvent) (n : Nat) : Prop where
  size : 8 ≤ n ∧ n ≤ mem.length
  plain : pevRecord e.type = none → e.record = none ∧ e.sample = {}
  record : ∀ k str, pevRecord e.type = some (k, str) → e.record = (if k = 0 then none else some 8) ∧ 8 + k ≤ n ∧
    (str = true → 0 ∈ mem.drop (8 + k))
  pid : ∀ p, e.sample.pid = some p → p + 4 ≤ n
  tid : ∀ p, e.sample.tid = some p → p + 4 ≤ n
  time : ∀ p, e.sample.time = some p → p + 8 ≤ n
  id : ∀ p, e.sample.id = some p → p + 8 ≤ n
  cpu : ∀ p, e.sample.cpu = some p → p + 4 ≤ n
  streamId : ∀ p, e.sample.streamId = some p → p + 8 ≤ n
  identifier : ∀ p, e.sample.identifier = some p → p + 8 ≤ n

theorem read_shape {ev : PevEvent} {n : Nat} (h : pevRead c mem = .ok (ev, n)) : Shape mem ev n := by
  unfold pevRead at h
  split at h
  · cases h
  rename_i h1
  have hsi := value_lt (mem := mem) (p := 6) (n := 2) (by omega)
  rw [rdLE_value (by omega), rdLE_value (by omega), rdLE_value (by omega)] at h
  simp only [Res.bind_ok] at h
  generalize leValue (sliceAt mem 6 2) = size at *
  generalize leValue (sliceAt mem 0 4) = type at *
  generalize leValue (sliceAt mem 4 2) = misc at *
  split at h
  · cases h
  split at h
  · cases h
  rename_i h2 h3
  rcases hr : pevRecord type with _ | ⟨k, str⟩ <;> rw [hr] at h
  · cases h
    refine ⟨by omega, fun _ => ⟨rfl, rfl⟩, fun k str h => ?_, ?_, ?_, ?_, ?_, ?_, ?_, ?_⟩
    · rw [hr] at h; cases h
    all_goals intro p hp; cases hp
  dsimp only at h
  obtain ⟨pos, hpos, h⟩ := Res.bind_eq_ok.1 h
  obtain ⟨⟨smp, e⟩, hs, h⟩ := Res.bind_eq_ok.1 h
  simp only at h
  split at h
  · cases h
  rename_i h4
  injection h with h
  injection h with hev hn
  subst hn
  have hf : k ≤ 64 := by
    unfold pevRecord at hr
    split at hr <;> cases hr <;> decide
  have hstr : pos ≤ size + 7 + 72 ∧ 8 + k ≤ pos ∧ (str = true → 0 ∈ mem.drop (8 + k)) := by
    unfold pevSkip at hpos
    split at hpos
    · rename_i hst
      obtain ⟨slen, hsl, hpos⟩ := Res.bind_eq_ok.1 hpos
      cases hpos
      unfold pevStrlen at hsl
      split at hsl
      · cases hsl
      rename_i hle
      obtain ⟨s, a1, a2, a3, a4, a5⟩ := strlen_ok _ _ _ (by omega) hsl
      refine ⟨by omega, by omega, fun _ => ?_⟩
      have := a4.eq
      have hm : (0 : UInt8) ∈ sliceAt mem (8 + k) (s ++ [0]).length := by rw [this]; simp
      exact List.mem_of_mem_take hm
    · rename_i hst
      cases hpos
      exact ⟨by omega, by omega, fun h => absurd h hst⟩
  obtain ⟨b1, b2, b3⟩ := hstr
  obtain ⟨s, e', hl, he⟩ := readSamples_eq (c := c) (mem := mem) (b := pos) (e := size)
  rw [he] at hs
  obtain ⟨t, ht, hs⟩ := Res.bind_eq_ok.1 hs
  obtain ⟨tsc, htsc, hs⟩ := Res.bind_eq_ok.1 hs
  injection hs with hs
  injection hs with hs1 hs2
  have hl := hl t
  rw [hs2] at hl
  obtain ⟨c1, c2, c3⟩ := laid_le hl
  have hes : e = size := by omega
  subst hes
  obtain ⟨p1, p2, p3, p4, p5, e1, x1, e2, x2, e3, x3, e4, x4, e5, x5, e6⟩ := hl.rest
  have d1 := ite_le e1
  have d2 := ite_le e2
  have d3 := ite_le e3
  have d4 := ite_le e4
  have d5 := ite_le e5
  have d6 := ite_le e6
  subst hev hs1
  refine ⟨⟨by omega, by omega⟩, (fun h => by dsimp only at h; rw [hr] at h; cases h), fun k' str' h => ?_, ?_, ?_, ?_, ?_, ?_, ?_, ?_⟩
  · dsimp only at h
    rw [hr] at h; cases h
    exact ⟨rfl, by omega, b3⟩
  · intro p hp
    dsimp only at hp
    rw [hl.pid] at hp
    split at hp <;> cases hp
    rename_i hb
    have := d1.2.1 hb; omega
  · intro p hp
    dsimp only at hp
    rw [hl.tid] at hp
    split at hp <;> cases hp
    rename_i hb
    have := d1.2.1 hb; omega
  · intro p hp
    have := c3 p hp; omega
  · intro p hp
    dsimp only at hp
    rw [x2] at hp
    split at hp <;> cases hp
    rename_i hb
    have := d3.2.1 hb; omega
  · intro p hp
    dsimp only at hp
    rw [x4] at hp
    split at hp <;> cases hp
    rename_i hb
    have := d5.2.1 hb; omega
  · intro p hp
    dsimp only at hp
    rw [x3] at hp
    split at hp <;> cases hp
    rename_i hb
    have := d4.2.1 hb; omega
  · intro p hp
    dsimp only at hp
    rw [x5] at hp
    split at hp <;> cases hp
    rename_i hb
    have := d6.2.1 hb; omega

/-- The current record with the adjusted time. -/
def adjusted (offset : Nat) (e : PevEvent) : PevEvent :=
  if e.sample.time = none then e else { e with sample := { e.sample with tsc := pevAdjust offset e.sample.tsc } }

/-- The offsets of the records in a file. -/
inductive Boundary (c : PevConfig) (buf : List UInt8) : Nat → Prop
  | start : Boundary c buf 0
  | next {pos : Nat} {e : PevEvent} {n : Nat} (h : Boundary c buf pos) (r : pevRead c (buf.drop pos) = .ok (e, n)) :
      Boundary c buf (pos + n)

/-- The decoder has a current record. -/
structure Active (p : PevPriv) : Prop where
  shift : p.pev.timeShift < 64
  read : ∃ c e n, p.current = some c ∧ Boundary p.pev p.buf c ∧ pevRead p.pev (p.buf.drop c) = .ok (e, n) ∧ p.next = c + n ∧
    p.event = adjusted p.tscOffset e

/-- The decoder has no more records. -/
structure Ended (p : PevPriv) : Prop where
  shift : p.pev.timeShift < 64
  ended : p.current = some p.next

/-- The decoder has not been started. -/
structure PevFresh (p : PevPriv) : Prop where
  shift : p.pev.timeShift < 64
  next : p.next = 0
  context : p.context = none
  nextContext : p.nextContext = none

/-- The bytes that have not been read. -/
def PevPriv.rest (p : PevPriv) : Nat := p.buf.length - p.next

/-- What the current record says. -/
def PevPriv.data (p : PevPriv) : PevData := dataOf p.mem p.event

theorem adjusted_shape {offset : Nat} {e : PevEvent} {n : Nat} (h : Shape mem e n) : Shape mem (adjusted offset e) n := by
  unfold adjusted
  split
  · exact h
  · rename_i ht
    refine ⟨h.size, fun hr => ?_, h.record, h.pid, h.tid, h.time, h.id, h.cpu, h.streamId, h.identifier⟩
    have := (h.plain hr).2
    rw [this] at ht
    exact absurd rfl ht

theorem Active.shape {p : PevPriv} (h : Active p) : ∃ n, Shape p.mem p.event n ∧ p.current ≠ some p.next ∧ p.next ≤ p.buf.length := by
  obtain ⟨c, e, n, hc, -, hr, hn, he⟩ := h.read
  have hs := read_shape hr
  have hm : p.mem = p.buf.drop c := by simp [PevPriv.mem, hc]
  refine ⟨n, ?_, ?_, ?_⟩
  · rw [hm, he]; exact adjusted_shape hs
  · rw [hc, hn]
    have := hs.size.1
    intro h; injection h with h; omega
  · have := hs.size
    rw [List.length_drop] at this
    omega

/-- A field of the record. -/
theorem pevField_eq {p : PevPriv} (h : Active p) {k : Nat} {str : Bool} (hr : pevRecord p.event.type = some (k, str)) {off size : Nat}
    (ho : off + size ≤ k) (hk : 0 < k) : pevField p off size = .ok (leValue (sliceAt p.data.record off size)) := by
  obtain ⟨n, hs, _⟩ := h.shape
  obtain ⟨h1, h2, -⟩ := hs.record k str hr
  have := hs.size
  rw [if_neg (by omega)] at h1
  unfold pevField PevPriv.data dataOf
  rw [h1]
  dsimp only
  rw [rdLE_value (by omega)]
  have hf : ((recordFields p.event.type).getD ([], false)).1.sum = k := by
    rw [record_fields] at hr
    rcases hq : recordFields p.event.type with _ | ⟨f, s⟩ <;> rw [hq] at hr
    · cases hr
    · simp at hr; simp [hr.1]
  rw [hf]
  congr 2
  unfold sliceAt
  rw [List.drop_take, List.drop_drop, List.take_take, Nat.min_eq_left (by omega)]

/-- The string behind the record. -/
theorem pevString_eq {p : PevPriv} (h : Active p) {k : Nat} (hr : pevRecord p.event.type = some (k, true)) (hk : 0 < k) :
    pevString (p.mem.drop (p.event.record.getD 0 + k)) = .ok p.data.string := by
  obtain ⟨n, hs, _⟩ := h.shape
  obtain ⟨h1, h2, h3⟩ := hs.record k true hr
  rw [if_neg (by omega)] at h1
  have hf : ((recordFields p.event.type).getD ([], false)).1.sum = k ∧ ((recordFields p.event.type).getD ([], false)).2 = true := by
    rw [record_fields] at hr
    rcases hq : recordFields p.event.type with _ | ⟨f, s⟩ <;> rw [hq] at hr
    · cases hr
    · simp at hr; simp [hr.1, hr.2]
  unfold pevString PevPriv.data dataOf
  rw [h1] at *
  simp only [Option.getD_some, if_pos (h3 rfl), hf.1, hf.2, if_true]

theorem pevPid_eq {p : PevPriv} (h : Active p) {off : Nat} (hp : p.event.sample.pid = some off) :
    ∃ pid, rdLE p.mem off 4 = .ok pid ∧ p.data.pid = some pid := by
  obtain ⟨n, hs, _⟩ := h.shape
  have := hs.pid off hp
  have := hs.size
  exact ⟨_, rdLE_value (by omega), by simp [PevPriv.data, dataOf, hp]⟩

theorem pevTouch_ok {o : Option Nat} {k n : Nat} (h : ∀ p, o = some p → p + k ≤ n) (hn : n ≤ mem.length) : pevTouch mem o k = .ok () := by
  unfold pevTouch
  rcases o with _ | p
  · rfl
  · have := h p rfl
    simp only
    rw [if_neg (by omega)]

/-- Printing reads nothing outside the record. -/
theorem pevPrint_ok {p : PevPriv} (h : Active p) : pevPrint p = .ok () := by
  obtain ⟨n, hs, _⟩ := h.shape
  obtain ⟨c, e, m, hc, -⟩ := h.read
  have hsz := hs.size
  unfold pevPrint
  rw [hc]
  have h1 : pevPrintEvent p = .ok () := by
    unfold pevPrintEvent
    rcases hr : pevRecord p.event.type with _ | ⟨k, str⟩
    · rfl
    obtain ⟨a1, a2, a3⟩ := hs.record k str hr
    rcases k with _ | k
    · rfl
    rw [a1, if_neg (by omega)]
    show (do
      pevTouch p.mem (some 8) (k + 1)
      if str = true then do
          let _ ← pevString (List.drop (8 + (k + 1)) p.mem)
          Res.ok ()
        else Res.ok ()) = Res.ok ()
    rw [show pevTouch p.mem (some 8) (k + 1) = .ok () from pevTouch_ok (n := n) (fun p hp => by cases hp; omega) (by omega)]
    simp only [Res.bind_ok]
    by_cases hst : str = true
    · rw [if_pos hst]
      unfold pevString
      rw [if_pos (a3 hst)]
      rfl
    · rw [if_neg hst]
  have h2 : pevPrintSamples p = .ok () := by
    unfold pevPrintSamples
    rw [pevTouch_ok hs.pid hsz.2, pevTouch_ok hs.tid hsz.2, pevTouch_ok hs.time hsz.2, pevTouch_ok hs.id hsz.2,
      pevTouch_ok hs.cpu hsz.2, pevTouch_ok hs.streamId hsz.2, pevTouch_ok hs.identifier hsz.2]
    rfl
  dsimp only
  rw [h1]
  simp only [Res.bind_ok, h2]

end Ipt
