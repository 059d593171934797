import Verif.Basic

/-!
# The event queue: libipt/src/pt_event_queue.c

Pointers to queue entries are modelled as slot numbers.  The model is polymorphic in the type
of events; the default element is the zeroed event.
-/

namespace Ipt

/-- `struct pt_event_queue`, libipt/internal/include/pt_event_queue.h:60-72: a ring of
`evq_max` = 16 entries (event, binding) and a standalone event. -/
structure Evq (α : Type) [Inhabited α] where
  queue : List (α × Nat) := List.replicate 16 (default, 0)
  begin : Nat := 0
  end_ : Nat := 0
  standalone : α := default

variable {α : Type} [Inhabited α]

/-- libipt/src/pt_event_queue.c:35-41 `pt_evq_inc`. -/
def evqInc (i : Nat) : Nat := (i + 1) % 256 % 16

/-- libipt/src/pt_event_queue.c:43-49 `pt_evq_dec`, on `uint8_t`. -/
def evqDec (i : Nat) : Nat := (i + 255) % 256 % 16

/-- `&evq->queue[i]`: the entry in slot `i`.  Every use below has checked `i < 16`. -/
def Evq.entry (q : Evq α) (i : Nat) : α × Nat := q.queue.getD i (default, 0)

/-- The event that the pointer to slot `i` points to. -/
def Evq.get (q : Evq α) (i : Nat) : α := (q.entry i).1

/-- Store to the event that the pointer to slot `i` points to. -/
def Evq.put (q : Evq α) (i : Nat) (ev : α) : Evq α :=
  { q with queue := q.queue.set i (ev, (q.entry i).2) }

/-- libipt/src/pt_event_queue.c:75-104 `pt_evq_enqueue`; `none` is NULL. -/
def Evq.enqueue (q : Evq α) (evb : Nat) : Evq α × Option Nat :=
  if 16 ≤ q.begin then (q, none)
  else if 16 ≤ q.end_ then (q, none)
  else
    let e := evqInc q.end_
    let gap := evqInc e
    if q.begin = gap then (q, none)
    else ({ q with end_ := e, queue := q.queue.set q.end_ (default, evb) }, some q.end_)

/-- libipt/src/pt_event_queue.c:138-147: the first loop of `pt_evq_dequeue`. -/
def Evq.findSlot (q : Evq α) (evb : Nat) : Nat → Nat → Option Nat
  | 0, _ => none
  | fuel + 1, i =>
    let i := evqInc i
    if i = q.end_ then none
    else if (q.entry i).2 &&& evb ≠ 0 then some i
    else q.findSlot evb fuel i

/-- libipt/src/pt_event_queue.c:153-163: the second loop of `pt_evq_dequeue`: move the
preceding entries down.  Returns the queue and the final `idx`. -/
def Evq.shiftDown (begin : Nat) : Nat → List (α × Nat) → Nat → List (α × Nat) × Nat
  | 0, l, i => (l, i)
  | fuel + 1, l, i =>
    let prev := evqDec i
    let l := l.set i (l.getD prev (default, 0))
    if prev = begin then (l, i) else Evq.shiftDown begin fuel l prev

/-- libipt/src/pt_event_queue.c:106-172 `pt_evq_dequeue`; `none` is NULL. -/
def Evq.dequeue (q : Evq α) (evb : Nat) : Evq α × Option Nat :=
  if 16 ≤ q.begin then (q, none)
  else if 16 ≤ q.end_ then (q, none)
  else if q.begin = q.end_ then (q, none)
  else if (q.entry q.begin).2 &&& evb ≠ 0 then
    ({ q with begin := evqInc q.begin }, some q.begin)
  else
    match q.findSlot evb 16 q.begin with
    | none => (q, none)
    | some i =>
      let ent := q.entry i
      let (l, idx) := Evq.shiftDown q.begin 16 q.queue i
      ({ q with begin := idx, queue := l.set q.begin ent }, some q.begin)

/-- libipt/src/pt_event_queue.c:174-188 `pt_evq_requeue`. -/
def Evq.requeue (q : Evq α) (ev : α) (evb : Nat) : Evq α × Option Nat :=
  match q.enqueue evb with
  | (q, none) => (q, none)
  | (q, some i) => (q.put i ev, some i)

/-- libipt/src/pt_event_queue.c:190-199 `pt_evq_clear`. -/
def Evq.clear (q : Evq α) : Evq α := { q with begin := 0, end_ := 0 }

/-- The loops of `pt_evq_empty`, `pt_evq_find` and `pt_evq_peek`,
libipt/src/pt_event_queue.c:216-219, 252-264 and 286-294: the first entry with a matching
binding that satisfies `p`. -/
def Evq.scan (q : Evq α) (evb : Nat) (p : α → Bool) : Nat → Nat → Option Nat
  | 0, _ => none
  | fuel + 1, i =>
    if i = q.end_ then none
    else if (q.entry i).2 &&& evb ≠ 0 ∧ p (q.entry i).1 = true then some i
    else q.scan evb p fuel (evqInc i)

/-- libipt/src/pt_event_queue.c:267-297 `pt_evq_peek`. -/
def Evq.peek (q : Evq α) (evb : Nat) : Option Nat :=
  if 16 ≤ q.begin then none
  else if 16 ≤ q.end_ then none
  else q.scan evb (fun _ => true) 16 q.begin

/-- libipt/src/pt_event_queue.c:233-265 `pt_evq_find`. -/
def Evq.find (q : Evq α) (evb : Nat) (p : α → Bool) : Option Nat :=
  if 16 ≤ q.begin then none
  else if 16 ≤ q.end_ then none
  else q.scan evb p 16 q.begin

/-- libipt/src/pt_event_queue.c:201-231 `pt_evq_empty` and `pt_evq_pending`: is there a pending
event for the binding? -/
def Evq.pending (q : Evq α) (evb : Nat) : Res Bool :=
  if 16 ≤ q.begin then .err .internal
  else if 16 ≤ q.end_ then .err .internal
  else .ok (q.scan evb (fun _ => true) 16 q.begin).isSome

end Ipt
