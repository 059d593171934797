import Verif.Event

/-!
# Sideband sessions: sideband/src/pt_sb_session.c

A session merges the records of several sideband decoders, one for each sideband channel.  The decoders are callbacks.  Here,
they work on a state `σ` that all of them share - the session's process contexts, the image pointer of the caller, and whatever
a callback can reach - and on their private data `π`.

Simplifications: a missing callback is a callback that gives `badConfig`; callbacks do not call functions that add decoders or
present events to the same session; `malloc` succeeds; the size argument for the user's event is that of the structure.
`log`, which is not in the code, records the calls of callbacks.
-/

namespace Ipt

/-- The callbacks in `struct pt_sb_decoder_config`, sideband/include/libipt-sb.h.in:362-429.  The `Bool` argument of `apply` says
whether there is an image pointer, see `pt_sb_apply`, sideband/src/pt_sb_session.c:315-333. -/
structure SbCallbacks (σ π : Type) where
  fetch : σ → π → σ × π × Res Nat
  print : σ → π → σ × π × Res Unit
  apply : Bool → Event → σ → π → σ × π × Res Unit

/-- `struct pt_sb_decoder`, sideband/internal/include/pt_sb_decoder.h:36-68; `id` stands for its address. -/
structure SbDecoder (π : Type) where
  id : Nat
  tsc : Nat
  primary : Bool
  priv : π

/-- What happens at the callbacks: a record with the given time was fetched; there are no more records; a callback failed; the
current record, with the given time, was offered together with an event that is due; an event was presented to all. -/
inductive SbCall
  | fetched (id tsc : Nat)
  | ended (id : Nat)
  | failed (id : Nat)
  | printed (id : Nat)
  | due (id tsc : Nat) (ev : Event)
  | shown (id : Nat) (ev : Event)
deriving DecidableEq, Repr

/-- `struct pt_sb_session`, sideband/internal/include/pt_sb_session.h:40-97: the lists of decoders. -/
structure SbSession (σ π : Type) where
  shared : σ
  decoders : List (SbDecoder π) := []
  waiting : List (SbDecoder π) := []
  retired : List (SbDecoder π) := []
  removed : List (SbDecoder π) := []
  log : List SbCall := []

variable {σ π : Type}

/-- sideband/src/pt_sb_session.c:230-254 `pt_sb_alloc_decoder`. -/
def sbAllocDecoder (s : SbSession σ π) (id : Nat) (primary : Bool) (priv : π) : SbSession σ π :=
  { s with waiting := { id, tsc := 0, primary, priv } :: s.waiting }

/-- sideband/src/pt_sb_session.c:256-282 `pt_sb_add_decoder`.  The decoder is not in a list. -/
def sbInsert (d : SbDecoder π) : List (SbDecoder π) → List (SbDecoder π)
  | [] => [d]
  | c :: l => if d.tsc ≤ c.tsc then d :: c :: l else c :: sbInsert d l

/-- sideband/src/pt_sb_session.c:284-297 `pt_sb_fetch`, and what its callers do with a successful result. -/
def sbFetch (cb : SbCallbacks σ π) (s : SbSession σ π) (d : SbDecoder π) : SbSession σ π × SbDecoder π × Res Unit :=
  match cb.fetch s.shared d.priv with
  | (sh, pv, .ok t) => ({ s with shared := sh, log := s.log ++ [.fetched d.id t] }, { d with priv := pv, tsc := t }, .ok ())
  | (sh, pv, .err .eos) => ({ s with shared := sh, log := s.log ++ [.ended d.id] }, { d with priv := pv }, .err .eos)
  | (sh, pv, .err e) => ({ s with shared := sh, log := s.log ++ [.failed d.id] }, { d with priv := pv }, .err e)
  | (sh, pv, .ub) => ({ s with shared := sh }, { d with priv := pv }, .ub)

/-- sideband/src/pt_sb_session.c:299-313 `pt_sb_print`. -/
def sbPrint (cb : SbCallbacks σ π) (s : SbSession σ π) (d : SbDecoder π) : SbSession σ π × SbDecoder π × Res Unit :=
  match cb.print s.shared d.priv with
  | (sh, pv, .ok ()) => ({ s with shared := sh, log := s.log ++ [.printed d.id] }, { d with priv := pv }, .ok ())
  | (sh, pv, .err e) => ({ s with shared := sh, log := s.log ++ [.printed d.id, .failed d.id] }, { d with priv := pv }, .err e)
  | (sh, pv, .ub) => ({ s with shared := sh }, { d with priv := pv }, .ub)

/-- sideband/src/pt_sb_session.c:315-333 `pt_sb_apply`: `call` is what to record.  `image` says whether the caller gave an image. -/
def sbApply (cb : SbCallbacks σ π) (image : Bool) (ev : Event) (call : SbCall) (s : SbSession σ π) (d : SbDecoder π) :
    SbSession σ π × SbDecoder π × Res Unit :=
  match cb.apply (image && d.primary) ev s.shared d.priv with
  | (sh, pv, .ok ()) => ({ s with shared := sh, log := s.log ++ [call] }, { d with priv := pv }, .ok ())
  | (sh, pv, .err e) => ({ s with shared := sh, log := s.log ++ [call, .failed d.id] }, { d with priv := pv }, .err e)
  | (sh, pv, .ub) => ({ s with shared := sh }, { d with priv := pv }, .ub)

/-- sideband/src/pt_sb_session.c:335-366 `pt_sb_init_decoders`: the loop, over the list of waiting decoders.  Decoders that
cannot fetch a record are freed; their private data is destroyed by the callback `dtor`, which is modelled where it matters. -/
def sbInit (cb : SbCallbacks σ π) (dtor : σ → π → σ × Res Unit) : List (SbDecoder π) → SbSession σ π → SbSession σ π × Res Unit
  | [], s => (s, .ok ())
  | d :: l, s =>
    match sbFetch cb { s with waiting := l } d with
    | (s, _, .ub) => (s, .ub)
    | (s, d, .err _) =>
      match dtor s.shared d.priv with
      | (sh, .ub) => ({ s with shared := sh }, .ub)
      | (sh, _) => sbInit cb dtor l { s with shared := sh }
    | (s, d, .ok ()) => sbInit cb dtor l { s with decoders := sbInsert d s.decoders }

/-- sideband/src/pt_sb_session.c:335-366 `pt_sb_init_decoders`. -/
def sbInitDecoders (cb : SbCallbacks σ π) (dtor : σ → π → σ × Res Unit) (s : SbSession σ π) : SbSession σ π × Res Unit :=
  sbInit cb dtor s.waiting s

/-- sideband/src/pt_sb_session.c:477-499: applying the event and fetching the next record in the loop in `pt_sb_event`. -/
def sbOffer (cb : SbCallbacks σ π) (image : Bool) (ev : Event) (s : SbSession σ π) (d : SbDecoder π) : SbSession σ π × Res Unit :=
  match sbApply cb image ev (.due d.id d.tsc ev) s d with
  | (s, _, .ub) => (s, .ub)
  | (s, d, .err _) => ({ s with removed := d :: s.removed }, .ok ())
  | (s, d, .ok ()) =>
    match sbFetch cb s d with
    | (s, _, .ub) => (s, .ub)
    | (s, d, .err .eos) => ({ s with retired := d :: s.retired }, .ok ())
    | (s, d, .err _) => ({ s with removed := d :: s.removed }, .ok ())
    | (s, d, .ok ()) => ({ s with decoders := sbInsert d s.decoders }, .ok ())

/-- sideband/src/pt_sb_session.c:465-499: one turn of the loop in `pt_sb_event`, for the first decoder `d`, which has been
taken out of the list. -/
def sbTurn (cb : SbCallbacks σ π) (image stream : Bool) (ev : Event) (s : SbSession σ π) (d : SbDecoder π) : SbSession σ π × Res Unit :=
  if stream = true then
    match sbPrint cb s d with
    | (s, _, .ub) => (s, .ub)
    | (s, d, .err _) => ({ s with removed := d :: s.removed }, .ok ())
    | (s, d, .ok ()) => sbOffer cb image ev s d
  else sbOffer cb image ev s d

/-- sideband/src/pt_sb_session.c:446-500: the loop in `pt_sb_event`.  The number of turns is bounded by `fuel`; running out of
it counts as undefined. -/
def sbRound1 (cb : SbCallbacks σ π) (image stream : Bool) (ev : Event) : Nat → SbSession σ π → SbSession σ π × Res Unit
  | 0, s => (s, .ub)
  | fuel + 1, s =>
    match s.decoders with
    | [] => (s, .ok ())
    | d :: l =>
      if ev.tsc < d.tsc then (s, .ok ())
      else
        match sbTurn cb image stream ev { s with decoders := l } d with
        | (s, .ok ()) => sbRound1 cb image stream ev fuel s
        | r => r

/-- sideband/src/pt_sb_session.c:398-429 `pt_sb_event_present`, on the list of decoders `l`: what remains of it. -/
def sbPresent (cb : SbCallbacks σ π) (image : Bool) (ev : Event) :
    List (SbDecoder π) → SbSession σ π → SbSession σ π × Res (List (SbDecoder π))
  | [], s => (s, .ok [])
  | d :: l, s =>
    match sbApply cb image ev (.shown d.id ev) s d with
    | (s, _, .ub) => (s, .ub)
    | (s, d, .err _) => sbPresent cb image ev l { s with removed := d :: s.removed }
    | (s, d, .ok ()) =>
      match sbPresent cb image ev l s with
      | (s, .ok l) => (s, .ok (d :: l))
      | r => r

/-- sideband/src/pt_sb_session.c:502-512: the second round in `pt_sb_event`.  The lists are updated when all decoders in a list
have seen the event. -/
def sbRound2 (cb : SbCallbacks σ π) (image : Bool) (ev : Event) (s : SbSession σ π) : SbSession σ π × Res Unit :=
  match sbPresent cb image ev s.decoders s with
  | (s, .ok l) =>
    match sbPresent cb image ev s.retired { s with decoders := l } with
    | (s, .ok r) => ({ s with retired := r }, .ok ())
    | (s, .err e) => (s, .err e)
    | (s, .ub) => (s, .ub)
  | (s, .err e) => (s, .err e)
  | (s, .ub) => (s, .ub)

/-- sideband/src/pt_sb_session.c:431-513 `pt_sb_event`. -/
def sbEvent (cb : SbCallbacks σ π) (image stream : Bool) (ev : Event) (fuel : Nat) (s : SbSession σ π) : SbSession σ π × Res Unit :=
  match sbRound1 cb image stream ev fuel s with
  | (s, .ok ()) => sbRound2 cb image ev s
  | r => r

/-- sideband/src/pt_sb_session.c:515-555 `pt_sb_dump`: one turn of its loop. -/
def sbDumpTurn (cb : SbCallbacks σ π) (s : SbSession σ π) (d : SbDecoder π) : SbSession σ π × Res Unit :=
  match sbPrint cb s d with
  | (s, _, .ub) => (s, .ub)
  | (s, d, .err _) => ({ s with removed := d :: s.removed }, .ok ())
  | (s, d, .ok ()) =>
    match sbFetch cb s d with
    | (s, _, .ub) => (s, .ub)
    | (s, d, .err _) => ({ s with removed := d :: s.removed }, .ok ())
    | (s, d, .ok ()) => ({ s with decoders := sbInsert d s.decoders }, .ok ())

/-- sideband/src/pt_sb_session.c:515-555 `pt_sb_dump`. -/
def sbDump (cb : SbCallbacks σ π) (tsc : Nat) : Nat → SbSession σ π → SbSession σ π × Res Unit
  | 0, s => (s, .ub)
  | fuel + 1, s =>
    match s.decoders with
    | [] => (s, .ok ())
    | d :: l =>
      if tsc < d.tsc then (s, .ok ())
      else
        match sbDumpTurn cb { s with decoders := l } d with
        | (s, .ok ()) => sbDump cb tsc fuel s
        | r => r

end Ipt
