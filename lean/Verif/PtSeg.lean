import Verif.Sync

/-!
# The segment finder `ptseg`: ptseg/src/ptseg.c

The trace file is a list of bytes that is loaded as a whole.  Loading the file, parsing the command line and
running out of memory are not modelled.
-/

namespace Ipt

/-- ptseg/src/ptseg.c:216-247 `ptseg_pkt_find_seg`: the values of `*begin` and `*end` on return.  An error of
synchronizing other than -pte_eos is returned. -/
def ptsegPktFindSeg (c : PktCfg) (base : Nat) (d : PktDec) (begin_ end_ offset : Nat) : Res (Nat × Nat) :=
  match pktSyncSet c d offset with
  | (_, .err e) => .err e
  | (_, .ub) => .ub
  | (d, .ok ()) =>
    let back : PktDec × Res Nat :=
      match pktSyncBackward c base d with
      | (d, .ub) => (d, .ub)
      | (d, .err e) => if e ≠ .eos then (d, .err e) else (d, .ok begin_)
      | (d, .ok ()) => (d, pktGetOffset d)
    match back with
    | (_, .ub) => .ub
    | (_, .err e) => .err e
    | (d, .ok b) =>
      match pktSyncForward c base d with
      | (_, .ub) => .ub
      | (_, .err e) => if e ≠ .eos then .err e else .ok (b, end_)
      | (d, .ok ()) => pktGetOffset d >>= fun e => .ok (b, e)

/-- What `ptseg` prints: the segment, the offset into it and its size. -/
structure SegLine where
  begin_ : Nat
  end_ : Nat
  offset : Nat
  size : Nat
deriving DecidableEq, Repr

/-- ptseg/src/ptseg.c:249-297 `ptseg_find_seg` and `ptseg_print_seg`, for the trace in the file `mem`, which is
loaded at address `base`.  The decoder is new.  The arithmetic is on `uint64_t`. -/
def ptsegPrintSeg (mem : List UInt8) (base offset : Nat) : Res SegLine :=
  ptsegPktFindSeg { mem := mem } base {} 0 mem.length offset >>= fun r =>
    .ok ⟨r.1, r.2, (offset + 2 ^ 64 - r.1) % 2 ^ 64, (r.2 + 2 ^ 64 - r.1) % 2 ^ 64⟩

end Ipt
