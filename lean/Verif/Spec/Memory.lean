import Verif.Insn
import Verif.Spec.Image

/-!
# Memory as seen by the instruction decoder

A memory is a partial function from 64-bit addresses to bytes.
-/

namespace Ipt.Spec

/-- A memory image in one address space. -/
abbrev Mem := Nat → Option UInt8

/-- The bytes at `ip`, at most `n`, up to the first address without memory.  Addresses wrap around
at 2^64. -/
def avail (mem : Mem) (ip : Nat) : Nat → List UInt8
  | 0 => []
  | n + 1 =>
    match mem (ip % 2 ^ 64) with
    | none => []
    | some b => b :: avail mem (ip + 1) n

/-- The memory an abstract image shows in an address space: the byte of the (first) section that is
visible in it. -/
def imgMem (env : SecEnv) (map : Map) (asid : Asid) : Mem := fun x =>
  ((map x).find? fun c => SameSpace c.asid asid).map fun c => env.byte c.sec c.off

/-- What is read from `rdr` is in the memory `mem`, as long as its state is a good one. -/
structure ReadsFrom {σ} (rdr : MemReader σ) (good : σ → Prop) (mem : Mem) : Prop where
  /-- Reading keeps the state good. -/
  keep : ∀ s size a, good s → good (rdr s size a).1
  /-- At most `size` bytes, all of them from memory. -/
  bytes : ∀ s size a isid bs, good s → size ≤ 15 → (rdr s size a).2 = .ok (isid, bs) →
    bs.length ≤ size ∧ ∀ k (h : k < bs.length), mem ((a + k) % 2 ^ 64) = some bs[k]
  /-- No undefined behaviour. -/
  safe : ∀ s size a, good s → (rdr s size a).2 ≠ .ub

/-- In addition, `rdr` finds everything there is: it may return fewer bytes than asked for, but at
least one if there is one, and otherwise it reports -pte_nomap. -/
structure ReadsAll {σ} (rdr : MemReader σ) (good : σ → Prop) (mem : Mem) : Prop extends
    ReadsFrom rdr good mem where
  /-- Memory is found. -/
  some : ∀ s size a b, good s → 1 ≤ size → size ≤ 15 → a < 2 ^ 64 →
    mem a = some b →
    ∃ isid bs, (rdr s size a).2 = .ok (isid, bs) ∧ 1 ≤ bs.length
  /-- No memory is reported. -/
  none : ∀ s size a, good s → a < 2 ^ 64 → mem a = none → (rdr s size a).2 = .err .nomap

end Ipt.Spec
