import Verif.Image

/-!
# The one-entry mapped-section cache: libipt/src/pt_msec_cache.c and its users

The instruction flow decoder and the block decoder keep the section of the current instruction
in a one-entry cache.  The cache owns one reference to the section and one mapping.  Section
objects are identified by number; since the cache owns a reference, the number (address) of a
cached section is not reused while it is cached, so comparing the memory of two
`struct pt_mapped_section` is comparing the model's records (the structure has no padding).
-/

namespace Ipt

/-- The part of the flow decoders the cache depends on: the cache entry (`none`: the section
pointer is null; libipt/internal/include/pt_msec_cache.h:40-48), the current address space and
the current image. -/
structure ScSt where
  cache : Option Msec := none
  asid : Asid := {}
  img : Img

/-- libipt/src/pt_image.c:668-704 `pt_image_validate`: does the entry cover the address and equal
the first section of the image, including its isid?  A cleared entry has a null section pointer
and differs from every section of the image. -/
def imageValidate (i : Img) (c : Option Msec) (x : Nat) : Bool :=
  match c, i.secs with
  | some m, top :: _ => if x < m.vaddr ∨ m.end_ ≤ x then false else decide (top = m)
  | _, _ => false

/-- libipt/src/pt_image.c:636-666 `pt_image_find`: fetch the section and take a reference. -/
def imageFind (i : Img) (asid : Asid) (x : Nat) : Img × Res Msec :=
  match imageFetch i asid x with
  | (i, .ok m) =>
    if 65535 < i.uc m.sec + 1 then (i, .err .overflow)
    else ({ i with uc := ucInc i.uc m.sec }, .ok m)
  | r => r

/-- libipt/src/pt_msec_cache.c:56-75 `pt_msec_cache_invalidate`; `unmap` is the result of
unmapping the section. -/
def cacheInvalidate (s : ScSt) (unmap : Res Unit) : ScSt × Res Unit :=
  match s.cache with
  | none => (s, .ok ())
  | some m =>
    match unmap with
    | .ok () => ({ s with cache := none, img := { s.img with uc := ucDec s.img.uc m.sec } }, .ok ())
    | r => (s, r)

/-- libipt/src/pt_msec_cache.c:100-137 `pt_msec_cache_fill`; `unmap` and `map` are the results of
unmapping the old and mapping the new section. -/
def cacheFill (s : ScSt) (unmap map : Res Unit) (x : Nat) : ScSt × Res Msec :=
  match cacheInvalidate s unmap with
  | (s, .err e) => (s, .err e)
  | (s, .ub) => (s, .ub)
  | (s, .ok ()) =>
    match imageFind s.img s.asid x with
    | (i, .err e) => ({ s with img := i }, .err e)
    | (i, .ub) => ({ s with img := i }, .ub)
    | (i, .ok m) =>
      match map with
      | .ok () => ({ s with cache := some m, img := i }, .ok m)
      | .err e => ({ s with img := { i with uc := ucDec i.uc m.sec } }, .err e)
      | .ub => ({ s with img := i }, .ub)

/-- libipt/src/pt_insn_decoder.c:1612-1637 `pt_insn_msec_lookup`,
libipt/src/pt_block_decoder.c:2947-2966 `pt_blk_msec_lookup` (the latter also requests the
section's block cache, not modelled here), with libipt/src/pt_msec_cache.c:77-98
`pt_msec_cache_read`. -/
def msecLookup (s : ScSt) (unmap map : Res Unit) (x : Nat) : ScSt × Res Msec :=
  match s.cache with
  | some m => if imageValidate s.img s.cache x = true then (s, .ok m) else cacheFill s unmap map x
  | none => cacheFill s unmap map x

/-- libipt/src/pt_insn_decoder.c:1829-1847 `pt_insn_process_paging`,
libipt/src/pt_block_decoder.c:3970-3990 `pt_blk_process_paging`. -/
def setCr3 (s : ScSt) (unmap : Res Unit) (cr3 : Nat) : ScSt × Res Unit :=
  if s.asid.cr3 ≠ cr3 then
    match cacheInvalidate s unmap with
    | (s, .ok ()) => ({ s with asid := { s.asid with cr3 := cr3 } }, .ok ())
    | r => r
  else (s, .ok ())

/-- libipt/src/pt_insn_decoder.c:1963-1987 `pt_insn_process_vmcs`,
libipt/src/pt_block_decoder.c:3995-4015 `pt_blk_process_vmcs`. -/
def setVmcs (s : ScSt) (unmap : Res Unit) (vmcs : Nat) : ScSt × Res Unit :=
  if s.asid.vmcs ≠ vmcs then
    match cacheInvalidate s unmap with
    | (s, .ok ()) => ({ s with asid := { s.asid with vmcs := vmcs } }, .ok ())
    | r => r
  else (s, .ok ())

/-- libipt/src/pt_insn_decoder.c:45-69 `pt_insn_reset`, libipt/src/pt_block_decoder.c:180-212
`pt_blk_reset`, on the modelled state: the address space is unknown after synchronization; the
cache is kept. -/
def scReset (s : ScSt) : ScSt := { s with asid := {} }

/-- libipt/src/pt_insn_decoder.c:402-413 `pt_insn_set_image`, libipt/src/pt_block_decoder.c:610-620
`pt_blk_set_image`; and any change made to the decoder's image by the user, by other decoders
sharing it, or by its own reads.  The cache is kept. -/
def scSetImage (s : ScSt) (i : Img) : ScSt := { s with img := i }

end Ipt
