import Verif.Image
import Verif.Section

/-!
# Loading ELF files: ptxed/src/load_elf.c

`load_elf` reads the program headers of an ELF file and adds a section to the image for every segment.  A file is a list of
bytes.  `fseek` to a non-negative offset succeeds, and `fread` fails only at the end of the file; opening the file is not
modelled, and nothing that is printed but for the warning that a segment could not be added.

The section objects are given by a `LoadWorld`, because they come from `pt_mk_section` or, if there is one, from the image
section cache.
-/

namespace Ipt

/-- `fread (&x, n, 1, file)` at position `pos`: the bytes and the new position. -/
def fread (f : List UInt8) (pos n : Nat) : Option (List UInt8 × Nat) :=
  if f.length < pos + n then none else some ((f.drop pos).take n, pos + n)

/-- The value of little-endian bytes. -/
def fileNum : List UInt8 → Nat
  | [] => 0
  | b :: bs => b.toNat + 256 * fileNum bs

/-- A field of `n` bytes at offset `a` of a structure that was read. -/
def structField (b : List UInt8) (a n : Nat) : Nat := fileNum ((b.drop a).take n)

/-- The fields of `Elf32_Phdr` and `Elf64_Phdr` (elf.h) that are used. -/
structure Phdr where
  type : Nat
  offset : Nat
  vaddr : Nat
  filesz : Nat
deriving DecidableEq, Repr

/-- What `load_elf32` and `load_elf64` differ in: the layout of `Elf32_Ehdr`, `Elf32_Phdr` and of `Elf64_Ehdr`, `Elf64_Phdr`
(elf.h), and the check for large offsets. -/
structure ElfLayout where
  ehdrSize : Nat
  phoff : List UInt8 → Nat
  phnum : List UInt8 → Nat
  phdrSize : Nat
  phdr : List UInt8 → Phdr
  tooBig : Nat → Bool

/-- ptxed/src/load_elf.c:60-175 `load_elf32`: the structures of elf.h that it uses. -/
def elf32Layout : ElfLayout where
  ehdrSize := 52
  phoff eh := structField eh 28 4
  phnum eh := structField eh 44 2
  phdrSize := 32
  phdr ph := { type := structField ph 0 4, offset := structField ph 4 4, vaddr := structField ph 8 4,
               filesz := structField ph 16 4 }
  tooBig _ := false

/-- ptxed/src/load_elf.c:177-298 `load_elf64`: the structures of elf.h that it uses, and lines 203-207, the check that
`e_phoff` is not above `LONG_MAX`. -/
def elf64Layout : ElfLayout where
  ehdrSize := 64
  phoff eh := structField eh 32 8
  phnum eh := structField eh 56 2
  phdrSize := 56
  phdr ph := { type := structField ph 0 4, offset := structField ph 8 8, vaddr := structField ph 16 8,
               filesz := structField ph 32 8 }
  tooBig phoff := decide (2 ^ 63 - 1 < phoff)

/-- `PT_LOAD` (elf.h). -/
def ptLoad : Nat := 1

/-- The environment, for each program header by its number: the section object for it, the identifier that the image section
cache gave it (zero without cache), a failure to create it, and the allocation failures when adding it to the image. -/
structure LoadWorld where
  env : SecEnv
  obj : Nat → Nat
  isid : Nat → Nat
  fail : Nat → Option Err
  ora : Nat → List Bool

/-- ptxed/src/load_elf.c:42-58 `load_section`, with `pt_image_add_file` (libipt/src/pt_image.c:288-320) or with
`pt_iscache_add_file` and `pt_image_add_cached` (libipt/src/pt_image.c:605-637).  In both cases there is a reference to the
section while it is being added.  No address space is given. -/
def loadSection (w : LoadWorld) (fsize : Nat) (i : Img) (pidx offset size vaddr : Nat) : Img × Res Unit :=
  match w.fail pidx with
  | some e => (i, .err e)
  | none =>
    match mkSection fsize offset size with
    | .err e => (i, .err e)
    | .ub => (i, .ub)
    | .ok _ =>
      let r := imageAdd w.env (w.ora pidx) { i with uc := ucInc i.uc (w.obj pidx) } (w.obj pidx) {} vaddr (w.isid pidx)
      ({ r.1 with uc := ucDec r.1.uc (w.obj pidx) }, r.2)

/-- ptxed/src/load_elf.c:102-117 and 225-240: the lowest address, from `n` program headers at `pos`. -/
def minLoop (l : ElfLayout) (f : List UInt8) : Nat → Nat → Nat → Res Nat
  | 0, _, minaddr => .ok minaddr
  | n + 1, pos, minaddr =>
    match fread f pos l.phdrSize with
    | none => .err .badConfig
    | some (b, pos) =>
      let phdr := l.phdr b
      if phdr.type ≠ ptLoad then minLoop l f n pos minaddr
      else minLoop l f n pos (if phdr.vaddr < minaddr then phdr.vaddr else minaddr)

/-- The outcome of loading: the image, the warnings that no section could be created for a program header, with
the error, and the return value. -/
structure LoadOut where
  img : Img
  warned : List (Nat × Err)
  res : Res Unit

/-- ptxed/src/load_elf.c:132-167 and 255-290: load `n` segments, the first of which has number `pidx` and its program header
at `pos`. -/
def loadLoop (w : LoadWorld) (l : ElfLayout) (f : List UInt8) (offset : Nat) : Nat → Nat → Nat → Img → LoadOut
  | 0, _, _, i => ⟨i, [], .ok ()⟩
  | n + 1, pidx, pos, i =>
    match fread f pos l.phdrSize with
    | none => ⟨i, [], .err .badConfig⟩
    | some (b, pos) =>
      let phdr := l.phdr b
      if phdr.type ≠ ptLoad then loadLoop w l f offset n (pidx + 1) pos i
      else if phdr.filesz = 0 then loadLoop w l f offset n (pidx + 1) pos i
      else
        match loadSection w f.length i pidx phdr.offset phdr.filesz ((phdr.vaddr + offset) % 2 ^ 64) with
        | (i, .ok ()) => loadLoop w l f offset n (pidx + 1) pos i
        | (i, .err e) =>
          let r := loadLoop w l f offset n (pidx + 1) pos i
          { r with warned := (pidx, e) :: r.warned }
        | (i, .ub) => ⟨i, [], .ub⟩

/-- ptxed/src/load_elf.c:60-175 `load_elf32` and 177-298 `load_elf64`. -/
def loadElfClass (w : LoadWorld) (l : ElfLayout) (f : List UInt8) (base : Nat) (i : Img) : LoadOut :=
  match fread f 0 l.ehdrSize with
  | none => ⟨i, [], .err .badConfig⟩
  | some (eh, _) =>
    if l.tooBig (l.phoff eh) = true then ⟨i, [], .err .badConfig⟩
    else
      let offset : Res Nat :=
        if base = 0 then .ok 0
        else
          match minLoop l f (l.phnum eh) (l.phoff eh) (2 ^ 64 - 1) with
          | .ok minaddr => .ok ((base + 2 ^ 64 - minaddr) % 2 ^ 64)
          | .err e => .err e
          | .ub => .ub
      match offset with
      | .ok offset => loadLoop w l f offset (l.phnum eh) 0 (l.phoff eh) i
      | .err e => ⟨i, [], .err e⟩
      | .ub => ⟨i, [], .ub⟩

/-- ptxed/src/load_elf.c:300-360 `load_elf`. -/
def loadElf (w : LoadWorld) (f : List UInt8) (base : Nat) (i : Img) : LoadOut :=
  match fread f 0 16 with
  | none => ⟨i, [], .err .badConfig⟩
  | some (ident, _) =>
    if ident.take 4 ≠ [0x7f, 0x45, 0x4c, 0x46] then ⟨i, [], .err .badConfig⟩
    else
      match ident.getD 4 0 with
      | 1 => loadElfClass w elf32Layout f base i
      | 2 => loadElfClass w elf64Layout f base i
      | _ => ⟨i, [], .err .badConfig⟩

end Ipt
