import Verif.Spec.Pevent

/-!
# ELF files

After the System V ABI: the ELF header, and the table of program headers, which describe the segments of a program.  Only
little-endian files.
-/

namespace Ipt.Spec.Elf

/-- 32-bit and 64-bit files. -/
inductive Class
  | elf32
  | elf64
deriving DecidableEq, Repr

/-- The little-endian number in `n` bytes of a file. -/
def num (f : List UInt8) (offset n : Nat) : Nat := leValue ((f.drop offset).take n)

/-- `e_ident`: the magic number, and the class, ELFCLASS32 or ELFCLASS64. -/
def IsElf (f : List UInt8) (c : Class) : Prop :=
  f.take 4 = [0x7f, 0x45, 0x4c, 0x46] ∧ f[4]? = some (match c with | .elf32 => (1 : UInt8) | .elf64 => 2)

/-- The size of the ELF header. -/
def headerSize : Class → Nat
  | .elf32 => 52
  | .elf64 => 64

/-- `e_phoff`: where the table of program headers is. -/
def phoff (f : List UInt8) : Class → Nat
  | .elf32 => num f 28 4
  | .elf64 => num f 32 8

/-- `e_phentsize`: the size of an entry of the table. -/
def phentsize (f : List UInt8) : Class → Nat
  | .elf32 => num f 42 2
  | .elf64 => num f 54 2

/-- `e_phnum`: the number of entries. -/
def phnum (f : List UInt8) : Class → Nat
  | .elf32 => num f 44 2
  | .elf64 => num f 56 2

/-- The size of the structure that describes a segment: it is the usual size of an entry of the table. -/
def entrySize : Class → Nat
  | .elf32 => 32
  | .elf64 => 56

/-- What a program header says about a segment: its type, the offset and size of its contents in the file, and the address
in memory. -/
structure Segment where
  type : Nat
  offset : Nat
  filesz : Nat
  vaddr : Nat
deriving DecidableEq, Repr

/-- The program header number `n`. -/
def segment (f : List UInt8) (c : Class) (n : Nat) : Segment :=
  let h := phoff f c + n * phentsize f c
  match c with
  | .elf32 => { type := num f h 4, offset := num f (h + 4) 4, vaddr := num f (h + 8) 4, filesz := num f (h + 16) 4 }
  | .elf64 => { type := num f h 4, offset := num f (h + 8) 8, vaddr := num f (h + 16) 8, filesz := num f (h + 32) 8 }

/-- The segment is loaded into memory: its type is PT_LOAD. -/
def Segment.Loadable (s : Segment) : Prop := s.type = 1

/-- The number of bytes of the segment's contents that are in a file of this size. -/
def Segment.size (s : Segment) (fsize : Nat) : Nat := min s.filesz (fsize - s.offset)

/-- The ELF header and the table of program headers are in the file. -/
def Complete (f : List UInt8) (c : Class) : Prop :=
  headerSize c ≤ f.length ∧ ∀ n < phnum f c, phoff f c + (n + 1) * phentsize f c ≤ f.length

/-- The table of program headers has the usual format. -/
def Usual (f : List UInt8) (c : Class) : Prop := phentsize f c = entrySize c ∧ phoff f c < 2 ^ 63

/-- The lowest address of all segments that are loaded. -/
def Lowest (f : List UInt8) (c : Class) (a : Nat) : Prop :=
  (∃ n < phnum f c, (segment f c n).Loadable ∧ (segment f c n).vaddr = a) ∧
  ∀ n < phnum f c, (segment f c n).Loadable → a ≤ (segment f c n).vaddr

/-- Segment `n` belongs at address `a`: if the program is loaded at `base`, this is the address of the lowest segment.  If
`base` is zero, all segments belong where the program header says. -/
def Belongs (f : List UInt8) (c : Class) (base n a : Nat) : Prop :=
  if base = 0 then a = (segment f c n).vaddr
  else ∃ low, Lowest f c low ∧ a = ((segment f c n).vaddr - low + base) % 2 ^ 64

end Ipt.Spec.Elf
