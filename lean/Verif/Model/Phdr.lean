import Verif.Model.Symbols
/-
Matching the mappings of an object with its program headers: `kpatch_elf_parse_program_header`,
`src/kpatch_elf.c` 237-438.
-/
namespace Verif

/-- `p_type` as far as the code distinguishes it. `src/kpatch_elf.c:315-322`. -/
inductive PType where
  | load | relro | other
  deriving DecidableEq, Repr

/-- `Elf64_Phdr`.  `flags`: execute 1, write 2, read 4 (`PF_*`). Used at `src/kpatch_elf.c:251-289`. -/
structure Phdr where
  typ : PType
  vaddr : BitVec 64
  memsz : BitVec 64
  offset : BitVec 64 := 0
  filesz : BitVec 64
  flags : Nat
  deriving DecidableEq, Repr

/-- `prot2flags`, `src/kpatch_elf.c` 237-248 (`PROT_READ` 1, `PROT_WRITE` 2, `PROT_EXEC` 4). -/
def prot2flags (prot : Nat) : Nat :=
  (if prot % 2 = 1 then 4 else 0) + (if prot / 2 % 2 = 1 then 2 else 0) + (if prot / 4 % 2 = 1 then 1 else 0)

/-- `phdr_compare`, `src/kpatch_elf.c` 251-268: by address, longer first. -/
def phdrCompare (a b : Phdr) : Int :=
  if a.vaddr < b.vaddr then -1
  else if b.vaddr < a.vaddr then 1
  else if a.memsz < b.memsz then 1
  else if b.memsz < a.memsz then -1
  else 0

/-- `PAGE_DOWN`, `PAGE_UP`, 270-271 with `ROUND_DOWN`/`ROUND_UP` of `src/include/kpatch_common.h` 19-20. -/
def pageDown (page x : BitVec 64) : BitVec 64 := x &&& ~~~(page - 1#64)
/-- `PAGE_UP`. `src/kpatch_elf.c:271`, `src/include/kpatch_common.h:20`. -/
def pageUp (page x : BitVec 64) : BitVec 64 := (x + page - 1#64) &&& ~~~(page - 1#64)

/-- `match_program_header_vm_area`, 273-289. `src/kpatch_elf.c:273-289`. -/
def matchPhdr (page load : BitVec 64) (p : Phdr) (o : OVma) : Bool :=
  decide (pageDown page (p.vaddr + load) = o.inmemStart) &&
  decide (pageUp page (p.vaddr + load + p.filesz) = o.inmemEnd) &&
  decide (p.flags % 8 = prot2flags o.prot)

/-- The search for the lowest load address, 312-329; `none` if there is no `PT_LOAD` (or only at
`ULONG_MAX`). `src/kpatch_elf.c:312-329`. -/
def lowestLoad (phdrs : List Phdr) : BitVec 64 :=
  phdrs.foldl (fun m p => if p.typ = .load then (if p.vaddr < m then p.vaddr else m) else m) (BitVec.allOnes 64)

/-- The adjustment for `PT_GNU_RELRO`, 358-384, from the second entry on; `prev` is the entry before. `src/kpatch_elf.c:358-384`. -/
def relroFrom (prev : Phdr) : List Phdr → Option (List Phdr)
  | [] => some [prev]
  | c :: cs =>
    if c.typ = .relro then
      if prev.vaddr = c.vaddr then
        (relroFrom { c with flags := c.flags - (if c.flags / 2 % 2 = 1 then 2 else 0) } cs).map
          ({ prev with
              vaddr := c.vaddr + c.memsz, memsz := prev.memsz - c.memsz
              offset := prev.offset + c.filesz, filesz := prev.filesz - c.filesz } :: ·)
      else none
    else (relroFrom c cs).map (prev :: ·)

/-- 358-384; `none` for the two error exits. `src/kpatch_elf.c:358-384`. -/
def relroAdjust : List Phdr → Option (List Phdr)
  | [] => some []
  | p :: ps => if p.typ = .relro then none else relroFrom p ps

/-- What the loop does to one mapping, 394-428. `src/kpatch_elf.c:394-428`. -/
def assignPhdr (load : BitVec 64) (p : Phdr) (o : OVma) : OVma :=
  { o with
    inelfStart := p.vaddr, inelfEnd := p.vaddr + p.memsz
    inmemStart := load + p.vaddr, inmemEnd := load + (p.vaddr + p.memsz) }

/-- The loop over the mappings, 394-428.  The flag is false when a mapping could not be matched. `src/kpatch_elf.c:394-428`. -/
def matchVmas (page load : BitVec 64) (maphdrs : List Phdr) : List OVma → List OVma × Bool
  | [] => ([], true)
  | o :: os =>
    if o.prot = 0 then
      let r := matchVmas page load maphdrs os
      (o :: r.1, r.2)
    else match maphdrs.find? fun p => matchPhdr page load p o with
      | none => (o :: os, false)
      | some p =>
        let r := matchVmas page load maphdrs os
        (assignPhdr load p o :: r.1, r.2)

/-- What the function leaves behind. `src/kpatch_elf.c:291-438`. -/
structure PhdrResult where
  rv : Int
  load : BitVec 64
  vmas : List OVma

/-- `kpatch_elf_parse_program_header`, 291-438, once the program headers have been read (which set
`rv` to 0).  `qsort` is the C library's sort; `oldLoad` the previous `o->load_offset`.  Failure of
`malloc` is not modelled. `src/kpatch_elf.c:291-438`. -/
def parseProgramHeader (qsort : List Phdr → List Phdr) (page : BitVec 64) (phdrs : List Phdr) (vmaStart oldLoad : BitVec 64)
    (vmas : List OVma) : PhdrResult :=
  if lowestLoad phdrs = BitVec.allOnes 64 then { rv := 0, load := oldLoad, vmas := vmas }
  else
    let load := vmaStart - pageDown page (lowestLoad phdrs)
    match relroAdjust (qsort (phdrs.filter fun p => decide (p.typ ≠ .other))) with
    | none => { rv := 0, load := load, vmas := vmas }
    | some maphdrs =>
      let r := matchVmas page load maphdrs vmas
      { rv := if r.2 then 0 else -1, load := load, vmas := r.1 }

end Verif
