import Verif.Model.Parse
import Verif.Model.Sections
/-
The memory of the lines of an assembler file: allocated by `read_file`, passed on or replaced by `init_multilines`, freed by `close_file`.
Models the allocations of `src/kpatch_io.c` 43-87, 100-125 and `src/arch/*/arch_parse.c` (init_multilines), and those of the sections,
`src/kpatch_parse.c` 629-776.
-/
namespace Verif

variable [AsmTarget]

/-- The blocks: the line `i` as it was read (for 0 a constant, not a block), the copy that is made for statement `k`.
`src/kpatch_io.c:79-81` (read_file), `src/arch/x86/arch_parse.c:240` (init_multilines). -/
inductive LBlock
  | line (i : Nat)
  | copy (k : Nat)
  deriving DecidableEq, Repr

/-- `free`: `none` if the pointer, a block and an offset in it, is not the start of an allocated block; the C library then ends the program.
C library; used at `src/kpatch_io.c:113` (close_file), `src/arch/x86/arch_parse.c:247` (init_multilines). -/
def freeBlk (live : List LBlock) (p : LBlock × Nat) : Option (List LBlock) :=
  if p.2 = 0 ∧ p.1 ∈ live then some (live.erase p.1) else none

/-- The pointers that are stored for the statements of line `i`, from statement `nr` on: copies, but for a statement that ends with a comment
or a line without separators, which keep the pointer into the line.  `src/arch/x86/arch_parse.c:212-253`,
`src/arch/aarch64/arch_parse.c:231-274`, `src/arch/riscv64/arch_parse.c:207-248`, `src/arch/loongarch64/arch_parse.c:195-236`
(init_multilines). -/
def stmtPtrs (i nr : Nat) (s : List Byte) : List (LBlock × Nat) :=
  ((splitLine s).zipIdx nr).map fun x => if x.1.2 then (.copy x.2, 0) else (.line i, s.length - x.1.1.length)

/-- The loop of `init_multilines` over the lines from number `i` on: the allocated blocks and the table of pointers.  The line is freed when
all its statements were copied.  The limit of statements is left out.  `src/arch/x86/arch_parse.c:205-254` (init_multilines). -/
def splitMem : List (List Byte) → Nat → Nat → List LBlock → Option (List LBlock × List (LBlock × Nat))
  | [], _, _, live => some (live, [])
  | s :: ls, i, nr, live =>
    let live1 := ((((splitLine s).zipIdx nr).filter fun x => x.1.2).map fun x => .copy x.2) ++ live
    match (if (splitLine s).all (·.2) then freeBlk live1 (.line i, 0) else some live1) with
    | none => none
    | some live2 =>
      (splitMem ls (i + 1) (nr + (splitLine s).length) live2).map fun r => (r.1, stmtPtrs i nr s ++ r.2)

/-- The loop of `close_file`.  `src/kpatch_io.c:111-114` (close_file). -/
def freeLines (live : List LBlock) : List (LBlock × Nat) → Option (List LBlock)
  | [] => some live
  | p :: ps =>
    match freeBlk live p with
    | none => none
    | some live' => freeLines live' ps

/-- An input with the lines `text` is read, split and closed: the blocks that are left, or `none` if the program is ended by `free`.
`src/kpatch_io.c:43-87` (read_file), `111-114` (close_file), `src/kpatch_gensrc.c:1764-1796` (main). -/
def lineCycle (text : List (List Byte)) : Option (List LBlock) :=
  match splitMem ([] :: text) 0 0 ((List.range' 1 text.length).map .line) with
  | none => none
  | some (live, tab) => freeLines live (tab.drop 1)

/-- The end of `kpatch_gensrc` after the work: the two inputs are closed, and only then the output, so that what was written to it is in the
file.  `src/kpatch_gensrc.c:1787-1800` (main). -/
def genEnd (text0 text1 written : List (List Byte)) : Option (List (List Byte)) :=
  match lineCycle text0 with
  | none => none
  | some _ =>
    match lineCycle text1 with
    | none => none
    | some _ => some written

/-- The blocks with the sections of the lines from number `i` on, and those that are allocated for them: every section directive makes a new
block (dup_section, __parse_section), here named after its line; the other lines have that of the line before, `prev`.  The block and that of
its name are taken as one.  `src/kpatch_parse.c:710-732` (parse_section), `748-757` (init_sections). -/
def sectMem (known cur : List SectInfo) (i prev : Nat) : List (List Byte) → Option (List Nat × List Nat)
  | [] => some ([], [])
  | l :: ls =>
    match parseSection known cur (parseCtype l) l with
    | .fatal => none
    | .keep => (sectMem known cur (i + 1) prev ls).map fun r => (prev :: r.1, r.2)
    | .change s known' => (sectMem known' (s :: cur) (i + 1) i ls).map fun r => (i :: r.1, i :: r.2)

/-- `free_sections`: the block of a line is freed if it is not that of the line before; `none`: it is not allocated.
`src/kpatch_parse.c:760-776` (free_sections). -/
def freeSects (prev : Nat) (live : List Nat) : List Nat → Option (List Nat)
  | [] => some live
  | t :: ts => if t ≠ prev then (if t ∈ live then freeSects t (live.erase t) ts else none) else freeSects t live ts

end Verif
