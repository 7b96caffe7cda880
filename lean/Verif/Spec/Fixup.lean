import Verif.Spec.Reloc
import Verif.Model.Fixup
/-
Specification for C68: what a relocation refers to and what a few instructions do, written from the psABI and the
processor manual.  From the model only the types of the input (sections, symbols, relocations) are used.
-/
namespace Verif
open Cpu

/-- Where the things of a patch are when it runs: the address of each of its sections, and the addresses of the symbols
that are defined elsewhere, by symbol number. -/
structure Placement where
  sec : Nat → BitVec 64
  ext : Nat → BitVec 64

/-- The address, when the patch runs, of symbol number `i` of the linked object `o`: a section symbol stands for its
section, another defined symbol keeps its distance from the start of its section. -/
def runAddr (o : FixObj) (P : Placement) (i : Nat) (s : Sym) : BitVec 64 :=
  if s.shndx = 0 ∨ s.shndx ≥ 0xff00 then P.ext i
  else if s.typ = .sect then P.sec s.shndx
  else P.sec s.shndx + (s.value - ((o.secs[s.shndx]?).map FixSec.addr).getD 0)

/-- The address a relocation refers to. -/
def refersTo (o : FixObj) (P : Placement) (r : Rela X86Rel) : Option (BitVec 64) :=
  (o.syms[r.sym]?).map fun s => runAddr o P r.sym s.sym + r.addend

/-- What linkers produce: section symbols name real sections, and the number of sections is below the reserved
section numbers. -/
def LinkedObj (o : FixObj) : Prop :=
  (∀ s ∈ o.syms, s.sym.typ = .sect → s.sym.shndx ≠ 0) ∧ o.secs.length ≤ 0xff00

/-- Section number `n` is one of the patch's own sections, those named `.kpatch...`. -/
def OwnSection (o : FixObj) (n : Nat) : Prop :=
  n ≠ 0 ∧ ∃ sec, o.secs[n]? = some sec ∧ lit ".kpatch" <+: sec.name

/-- Relocations of instructions that read the address of a symbol from the global offset table (psABI, `GOTPCREL`,
`GOTPCRELX`, `REX_GOTPCRELX`). -/
def ReadsAddress (t : X86Rel) : Prop := t = .gotpcrel ∨ t = .gotpcrelx ∨ t = .rexGotpcrelx

/-- The symbol is a variable or function that the linked program defines outside of the patch's own sections. -/
def OfProgram (o : FixObj) (s : Sym) : Prop :=
  s.shndx ≠ 0 ∧ s.typ ≠ .sect ∧ s.typ ≠ .tls ∧ ¬ OwnSection o s.shndx

/-- The object has at most sixteen sections of its own. -/
def FewOwnSections (o : FixObj) : Prop := ((o.secs.drop 1).filter fun s => (lit ".kpatch").isPrefixOf s.name).length ≤ 16

/-- A relocation of a section at `shAddr` with `n` bytes that is not of thread-local storage and has what is needed to
rewrite it: its symbol is one that can be defined by a program, or local; if the symbol is a local label (`.L...`), its
section is there and has a symbol; if the instruction reads the address of the symbol, its opcode is in the section. -/
def Rewritable (o : FixObj) (shAddr n : Nat) (r : Rela X86Rel) : Prop :=
  ∃ s, o.syms[r.sym]? = some s ∧ s.sym.typ ≠ .tls ∧
    (s.sym.typ = .notype ∨ s.sym.typ = .func ∨ s.sym.typ = .object ∨ s.sym.typ = .sect ∨ s.sym.bind = .loc) ∧
    (s.sym.bind = .loc → s.name.head? = some 0x2e#8 →
      (∃ sec, o.secs[s.sym.shndx]? = some sec ∧ sec.addr ≤ s.sym.value) ∧
      ∃ q ∈ o.syms, q.sym.typ = .sect ∧ q.sym.shndx = s.sym.shndx) ∧
    (ReadsAddress r.typ → shAddr + 2 ≤ r.offset ∧ r.offset - shAddr - 2 < n)

/-- Instructions with an operand relative to the instruction pointer, without their `REX` prefix: `mov a(%rip), reg`
reads the register from memory, `lea a(%rip), reg` sets it to the address `a`; `alu` is any other one-byte opcode. -/
inductive RipInsn where
  | mov (reg : BitVec 3) (a : BitVec 64)
  | lea (reg : BitVec 3) (a : BitVec 64)
  | alu (op : Byte) (reg : BitVec 3) (a : BitVec 64)
  deriving DecidableEq, Repr

/-- Decoding of opcode, ModRM byte (mod 00, r/m 101) and displacement; `pc` is the address of the opcode, and the
displacement counts from the next instruction. -/
def ripInsn (pc : BitVec 64) : List Byte → Option RipInsn
  | [op, m, d0, d1, d2, d3] =>
    if m &&& 0xc7#8 = 0x05#8 then
      let a := pc + 6#64 + (fetch32 d0 d1 d2 d3).signExtend 64
      some (if op = 0x8b#8 then .mov (m.extractLsb' 3 3) a
        else if op = 0x8d#8 then .lea (m.extractLsb' 3 3) a
        else .alu op (m.extractLsb' 3 3) a)
    else none
  | _ => none

/-- The relocations as they are applied: with the offset in the section instead of the linked address. -/
def sectionRelative (shAddr : Nat) (r : Rela X86Rel) : Rela X86Rel := { r with offset := r.offset - shAddr }

/-- The symbol table when the relocations are applied: the patch's symbols with their final addresses. -/
def Resolved (o : FixObj) (P : Placement) (syms : List Sym) : Prop :=
  ∀ i s, o.syms[i]? = some s → s.sym.typ ≠ .tls →
    ∃ s', syms[i]? = some s' ∧ s'.typ = s.sym.typ ∧ s'.shndx = s.sym.shndx ∧ s'.value = runAddr o P i s.sym

/-- The offset of a thread-local variable from the thread pointer, the number in the instructions of the local-exec and
initial-exec models: the segment ends at the thread pointer (psABI, variant II). -/
def tpOffset (o : FixObj) (s : Sym) : Int := s.value.toNat - o.tlsSize

/-- The dynamic loader stores the offset from the thread pointer of the variable `s` of the program `o` at linked
address `slot`: there is a `TPOFF64` relocation for the variable, by its offset in the segment for variables of the
program itself, by its name for variables of a library. -/
def OffsetSlot (o : FixObj) (s : FixSym) (slot : BitVec 64) : Prop :=
  ∃ all, o.relaDyn = some all ∧ ∃ d ∈ all, d.typ = .tpoff64 ∧ d.offset = slot ∧
    (((s.sym.bind = .loc ∨ s.sym.shndx ≠ 0) ∧ d.sym = 0 ∧ d.addend = s.sym.value) ∨
     (s.sym.bind = .glob ∧ s.sym.shndx = 0 ∧ d.sym ≠ 0 ∧ d.addend = 0#64 ∧
      o.dynNames[d.sym]? = some (s.name.takeWhile (· != 0x40#8))))

end Verif
