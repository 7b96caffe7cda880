import Verif.Model.Fixup
import Verif.Model.RelocA64
import Verif.Model.RelocRiscv
import Verif.Model.RelocLoong
/-
The rewriting of relocations of a linked patch on AArch64, RISC-V and LoongArch: `kpatch_fixup_rela` of
`src/kpatch_strip.c` with `src/arch/aarch64/arch_strip.c`, `src/arch/riscv64/arch_strip.c` and
`src/arch/loongarch64/arch_strip.c`.  Simplified as in `Verif.Model.Fixup`.

The code common to all architectures tests for four type numbers of x86-64 (4, 9, 41 and 42).  On the others these
numbers are dynamic or obsolete types that do not occur in a relocation section of a linked patch, so the tests are left
out, and with them the change of the section's contents.
-/
namespace Verif

/-- `kpatch_fixup_rela_one`, `src/kpatch_strip.c:398-506`: the rewritten relocation and the patch, whose symbol may have
been changed (567-571).  `upd` is `kpatch_arch_fixup_rela_update_tls` and `copied` is `kpatch_arch_fixup_rela_copy`, both
of the architecture; `none`: refused or fatal. -/
def archFixOne {T : Type} (upd : FixSym → Rela T → Option (Rela T)) (copied : CStr → Bool) (ours : List Nat)
    (patch : FixObj) (r : Rela T) : Option (Rela T × FixObj) :=
  match patch.syms[r.sym]? with
  | none => none
  | some s =>
    if s.sym.typ = .sect then some (r, patch)
    else if s.sym.typ = .tls then (upd s r).map fun r' => (r', patch)
    else if isOurSection ours s.sym.shndx then some (r, patch)
    else if s.sym.typ ≠ .notype ∧ s.sym.typ ≠ .func ∧ s.sym.typ ≠ .object ∧ s.sym.bind ≠ .loc then none
    else
      let r1 := if s.sym.bind = .loc ∧ s.name.head? = some 0x2e#8 then
          (localSymLoc patch s.sym).map fun (i, off) => { r with sym := i, addend := r.addend + off }
        else some r
      match r1 with
      | none => none
      | some r1 =>
        if s.sym.shndx ≠ 0 ∧ copied s.name = true then
          some (r1, { patch with syms := patch.syms.set r1.sym { s with sym := { s.sym with shndx := 0 } } })
        else some (r1, patch)

/-- The loop of `kpatch_fixup_rela`, `src/kpatch_strip.c:542-572`. -/
def archFixGo {T : Type} (upd : FixSym → Rela T → Option (Rela T)) (copied : CStr → Bool) (ours : List Nat) :
    FixObj → List (Rela T) → Option (List (Rela T) × FixObj)
  | patch, [] => some ([], patch)
  | patch, r :: rs =>
    match archFixOne upd copied ours patch r with
    | none => none
    | some (r', patch') =>
      match archFixGo upd copied ours patch' rs with
      | none => none
      | some (rs', patch'') => some (r' :: rs', patch'')

/-- `kpatch_fixup_rela`, `src/kpatch_strip.c:508-577`, as called by `kpatch_rel_fixup` (579-643) for one relocation
section, after both objects were loaded. -/
def archFix {T : Type} (upd : FixSym → Rela T → Option (Rela T)) (copied : CStr → Bool) (orig patch : FixObj)
    (rs : List (Rela T)) : Option (List (Rela T) × FixObj) :=
  match kpatchSections orig, kpatchSections patch with
  | some _, some ours => archFixGo upd copied ours patch rs
  | _, _ => none

/-- `kpatch_arch_fixup_rela_copy`, `src/arch/riscv64/arch_strip.c:192-202` and
`src/arch/loongarch64/arch_strip.c:179-189`, with `kpatch_objinfo_find_scn_by_name`,
`src/kpatch_elf_objinfo.c:126-149`. -/
def copiedName (orig : FixObj) (name : CStr) : Bool :=
  name.contains 0x40#8 && !(orig.secs.drop 1).any fun s => s.name == name

/-- An entry of `.rela.dyn`; `D` are the types of the architecture. Used at `src/kpatch_elf_objinfo.c:164-212`. -/
structure DynRelOf (D : Type) where
  offset : BitVec 64
  typ : D
  sym : Nat
  addend : BitVec 64
  deriving DecidableEq, Repr

/-- `kpatch_objinfo_load_tls_reladyn`, `src/kpatch_elf_objinfo.c:164-212`; `isTls` is `kpatch_is_tls_rela`. -/
def loadReladyn {D : Type} (isTls : D → Bool) : Option (List (DynRelOf D)) → Option (List (DynRelOf D))
  | none => none
  | some l =>
    let l := l.dropWhile fun d => !isTls d.typ
    let l := (l.reverse.dropWhile fun d => !isTls d.typ).reverse
    if l.isEmpty then none else some l

/-- The loop of `objinfo_find_tls_got_by_offset`, `src/arch/riscv64/arch_strip.c:55-62` and
`src/arch/loongarch64/arch_strip.c:40-48`; `sel` is the test of the type. -/
def gotByOffset {D : Type} (sel : D → Bool) (off : BitVec 64) : List (DynRelOf D) → Option (BitVec 64)
  | [] => none
  | d :: ds =>
    if !sel d.typ then gotByOffset sel off ds
    else if d.sym == 0 && d.addend == off then some d.offset
    else gotByOffset sel off ds

/-- The loop of `objinfo_find_tls_got_by_symname`, `src/arch/riscv64/arch_strip.c:82-101` and
`src/arch/loongarch64/arch_strip.c:68-87` (there the addend is only tested after the name, 84-85, which can only differ
for a dynamic symbol that does not exist); `none` also when the dynamic symbol does not exist (fatal). -/
def gotByName {D : Type} (sel : D → Bool) (names : List CStr) (name : CStr) : List (DynRelOf D) → Option (BitVec 64)
  | [] => none
  | d :: ds =>
    if !sel d.typ then gotByName sel names name ds
    else if d.sym == 0 || d.addend != 0#64 then gotByName sel names name ds
    else match names[d.sym]? with
      | none => none
      | some n => if n == name then some d.offset else gotByName sel names name ds

/-! ### RISC-V -/

/-- The types of dynamic relocations that `kpatch_is_tls_rela` distinguishes on RISC-V,
`src/include/kpatch_elf_objinfo.h:66-73`. -/
inductive RvDyn where
  | tprel32 | tprel64 | other
  deriving DecidableEq, Repr

/-- `kpatch_is_tls_rela` on RISC-V, `src/include/kpatch_elf_objinfo.h:66-73`. -/
def rvIsTls (t : RvDyn) : Bool := t == .tprel32 || t == .tprel64

/-- The types of relocations of a linked patch that `kpatch_arch_fixup_rela_update_tls` distinguishes,
`src/arch/riscv64/arch_strip.c:162-171`; `run` are the ones with their own name in `RvRel`. -/
inductive RvFixRel where
  | tprelHi20 | tprelAdd | tprelLo12I | tprelLo12S | tprelI | tprelS
  | run (t : RvRel)
  deriving DecidableEq, Repr

/-- How the types are seen when the patch is applied: the `TPREL` types are ignored there,
`src/arch/riscv64/arch_elf.c:159-188`. -/
def RvFixRel.applied : RvFixRel → RvRel
  | .run t => t
  | _ => .ignored

/-- `update_reloc_with_tls_got_entry` on RISC-V, `src/arch/riscv64/arch_strip.c:107-151`: the new addend; `none`:
refused or fatal. -/
def rvGotEntry (names : List CStr) (dyn : Option (List (DynRelOf RvDyn))) (s : FixSym) : Option (BitVec 64) :=
  let name := s.name.takeWhile (· != 0x40#8)
  if s.sym.bind = .loc ∨ s.sym.shndx ≠ 0 then (loadReladyn rvIsTls dyn).bind (gotByOffset rvIsTls s.sym.value)
  else if s.sym.bind = .glob then (loadReladyn rvIsTls dyn).bind (gotByName rvIsTls names name)
  else none

/-- `kpatch_arch_fixup_rela_update_tls` on RISC-V, `src/arch/riscv64/arch_strip.c:154-180`. -/
def rvUpdateTls (names : List CStr) (dyn : Option (List (DynRelOf RvDyn))) (s : FixSym) (r : Rela RvFixRel) :
    Option (Rela RvFixRel) :=
  match r.typ with
  | .tprelHi20 | .tprelAdd | .tprelLo12I | .tprelLo12S | .tprelI | .tprelS => some r
  | .run .tlsGotHi20 => (rvGotEntry names dyn s).map fun got => { r with addend := got }
  | .run _ => none

/-- `kpatch_fixup_rela` on RISC-V, `src/kpatch_strip.c:508-577`; `dyn` is `.rela.dyn` of the original. -/
def rvFixup (orig : FixObj) (dyn : Option (List (DynRelOf RvDyn))) (patch : FixObj) (rs : List (Rela RvFixRel)) :
    Option (List (Rela RvFixRel) × FixObj) :=
  archFix (rvUpdateTls orig.dynNames dyn) (copiedName orig) orig patch rs

/-! ### LoongArch -/

/-- The types of dynamic relocations the code distinguishes on LoongArch: those of `kpatch_is_tls_rela`,
`src/include/kpatch_elf_objinfo.h:74-80`, and those of `src/arch/loongarch64/arch_strip.c:41-42`. -/
inductive LoongDyn where
  | tprel32 | tprel64 | ieHi20 | ieLo12 | other
  deriving DecidableEq, Repr

/-- `kpatch_is_tls_rela` on LoongArch, `src/include/kpatch_elf_objinfo.h:74-80`. -/
def loongIsTls (t : LoongDyn) : Bool := t == .tprel32 || t == .tprel64

/-- The test of the loops, `src/arch/loongarch64/arch_strip.c:41-43` and `src/arch/loongarch64/arch_strip.c:71-73`. -/
def loongSel (t : LoongDyn) : Bool := t == .ieHi20 || t == .ieLo12

/-- The types of relocations of a linked patch that `kpatch_arch_fixup_rela_update_tls` distinguishes,
`src/arch/loongarch64/arch_strip.c:149-175`; `leHi20`, `leHi20R` and `leAddR` are the other types of the local-exec model
(refused there), `run` are the ones with their own name in `LoongRel`. -/
inductive LoongFixRel where
  | leLo12 | leLo12R | leHi20 | leHi20R | leAddR
  | run (t : LoongRel)
  deriving DecidableEq, Repr

/-- `objinfo_find_tls_got_by_offset`, `src/arch/loongarch64/arch_strip.c:27-52`: 0 if there is none. -/
def loongGotByOffset (dyn : Option (List (DynRelOf LoongDyn))) (off : BitVec 64) : Option (BitVec 64) :=
  (loadReladyn loongIsTls dyn).map fun l => (gotByOffset loongSel off l).getD 0#64

/-- `update_reloc_with_tls_got_entry` on LoongArch, `src/arch/loongarch64/arch_strip.c:93-137`. -/
def loongGotEntry (names : List CStr) (dyn : Option (List (DynRelOf LoongDyn))) (s : FixSym) : Option (BitVec 64) :=
  let name := s.name.takeWhile (· != 0x40#8)
  if s.sym.bind = .loc ∨ s.sym.shndx ≠ 0 then loongGotByOffset dyn s.sym.value
  else if s.sym.bind = .glob then (loadReladyn loongIsTls dyn).bind (gotByName loongSel names name)
  else none

/-- `kpatch_arch_fixup_rela_update_tls` on LoongArch, `src/arch/loongarch64/arch_strip.c:139-177`. -/
def loongUpdateTls (orig : FixObj) (dyn : Option (List (DynRelOf LoongDyn))) (s : FixSym) (r : Rela LoongFixRel) :
    Option (Rela LoongFixRel) :=
  match r.typ with
  | .leLo12 | .leLo12R =>
    match origTlsLoc orig s.name with
    | none => none
    | some off => if off ≠ s.sym.value then none else some { r with sym := 0, typ := .run .none }
  | .run .tlsIePcHi20 | .run .tlsIePcLo12 | .run .tlsIeHi20 | .run .tlsIeLo12 =>
    (loongGotEntry orig.dynNames dyn s).map fun got => { r with addend := got }
  | _ => none

/-- `kpatch_fixup_rela` on LoongArch, `src/kpatch_strip.c:508-577`; `dyn` is `.rela.dyn` of the original. -/
def loongFixup (orig : FixObj) (dyn : Option (List (DynRelOf LoongDyn))) (patch : FixObj) (rs : List (Rela LoongFixRel)) :
    Option (List (Rela LoongFixRel) × FixObj) :=
  archFix (loongUpdateTls orig dyn) (copiedName orig) orig patch rs

/-! ### AArch64 -/

/-- `objinfo_find_tls_got_by_offset`, `src/arch/aarch64/arch_strip.c:46-70`, on the instruction `w` of a section at
`shAddr`: all in 32 bits. -/
def a64GotPage (shAddr : BitVec 64) (w : BitVec 32) : BitVec 32 :=
  let imm := (((w >>> 5) &&& 0x7ffff#32) <<< 2) ||| ((w >>> 29) &&& 0x3#32)
  (imm <<< 12) + ((shAddr &&& 0xfffff000#64).setWidth 32)

/-- `kpatch_arch_fixup_rela_update_tls` on AArch64, `src/arch/aarch64/arch_strip.c:72-109`; `text` are the contents of
the section at `shAddr` (a load outside of them is undefined behaviour in C, `none` here). -/
def a64UpdateTls (shAddr : Nat) (text : List Byte) (s : FixSym) (r : Rela A64Rel) : Option (Rela A64Rel) :=
  if s.sym.bind = .loc then some r
  else match r.typ with
    | .tlsieAdrPage21 =>
      if r.offset < shAddr ∨ text.length < r.offset - shAddr + 4 then none
      else some { r with addend :=
        (a64GotPage (BitVec.ofNat 64 shAddr) (ld32 (text.drop (r.offset - shAddr)))).setWidth 64 }
    | .tlsieLd64Lo12 => some r
    | _ => none

/-- `kpatch_fixup_rela` on AArch64, `src/kpatch_strip.c:508-577`; `kpatch_arch_fixup_rela_copy` does nothing
(`src/arch/aarch64/arch_strip.c:111-116`). -/
def a64Fixup (orig patch : FixObj) (shAddr : Nat) (text : List Byte) (rs : List (Rela A64Rel)) :
    Option (List (Rela A64Rel) × FixObj) :=
  archFix (a64UpdateTls shAddr text) (fun _ => false) orig patch rs

end Verif
