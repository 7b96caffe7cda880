import Verif.Model.Fixup
/-
`kpatch_arch_fixup_addr_bias` of RISC-V and LoongArch: after the link of a patch is undone the symbols of functions of the
original program are set to the offset they have in the original.  On x86-64 and AArch64 the function does nothing
(`src/arch/x86/arch_strip.c` 238-242, `src/arch/aarch64/arch_strip.c` 118-122).
-/
namespace Verif

/-- The search in the original's symbols (from number 1 on): same name and same `st_info`, that is same type and same
binding; types and bindings the code never names count as one. `src/arch/riscv64/arch_strip.c:240-251`,
`src/arch/loongarch64/arch_strip.c:214-225`. -/
def biasFind (s : FixSym) (syms : List FixSym) : Option FixSym :=
  (syms.drop 1).find? fun o => o.name == s.name && o.sym.typ == s.sym.typ && o.sym.bind == s.sym.bind

/-- One symbol of the patch, `src/arch/riscv64/arch_strip.c:225-264`, `src/arch/loongarch64/arch_strip.c:199-238`; `none`:
a section does not exist. -/
def biasOne (orig patch : FixObj) (s : FixSym) : Option FixSym :=
  if s.sym.shndx = 0 ∨ s.sym.typ ≠ .func then some s
  else match patch.secs[s.sym.shndx]? with
    | none => none
    | some sec =>
      if (lit ".kpatch.").isPrefixOf sec.name then some s
      else match biasFind s orig.syms with
        | none => some s
        | some o =>
          match orig.secs[o.sym.shndx]? with
          | none => none
          | some osec =>
            if s.sym.value ≠ o.sym.value - osec.addr then
              some { s with sym := { s.sym with value := o.sym.value - osec.addr } }
            else some s

/-- The loop over the patch's symbols, `src/arch/riscv64/arch_strip.c:225-265`,
`src/arch/loongarch64/arch_strip.c:199-239`. -/
def biasGo (orig patch : FixObj) : List FixSym → Option (List FixSym)
  | [] => some []
  | s :: ss =>
    match biasOne orig patch s with
    | none => none
    | some s' => (biasGo orig patch ss).map (s' :: ·)

/-- `kpatch_arch_fixup_addr_bias` of RISC-V and LoongArch, `src/arch/riscv64/arch_strip.c:217-266`,
`src/arch/loongarch64/arch_strip.c:191-240`: the symbols of the patch afterwards; symbol 0 is left alone. -/
def fixupAddrBias (orig patch : FixObj) : Option (List FixSym) :=
  match patch.syms with
  | [] => some []
  | s0 :: ss => (biasGo orig patch ss).map (s0 :: ·)

end Verif
