/-
The architectures.
-/
namespace Verif

/-- The four architectures. The directories under src/arch; see `src/arch/x86/arch_ptrace.c`, `src/arch/aarch64/arch_ptrace.c`, `src/arch/riscv64/arch_ptrace.c`, `src/arch/loongarch64/arch_ptrace.c`. -/
inductive Isa
  | x86 | aarch64 | loongarch | riscv
  deriving DecidableEq, Repr

/-- The architecture the assembler tools are built for: the build takes `src/arch/<name>/arch_parse.c` of one of
them (`src/Makefile`).  A class, so that everything said about these tools is said for each of the four. -/
class AsmTarget where
  isa : Isa

/-- The tools for x86-64. `src/arch/x86/arch_parse.c`. -/
@[reducible] def x86Asm : AsmTarget := ⟨.x86⟩

/-- The tools for AArch64. `src/arch/aarch64/arch_parse.c`. -/
@[reducible] def a64Asm : AsmTarget := ⟨.aarch64⟩

/-- The tools for RISC-V. `src/arch/riscv64/arch_parse.c`. -/
@[reducible] def riscvAsm : AsmTarget := ⟨.riscv⟩

/-- The tools for LoongArch. `src/arch/loongarch64/arch_parse.c`. -/
@[reducible] def loongAsm : AsmTarget := ⟨.loongarch⟩

end Verif
