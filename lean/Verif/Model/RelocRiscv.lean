import Verif.Model.Reloc
/-
Relocations of RISC-V patches, `src/arch/riscv64/arch_elf.c` 38-280 and
`src/arch/riscv64/riscv64_imm.h`.
-/
namespace Verif

/-- The `R_RISCV_*` types the code knows.  `ignored` are the types of lines 159-188 that are
consumed by the static linker (`NONE`, `BRANCH`, `RVC_BRANCH`, `TPREL_*`, `GPREL_*`, `ADD*`, `SUB*`,
`RELAX`). `src/arch/riscv64/arch_elf.c:159-264`. -/
inductive RvRel where
  | ignored | r32Pcrel | r32 | set32 | r64 | jal | call | callPlt | pcrelHi20 | hi20
  | pcrelLo12I | lo12I | pcrelLo12S | lo12S | rvcJump | rvcLui | tlsGotHi20
  | other (n : Nat)
  deriving DecidableEq, Repr

/-- `set_stype_imm`, `riscv64_imm.h` 23-38. -/
def rvSetStypeImm (ins : BitVec 32) (imm : BitVec 64) : BitVec 32 :=
  ((ins &&& 0x1fff07f#32).setWidth 64 ||| ((imm &&& 0xfe0#64) <<< 20) ||| ((imm &&& 0x1f#64) <<< 7)).setWidth 32

/-- `set_jtype_imm`, `riscv64_imm.h` 40-53. -/
def rvSetJtypeImm (ins : BitVec 32) (imm : BitVec 64) : BitVec 32 :=
  ((ins &&& 0xfff#32).setWidth 64 ||| ((imm &&& 0x100000#64) <<< 11) ||| (imm &&& 0xff000#64) |||
    ((imm &&& 0x800#64) <<< 9) ||| ((imm &&& 0x7fe#64) <<< 20)).setWidth 32

/-- `set_cjtype_imm`, `riscv64_imm.h` 73-91. -/
def rvSetCjtypeImm (ins : BitVec 16) (imm : BitVec 64) : BitVec 16 :=
  ((ins &&& 0xe003#16).setWidth 64 ||| ((imm &&& 0x800#64) <<< 1) ||| ((imm &&& 0x400#64) >>> 2) |||
    ((imm &&& 0x300#64) <<< 1) ||| ((imm &&& 0x80#64) >>> 1) ||| ((imm &&& 0x40#64) <<< 1) |||
    ((imm &&& 0x20#64) >>> 3) ||| ((imm &&& 0x10#64) <<< 7) ||| ((imm &&& 0xe#64) <<< 2)).setWidth 16

/-- `set_citype_imm`, `riscv64_imm.h` 94-109. -/
def rvSetCitypeImm (ins : BitVec 16) (imm : BitVec 64) : BitVec 16 :=
  ((ins &&& 0xef83#16).setWidth 64 ||| ((imm &&& 0x20000#64) >>> 5) ||| ((imm &&& 0x1f000#64) >>> 10)).setWidth 16

/-- What changes while a section is relocated: the symbol table, the local copy of the jump table and
the image. `src/arch/riscv64/arch_elf.c:103-280`. -/
structure RvState where
  syms : List Sym
  jtab : List Byte
  img : List Byte

/-- `adjust_got_jump_table`, `src/arch/riscv64/arch_elf.c` 74-101.  `peek` is `PTRACE_PEEKTEXT` in the
target, `jbase` the address of the jump table in the target (`kpta + jmp_offset`).  The result is `none`
on error, otherwise the new state and whether something was adjusted. -/
def rvAdjust (peek : BitVec 64 → Option (BitVec 64)) (jbase : BitVec 64) (st : RvState) (r : Rela RvRel) :
    Option (RvState × Bool) :=
  let s := st.syms.getD r.sym ⟨0, 0, 0, .notype, .loc⟩
  if !s.isUndef || s.typ ≠ .object || (r.typ ≠ .hi20 && r.typ ≠ .tlsGotHi20 && r.typ ≠ .rvcLui) then
    some (st, false)
  else
    match peek s.size with
    | none => none
    | some v =>
      let value' := s.value + 16#64
      some ({ st with
        syms := st.syms.set r.sym { s with value := value' }
        jtab := pokeAt st.jtab (value' - jbase).toNat (le64 v) }, true)

/-- `find_pcrel_hi_value`, `src/arch/riscv64/arch_elf.c` 38-61; the list holds the relocations before the
current one, the nearest first. -/
def rvHiValue (load : BitVec 64) (syms : List Sym) (v : BitVec 64) : List (Rela RvRel) → BitVec 64
  | [] => 0#64
  | r :: rs =>
    let s := syms.getD r.sym ⟨0, 0, 0, .notype, .loc⟩
    if r.offset = v.toNat ∧ r.typ = .pcrelHi20 then s.value
    else if r.offset = v.toNat ∧ r.typ = .tlsGotHi20 then
      if s.isUndef then s.value else r.addend + load
    else rvHiValue load syms v rs

/-- `(long)val == (long)(int)val`. Used in `src/arch/riscv64/arch_elf.c:159-264`. -/
def rvFits32 (v : BitVec 64) : Bool := (v.setWidth 32).signExtend 64 == v

/-- The `switch`, `src/arch/riscv64/arch_elf.c` 158-276. -/
def rvApply (load : BitVec 64) (sec : RelSec) (syms : List Sym) (done : List (Rela RvRel)) (r : Rela RvRel)
    (s : Sym) (val : BitVec 64) (data : List Byte) : Act :=
  let loc2 := sec.addr + BitVec.ofNat 64 r.offset
  let w := ld32 data
  let off := val - loc2
  match r.typ with
  | .ignored => .write []
  | .r32Pcrel => if rvFits32 off then .write (le32 (off.setWidth 32)) else .fail
  | .r32 | .set32 => if rvFits32 val then .write (le32 (val.setWidth 32)) else .fail
  | .r64 => .write (le64 val)
  | .jal =>
    if off >>> 21 ≠ 0#64 ∧ off &&& 0xfffffffffff00000#64 ≠ 0xfffffffffff00000#64 then .fail
    else .write (le32 (rvSetJtypeImm w off))
  | .call | .callPlt =>
    if rvFits32 off then
      .write (le32 (rvSetUtypeImm w off) ++ le32 (rvSetItypeImm (ld32 (data.drop 4)) off))
    else .fail
  | .pcrelHi20 => if rvFits32 off then .write (le32 (rvSetUtypeImm w off)) else .fail
  | .hi20 => if rvFits32 val then .write (le32 (rvSetUtypeImm w val)) else .fail
  | .pcrelLo12I =>
    let v := rvHiValue load syms (s.value - sec.addr) done
    if v = 0#64 then .fail else .write (le32 (rvSetItypeImm w (v - s.value)))
  | .lo12I => .write (le32 (rvSetItypeImm w val))
  | .pcrelLo12S =>
    let v := rvHiValue load syms (s.value - sec.addr) done
    if v = 0#64 then .fail else .write (le32 (rvSetStypeImm w (v - s.value)))
  | .lo12S => .write (le32 (rvSetStypeImm w val))
  | .rvcJump =>
    if val >>> 12 ≠ 0#64 ∧ val &&& 0xfffffffffffff800#64 ≠ 0xfffffffffffff800#64 then .fail
    else .write (le16 (rvSetCjtypeImm (ld16 data) val))
  | .rvcLui =>
    if val >>> 18 ≠ 0#64 ∧ val &&& 0xfffffffffffe0000#64 ≠ 0xfffffffffffe0000#64 then .fail
    else .write (le16 (rvSetCitypeImm (ld16 data) val))
  | .tlsGotHi20 =>
    let val := if !s.isUndef && s.typ = .tls then r.addend + load else val
    .write (le32 (rvSetUtypeImm w (val - loc2)))
  | .other _ => .fail

/-- The loop of `kpatch_arch_apply_relocate_add` for RISC-V, `src/arch/riscv64/arch_elf.c` 133-277.
`done` are the relocations already handled, the last one first. -/
def rvLoop (load : BitVec 64) (peek : BitVec 64 → Option (BitVec 64)) (jbase : BitVec 64) (sec : RelSec) :
    List (Rela RvRel) → List (Rela RvRel) → RvState → RvState × Bool
  | _, [], st => (st, true)
  | done, r :: rs, st =>
    if r.offset ≥ sec.size then (st, false)
    else
      match rvAdjust peek jbase st r with
      | none => (st, false)
      | some (st', adj) =>
        let s := st'.syms.getD r.sym ⟨0, 0, 0, .notype, .loc⟩
        let val := if adj then s.value else s.value + r.addend
        match rvApply load sec st'.syms done r s val (st'.img.drop (sec.fileOff + r.offset)) with
        | .write bs =>
          rvLoop load peek jbase sec (r :: done) rs { st' with img := pokeAt st'.img (sec.fileOff + r.offset) bs }
        | _ => (st', false)

/-- `kpatch_arch_apply_relocate_add` for RISC-V, `src/arch/riscv64/arch_elf.c` 103-280. -/
def rvRelocate (load : BitVec 64) (peek : BitVec 64 → Option (BitVec 64)) (jbase : BitVec 64) (sec : RelSec)
    (rs : List (Rela RvRel)) (st : RvState) : RvState × Bool :=
  rvLoop load peek jbase sec [] rs st

end Verif
