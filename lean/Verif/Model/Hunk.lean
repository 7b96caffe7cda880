import Verif.Model.Arch
/-
Installing and removing the entry jumps of one patch.

Models `patch_apply_hunk` of the four `src/arch/*/arch_patch.c`, the hunk loop of
`object_apply_patch` and the restore loop of `object_unapply_patch` (`src/kpatch_patch.c`).
-/
namespace Verif

/-- `struct kpatch_info`, `src/include/kpatch_file.h` 199-208.  `applied` is the bit `PATCH_APPLIED`
of `flags`; `symstr`, `vaddr` and the other flag bits are never read by the patcher. -/
structure Info where
  daddr : Nat
  saddr : Nat
  dlen : Nat
  slen : Nat
  applied : Bool := false
  deriving DecidableEq, Repr

/-- `is_end_info`, `src/include/kpatch_file.h` 249-255. -/
def Info.isEnd (i : Info) : Bool := i.daddr == 0 && i.dlen == 0 && i.saddr == 0 && i.slen == 0

/-- `is_new_func`, `src/include/kpatch_file.h` 257-262. -/
def Info.isNew (i : Info) : Bool := i.daddr == 0 && i.dlen == 0

/-- What the kernel does with the three remote accesses of one hunk: how many bytes it is willing to
transfer for the read of the old code, the write of the undo copy and the write of the jump. The three remote accesses of `src/arch/x86/arch_patch.c` (patch_apply_hunk). -/
structure HunkFault where
  rlim : Nat
  wlim : Nat
  clim : Nat

/-- `patch_apply_hunk`: `src/arch/x86/arch_patch.c` 39-73, aarch64 33-71, loongarch64 30-79,
riscv64 35-69.  `undo` is `o->kpta + user_undo`, `n` the hunk number.  Result: memory, the record with
its local `PATCH_APPLIED` flag, "returned 0".  As in the code the flag is set even when the write of
the jump failed. -/
def applyHunk (a : Arch) (f : HunkFault) (m : Mem) (undo : Addr) (n : Nat) (i : Info) :
    Mem × Info × Bool :=
  if i.isNew then (m, i, true)
  else if !a.alignOk i.daddr then (m, i, false)
  else
    let c := memCpy f.rlim f.wlim m (undo + n * a.hunkSize) i.daddr a.hunkSize
    if !c.2 then (c.1, i, false)
    else
      match a.hunkCode (BitVec.ofNat 64 i.daddr) (BitVec.ofNat 64 i.saddr) with
      | none => (c.1, i, false)
      | some code =>
        let w := memWrite f.clim c.1 i.daddr code
        (w.1, { i with applied := true }, w.2)

/-- The loop `for (i = 0; i < o->ninfo; i++) patch_apply_hunk(o, i)`, `src/kpatch_patch.c` 443-447:
stops at the first failure.  `n` is the number of the first hunk of the list; `fs k` the behaviour of
the kernel during hunk `k`. -/
def applyHunks (a : Arch) (fs : Nat → HunkFault) (undo : Addr) : Mem → Nat → List Info →
    Mem × List Info × Bool
  | m, _, [] => (m, [], true)
  | m, n, i :: is =>
    let r := applyHunk a (fs n) m undo n i
    if !r.2.2 then (r.1, r.2.1 :: is, false)
    else
      let s := applyHunks a fs undo r.1 (n + 1) is
      (s.1, r.2.1 :: s.2.1, s.2.2)

/-- The restore loop of `object_unapply_patch`, `src/kpatch_patch.c` 700-720: new functions are
skipped, with `checkFlag` also the records whose local `PATCH_APPLIED` flag is not set. -/
def restoreHunks (a : Arch) (fs : Nat → HunkFault) (checkFlag : Bool) (undo : Addr) :
    Mem → Nat → List Info → Mem × Bool
  | m, _, [] => (m, true)
  | m, n, i :: is =>
    if i.isNew || (checkFlag && !i.applied) then restoreHunks a fs checkFlag undo m (n + 1) is
    else
      let c := memCpy (fs n).rlim (fs n).wlim m i.daddr (undo + n * a.hunkSize) a.hunkSize
      if !c.2 then (c.1, false)
      else restoreHunks a fs checkFlag undo c.1 (n + 1) is

end Verif
