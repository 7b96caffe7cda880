import Verif.Model.Patch
/-
Specification: when applying a patch meets no failure.
-/
namespace Verif

/-- Nothing outside the tool fails while the patch is applied, and the patch is not applied yet: there is memory in the
tool and in the target, symbols are found and relocations fit (`image`), all reads and writes of the target are complete, all
threads leave the functions, and the final `mprotect` succeeds. -/
structure NothingFails (a : Arch) (e : ApplyEnv) (ids : List (List Byte)) (file : List Byte) (image : List Byte) (undef : Nat) : Prop where
  malloc : e.dupOk = true ∧ e.jtblOk = true ∧ e.splitOk = true
  fresh : cstr (kpId file) ∉ ids
  prepared : e.image = some image
  writes : image.length ≤ e.wImage ∧ 504 ≤ e.wHdr ∧ jmpTableSize a undef ≤ e.wJmp
  safe : ∀ m, (e.safety m).2 = true
  hunks : ∀ k, a.hunkSize ≤ (e.hunk k).rlim ∧ a.hunkSize ≤ (e.hunk k).wlim ∧ a.hunkSize ≤ (e.hunk k).clim
  mprotect : e.mprotectOk = true

end Verif
