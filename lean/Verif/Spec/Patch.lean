import Verif.Model.Patch
import Verif.Spec.Memory
/-
Specification vocabulary for whole patches: what a well-formed patch and a sane target look like.
-/
namespace Verif

/-- The record describes a replacement of an existing function (not an added function). -/
def Info.isOld (i : Info) : Prop := ¬ (i.daddr = 0 ∧ i.dlen = 0)

instance (i : Info) : Decidable i.isOld := inferInstanceAs (Decidable (¬ _))

/-- `x` is one of the entry bytes that the tool overwrites. -/
def IsEntryByte (a : Arch) (infos : List Info) (x : Nat) : Prop :=
  ∃ i ∈ infos, i.isOld ∧ InRange x i.daddr a.hunkSize

/-- The functions a patch replaces: each at least as long as the jump, pairwise disjoint, all of their
code mapped in the target. -/
structure FunctionsOk (a : Arch) (m : Mem) (infos : List Info) : Prop where
  long : ∀ i ∈ infos, i.isOld → a.hunkSize ≤ i.dlen
  disjoint : infos.Pairwise fun i j => i.isOld → j.isOld → RangesDisjoint i.daddr i.dlen j.daddr j.dlen
  mapped : ∀ i ∈ infos, i.isOld → Mapped m i.daddr i.dlen

/-- The record table inside the relocated image: `ninfo` records that are not end records and do not
carry the local flag, followed by the 24 zero bytes the build appends. -/
structure TableOk (image : List Byte) (off ninfo : Nat) : Prop where
  fits : off + 48 * ninfo + 24 ≤ image.length
  noEnd : ∀ i ∈ parseInfos image off ninfo, ¬ (i.daddr = 0 ∧ i.dlen = 0 ∧ i.saddr = 0 ∧ i.slen = 0)
  noFlag : ∀ i ∈ parseInfos image off ninfo, i.applied = false
  term : ∀ k, k < 24 → image[off + 48 * ninfo + k]? = some 0

end Verif
