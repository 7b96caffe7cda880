import Verif.Proof.Restore
/-
C01 and C48: removing a patch restores the process; the records are found again.
-/
namespace Verif

/-- The state in which `unpatch` finds the target: nothing wrote the patch region or the patched
entries since the patch was applied, other memory may have changed. -/
def UndisturbedSince (a : Arch) (m1 m2 : Mem) (kpta : Nat) (l : Layout) (infos : List Info) : Prop :=
  ∀ x, InRange x kpta l.totalMem ∨ IsEntryByte a infos x → m2 x = m1 x

theorem undisturbed_in_place {a : Arch} {m0 m1 m2 : Mem} {kpta : Nat} {l : Layout} {hdr image : List Byte}
    {infos : List Info} (P : PatchInPlace a m0 m1 kpta l hdr image infos)
    (h : UndisturbedSince a m1 m2 kpta l infos) (hh : hdr.length ≤ l.totalMem)
    (hi : l.elfOffset + image.length ≤ l.totalMem) (hu : l.userUndo + a.hunkSize * infos.length ≤ l.totalMem) :
    PatchInPlace a m0 m2 kpta l hdr image infos where
  mapped := by
    intro k hk
    rw [h _ (Or.inl (InRange.add hk))]
    exact P.mapped k hk
  header := P.header.mono fun k hk => h _ (Or.inl (by simp only [InRange]; omega))
  image := P.image.mono fun k hk => h _ (Or.inl (by simp only [InRange]; omega))
  saved := by
    intro k hk ho j hj
    have hcomm : infos.length * a.hunkSize = a.hunkSize * infos.length := Nat.mul_comm _ _
    have hkk : (k + 1) * a.hunkSize ≤ infos.length * a.hunkSize := Nat.mul_le_mul_right _ (by omega)
    have hk1 : (k + 1) * a.hunkSize = k * a.hunkSize + a.hunkSize := by rw [Nat.add_mul]; omega
    rw [h _ (Or.inl (by simp only [InRange]; omega))]
    exact P.saved k hk ho j hj
  jumps := by
    intro i hi' ho
    obtain ⟨code, hc, hcode⟩ := P.jumps i hi' ho
    refine ⟨code, hc, hcode.mono fun k hk => h _ (Or.inr ⟨i, hi', ho, ?_⟩)⟩
    have := hunkCode_length a _ _ _ hc
    simp only [InRange]; omega

/-- Everything `unpatch` needs to know about the header it reads back. -/
theorem header_fields {a : Arch} {e : ApplyEnv} {file : List Byte} {m : Mem}
    {v : ElfView} {kpta : Nat} {image : List Byte} {l : Layout}
    (A : ApplyAssumptions a e file m v kpta image l) :
    leVal (((storeLayout (file.take hdrSize) l).drop offUserInfo).take 4) = l.elfOffset + v.infoOff ∧
    leVal (((storeLayout (file.take hdrSize) l).drop offUserUndo).take 4) = l.userUndo ∧
    leVal (((storeLayout (file.take hdrSize) l).drop offTotalMem).take 8) = l.totalMem ∧
    (storeLayout (file.take hdrSize) l).length = 504 ∧
    l.elfOffset + image.length ≤ l.userUndo ∧ l.userUndo + a.hunkSize * v.ninfo ≤ l.totalMem ∧
    504 ≤ l.elfOffset := by
  have hpg : 0 < e.page := by have := A.page; omega
  have hin := layout_ineq a e.page v.undef image.length v.infoOff v.ninfo hpg
    (by rw [← A.layout]; exact A.mem32) (by have := A.table.fits; omega)
  rw [← A.layout] at hin
  obtain ⟨i1, i2, i3, i4, i5, i6, i7⟩ := hin
  have hhl : (file.take hdrSize).length = 504 := by
    have := A.fileLen; rw [List.length_take]; simp only [hdrSize]; omega
  obtain ⟨hsl, -, g2, g3, g4, -⟩ := storeLayout_spec (file.take hdrSize) l hhl
  have hm := A.mem32
  have hf := A.table.fits
  refine ⟨?_, ?_, ?_, hsl, i2, i3, i1⟩
  · rw [leVal_field g2, i6]; omega
  · rw [leVal_field g3]; omega
  · rw [leVal_field g4]; omega

/-- C48.  After a successful apply, and as long as nothing writes the patch region, reading the records
back from the target (with the header found there) gives exactly the records that were written:
the same number, in the same order, with the same addresses and lengths. -/
theorem C48_records_read_back {a : Arch} {e : ApplyEnv} {ids : List (List Byte)} {file : List Byte}
    {m0 m2 : Mem} {v : ElfView} {kpta : Nat} {image : List Byte} {l : Layout} {eu : UnapplyEnv}
    (A : ApplyAssumptions a e file m0 v kpta image l)
    (happly : (objectApply a e ids file m0).2.2 = true)
    (hsame : UndisturbedSince a (objectApply a e ids file m0).1 m2 kpta l (parseInfos image v.infoOff v.ninfo))
    (U : UnapplyAssumptions a eu kpta l (parseInfos image v.infoOff v.ninfo))
    (hpage : e.page % 128 = 0) (hn : 0 < v.ninfo)
    (hdr : List Byte) (hlen : hdr.length = 504) (hhdr : Holds m2 kpta hdr) :
    findInfos eu ⟨kpta, some hdr, none, true⟩ m2 = some (parseInfos image v.infoOff v.ninfo) := by
  obtain ⟨P, -, -⟩ := objectApply_in_place A happly
  obtain ⟨f1, f2, f3, f4, f5, f6, f7⟩ := header_fields A
  have hil : (parseInfos image v.infoOff v.ninfo).length = v.ninfo := parseInfos_length _ _ _
  have P2 := undisturbed_in_place P hsame (by omega) (by omega) (by rw [hil]; exact f6)
  have heq : hdr = storeLayout (file.take hdrSize) l := hhdr.unique P2.header (by omega)
  subst heq
  have hpg : 0 < e.page := by have := A.page; omega
  have hsl := layout_slack a e.page v.undef image.length v.infoOff v.ninfo hpg hpage hn
    (by rw [← A.layout]; exact A.mem32) (by have := A.table.fits; omega)
  rw [← A.layout] at hsl
  exact findInfos_in_place P2 A.table U f1 (by omega)

/-- C01.  `objectApply` succeeded on memory `m0`; later, in memory `m2` where neither the patch region
nor the patched entries were written by anybody, a new run of the tool finds the patch (its header
`hdr` is what it reads at the patch address) and `objectUnapply` succeeds.  Then every overwritten
entry byte is what it was in `m0`, the patch region is unmapped as it was in `m0`, and no other
byte was changed by the removal itself (the target may run while the tool waits: `eu.safety`). -/
theorem C01_unpatch_restores {a : Arch} {e : ApplyEnv} {ids : List (List Byte)} {file : List Byte}
    {m0 m2 : Mem} {v : ElfView} {kpta : Nat} {image : List Byte} {l : Layout} {eu : UnapplyEnv}
    (A : ApplyAssumptions a e file m0 v kpta image l)
    (happly : (objectApply a e ids file m0).2.2 = true)
    (hsame : UndisturbedSince a (objectApply a e ids file m0).1 m2 kpta l (parseInfos image v.infoOff v.ninfo))
    (U : UnapplyAssumptions a eu kpta l (parseInfos image v.infoOff v.ninfo))
    (hpage : e.page % 128 = 0) (hn : 0 < v.ninfo)
    (hdr : List Byte) (hlen : hdr.length = 504) (hhdr : Holds m2 kpta hdr)
    (hun : (objectUnapply a eu false ⟨kpta, some hdr, none, true⟩ m2).2 = true) :
    (∀ x, IsEntryByte a (parseInfos image v.infoOff v.ninfo) x →
      (objectUnapply a eu false ⟨kpta, some hdr, none, true⟩ m2).1 x = m0 x) ∧
    (∀ x, InRange x kpta l.totalMem →
      (objectUnapply a eu false ⟨kpta, some hdr, none, true⟩ m2).1 x = none ∧ m0 x = none) ∧
    (∀ x, ¬ InRange x kpta l.totalMem → ¬ IsEntryByte a (parseInfos image v.infoOff v.ninfo) x →
      (objectUnapply a eu false ⟨kpta, some hdr, none, true⟩ m2).1 x = (eu.safety m2).1 x) := by
  have hfind := C48_records_read_back A happly hsame U hpage hn hdr hlen hhdr
  obtain ⟨P, -, -⟩ := objectApply_in_place A happly
  obtain ⟨f1, f2, f3, f4, f5, f6, f7⟩ := header_fields A
  have hil : (parseInfos image v.infoOff v.ninfo).length = v.ninfo := parseInfos_length _ _ _
  have P2 := undisturbed_in_place P hsame (by omega) (by omega) (by rw [hil]; exact f6)
  have heq : hdr = storeLayout (file.take hdrSize) l := hhdr.unique P2.header (by omega)
  subst heq
  obtain ⟨r1, r2, r3⟩ := objectUnapply_in_place P2 U hfind f2 f3 (entriesDisjoint_of_funcs A.funcs)
    (entriesAvoid_of_unmapped A.funcs A.free) f6 hun
  refine ⟨r1, fun x hx => ⟨r2 x hx, ?_⟩, r3⟩
  have := A.free (x - kpta) (by simp only [InRange] at hx; omega)
  simp only [InRange] at hx
  rwa [show kpta + (x - kpta) = x by omega] at this

/-- C01, the literal form: if nothing but the tool writes the process at all, the final address space is
the initial one, byte for byte, mapped where it was mapped and unmapped where it was not. -/
theorem C01_unpatch_restores_exactly {a : Arch} {e : ApplyEnv} {ids : List (List Byte)} {file : List Byte}
    {m0 : Mem} {v : ElfView} {kpta : Nat} {image : List Byte} {l : Layout} {eu : UnapplyEnv}
    (A : ApplyAssumptions a e file m0 v kpta image l)
    (happly : (objectApply a e ids file m0).2.2 = true)
    (U : UnapplyAssumptions a eu kpta l (parseInfos image v.infoOff v.ninfo))
    (hpage : e.page % 128 = 0) (hn : 0 < v.ninfo)
    (hdr : List Byte) (hlen : hdr.length = 504) (hhdr : Holds (objectApply a e ids file m0).1 kpta hdr)
    (hquiet1 : ∀ m, (e.safety m).1 = m) (hquiet2 : ∀ m, (eu.safety m).1 = m)
    (hun : (objectUnapply a eu false ⟨kpta, some hdr, none, true⟩ (objectApply a e ids file m0).1).2 = true) :
    (objectUnapply a eu false ⟨kpta, some hdr, none, true⟩ (objectApply a e ids file m0).1).1 = m0 := by
  obtain ⟨r1, r2, r3⟩ := C01_unpatch_restores A happly (fun _ _ => rfl) U hpage hn hdr hlen hhdr hun
  obtain ⟨-, -, mw, hw1, hw2⟩ := objectApply_in_place A happly
  funext x
  by_cases hx : InRange x kpta l.totalMem
  · rw [(r2 x hx).1, (r2 x hx).2]
  · by_cases he : IsEntryByte a (parseInfos image v.infoOff v.ninfo) x
    · exact r1 x he
    · rw [r3 x hx he, hquiet2, hw2 x hx he, hquiet1, hw1 x hx]

/-! ### A concrete run meeting all hypotheses -/

namespace ExRestore

/-- An image with one record (old function 0x1000 of 16 bytes, replacement 0x20200 of 32 bytes) and the
terminator. -/
def image : List Byte :=
  leBytes 8 0x1000 ++ leBytes 8 0x20200 ++ leBytes 4 16 ++ leBytes 4 32 ++ leBytes 24 0 ++ leBytes 24 0
def file : List Byte := setField (List.replicate 504 0) offTotalSize 4 (504 + 72)
/-- The process: 256 bytes of code at 0x1000. -/
def mem : Mem := fun x => if 0x1000 ≤ x ∧ x < 0x1100 then some (BitVec.ofNat 8 (x * 7)) else none
def fault : HunkFault := ⟨100, 100, 100⟩
def applyEnv : ApplyEnv where
  page := 4096
  dupOk := true
  view := some ⟨0, 1, 0⟩
  jtblOk := true
  region := some 0x20000
  splitOk := true
  image := some image
  jmpTable := []
  wImage := 10000
  wHdr := 10000
  wJmp := 10000
  safety := fun m => (m, true)
  hunk := fun _ => fault
  mprotectOk := true
def unapplyEnv : UnapplyEnv where
  page := 128
  reads := fun _ => .upTo 4096
  fuel := 10
  safety := fun m => (m, true)
  hunk := fun _ => fault
  munmapOk := true

theorem infos_eq : parseInfos image 0 1 = [⟨0x1000, 0x20200, 16, 32, false⟩] := by decide
theorem total_eq : layout .x86 4096 0 (504 + 72) 0 1 = ⟨none, 4096, 4096, 4224, 8192⟩ := by decide

theorem applyOk : ApplyAssumptions .x86 applyEnv file mem ⟨0, 1, 0⟩ 0x20000 image ⟨none, 4096, 4096, 4224, 8192⟩ where
  view := rfl
  region := rfl
  relocated := fun _ h => (Option.some.inj h).symm
  layout := by rw [← total_eq]; rfl
  fileLen := by decide +kernel
  page := by decide
  size := by decide +kernel
  mem32 := by decide
  table := ⟨by decide, by rw [infos_eq]; decide, by rw [infos_eq]; decide, by decide⟩
  free := by
    intro k hk
    simp only [mem]
    rw [if_neg (by simp only at hk; omega)]
  funcs := by
    rw [infos_eq]
    refine ⟨by simp [Arch.hunkSize], by simp, ?_⟩
    intro i hi _ k hk
    simp only [List.mem_singleton] at hi
    subst hi
    simp only [mem] at *
    rw [if_pos (by omega)]
    simp
  wait := fun _ _ _ => rfl

theorem apply_true : (objectApply .x86 applyEnv [] file mem).2.2 = true := by decide +kernel

theorem unapplyOk : UnapplyAssumptions .x86 unapplyEnv 0x20000 ⟨none, 4096, 4096, 4224, 8192⟩ (parseInfos image 0 1) where
  page := by decide
  reads := fun _ => ⟨4096, by decide, rfl⟩
  fuel := by decide
  addr := by decide
  wait := fun _ _ _ => rfl

/-- The removal of that patch succeeds too. -/
example : (objectUnapply .x86 unapplyEnv false
    ⟨0x20000, some (storeLayout (file.take hdrSize) ⟨none, 4096, 4096, 4224, 8192⟩), none, true⟩
    (objectApply .x86 applyEnv [] file mem).1).2 = true := by decide +kernel

end ExRestore

end Verif
