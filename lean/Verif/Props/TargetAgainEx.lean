import Verif.Props.TargetAgain
import Verif.Props.TargetEx
/-
C83: a process that has the patch already.
-/
namespace Verif
open Cpu

namespace ExTargetAgain
open ExTarget (foo libc fooObj libcObj obj img file fn T bid hex note line1 line2 fooNum libcNum)

/-- The memory of the applied patch. -/
def kp : KVma := ⟨0x555500002000, 0x555500004000, true, false, true, false, 0, 0, 0, 0, []⟩
def line3 : List Byte := lit "555500002000-555500004000 r-xp 00000000 00:00 0 "
def text : List Byte := line1 ++ 10#8 :: (line3 ++ 10#8 :: (line2 ++ 10#8 :: []))

theorem isText : MapsText [foo, kp, libc] [line1, line3, line2] text := by
  refine .cons (ExMaps.line [5,5,5,5,0,0,0,0,0,0,0,0] [5,5,5,5,0,0,0,0,1,0,0,0] [0,0,0,0,0,0,0,0] [0,8] [0,1] [1,1] 24 ?_ ?_ ?_ ?_ ?_ ?_ ?_) <|
    .cons (ExMaps.line [5,5,5,5,0,0,0,0,2,0,0,0] [5,5,5,5,0,0,0,0,4,0,0,0] [0,0,0,0,0,0,0,0] [0,0] [0,0] [0] 0 ?_ ?_ ?_ ?_ ?_ ?_ ?_) <|
    .cons (ExMaps.line [7,15,0,0,0,0,0,0,0,0,0,0] [7,15,0,0,0,0,0,0,1,0,0,0] [0,0,0,0,0,0,0,0] [0,8] [0,1] [1,2] 24 ?_ ?_ ?_ ?_ ?_ ?_ ?_) .nil
  all_goals decide +kernel

/-- The header of the applied patch: the magic number, its id and the build id. -/
def hdr : List Byte := kpatchMagic ++ lit "7" ++ List.replicate 79 0 ++ hex ++ List.replicate 896 0
def mem : Mem := fun x =>
  if 0x555500002000 ≤ x ∧ x < 0x555500002000 + 0x2000 then some (hdr.getD (x - 0x555500002000) 0) else ExTarget.mem x

def kpMap : Mapping := ⟨0x555500002000, 0x555500004000, 5, 0, 0, "[anonymous]"⟩
def kpObj : Obj := ⟨0, 0, "[kpatch-030e19242f3a45505b66717c87929da8b3bec9d4]", [kpMap], true, false, hdr⟩

theorem mem_other {x : Nat} (h : ¬ (0x555500002000 ≤ x ∧ x < 0x555500002000 + 0x2000)) : mem x = ExTarget.mem x := if_neg h
theorem fooMapped : Mapped mem ExObj.progStart 1024 := by
  intro k hk
  rw [mem_other (by simp only [ExObj.progStart]; omega)]
  exact ExTarget.fooMapped k hk
theorem libcMapped : Mapped mem ExObj.libStart 1024 := by
  intro k hk
  rw [mem_other (by simp only [ExObj.libStart]; omega)]
  exact ExTarget.libcMapped k hk

theorem fooLoaded : LoadedElf .x86 ExObj.page mem fooObj (ExObj.image 4 ExObj.progStart 0x3e0#64) :=
  ExObj.loaded rfl (by decide) rfl fooMapped (by decide) (by decide) (by decide) (by decide) (by decide)
    (by decide +kernel) (by decide +kernel)
theorem libcLoaded : LoadedElf .x86 ExObj.page mem libcObj (ExObj.image 3 ExObj.libStart 0x3f0#64) :=
  ExObj.loaded rfl (by decide) rfl libcMapped (by decide) (by decide) (by decide) (by decide) (by decide)
    (by decide +kernel) (by decide +kernel)

theorem fooId : HasBuildId mem fooObj (ExObj.image 4 ExObj.progStart 0x3e0#64) (some bid) := by
  refine ⟨_, [.other 0 0x400, .other 232 80, .notes 0x300 [note]], rfl, by decide +kernel, ?_, ?_, ?_, ?_, ?_, by decide +kernel⟩
  · intro s hs
    simp only [List.mem_cons, List.not_mem_nil, or_false] at hs
    rcases hs with rfl | rfl | rfl
    · trivial
    · trivial
    · have h1 : ∀ k, (h : k < (notesEncoded [note]).length) → mem (ExObj.progStart + 0x300 + k) = some (notesEncoded [note])[k] := by
        decide +kernel
      refine ⟨h1, ?_⟩
      exact ExObj.mapped_sub fooMapped (by show ExObj.progStart ≤ ExObj.progStart + 0x300; omega) (by decide +kernel)
  all_goals
    intro off ns hs
    simp only [List.mem_cons, List.not_mem_nil, or_false, reduceCtorEq, false_or, PSeg.notes.injEq] at hs
    obtain ⟨rfl, rfl⟩ := hs
    decide +kernel
theorem libcId : HasBuildId mem libcObj (ExObj.image 3 ExObj.libStart 0x3f0#64) none := by
  refine ⟨_, [.other 0 0x400, .other 232 80, .other 0x300 36], rfl, by decide +kernel, ?_, ?_, ?_, ?_, ?_, by decide +kernel⟩
  · intro s hs
    simp only [List.mem_cons, List.not_mem_nil, or_false] at hs
    rcases hs with rfl | rfl | rfl <;> trivial
  all_goals
    intro off ns hs
    simp at hs

theorem recorded {maps : List Mapping} (h : RecordedAll [foo, kp, libc] maps) :
    maps = [⟨ExObj.progStart, ExObj.progStart + 0x1000, 5, makedev 8 1, 11, "libfoo.so.1"⟩, kpMap,
      ⟨ExObj.libStart, ExObj.libStart + 0x1000, 5, makedev 8 1, 12, "libc.so.6"⟩] := by
  obtain ⟨h1, h2⟩ := h
  obtain ⟨a, ha, ra⟩ := h2 0 foo rfl
  obtain ⟨c, hc, rc⟩ := h2 1 kp rfl
  obtain ⟨b, hb, rb⟩ := h2 2 libc rfl
  match maps, h1 with
  | [a', c', b'], _ =>
    simp only [List.getElem?_cons_zero, List.getElem?_cons_succ, Option.some.injEq] at ha hb hc
    subst ha; subst hb; subst hc
    have na : a'.name = "libfoo.so.1" := ra.name.unique (by
      have := (mapping_recorded (v := foo)).name
      rwa [show foo.mapping.name = "libfoo.so.1" by decide +kernel] at this)
    have nc : c'.name = "[anonymous]" := rc.name.unique (by
      have := (mapping_recorded (v := kp)).name
      rwa [show kp.mapping.name = "[anonymous]" by decide +kernel] at this)
    have nb : b'.name = "libc.so.6" := rb.name.unique (by
      have := (mapping_recorded (v := libc)).name
      rwa [show libc.mapping.name = "libc.so.6" by decide +kernel] at this)
    have e : ∀ w : Mapping, w = ⟨w.start, w.stop, w.prot, w.dev, w.inode, w.name⟩ := fun w => rfl
    rw [e a', e b', e c', ra.start, ra.stop, ra.prot, ra.dev, ra.inode, rb.start, rb.stop, rb.prot, rb.dev, rb.inode,
      rc.start, rc.stop, rc.prot, rc.dev, rc.inode, na, nb, nc]
    rfl

theorem type_foo : objectType T.lim mem ⟨ExObj.progStart, ExObj.progStart + 0x1000, 5, makedev 8 1, 11, "libfoo.so.1"⟩ = .elf := by
  decide +kernel
theorem type_libc : objectType T.lim mem ⟨ExObj.libStart, ExObj.libStart + 0x1000, 5, makedev 8 1, 12, "libc.so.6"⟩ = .elf := by
  decide +kernel
deriving instance DecidableEq for ObjType
theorem type_kp : objectType T.lim mem kpMap = .kpatch hdr := by decide +kernel
theorem name_kp : patchName hdr = "[kpatch-030e19242f3a45505b66717c87929da8b3bec9d4]" := by decide +kernel

theorem recorded_objects {maps : List Mapping} (h : RecordedAll [foo, kp, libc] maps) : MapsOk (objectType T.lim mem) maps ∧
    parseMaps (objectType T.lim mem) maps = [fooObj, kpObj, libcObj] := by
  rw [recorded h]
  refine ⟨⟨by simp [ExObj.progStart, ExObj.libStart, kpMap], ?_, ?_⟩, ?_⟩
  · intro v hv buf hb
    simp only [List.mem_cons, List.not_mem_nil, or_false] at hv
    rcases hv with rfl | rfl | rfl
    · rw [type_foo] at hb; cases hb
    · rfl
    · rw [type_libc] at hb; cases hb
  · intro v hv hd
    simp only [List.mem_cons, List.not_mem_nil, or_false] at hv
    rcases hv with rfl | rfl | rfl
    · exact absurd hd (by decide)
    · intro buf hc
      have := congrArg (fun s : String => s.toList[1]?) hc
      simp [kpMap, patchName] at this
    · exact absurd hd (by decide)
  · simp only [parseMaps, List.foldl_cons, List.foldl_nil, addObjectVma, type_foo, type_libc, type_kp, newObject, name_kp]
    rfl

theorem mem_covered (z : Nat) (h : mem z ≠ none) : Covered (mapBounds [foo, kp, libc]) z := by
  by_cases hz : 0x555500002000 ≤ z ∧ z < 0x555500002000 + 0x2000
  · exact ⟨(0x555500002000, 0x555500004000), by decide, by omega⟩
  · rw [mem_other hz] at h
    obtain ⟨r, hr, hz'⟩ := ExTarget.mem_covered z h
    refine ⟨r, ?_, hz'⟩
    simp only [mapBounds, List.map_cons, List.map_nil, List.mem_cons, List.not_mem_nil, or_false] at hr ⊢
    rcases hr with rfl | rfl <;> simp

theorem old_mapped : Mapped mem (0x3a0#64 + (ExObj.image 4 ExObj.progStart 0x3e0#64).load).toNat 16 := by
  have e : (0x3a0#64 + (ExObj.image 4 ExObj.progStart 0x3e0#64).load).toNat = ExObj.progStart + 0x3a0 := by decide +kernel
  generalize (0x3a0#64 + (ExObj.image 4 ExObj.progStart 0x3e0#64).load).toNat = z at e
  subst e
  intro j hj
  have := fooMapped (928 + j) (by omega)
  rwa [← Nat.add_assoc] at this
theorem case : TargetCase .x86 x86FieldSize 1 T text file mem mem [foo, kp, libc] [] fooObj (ExObj.image 4 ExObj.progStart 0x3e0#64)
    [(kpObj, none), (libcObj, some (ExObj.image 3 ExObj.libStart 0x3f0#64))] obj 2 img [fn] where
  text := ⟨_, isText, by decide +kernel⟩
  plain := by
    intro v hv
    simp only [List.mem_cons, List.not_mem_nil, or_false] at hv
    rcases hv with rfl | rfl | rfl <;> decide +kernel
  libc := ⟨libc, by simp, (isLibcText_iff libc).1 (by decide +kernel)⟩
  map := ⟨by decide, by decide, by decide, by decide⟩
  lim := Nat.le_refl _
  page := by decide
  objects := fun maps h => recorded_objects h
  images := by
    intro p hp
    simp only [List.nil_append, List.mem_cons, List.not_mem_nil, or_false] at hp
    have e : BitVec.ofNat 64 T.page = ExObj.page := rfl
    rw [e]
    rcases hp with rfl | rfl | rfl
    · exact fooLoaded
    · exact .inl rfl
    · exact libcLoaded
  sorts := by
    intro p hp
    simp only [List.nil_append, List.mem_cons, List.not_mem_nil, or_false] at hp
    rcases hp with rfl | rfl | rfl
    · exact ExObj.sorts 4 _ (by decide) (by decide) _ _ (ExObj.qs_ok _ (by decide))
    · intro y hy; cases hy
    · exact ExObj.sorts 3 _ (by decide) (by decide) _ _ (ExObj.qs_ok _ (by decide))
  patch := ExTarget.patch
  id := by
    refine ⟨hex, bid, by decide +kernel, ⟨by decide +kernel, by decide +kernel⟩, fooId, ?_⟩
    intro p hp y hy
    simp only [List.nil_append, List.mem_cons, List.not_mem_nil, or_false] at hp
    rcases hp with rfl | rfl
    · cases hy
    · cases hy
      exact ⟨none, libcId, by simp⟩
  small := by decide +kernel
  object := by decide
  window := by
    unfold NoBoundaryHole
    decide +kernel
  funcs := by
    refine ⟨?_, List.pairwise_singleton _ _⟩
    intro f hf d len he
    simp only [List.mem_singleton] at hf
    subst hf
    cases he
    exact ⟨by decide +kernel, old_mapped⟩
  inside := by
    intro f hf d len he
    simp only [List.mem_singleton] at hf
    subst hf
    cases he
    exact ⟨_, List.mem_singleton.2 rfl, by decide +kernel, by decide +kernel⟩
  quiet := mem_covered
  wait := fun _ _ _ _ => rfl


/-- The theorem applies. -/
example := C83_again_partial (ra := x86RelocArch) case (by simp) (q := (kpObj, none)) List.mem_cons_self rfl (s := hex) (i := lit "7")
  (by decide +kernel) (by decide +kernel) (by decide +kernel) (by decide +kernel) (by decide +kernel) (by decide +kernel) (by decide +kernel)
  (by decide +kernel) (fun _ _ => rfl)

end ExTargetAgain
end Verif
