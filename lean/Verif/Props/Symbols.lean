import Verif.Proof.Symbols
import Verif.Props.JumpTable
/-
C30: symbol lookup in a library finds exactly its defined symbols.
C31: undefined symbols resolve to the first library that defines them.
-/
namespace Verif

/-- C30: what is found is a definition of the name. -/
theorem C30_found_is_definition (qsort : List DynSym → List DynSym) (o : LibObj) (table : List DynSym) (name : CStr)
    (hd : o.dyn = some table) (hq : SortedBy symNameCmp (qsort table) table) (hn : NamesOk table) (hk : 0#8 ∉ name)
    (t : SymType) (v : BitVec 64) (h : o.lookup qsort name = some (t, v)) : Defines table name t v := by
  obtain ⟨h1, h2⟩ := loadDynsym_spec qsort table hq
  have hn' : ∀ x ∈ (loadDynsym qsort table).map DynSym.name, 0#8 ∉ x := by
    intro x hx
    obtain ⟨s, hs, rfl⟩ := List.mem_map.1 hx
    exact hn s ((h1 s).1 hs).1
  have hb := bsearchName_spec _ name hn' hk h2 0 (loadDynsym qsort table).length (by simp) (by simp)
    (by intro i h1 h2; simp at h2; omega)
  unfold LibObj.lookup resolveSingle at h
  rw [hd] at h
  dsimp only at h
  cases hs : bsearchName ((loadDynsym qsort table).map DynSym.name) name 0 (loadDynsym qsort table).length with
  | none => rw [hs] at h; simp at h
  | some n =>
    rw [hs] at h hb
    dsimp only at h hb
    have hlt : n < (loadDynsym qsort table).length := by simpa using hb.1
    rw [List.getElem?_eq_getElem hlt] at h
    simp only [Option.map_some, Option.some.injEq, Prod.mk.injEq] at h
    have hm := (h1 _).1 (List.getElem_mem hlt)
    have hname : ((loadDynsym qsort table)[n]).name = name := by
      rw [← hb.2, List.getD_eq_getElem?_getD, List.getElem?_map, List.getElem?_eq_getElem hlt]; rfl
    refine ⟨_, hm.1, hname, ?_, ?_, h.1, h.2⟩
    · have := hm.2; unfold DynSym.isUndef at this; simp at this; exact this.1
    · have := hm.2; unfold DynSym.isUndef at this; simp at this; omega

/-- C30: when nothing is found the library does not define the name. -/
theorem C30_not_found_is_undefined (qsort : List DynSym → List DynSym) (o : LibObj) (table : List DynSym) (name : CStr)
    (hd : o.dyn = some table) (hq : SortedBy symNameCmp (qsort table) table) (hn : NamesOk table) (hk : 0#8 ∉ name)
    (h : o.lookup qsort name = none) : ∀ t v, ¬ Defines table name t v := by
  obtain ⟨h1, h2⟩ := loadDynsym_spec qsort table hq
  have hn' : ∀ x ∈ (loadDynsym qsort table).map DynSym.name, 0#8 ∉ x := by
    intro x hx
    obtain ⟨s, hs, rfl⟩ := List.mem_map.1 hx
    exact hn s ((h1 s).1 hs).1
  have hb := bsearchName_spec _ name hn' hk h2 0 (loadDynsym qsort table).length (by simp) (by simp)
    (by intro i h1 h2; simp at h2; omega)
  unfold LibObj.lookup resolveSingle at h
  rw [hd] at h
  dsimp only at h
  cases hs : bsearchName ((loadDynsym qsort table).map DynSym.name) name 0 (loadDynsym qsort table).length with
  | some n =>
    rw [hs] at h hb
    dsimp only at h hb
    have hlt : n < (loadDynsym qsort table).length := by simpa using hb.1
    rw [List.getElem?_eq_getElem hlt] at h
    simp at h
  | none =>
    rw [hs] at hb
    dsimp only at hb
    rintro t v ⟨s, hm, hname, hs1, hs2, _, _⟩
    apply hb
    rw [← hname]
    apply List.mem_map_of_mem
    rw [h1]
    refine ⟨hm, ?_⟩
    unfold DynSym.isUndef
    simp only [Bool.or_eq_false_iff, beq_eq_false_iff_ne, decide_eq_false_iff_not]
    exact ⟨hs1, by omega⟩

/-! Non-vacuity: a library with an undefined reference, two versions of a symbol and another one. -/
namespace ExDyn
def sA : DynSym := { name := [0x61#8], nameOff := 9, value := 0x1000#64, shndx := 12, typ := .func }
def sA' : DynSym := { name := [0x61#8], nameOff := 9, value := 0x1100#64, shndx := 12, typ := .func }
def sB : DynSym := { name := [0x61#8, 0x62#8], nameOff := 1, value := 0x2000#64, shndx := 12, typ := .ifunc }
def sU : DynSym := { name := [0x60#8], nameOff := 5, value := 0#64, shndx := 0, typ := .func }
def table : List DynSym := [sU, sB, sA, sA']
def qsort : List DynSym → List DynSym := fun l => l.mergeSort fun a b => decide (symNameCmp a b ≤ 0)
def vma : OVma := ⟨0x1000#64, 0x3000#64, 0x7f0000001000#64, 0x7f0000003000#64, 5⟩
def lib : LibObj := { shared := true, dyn := some table, vmas := [vma] }
theorem sorted : SortedBy symNameCmp [sA, sA', sB, sU] table := by
  constructor
  · decide
  · simp [symNameCmp, sA, sA', sB, sU, DynSym.isUndef, strcmp]
theorem look : NamesOk table ∧ lib.lookup (fun _ => [sA, sA', sB, sU]) [0x61#8] = some (.func, 0x1100#64) ∧
    lib.lookup (fun _ => [sA, sA', sB, sU]) [0x60#8] = none := by
  refine ⟨?_, ?_, ?_⟩
  · simp [NamesOk, table, sA, sA', sB, sU]
  · simp [LibObj.lookup, lib, loadDynsym, resolveSingle, sA, sA', sB, sU, DynSym.isUndef, bsearchName, strcmp]
  · simp [LibObj.lookup, lib, loadDynsym, resolveSingle, sA, sA', sB, sU, DynSym.isUndef, bsearchName, strcmp]
end ExDyn

/-- The tables of all objects are sorted correctly by the C library and their names are C strings. -/
def TablesOk (qsort : List DynSym → List DynSym) (objs : List LibObj) : Prop :=
  ∀ o ∈ objs, ∀ t, o.dyn = some t → SortedBy symNameCmp (qsort t) t ∧ NamesOk t

/-- A shared library of the target whose symbol table could be read defines the name. -/
def LibObj.Provides (o : LibObj) (name : CStr) : Prop :=
  o.shared = true ∧ ∃ table t v, o.dyn = some table ∧ Defines table name t v

theorem lookup_none_iff (qsort : List DynSym → List DynSym) (o : LibObj) (name : CStr) (hk : 0#8 ∉ name)
    (hok : ∀ t, o.dyn = some t → SortedBy symNameCmp (qsort t) t ∧ NamesOk t) (hsh : o.shared = true) :
    o.lookup qsort name = none ↔ ¬ o.Provides name := by
  constructor
  · rintro h ⟨_, table, t, v, hd, hdef⟩
    exact C30_not_found_is_undefined qsort o table name hd (hok _ hd).1 (hok _ hd).2 hk h t v hdef
  · intro h
    cases hl : o.lookup qsort name with
    | none => rfl
    | some q =>
      exfalso; apply h
      refine ⟨hsh, ?_⟩
      cases hd : o.dyn with
      | none => unfold LibObj.lookup at hl; rw [hd] at hl; simp at hl
      | some table =>
        exact ⟨table, q.1, q.2, rfl, C30_found_is_definition qsort o table name hd (hok _ hd).1 (hok _ hd).2 hk q.1 q.2 hl⟩

theorem resolveLoop_skip (qsort : List DynSym → List DynSym) (ifunc : BitVec 64 → Option (BitVec 64)) (name : CStr)
    (hk : 0#8 ∉ name) : ∀ (pre post : List LibObj), TablesOk qsort pre → (∀ o ∈ pre, ¬ o.Provides name) →
      resolveLoop qsort ifunc name (pre ++ post) = resolveLoop qsort ifunc name post
  | [], _, _, _ => rfl
  | o :: pre, post, hok, hno => by
    rw [List.cons_append]
    conv_lhs => unfold resolveLoop
    have ih := resolveLoop_skip qsort ifunc name hk pre post (fun x hx => hok x (by simp [hx])) (fun x hx => hno x (by simp [hx]))
    cases hsh : o.shared
    · simp [ih]
    · have := (lookup_none_iff qsort o name hk (hok o (by simp)) hsh).2 (hno o (by simp))
      rw [this]
      simp [ih]

theorem unversioned_eq (name base : CStr) (hb : 0x40#8 ∉ base)
    (h : name = base ∨ ∃ ver, name = base ++ 0x40#8 :: ver) : unversioned name = base := by
  unfold unversioned
  have hall : ∀ x ∈ base, decide (x ≠ 0x40#8) = true := by
    intro x hx; simp only [ne_eq, decide_not, Bool.not_eq_true', decide_eq_false_iff_not]; intro hc; exact hb (hc ▸ hx)
  rcases h with rfl | ⟨ver, rfl⟩
  · have := List.takeWhile_append_of_pos (l₂ := []) hall
    simpa using this
  · rw [List.takeWhile_append_of_pos hall]
    simp

/-- C31: the symbol `base` or `base@version` gets the run-time address of a definition of `base` in the
first shared library that defines it; for an indirect function the address its resolver returns when
called in the target. -/
theorem C31_first_library (qsort : List DynSym → List DynSym) (ifunc : BitVec 64 → Option (BitVec 64))
    (pre : List LibObj) (o : LibObj) (post : List LibObj) (name base : CStr)
    (hname : name = base ∨ ∃ ver, name = base ++ 0x40#8 :: ver) (hb : 0x40#8 ∉ base) (hk : 0#8 ∉ base)
    (hok : TablesOk qsort (pre ++ o :: post)) (hpre : ∀ x ∈ pre, ¬ x.Provides base) (ho : o.Provides base) :
    ∃ table t v, o.dyn = some table ∧ Defines table base t v ∧
      (t ≠ .ifunc → resolveUndefined qsort ifunc (pre ++ o :: post) name = vaddr2addr o.vmas v) ∧
      (t = .ifunc → ∀ x, ifunc (vaddr2addr o.vmas v) = some x →
        resolveUndefined qsort ifunc (pre ++ o :: post) name = x) ∧
      (t = .ifunc → ifunc (vaddr2addr o.vmas v) = none →
        resolveUndefined qsort ifunc (pre ++ o :: post) name = 0#64) := by
  unfold resolveUndefined
  rw [unversioned_eq name base hb hname]
  rw [resolveLoop_skip qsort ifunc base hk pre (o :: post) (fun x hx => hok x (by simp [hx])) hpre]
  unfold resolveLoop
  rw [ho.1]
  have hne : o.lookup qsort base ≠ none := fun h => (lookup_none_iff qsort o base hk (hok o (by simp)) ho.1).1 h ho
  cases hl : o.lookup qsort base with
  | none => exact absurd hl hne
  | some q =>
    cases hd : o.dyn with
    | none => unfold LibObj.lookup at hl; rw [hd] at hl; simp at hl
    | some table =>
      refine ⟨table, q.1, q.2, rfl, C30_found_is_definition qsort o table base hd (hok o (by simp) _ hd).1 (hok o (by simp) _ hd).2 hk q.1 q.2 hl, ?_, ?_, ?_⟩
      · intro h; simp [h]
      · intro h x hx; simp [h, hx]
      · intro h hx; simp [h, hx]

/-- C31: when no shared library defines it, the symbol stays unresolved. -/
theorem C31_no_library (qsort : List DynSym → List DynSym) (ifunc : BitVec 64 → Option (BitVec 64))
    (objs : List LibObj) (name base : CStr)
    (hname : name = base ∨ ∃ ver, name = base ++ 0x40#8 :: ver) (hb : 0x40#8 ∉ base) (hk : 0#8 ∉ base)
    (hok : TablesOk qsort objs) (hno : ∀ x ∈ objs, ¬ x.Provides base) :
    resolveUndefined qsort ifunc objs name = 0#64 := by
  unfold resolveUndefined
  rw [unversioned_eq name base hb hname]
  have := resolveLoop_skip qsort ifunc base hk objs [] hok hno
  rw [List.append_nil] at this
  rw [this]
  rfl

/-- C31: applying a patch with a library symbol that no library defines fails. -/
theorem C31_unresolved_fails (a : Arch) (junk : Nat → BitVec 32) (qsort : List DynSym → List DynSym)
    (ifunc : BitVec 64 → Option (BitVec 64)) (objs : List LibObj) (kpta : BitVec 64)
    (jmpOffset elfOffset : Nat) (load : BitVec 64) (secs : List PSec) (syms : List PSym)
    (k : Nat) (s : PSym) (base : CStr) (hs : syms[k + 1]? = some s) (hlib : s.FromLibrary)
    (hname : s.name = base ∨ ∃ ver, s.name = base ++ 0x40#8 :: ver) (hb : 0x40#8 ∉ base) (hk : 0#8 ∉ base)
    (hok : TablesOk qsort objs) (hno : ∀ x ∈ objs, ¬ x.Provides base) :
    kpatchResolve a junk (resolveUndefined qsort ifunc objs) kpta jmpOffset elfOffset load secs syms = none := by
  cases h : kpatchResolve a junk (resolveUndefined qsort ifunc objs) kpta jmpOffset elfOffset load secs syms with
  | none => rfl
  | some q =>
    exfalso
    obtain ⟨jt, off, _, _, hall⟩ := C29_library_calls_partial a junk _ kpta jmpOffset elfOffset load secs syms q.1 q.2 h
      ⟨k, s, hs, hlib⟩
    obtain ⟨_, _, _, x, _, _, hne, _⟩ := hall k s hs hlib
    exact hne (C31_no_library qsort ifunc objs s.name base hname hb hk hok hno)

/-! Non-vacuity: an executable, a library without the symbol and the library above; the patch refers
to `a@V1`. -/
namespace ExDyn
def exe : LibObj := { shared := false, dyn := some [sA], vmas := [] }
def other : LibObj := { shared := true, dyn := some [sU], vmas := [] }
def qs : List DynSym → List DynSym := fun t => if t = table then [sA, sA', sB, sU] else t
theorem ok : TablesOk qs [exe, other, lib] := by
  have h1 : qs [sA] = [sA] := by decide
  have h2 : qs [sU] = [sU] := by decide
  have h3 : qs table = [sA, sA', sB, sU] := by decide
  intro o ho t ht
  simp only [List.mem_cons, List.not_mem_nil, or_false] at ho
  rcases ho with rfl | rfl | rfl
  · simp only [exe, Option.some.injEq] at ht; subst ht
    rw [h1]; exact ⟨⟨List.Perm.refl _, by simp⟩, by simp [NamesOk, sA]⟩
  · simp only [other, Option.some.injEq] at ht; subst ht
    rw [h2]; exact ⟨⟨List.Perm.refl _, by simp⟩, by simp [NamesOk, sU]⟩
  · simp only [lib, Option.some.injEq] at ht; subst ht
    rw [h3]; exact ⟨sorted, by simp [NamesOk, table, sA, sA', sB, sU]⟩
example : lib.Provides [0x61#8] ∧ ¬ exe.Provides [0x61#8] ∧ ¬ other.Provides [0x61#8] := by
  refine ⟨⟨rfl, table, .func, 0x1000#64, rfl, sA, by simp [table], rfl, by decide, by decide, rfl, rfl⟩, ?_, ?_⟩
  · intro h; exact absurd h.1 (by decide)
  · rintro ⟨_, t, _, _, ht, s, hs, hn, _⟩
    simp only [other, Option.some.injEq] at ht; subst ht
    simp only [List.mem_singleton] at hs; subst hs
    exact absurd hn (by decide)
example : resolveUndefined qs (fun _ => none) [exe, other, lib] [0x61#8, 0x40#8, 0x56#8] = 0x7f0000001100#64 := by
  have e : unversioned [0x61#8, 0x40#8, 0x56#8] = [0x61#8] := by decide
  have l2 : other.lookup qs [0x61#8] = none := by
    have h2 : qs [sU] = [sU] := by decide
    have h4 : loadDynsym qs [sU] = [] := by simp only [loadDynsym, h2]; decide
    have h5 : bsearchName [] [0x61#8] 0 0 = none := by unfold bsearchName; simp
    simp only [LibObj.lookup, other, resolveSingle, h4, List.map_nil, List.length_nil, h5]
  have l3 : lib.lookup qs [0x61#8] = some (.func, 0x1100#64) := by
    have h3 : qs table = [sA, sA', sB, sU] := by decide
    rw [← look.2.1]
    simp only [LibObj.lookup, lib, loadDynsym, h3]
  unfold resolveUndefined resolveLoop
  rw [if_pos (by decide)]
  unfold resolveLoop
  rw [e, l2, if_neg (by decide)]
  dsimp only
  unfold resolveLoop
  rw [l3, if_neg (by decide)]
  decide
end ExDyn

end Verif
