import Verif.Props.Untarget
import Verif.Props.Applied
import Verif.Proof.PrepRuns
/-
C85 for a whole process: when the patch command succeeds.
-/
namespace Verif
open Cpu

/-- Some library of the process provides the symbol `name` (which may have a version), and the address is not 0: the first
object that has the symbol is a library and its code and data are mapped. -/
def ProvidedByLibrary (page : BitVec 64) (objs : List (Obj × Option ElfImage)) (ifunc : BitVec 64 → Option (BitVec 64)) (name : CStr) : Prop :=
  ∃ pre lib x post base syms, objs = pre ++ (lib, some x) :: post ∧
    (name = base ∨ ∃ ver, name = base ++ 0x40#8 :: ver) ∧ 0x40#8 ∉ base ∧ 0#8 ∉ base ∧
    (∀ p ∈ pre, ¬ Provides p.1 p.2 base) ∧ TakenForLibrary lib.name x.typ x.phdrs ∧ x.syms = some syms ∧
    (∃ t v, Defines syms base t v) ∧
    ∀ t v, Defines syms base t v → x.Covers page lib v ∧ (if t = .ifunc then (ifunc (v + x.load)).getD 0#64 else v + x.load) ≠ 0#64

theorem provided_resolves {page : BitVec 64} {objs : List (Obj × Option ElfImage)} {ifunc : BitVec 64 → Option (BitVec 64)}
    {resolve : CStr → BitVec 64} {name : CStr} (h : ResolvesTo page objs ifunc resolve) (hp : ProvidedByLibrary page objs ifunc name) :
    resolve name ≠ 0#64 := by
  obtain ⟨pre, lib, x, post, base, syms, h1, h2, h3, h4, h5, h6, h7, h8, h9⟩ := hp
  obtain ⟨t, v, d1, d2⟩ := h pre lib x post name base syms h1 h2 h3 h4 h5 h6 h7 h8 fun t v d => (h9 t v d).1
  rw [d2]
  exact (h9 t v d1).2

/-- The object of the patch has nothing in it the tool cannot handle: symbols of the usual types, relocations inside the
sections they are for; `provided` are the names of symbols that libraries provide. -/
structure Usable (o : ElfObj) (provided : CStr → Prop) : Prop where
  symbols : ∀ s ∈ o.syms.drop 1, s.2.sym.typ ≠ .ifunc ∧ s.2.sym.typ ≠ .other
  libraries : ∀ s ∈ o.syms.drop 1, s.2.FromLibrary → provided s.2.name
  first : (o.sec 0).typ ≠ 9
  inside : ∀ i, o.isRela i → ∀ r ∈ o.rels i, r.offset < (o.sec (o.sec i).info).size

/-- The symbols of the object at run time, when the memory of the patch starts at `kpta` and the object in it at `base`: library
symbols are in the table between these, and its entries are aligned. -/
structure SymbolsAt (o : ElfObj) (kpta base : Nat) (load : BitVec 64) (syms : List Sym) : Prop where
  runs : ∀ (k : Nat) (s : Nat × PSym), o.syms[k + 1]? = some s → ∃ s', syms[k + 1]? = some s' ∧
    s.2.sym.RunsAt (o.runAddr (BitVec.ofNat 64 base) load) s' ∧
    (s.2.FromLibrary → kpta < s'.value.toNat ∧ s'.value.toNat < base ∧ 8 ∣ s'.value.toNat - kpta)
  first : syms[0]? = o.syms[0]?.map (·.2.sym)

/-- Relocations the tool knows how to do when the object is at `base`; `r` is relocation `k` of section `i`.  On LoongArch the targets of
branches have to be in reach, on RISC-V all targets, and a lower half of a pair needs its upper half before it. -/
def RelocationOk (a : Arch) (o : ElfObj) (base : Nat) (load : BitVec 64) (syms : List Sym) (i k : Nat) (r : Rela Nat) : Prop :=
  match a with
  | .x86 => r.typ ∈ [0, 18, 23] ∨ ∃ ty, (r.typ, ty) ∈ x86Numbers
  | .aarch64 => r.typ ∈ [0, 542] ∨ ∃ ty, (r.typ, ty) ∈ a64Numbers
  | .loongarch64 =>
    let d := (symAt syms r.sym).value + r.addend - (BitVec.ofNat 64 base + BitVec.ofNat 64 (o.place i r))
    r.typ ∈ [0, 1, 2, 50, 51, 55, 56, 67, 68, 71, 72, 91, 92, 100] ∨
    r.typ ∈ [75, 76, 79, 80] ∧ (symAt syms r.sym).value + r.addend ≠ -1#64 ∨
    ∃ n, (r.typ, n) ∈ [(64, 17), (65, 22), (66, 27), (103, 21)] ∧ -(2 ^ n : Int) ≤ d.toInt ∧ d.toInt < 2 ^ n ∧ d &&& 3#64 = 0#64
  | .riscv64 =>
    let x := (symAt syms r.sym).value + r.addend
    let d := x - (BitVec.ofNat 64 base + BitVec.ofNat 64 (o.place i r))
    r.typ ∈ [0, 16, 29, 30, 31, 32, 35, 36, 39, 40, 44, 47, 48, 49, 50, 51] ∨ r.typ ∈ [2, 21, 27, 28] ∨
    r.typ ∈ [1, 26, 56] ∧ -(2 ^ 31 : Int) ≤ x.toInt ∧ x.toInt < 2 ^ 31 ∨
    r.typ ∈ [18, 19, 23, 57] ∧ -(2 ^ 31 : Int) ≤ d.toInt ∧ d.toInt < 2 ^ 31 ∨
    r.typ = 17 ∧ -(2 ^ 20 : Int) ≤ d.toInt ∧ d.toInt < 2 ^ 20 ∨
    r.typ ∈ [24, 25] ∧ ∃ (j : Nat) (u : Rela Nat), (o.rels i)[j]? = some u ∧ j < k ∧
      (symAt syms r.sym).value = BitVec.ofNat 64 base + BitVec.ofNat 64 (o.place i u) ∧
      (u.typ = 23 ∧ (symAt syms u.sym).value ≠ 0#64 ∨
        u.typ = 21 ∧ (if (symAt syms u.sym).isUndef then (symAt syms u.sym).value else u.addend + load) ≠ 0#64)

/-- There is room for `size` bytes beside the object: of the gaps the tool has recorded, the one before the object or the one
after it is larger and within reach (the conditions of C11). -/
def RoomBeside (a : Arch) (page : Nat) (vs : List KVma) (t : Obj) (size : Nat) : Prop :=
  ∃ before h r after, parseHoles page 0 0 (mapBounds vs) = before ++ h :: r :: after ∧
    objPrevHole page (mapBounds vs) t = some h.id ∧ r.start - objStart t ≠ a.maxDistance - size ∧
    ((r.stop - r.start > size ∧ r.start - objStart t < a.maxDistance - size) ∨
      (h.stop - h.start > size ∧ objEnd t - h.stop + size < a.maxDistance - size))

/-- Nothing outside the tool fails: there is memory in the tool and in the target, all reads and writes of the target are complete, all
threads leave the functions, and the final `mprotect` succeeds. -/
structure SystemWorks (a : Arch) (e : ApplyEnv) (mmapOk : Bool) (imgLen nsyms : Nat) : Prop where
  mmap : mmapOk = true
  malloc : e.dupOk = true ∧ e.jtblOk = true ∧ e.splitOk = true
  writes : imgLen ≤ e.wImage ∧ 504 ≤ e.wHdr ∧ 16 + nsyms * a.jmpEntrySize ≤ e.wJmp
  safe : ∀ m, (e.safety m).2 = true
  hunks : ∀ k, a.hunkSize ≤ (e.hunk k).rlim ∧ a.hunkSize ≤ (e.hunk k).wlim ∧ a.hunkSize ≤ (e.hunk k).clim
  mprotect : e.mprotectOk = true

theorem room_allocates {a : Arch} {w : Rela Nat → Nat} {abs : Nat} {T : TargetEnv} {text file : List Byte}
    {m1 m2 : Mem} {vs : List KVma} {pre : List (Obj × Option ElfImage)} {t : Obj} {x : ElfImage} {post : List (Obj × Option ElfImage)}
    {o : ElfObj} {n : Nat} {img : List Byte} {fns : List PatchFn} {fr : Nat}
    (C : TargetCase a w abs T text file m1 m2 vs pre t x post o n img fns) (R : RoomBeside a T.page vs t (patchMemSize a T.page file)) :
    ∃ kpta, (allocatePatch a T.page (patchMemSize a T.page file) (objStart t) (objEnd t)
      (objPrevHole T.page (mapBounds vs) t) fr true (parseHoles T.page 0 0 (mapBounds vs))).2 = some kpta := by
  obtain ⟨maps, hbm, hsub, hne⟩ := target_lines C
  obtain ⟨g1, h, r, g2, e1, e2, e3, e4⟩ := R
  have hM : MapOk T.page (maps.map fun w => (w.start, w.stop)) := by rw [hbm]; exact C.map
  have hL := object_lines hM hsub hne (prev := h.id) (by rw [hbm]; exact e2)
  rw [hbm] at hL
  have hpage := C.page
  have hsize := patchMemSize_le (a := a) (page := T.page) C.patch
  have hsmall := C.small
  have hO := objectOfLines_ok (by omega) C.map hL
  obtain ⟨H1, _, H3, _⟩ := parseHoles_bounds T.page (by omega) (mapBounds vs) 0 0 C.map (Nat.dvd_zero _) (fun r _ => Nat.zero_le _)
  have hnd : IdsNodup (parseHoles T.page 0 0 (mapBounds vs)) := H3.imp fun hlt => Nat.ne_of_lt hlt
  have hpm : T.page ∣ patchMemSize a T.page file := by
    unfold patchMemSize
    split
    · exact Nat.dvd_zero _
    · exact Nat.dvd_of_mod_eq_zero (roundUp_mod _ _)
  have hpl : h.stop ≤ objEnd t ∧ objStart t ≤ r.start := by
    obtain ⟨p1, hh, p2, f1, f2, f3, f4⟩ := hO.here
    have hu : p1 = g1 ∧ hh = h ∧ p2 = r :: g2 := by
      rw [e1] at hnd f1
      obtain ⟨n1, n2⟩ := idsNodup_split hnd
      rw [f1] at hnd
      obtain ⟨n3, n4⟩ := idsNodup_split hnd
      rw [f2] at n3 n4
      rcases List.append_eq_append_iff.1 f1 with ⟨q, q1, q2⟩ | ⟨q, q1, q2⟩
      · cases q with
        | nil => simp only [List.append_nil, List.nil_append, List.cons.injEq] at q1 q2; exact ⟨q1, q2.1.symm, q2.2.symm⟩
        | cons z q =>
          simp only [List.cons_append, List.cons.injEq] at q2
          exact absurd rfl (n3 h (by rw [q1, ← q2.1]; simp))
      · cases q with
        | nil => simp only [List.append_nil, List.nil_append, List.cons.injEq] at q1 q2; exact ⟨q1.symm, q2.1, q2.2⟩
        | cons z q =>
          simp only [List.cons_append, List.cons.injEq] at q2
          exact absurd f2 (n1 hh (by rw [q1, ← q2.1]; simp))
    obtain ⟨rfl, rfl, rfl⟩ := hu
    have := f3 hh (by simp)
    have := guardEnd_ge T.page hh
    exact ⟨by omega, f4 r (by simp)⟩
  have hf := C11_adjacent_gap_found_partial a T.page _ (objStart t) (objEnd t) h.id (mapBounds vs) _ g1 g2 h r (by omega) H1 hnd
    hO.bound e1 rfl hpl.1 hpl.2 e3 e4
  rw [e2]
  unfold allocatePatch
  cases hfr : findRegion a T.page (patchMemSize a T.page file) (objStart t) (objEnd t) (some h.id) (parseHoles T.page 0 0 (mapBounds vs)) with
  | none => rw [hfr] at hf; simp at hf
  | some q =>
    obtain ⟨hh, addr⟩ := q
    have hoe : T.page ∣ objEnd t := by
      obtain ⟨k, hk, hoe⟩ := hL.last
      have hkb := hL.bounds k (List.mem_of_getLast? hk)
      rw [List.getElem?_eq_getElem hkb] at hoe
      simp only [Option.map_some, Option.some.injEq] at hoe
      rw [← hoe]
      exact (C.map.aligned _ (List.getElem_mem hkb)).2
    obtain ⟨f1, f2, f3, -⟩ := findRegion_spec (by omega) (page_dvd_maxDistance a T.page hpage.2) hpm hoe (by omega) H1 hnd hO C.window hfr
    have := (H1.order hh f1).1
    simp only
    rw [if_neg (by omega)]
    exact ⟨addr, rfl⟩

/-- The patches recorded for an object are patches that are mapped. -/
theorem applied_mapped (bid : Obj → Option (List Byte)) (pid : Option (List Byte)) (objs : List Obj) :
    ∀ p ∈ associate bid pid objs, ∀ h ∈ p.applied, ∃ q ∈ objs, q.isPatch = true ∧ q.hdr = h := by
  unfold associate
  have key : ∀ (L : List Obj), (∀ q ∈ L, q ∈ objs ∧ q.isPatch = true) → ∀ ps : List PObj,
      (∀ p ∈ ps, ∀ h ∈ p.applied, ∃ q ∈ objs, q.isPatch = true ∧ q.hdr = h) →
      ∀ p ∈ L.foldl (fun ps o => associateOne bid pid ((o.vmas.map (·.start)).headD 0) o.hdr ps) ps,
        ∀ h ∈ p.applied, ∃ q ∈ objs, q.isPatch = true ∧ q.hdr = h := by
    intro L
    induction L with
    | nil => intro _ ps h; exact h
    | cons q L ih =>
      intro hL ps h
      rw [List.foldl_cons]
      refine ih (fun z hz => hL z (by simp [hz])) _ ?_
      refine target_from_patch_one bid pid _ q.hdr (fun p => ∀ h ∈ p.applied, ∃ q ∈ objs, q.isPatch = true ∧ q.hdr = h) ?_ ps h
      intro o ho _ z hz
      dsimp only at hz
      unfold addApplied at hz
      split at hz
      · exact ho z hz
      · rcases List.mem_append.1 hz with hz | hz
        · exact ho z hz
        · rw [List.mem_singleton] at hz
          exact ⟨q, (hL q (by simp)).1, (hL q (by simp)).2, hz.symm⟩
  refine key _ ?_ _ ?_
  · intro q hq; exact List.mem_filter.1 hq
  · intro p hp h hh
    obtain ⟨o, -, rfl⟩ := List.mem_map.1 hp
    simp at hh

/-- No patch with the id `pid` is mapped. -/
def NotApplied (m : Mem) (vs : List KVma) (pid : List Byte) : Prop :=
  ∀ v ∈ vs, ¬ (Holds m v.start kpatchMagic ∧ Holds m (v.start + 8) (pid ++ [0#8]))

theorem fresh_of_notApplied {a : Arch} {w : Rela Nat → Nat} {abs : Nat} {T : TargetEnv} {text file : List Byte}
    {m1 m2 : Mem} {vs : List KVma} {pre : List (Obj × Option ElfImage)} {t : Obj} {x : ElfImage} {post : List (Obj × Option ElfImage)}
    {o : ElfObj} {n : Nat} {img : List Byte} {fns : List PatchFn} {pid : List Byte}
    (C : TargetCase a w abs T text file m1 m2 vs pre t x post o n img fns) (hid : StrAt file 8 pid) (hshort : pid.length < 8)
    (h : NotApplied m1 vs pid) :
    cstr (kpId file) ∉ (((associate (objBuildid T.lim m1) none ((pre ++ (t, some x) :: post).map Prod.fst)).find? fun p => p.obj == t).map
            fun p => p.applied.map hdrId).getD [] := by
  have hc : cstr (kpId file) = pid := cstr_at hid hshort
  rw [hc]
  intro hm
  cases hf : (associate (objBuildid T.lim m1) none ((pre ++ (t, some x) :: post).map Prod.fst)).find? fun p => p.obj == t with
  | none => rw [hf] at hm; simp at hm
  | some p =>
    rw [hf] at hm
    simp only [Option.map_some, Option.getD_some] at hm
    obtain ⟨z, hz, hzi⟩ := List.mem_map.1 hm
    obtain ⟨q, hq, hp, hqz⟩ := applied_mapped _ _ _ p (List.mem_of_find?_eq_some hf) z hz
    obtain ⟨lines, htext, hlen⟩ := C.text
    obtain ⟨maps, hrec, -, -⟩ := C82_map_read_partial T.page (objectType T.lim m1) vs lines text htext C.plain hlen
    obtain ⟨hmok, hobjs⟩ := C.objects maps hrec
    have hgr := parseMaps_grouped hmok
    rw [hobjs] at hgr
    obtain ⟨-, -, v, hv, hty⟩ := hgr.patch q hq hp
    have hvm : v ∈ maps := (hgr.sub q hq).subset (by rw [hv]; simp)
    obtain ⟨j, hj, hjv⟩ := List.getElem_of_mem hvm
    obtain ⟨v', hv'⟩ : ∃ v', vs[j]? = some v' := ⟨vs[j]'(by rw [← hrec.1]; exact hj), List.getElem?_eq_getElem _⟩
    obtain ⟨v2, hv2, vr⟩ := hrec.2 j v' hv'
    rw [List.getElem?_eq_getElem hj, hjv, Option.some.injEq] at hv2
    subst hv2
    unfold objectType at hty
    cases hr : memRead T.lim m1 v.start 1024 with
    | none => rw [hr] at hty; simp at hty
    | some b =>
      rw [hr] at hty
      dsimp only at hty
      split at hty
      rotate_left
      · split at hty <;> simp at hty
      rename_i hcond
      simp only [ObjType.kpatch.injEq] at hty
      obtain ⟨bl, bh⟩ := memRead_ok _ _ _ _ _ hr
      refine h v' (List.mem_of_getElem? hv') ?_
      rw [← vr.start]
      constructor
      · rw [← hcond.2.2.2]; simpa using holds_sub bh 0 8
      · refine strAt_of_holds bh (by rw [bl]; omega) ?_ hshort
        rw [← hqz, ← hty] at hzi
        exact hzi

/-- The test for the reach of `jal` accepts what is in reach. -/
theorem rv_jal_accepts {d : BitVec 64} (h1 : -(2 ^ 20 : Int) ≤ d.toInt) (h2 : d.toInt < 2 ^ 20) :
    ¬ (d >>> 21 ≠ 0#64 ∧ d &&& 0xfffffffffff00000#64 ≠ 0xfffffffffff00000#64) := by
  rintro ⟨g1, g2⟩
  rw [BitVec.toInt_eq_toNat_cond] at h1 h2
  have hd := d.isLt
  split at h1
  · rw [if_pos (by assumption)] at h2
    apply g1
    apply BitVec.eq_of_toNat_eq
    rw [BitVec.toNat_ushiftRight, Nat.shiftRight_eq_div_pow, Nat.div_eq_of_lt (by omega)]
    rfl
  · apply g2
    have e : d = 0xfffffffffff00000#64 ||| (d.setWidth 20).setWidth 64 := by
      apply BitVec.eq_of_toNat_eq
      rw [BitVec.toNat_or, BitVec.toNat_setWidth, BitVec.toNat_setWidth]
      have := Nat.two_pow_add_eq_or_of_lt (i := 20) (b := d.toNat % 2 ^ 20) (by omega) 0xfffffffffff
      rw [show (2:Nat) ^ 20 * 0xfffffffffff = (0xfffffffffff00000#64).toNat from rfl] at this
      rw [Nat.mod_eq_of_lt (b := 2 ^ 64) (by omega), ← this, show (0xfffffffffff00000#64).toNat = 0xfffffffffff00000 from rfl]
      omega
    rw [e]
    bv_bits []

theorem relocationOk_act {a : Arch} {ra : BitVec 64 → RelocArch} {w : Rela Nat → Nat} {abs : Nat} {o : ElfObj} (hA : TargetArch a ra w abs o)
    {img : List Byte} (E : o.Encoded img) (W : o.WellFormed w img.length)
    {base : Nat} {load : BitVec 64} {syms : List Sym} {i k : Nat} {r : Rela Nat} {d : List Byte} (hir : o.isRela i) (hkr : (o.rels i)[k]? = some r)
    (hns : (ra load).act (o.relSec (BitVec.ofNat 64 base) load i) (o.before syms i k) r (syms.getD r.sym ⟨0, 0, 0, .notype, .loc⟩) d ≠ .stop)
    (hsec : o.runAddr (BitVec.ofNat 64 base) load (o.sec i).info = BitVec.ofNat 64 base + BitVec.ofNat 64 (o.sec (o.sec i).info).offset)
    (h : RelocationOk a o base load syms i k r) :
    (ra load).act (o.relSec (BitVec.ofNat 64 base) load i) (o.before syms i k) r (syms.getD r.sym ⟨0, 0, 0, .notype, .loc⟩) d ≠ .fail := by
  generalize hs : syms.getD r.sym ⟨0, 0, 0, .notype, .loc⟩ = s at *
  have hs' : symAt syms r.sym = s := hs
  generalize hx : o.relSec (BitVec.ofNat 64 base) load i = sec at *
  have hadr : sec.addr = BitVec.ofNat 64 base + BitVec.ofNat 64 (o.sec (o.sec i).info).offset := by rw [← hx]; exact hsec
  cases hA with
  | x86 =>
    show x86Act load sec (r.decode x86RelOf) s d ≠ .fail
    simp only [RelocationOk] at h
    have : ∀ n, x86RelOf r.typ ≠ .other n := by
      intro n
      have hk : r.typ ∈ [0, 18, 23] ++ x86Numbers.map Prod.fst := by
        rcases h with h | ⟨ty, h⟩
        · exact List.mem_append_left _ h
        · exact List.mem_append_right _ (List.mem_map.2 ⟨_, h, rfl⟩)
      revert hk
      generalize r.typ = k
      simp only [x86Numbers, List.map_cons, List.map_nil, List.cons_append, List.nil_append, List.mem_cons, List.not_mem_nil, or_false]
      intro hk
      repeat' (rcases hk with hk | hk)
      all_goals simp [x86RelOf]
    unfold x86Act
    simp only [Rela.decode] at *
    cases hr : x86RelOf r.typ <;> simp
    exact absurd hr (this _)
  | aarch64 htls =>
    show a64Act load sec (r.decode a64RelOf) s d ≠ .fail
    simp only [RelocationOk] at h
    have : ∀ n, a64RelOf r.typ ≠ .other n := by
      intro n
      have hk : r.typ ∈ [0, 542] ++ a64Numbers.map Prod.fst := by
        rcases h with h | ⟨ty, h⟩
        · exact List.mem_append_left _ h
        · exact List.mem_append_right _ (List.mem_map.2 ⟨_, h, rfl⟩)
      revert hk
      generalize r.typ = k
      simp only [a64Numbers, List.map_cons, List.map_nil, List.cons_append, List.nil_append, List.mem_cons, List.not_mem_nil, or_false]
      intro hk
      repeat' (rcases hk with hk | hk)
      all_goals simp [a64RelOf]
    unfold a64Act
    dsimp only
    split
    · simp
    · simp only [Rela.decode] at *
      cases hr : a64RelOf r.typ <;> simp only [a64Apply] <;> (try split) <;> simp
      exact absurd hr (this _)
  | loongarch =>
    show loongAct load sec (r.decode loongRelOf) s d ≠ .fail
    simp only [RelocationOk, hs'] at h
    obtain ⟨ro, rt, rs, rad⟩ := r
    dsimp only at h
    rcases h with h | ⟨h, h2⟩ | ⟨n, h, h1, h2, h3⟩
    · simp only [List.mem_cons, List.not_mem_nil, or_false] at h
      repeat' (rcases h with h | h)
      all_goals simp [loongAct, loongVal, loongAdjust, Rela.decode, loongRelOf, loongApply]
    · simp only [List.mem_cons, List.not_mem_nil, or_false] at h
      have h2' : ¬ s.value + rad = 18446744073709551615#64 := h2
      repeat' (rcases h with h | h)
      all_goals
        simp only [loongAct, loongVal, loongAdjust, Rela.decode, loongRelOf, if_neg h2]
        by_cases hc : s.value + rad = 1#64
        · rw [if_pos hc]; simp [loongApply]
        · rw [if_neg hc]; simp [loongApply]
    · have hp : sec.addr + BitVec.ofNat 64 ro = BitVec.ofNat 64 base + BitVec.ofNat 64 (o.place i ⟨ro, rt, rs, rad⟩) := by
        rw [hadr, BitVec.add_assoc, ← BitVec.ofNat_add]
        rfl
      rw [← hp] at h1 h2 h3
      simp only [List.mem_cons, Prod.mk.injEq, List.not_mem_nil, or_false] at h
      have hr : laInRange n (s.value + rad - (sec.addr + BitVec.ofNat 64 ro)) = true := by
        unfold laInRange
        rw [Bool.and_eq_true, Bool.and_eq_true, decide_eq_true_eq, decide_eq_true_eq, beq_iff_eq]
        exact ⟨⟨h1, h2⟩, h3⟩
      rcases h with ⟨h, rfl⟩ | ⟨h, rfl⟩ | ⟨h, rfl⟩ | ⟨h, rfl⟩
      all_goals (subst h; simp [loongAct, loongVal, loongAdjust, Rela.decode, loongRelOf, loongApply, hr])
  | riscv hslot =>
    show rvActElf load sec (o.before syms i k) r s d ≠ .fail
    unfold rvActElf
    simp only [RelocationOk, hs'] at h
    have hp : sec.addr + BitVec.ofNat 64 r.offset = BitVec.ofNat 64 base + BitVec.ofNat 64 (o.place i r) := by
      rw [hadr, BitVec.add_assoc, ← BitVec.ofNat_add]
      rfl
    rw [← hp] at h
    have hadd : (r.decode rvRelOf).addend = r.addend := rfl
    have hofs : (r.decode rvRelOf).offset = r.offset := rfl
    have htyp : (r.decode rvRelOf).typ = rvRelOf r.typ := rfl
    rcases h with h | h | ⟨h, h1, h2⟩ | ⟨h, h1, h2⟩ | ⟨h, h1, h2⟩ | ⟨h, j, u, hj, hjk, hlab, hnz⟩
    · have e : rvRelOf r.typ = .ignored := by
        revert h
        generalize r.typ = t
        simp only [List.mem_cons, List.not_mem_nil, or_false]
        intro h
        repeat' (rcases h with h | h)
        all_goals simp [rvRelOf]
      unfold rvApply
      simp [htyp, e]
    · have e : rvRelOf r.typ = .r64 ∨ rvRelOf r.typ = .tlsGotHi20 ∨ rvRelOf r.typ = .lo12I ∨ rvRelOf r.typ = .lo12S := by
        simp only [List.mem_cons, List.not_mem_nil, or_false] at h
        rcases h with h | h | h | h <;> rw [h] <;> simp [rvRelOf]
      unfold rvApply
      rcases e with e | e | e | e <;> simp [htyp, e]
    · have e : rvRelOf r.typ = .r32 ∨ rvRelOf r.typ = .hi20 ∨ rvRelOf r.typ = .set32 := by
        simp only [List.mem_cons, List.not_mem_nil, or_false] at h
        rcases h with h | h | h <;> rw [h] <;> simp [rvRelOf]
      have hf := (rvFits32_iff (s.value + r.addend)).2 ⟨h1, h2⟩
      unfold rvApply
      rcases e with e | e | e <;> simp [htyp, e, hadd, hf]
    · have e : rvRelOf r.typ = .call ∨ rvRelOf r.typ = .callPlt ∨ rvRelOf r.typ = .pcrelHi20 ∨ rvRelOf r.typ = .r32Pcrel := by
        simp only [List.mem_cons, List.not_mem_nil, or_false] at h
        rcases h with h | h | h | h <;> rw [h] <;> simp [rvRelOf]
      have hf := (rvFits32_iff (s.value + r.addend - (sec.addr + BitVec.ofNat 64 r.offset))).2 ⟨h1, h2⟩
      unfold rvApply
      rcases e with e | e | e | e <;> simp [htyp, e, hadd, hofs, hf]
    · have e : rvRelOf r.typ = .jal := by rw [h]; rfl
      unfold rvApply
      simp only [htyp, e, hadd, hofs]
      rw [if_neg]
      · simp
      · exact rv_jal_accepts h1 h2
    · have hkl : k < (o.rels i).length := by
        rcases Nat.lt_or_ge k (o.rels i).length with h | h
        · exact h
        · rw [List.getElem?_eq_none h] at hkr; simp at hkr
      have hofu : u.offset < 2 ^ 64 := (E.rels i hir j u hj).2.1
      have hv : s.value - sec.addr = BitVec.ofNat 64 u.offset := by
        rw [hlab, hadr]
        unfold ElfObj.place
        rw [BitVec.ofNat_add, ← BitVec.add_assoc, BitVec.add_comm, BitVec.add_sub_cancel]
      have hf := rvHiValue_before W hir hj hjk (by omega) (by rcases hnz with h | h; exact Or.inl h.1; exact Or.inr h.1) load syms
        (s.value - sec.addr) (by rw [hv, BitVec.toNat_ofNat, Nat.mod_eq_of_lt hofu])
      have hnz' : (if u.typ = 23 then (symAt syms u.sym).value
          else if (symAt syms u.sym).isUndef then (symAt syms u.sym).value else u.addend + load) ≠ 0#64 := by
        rcases hnz with ⟨e, h⟩ | ⟨e, h⟩
        · rw [if_pos e]; exact h
        · rw [if_neg (by omega)]; exact h
      have e : rvRelOf r.typ = .pcrelLo12I ∨ rvRelOf r.typ = .pcrelLo12S := by
        simp only [List.mem_cons, List.not_mem_nil, or_false] at h
        rcases h with h | h <;> rw [h] <;> simp [rvRelOf]
      unfold rvApply
      simp only [hf]
      rcases e with e | e <;> simp only [htyp, e] <;> rw [if_neg hnz'] <;> simp

/-- C85 for a process: the command patches the process.  Partial: the conditions of C83, of C11 on the gaps beside the object,
on LoongArch the reach of branches, and C85_violated_loongarch_reach. -/
theorem C85_process_partial {a : Arch} {ra : BitVec 64 → RelocArch} {w : Rela Nat → Nat} {abs : Nat} {T : TargetEnv} {text file : List Byte}
    {m1 m2 : Mem} {vs : List KVma} {pre : List (Obj × Option ElfImage)} {t : Obj} {x : ElfImage} {post : List (Obj × Option ElfImage)}
    {o : ElfObj} {n : Nat} {img : List Byte} {fns : List PatchFn} {pid : List Byte}
    (hA : TargetArch a ra w abs o) (C : TargetCase a w abs T text file m1 m2 vs pre t x post o n img fns)
    (hid : StrAt file 8 pid) (hshort : pid.length < 8) (N : NotApplied m1 vs pid)
    (U : Usable o (ProvidedByLibrary (BitVec.ofNat 64 T.page) (pre ++ (t, some x) :: post) T.ifunc))
    (R : RoomBeside a T.page vs t (patchMemSize a T.page file))
    (S : SystemWorks a (T.apply pre.length) (T.mmapOk pre.length) img.length o.syms.length)
    (hrel : ∀ kpta base syms, Allocated a T file vs t kpta → kpta ≤ base → T.page ∣ base →
      base + img.length ≤ kpta + patchMemSize a T.page file → SymbolsAt o kpta base x.load syms → ∀ i, o.isRela i → ∀ (k : Nat) r, (o.rels i)[k]? = some r →
        RelocationOk a o base x.load syms i k r)
    (hreach : a = .loongarch64 → ∀ kpta base, Allocated a T file vs t kpta → kpta ≤ base →
      base + img.length ≤ kpta + patchMemSize a T.page file → ∀ f ∈ fns, ∀ d len, f.old = some (d, len) →
      4 ∣ (d + x.load).toNat ∧ -(2 ^ 27) ≤ ((base + f.new : Nat) : Int) - (d + x.load).toNat ∧
        ((base + f.new : Nat) : Int) - (d + x.load).toNat < 2 ^ 27 - 4) :
    ∃ m', patchProcess a ra T text file m1 m2 = some (m', some 1) := by
  obtain ⟨us, u1, y, u2, hus, hue, hu1, hu2, hyl, he⟩ := process_once (ra := ra) C
  obtain ⟨f1, f2, f3⟩ := hA.facts
  rw [he]
  rw [S.mmap]
  obtain ⟨kpta, hk⟩ := room_allocates (fr := T.fresh pre.length) C R
  have A := allocated_case C hk
  generalize allocatePatch a T.page (patchMemSize a T.page file) (objStart t) (objEnd t)
      (objPrevHole T.page (mapBounds vs) t) (T.fresh pre.length) true _ = al at hk
  dsimp only
  have F := C.patch
  have E := F.encoded
  have W := F.wellFormed
  have hnm : ∀ p q, unversioned p = unversioned q → (targetPrep T us y).resolve p = (targetPrep T us y).resolve q := by
    intro p q hpq
    show resolveUndefined _ _ _ p = resolveUndefined _ _ _ q
    unfold resolveUndefined
    rw [hpq]
  have hPC : PatchCase a w abs (targetPrep T us y) { T.apply pre.length with page := T.page, region := al.2 } file m2 o n img fns kpta :=
    patchCase_of C A hyl hnm rfl hk rfl
  have hfresh := fresh_of_notApplied C hid hshort N
  generalize (((associate (objBuildid T.lim m1) none ((pre ++ (t, some x) :: post).map Prod.fst)).find? fun p => p.obj == t).map
            fun p => p.applied.map hdrId).getD [] = ids at hfresh ⊢
  have hres := resolves_to C hus
  -- the layout
  obtain ⟨v, hview, hv1, hv2, hv3, himg⟩ := fileView_of_patch F
  have htot : totalSizeOf (file.take hdrSize) = 504 + img.length := by
    rw [← F.total.ld]
    unfold totalSizeOf ldField
    rw [List.drop_take, List.take_take, Nat.min_eq_left (by simp [hdrSize, offTotalSize])]
    rfl
  obtain ⟨l, hlay⟩ : ∃ l, l = layout a T.page v.undef (504 + img.length) v.infoOff v.ninfo := ⟨_, rfl⟩
  have hmem : l.totalMem = patchMemSize a T.page file := by
    unfold patchMemSize
    rw [hview]
    dsimp only
    rw [htot, ← hlay]
  have hpage := C.page
  have hmax : a.maxDistance ≤ 2 ^ 31 := by cases a <;> decide
  have hsz := A.size
  have hadr := A.addr
  have hpos := A.pos
  have hin := layout_ineq a T.page v.undef img.length v.infoOff v.ninfo (by omega) (by rw [← hlay, hmem]; omega)
    (by
      rw [hv1]
      have := (W.fits n ⟨F.info.1, F.info.2.1, fun h => F.replaces.kind (by rw [h]; simp)⟩).2.1
      omega)
  rw [← hlay] at hin
  obtain ⟨i1, i2, i3, i4, -, -, i7⟩ := hin
  have hbase : T.page ∣ kpta + l.elfOffset := Nat.dvd_add A.aligned (Nat.dvd_of_mod_eq_zero i4)
  rw [countUndefined_eq E W] at hv3
  -- the object is prepared
  have hprep : ∃ q, prepareElf a (ra y.load) (targetPrep T us y) (BitVec.ofNat 64 kpta) (l.jmpOffset.getD 0) l.elfOffset img = some q := by
    refine prepareElf_runs E W a (ra y.load) (f1 y.load) (targetPrep T us y) hnm (f2 y.load) _ _ _ ?_ ?_ ?_ U.first U.inside ?_
    · intro s hs
      rw [← List.map_drop] at hs
      obtain ⟨p, hp, rfl⟩ := List.mem_map.1 hs
      exact U.symbols p hp
    · intro s hs hlib
      rw [← List.map_drop] at hs
      obtain ⟨p, hp, rfl⟩ := List.mem_map.1 hs
      exact provided_resolves hres (U.libraries p hp (p.2.lib_iff.1 hlib))
    · intro e he
      rw [← hv3] at he
      rcases i7 with ⟨h, _⟩ | ⟨_, h, h'⟩
      · omega
      · rw [h, Option.getD_some, ← BitVec.ofNat_add, ← BitVec.ofNat_add]
        unfold jmpTableSize at h'
        have : e * a.jmpEntrySize ≤ v.undef * a.jmpEntrySize := Nat.mul_le_mul_right _ (by omega)
        have he1 : (e + 1) * a.jmpEntrySize ≤ v.undef * a.jmpEntrySize := Nat.mul_le_mul_right _ (by omega)
        have hes : 0 < a.jmpEntrySize := by cases a <;> decide
        rw [Nat.add_mul] at he1
        intro hc
        have := congrArg BitVec.toNat hc
        rw [BitVec.toNat_ofNat, Nat.mod_eq_of_lt (by omega)] at this
        simp at this
    · intro syms' tt hkr hruns h0 i hi jx r hrx
      have hr : r ∈ o.rels i := List.mem_of_getElem? hrx
      have hload : (targetPrep T us y).load = x.load := hyl
      rw [← BitVec.ofNat_add] at hruns ⊢
      have hSA : SymbolsAt o kpta (kpta + l.elfOffset) x.load syms' := by
        rw [← hload]
        refine ⟨?_, h0⟩
        intro k s hks
        obtain ⟨s', g1, g2⟩ := hruns k s hks
        refine ⟨s', g1, g2, ?_⟩
        intro hs
        have hk' : (o.syms.map (·.2))[k + 1]? = some s.2 := by rw [List.getElem?_map, hks]; rfl
        obtain ⟨jt, joff, j1, j2, j3⟩ := C29_library_calls_partial a _ _ _ _ _ _ _ _ _ _ hkr ⟨k, s.2, hk', hs⟩
        obtain ⟨j4, j5, -, z, x1, x2, x3, x4, -⟩ := j3 k s.2 hk' hs
        rw [g1, Option.some.injEq] at x1
        subst x1
        rw [j2, ← hv3] at j5
        have hes : 0 < a.jmpEntrySize := by cases a <;> decide
        rcases i7 with ⟨h, _⟩ | ⟨_, h, h'⟩
        · rw [h, jmpTableSize] at j5; omega
        · rw [x4, h, Option.getD_some, ← BitVec.ofNat_add, ← BitVec.ofNat_add, BitVec.toNat_ofNat, Nat.mod_eq_of_lt (by omega)]
          obtain ⟨j4, j6⟩ := j4
          refine ⟨by omega, by omega, ?_⟩
          omega
      have hok := hrel kpta (kpta + l.elfOffset) syms' A (by omega) hbase (by omega) hSA i hi jx r hrx
      have htg := W.target i hi
      rw [← hload] at hok
      refine relocationOk_act hA E W hi hrx ?_ ?_ hok
      · -- no stop
        have hb := W.relSyms i hi r hr
        obtain ⟨p, hget⟩ : ∃ p, o.syms[r.sym]? = some p := ⟨_, List.getElem?_eq_getElem hb⟩
        cases hk : r.sym with
        | zero =>
          rw [hk] at hget
          rw [hget] at h0
          rw [List.getD_eq_getElem?_getD, h0]
          exact (f2 _ i hi r hr _ _ (by rw [hk]; exact hget) rfl rfl rfl).1 _ _ _
        | succ k =>
          rw [hk] at hget
          obtain ⟨s', e1, e2⟩ := hruns k _ hget
          rw [List.getD_eq_getElem?_getD, e1]
          exact (f2 _ i hi r hr _ _ (by rw [hk]; exact hget) e2.1.symm e2.2.1.symm e2.2.2.1.symm).1 _ _ _
      · unfold ElfObj.runAddr
        rw [if_neg (by omega), if_neg (fun h => htg.2.2 (by rw [h]; simp))]
  obtain ⟨⟨image, jt⟩, hprep⟩ := hprep
  have himage : (applyFileEnv a (ra y.load) (targetPrep T us y) { T.apply pre.length with page := T.page, region := al.2 } file).image = some image := by
    unfold applyFileEnv
    dsimp only
    rw [hview, hk]
    dsimp only
    rw [htot, ← hlay, ← himg, hprep]
    rfl
  obtain ⟨v', l', LC, hmem', hilen, hpar⟩ := case_of_image hPC (f1 y.load) (f2 y.load) (f3 y.load) himage
  have hv' : v' = v := by
    have : fileView file = some v' := LC.apply.view
    rw [hview, Option.some.injEq] at this
    exact this.symm
  subst hv'
  have hl' : l' = l := by
    have := LC.apply.layout
    rw [hilen] at this
    rw [this, hlay]
    rfl
  subst hl'
  have hok := C85_applied_partial (ids := ids) LC {
    malloc := S.malloc
    fresh := hfresh
    prepared := himage
    writes := by
      obtain ⟨w1, w2, w3⟩ := S.writes
      refine ⟨by rw [hilen]; exact w1, w2, ?_⟩
      refine Nat.le_trans ?_ w3
      unfold jmpTableSize
      rw [hv3]
      have := countUndefined_le (o.syms.map (·.2))
      rw [List.length_map] at this
      exact Nat.add_le_add_left (Nat.mul_le_mul_right _ this) _
    safe := S.safe
    hunks := S.hunks
    mprotect := S.mprotect } (by
      intro ha i hi ho
      rw [hpar] at hi
      obtain ⟨f, hf, rfl⟩ := List.mem_map.1 hi
      cases hx : f.old with
      | none => exact absurd ⟨by simp [PatchFn.info, hx], by simp [PatchFn.info, hx]⟩ ho
      | some q =>
        have hload : (targetPrep T us y).load = x.load := hyl
        obtain ⟨r1, r2, r3⟩ := hreach ha kpta (kpta + l'.elfOffset) A (by omega) (by omega) f hf q.1 q.2 (by rw [hx])
        have hnew : f.new < img.length := by
          obtain ⟨j, hj⟩ := List.getElem?_of_mem hf
          obtain ⟨ii, q1, q2, q3⟩ := C.patch.replaces.records (fun hc => by rw [hc] at hf; simp at hf)
          exact (q3 j f hj).new.1
        have hsa : (PatchFn.info (BitVec.ofNat 64 (kpta + l'.elfOffset)) (targetPrep T us y).load f).saddr = kpta + l'.elfOffset + f.new := by
          show (BitVec.ofNat 64 (kpta + l'.elfOffset) + BitVec.ofNat 64 f.new).toNat = _
          rw [← BitVec.ofNat_add, BitVec.toNat_ofNat, Nat.mod_eq_of_lt (by omega)]
        have hda : (PatchFn.info (BitVec.ofNat 64 (kpta + l'.elfOffset)) (targetPrep T us y).load f).daddr = (q.1 + x.load).toNat := by
          rw [hload]; simp [PatchFn.info, hx]
        rw [hsa, hda]
        exact ⟨r1, r2, r3⟩)
  rw [if_pos hok]
  exact ⟨_, rfl⟩

end Verif
