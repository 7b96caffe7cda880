import Verif.Proof.GenPatch
import Verif.Proof.GenTwin
import Verif.Props.GenPatch
/-
C45: identical functions produce no patch.
-/
namespace Verif

section Target

variable [AsmTarget]

section
variable {o : GenOpts} {i0 i1 : GenInput} {L : GSt} {out : List Out}

theorem order_disjoint {f : GFile} (h : InOrder f) {b c : GBlock} (hb : b ∈ f.bs) (hc : c ∈ f.bs) {i : Nat} (hbi : b.start ≤ i ∧ i < b.stop)
    (hci : c.start ≤ i ∧ i < c.stop) : b = c := by
  by_contra hne
  have key : ∀ l : List GBlock, l.Pairwise (fun a b => a.stop ≤ b.start) → b ∈ l → c ∈ l → b.stop ≤ c.start ∨ c.stop ≤ b.start := by
    intro l hl
    induction l with
    | nil => intro h; cases h
    | cons x l ih =>
      rw [List.pairwise_cons] at hl
      intro h1 h2
      rcases List.mem_cons.mp h1 with h1 | h1 <;> rcases List.mem_cons.mp h2 with h2 | h2
      · exact absurd (h1.trans h2.symm) hne
      · exact Or.inl (h1 ▸ hl.1 c h2)
      · exact Or.inr (h2 ▸ hl.1 b h1)
      · exact ih hl.2 h1 h2
  rcases key f.bs h.sorted hb hc with e | e <;> omega

/-- A function that corresponds to one of the old file and is not written. -/
theorem Run.notReplaced {a : AnSt} {s : GSt} (hr : Run o L out a s) {b0 b1 : GBlock} (hb0 : b0 ∈ L.f0.bs) (hb1 : b1 ∈ L.f1.bs)
    (ht1 : b1.ty = .func) (hnm : b1.name.text = b0.name.text) (hne : b0.name.text ≠ []) (e1 : a.P0 b0.start = some b1.start)
    (hk : ¬ a.Kept b1) : NotReplaced out b0 b1 := by
  refine ⟨fun r hmr => ?_, fun i t sep hmem hi => ?_⟩
  · obtain ⟨c1, hc1, en, et, hkc, _⟩ := hr.records r hmr
    have hc : c1 ≠ b1 := fun e => hk (e ▸ hkc)
    constructor
    · intro e
      exact hc (hr.k1.uniq c1 hc1 b1 hb1 (en.symm.trans e) (by rw [← en, e, hnm]; exact hne))
    · intro e
      rcases et with et | ⟨c0, hc0, hp, et⟩
      · rw [et] at e; cases e
      · rw [et] at e
        have := hr.k0.uniq c0 hc0 b0 hb0 (Option.some.inj e) (by rw [Option.some.inj e]; exact hne)
        subst this
        rw [e1] at hp
        exact hc (start_inj hr.k1.order.starts hc1 hb1 (Option.some.inj hp).symm)
  · obtain ⟨c1, hc1, hci, hkc⟩ := hr.lines1 hmem
    have := order_disjoint hr.k1.order hc1 hb1 hci hi
    subst this
    exact hk (hkc ht1)

/-- C45: a function with the same statements in both files, in sections of the same names, is not replaced, if each token of
its statements has the same meaning in both files.  Missing: functions whose names are made by the compiler and functions that
use such names (`C45_same_files_partial` covers those of identical files); see `C45_violated_clone`. -/
theorem C45_identical_partial (h0 : i0.IsText) (h1 : i1.IsText) (hL : loadBoth i0 i1 = some L) (hn0 : L.f0.Named) (hn1 : L.f1.Named)
    (h : gensrc o i0 i1 = some out) {b0 b1 : GBlock} (hb0 : b0 ∈ L.f0.bs) (ht0 : b0.ty = .func) (hau : b0.auto = false)
    (hb1 : b1 ∈ L.f1.bs) (ht1 : b1.ty = .func) (hnm : b1.name.text = b0.name.text)
    (hu : inSyms L.f1.basename b1.human o.unlinkSyms = false)
    (hl : List.Forall₂ SameLine (L.f0.lines b0) (L.f1.lines b1))
    (hm : ∀ l ∈ L.f0.lines b0, ∀ t, HasToken l t → SameMeaning L b0 b1 t) : NotReplaced out b0 b1 := by
  obtain ⟨a, s, hr⟩ := gensrc_run h0 h1 hL hn0 h
  have hne := hn0 b0 hb0 (Or.inl ht0)
  have hB : SameFunc L b0 b1 := ⟨hb0, hb1, ht0, ht1, hau, hnm, hne, hl⟩
  have hLo := lok_of hr.k0 hr.k1
  have hst : ∀ t, (∃ l ∈ L.f0.lines b0, HasToken l t) → Settled L b0 b1 t := by
    rintro t ⟨l, hl, ht⟩
    exact settled_of hr.k0 hr.k1 hn0 hn1 (hm l hl t ht)
  have hI : a.I b1.start = true := by
    have e := hr.fn
    rw [Option.bind_eq_some_iff] at e
    obtain ⟨s1, e1, e2⟩ := e
    rw [← init_st hr.k0 hr.k1] at e1
    have hcl : ∀ t, (∃ l ∈ L.f0.lines b0, HasToken l t) → Clear s1 t := fun t ht =>
      analyzeVars_clear hLo hn1 (hst t ht) (init_inv L) ⟨congrFun mapOf_nil t, congrFun mapOf_nil t⟩ e1
    obtain ⟨a1, rfl, hi, hrel, _⟩ := analyzeVars_inv hLo (init_inv L) e1
    obtain ⟨b, q1, q2⟩ := analyzeFuncs_same hLo hn1 hi hrel.I hrel.U (fun b0 hb ht => hrel.others b0 hb ht) e2 hB
      (T := fun t => ∃ l ∈ L.f0.lines b0, HasToken l t)
      (fun l hl x hx => ⟨l, hl, List.mem_map.mpr ⟨x, hx, rfl⟩⟩) hst (fun t ht => Or.inl (hcl t ht))
    rw [at_dec1 hLo hb1] at q1
    cases q1
    exact q2
  have hU : a.U b1.start = false := by
    cases hc : a.U b1.start with
    | false => rfl
    | true => rw [(hr.an.unl b1 hb1 hc).2.2] at hu; cases hu
  obtain ⟨e1, e2⟩ := hr.an.exact b0 hb0 ht0 hau hne b1 (find_of_name hr.k1 hb1 (hr.k0.ok b0 hb0).1 hnm (hnm ▸ hne))
  have hk : ¬ a.Kept b1 := by
    rintro (hk | hk | hk)
    · rw [e2] at hk; cases hk
    · rw [hU] at hk; cases hk
    · rw [hI] at hk; cases hk
  exact hr.notReplaced hb0 hb1 ht1 hnm hne e1 hk

theorem init_mir (L : GSt) : Mir L AnSt.init :=
  ⟨renOk_nil, renOk_nil, fun t => Or.inl ⟨congrFun mapOf_nil t, congrFun mapOf_nil t⟩, fun p q e => (by cases e), rfl⟩

/-- C45: for twice the same file no function is replaced, but those of the list of functions that are always written.  Missing:
files with debug descriptors, and files where the base name of a function made by the compiler is also that of another symbol;
see `C45_violated_clone`. -/
theorem C45_same_files_partial (h0 : i0.IsText) (hs : i1.lines = i0.lines) (hL : loadBoth i0 i1 = some L) (hn : L.f0.Named)
    (hd : ∀ b ∈ L.f0.bs, b.ty = .var → ¬ lit "descriptor." <+: b.name.text)
    (hh : ∀ b ∈ L.f0.bs, b.ty = .func → b.auto = true → ∀ c ∈ L.f0.bs, c.human.text = b.human.text → c = b)
    (h : gensrc o i0 i1 = some out) :
    L.f1.ls = L.f0.ls ∧ L.f1.bs = L.f0.bs ∧
    (∀ r ∈ recordsOf out, ∃ b ∈ L.f1.bs, b.ty = .func ∧ r.name = b.name.text ∧ inSyms L.f1.basename b.human o.unlinkSyms = true) ∧
    (∀ i t sep, Out.line true i t sep ∈ out → ∀ b ∈ L.f1.bs, b.ty = .func → b.start ≤ i ∧ i < b.stop →
      inSyms L.f1.basename b.human o.unlinkSyms = true) := by
  have hT := loadBoth_twin hs hL
  have h1 : i1.IsText := by unfold GenInput.IsText; rw [hs]; exact h0
  obtain ⟨a, s, hr⟩ := gensrc_run h0 h1 hL hn h
  have hLo := lok_of hr.k0 hr.k1
  have key : ∀ b ∈ L.f1.bs, b.ty = .func → a.P0 b.start = some b.start ∧ (a.Kept b → inSyms L.f1.basename b.human o.unlinkSyms = true) := by
    have e := hr.fn
    rw [Option.bind_eq_some_iff] at e
    obtain ⟨s1, e1, e2⟩ := e
    rw [← init_st hr.k0 hr.k1] at e1
    obtain ⟨a1, rfl, hD⟩ := analyzeVars_self hT hLo hr.k0.order hn hd (init_mir L)
      (fun t => ⟨congrFun mapOf_nil t, congrFun mapOf_nil t⟩) (fun _ _ _ => rfl) e1
    obtain ⟨a2, e3, hI⟩ := analyzeFuncs_self hT hLo hn hh hD.mir e2
    intro b hb hty
    obtain ⟨q1, q2, q3⟩ := hI b (hT.mem' hb) hty
    have hat := at_dec1 (a := a) hLo hb
    rw [e3, at_dec1 (a := a2) hLo hb] at hat
    have hP : a2.P1 b.start = a.P1 b.start := congrArg GBlock.pair (Option.some.inj hat)
    have hI : a2.I b.start = a.I b.start := congrArg GBlock.ignore (Option.some.inj hat)
    have hat0 := at_dec0 (a := a) hLo (hT.mem' hb)
    rw [e3, at_dec0 (a := a2) hLo (hT.mem' hb)] at hat0
    have hP0 : a2.P0 b.start = a.P0 b.start := congrArg GBlock.pair (Option.some.inj hat0)
    refine ⟨by rw [← hP0]; exact q3, fun hk => ?_⟩
    rcases hk with hk | hk | hk
    · rw [← hP, q2] at hk; cases hk
    · exact (hr.an.unl b hb hk).2.2
    · rw [← hI, q1] at hk; cases hk
  refine ⟨hT.ls, hT.bs, fun r hmr => ?_, fun i t sep hmem b hb hty hi => ?_⟩
  · obtain ⟨c1, hc1, en, _, hkc, hf, _⟩ := hr.records r hmr
    have hty : c1.ty = .func := by
      rcases hf with hf | ⟨b0, hb0, hty, hp⟩
      · exact hf
      · rw [(key b0 (hT.mem hb0) hty).1] at hp
        rw [← start_inj hLo.st1 (hT.mem hb0) hc1 (Option.some.inj hp)]
        exact hty
    exact ⟨c1, hc1, hty, en, (key c1 hc1 hty).2 hkc⟩
  · obtain ⟨c1, hc1, hci, hkc⟩ := hr.lines1 hmem
    have := order_disjoint hr.k1.order hc1 hb hci hi
    subst this
    exact (key c1 hb hty).2 (hkc hty)

end

/-! ### Concrete cases -/

set_option maxRecDepth 100000

end Target

section X86

attribute [local instance] x86Asm

/-- The function `g` of `exOld` and `exNew`: it reads the variable `x`. -/
def exG0 : GBlock := (exL.f0.bs[1]?).get (by decide +kernel)

def exG1 : GBlock := (exL.f1.bs[1]?).get (by decide +kernel)

/-- The variables `x`. -/
def exX1 : GBlock := (exL.f1.bs[2]?).get (by decide +kernel)

instance (f : GFile) (b : GBlock) (t : List Byte) : Decidable (f.HasLabel b t) := by unfold GFile.HasLabel; infer_instance

theorem exG_same : List.Forall₂ SameLine (exL.f0.lines exG0) (exL.f1.lines exG1) := by
  have : exL.f0.lines exG0 = exL.f1.lines exG1 := by decide +kernel
  rw [this]
  exact forall₂_diag fun x _ => ⟨rfl, rfl, rfl⟩

/-- Of the tokens of `g`, `g` and `x` are names, the others are external. -/
theorem exG_tokens : ∀ t ∈ (exL.f0.lines exG0).flatMap (fun l => (tokens (some l.text)).map (·.text)),
    t = lit "g" ∨ t = lit "x" ∨
    ((∀ b ∈ exL.f0.bs, (b.name.text ≠ t ∨ t = []) ∧ ¬ exL.f0.HasLabel b t) ∧
     (∀ b ∈ exL.f1.bs, (b.name.text ≠ t ∨ t = []) ∧ ¬ exL.f1.HasLabel b t)) := by decide +kernel

theorem exG_names :
    (exG0 ∈ exL.f0.bs ∧ exG1 ∈ exL.f1.bs ∧ exG0.name.text = lit "g" ∧ exG1.name.text = lit "g" ∧ exG0.ty = .func ∧ exG1.ty = .func ∧
      exG0.auto = false ∧ (∀ b ∈ exL.f0.bs, exL.f0.HasLabel b (lit "g") → b = exG0) ∧
      (∀ b ∈ exL.f1.bs, exL.f1.HasLabel b (lit "g") → b = exG1) ∧ (∀ b ∈ exL.f0.bs, b.auto = true → b.human.text ≠ exG1.human.text)) ∧
    (exX0 ∈ exL.f0.bs ∧ exX1 ∈ exL.f1.bs ∧ exX0.name.text = lit "x" ∧ exX1.name.text = lit "x" ∧ exX0.ty = .var ∧ exX1.ty = .var ∧
      exX0.auto = false ∧ (∀ b ∈ exL.f0.bs, exL.f0.HasLabel b (lit "x") → b = exX0) ∧
      (∀ b ∈ exL.f1.bs, exL.f1.HasLabel b (lit "x") → b = exX1) ∧ (∀ b ∈ exL.f0.bs, b.auto = true → b.human.text ≠ exX1.human.text)) := by
  decide +kernel

/-- `C45_identical_partial` applies to `g`, although `f` has changed. -/
example : NotReplaced exOut exG0 exG1 := by
  obtain ⟨⟨g1, g2, g3, g4, g5, g6, g7, g8, g9, g10⟩, ⟨x1, x2, x3, x4, x5, x6, x7, x8, x9, x10⟩⟩ := exG_names
  refine C45_identical_partial exText.1 exText.2 exL_eq exNamed (by unfold GFile.Named; decide +kernel) exOut_eq g1 g5 g7 g2 g6
    (g4.trans g3.symm) (by decide +kernel) exG_same fun l hl t ht => ?_
  rcases exG_tokens t (List.mem_flatMap.mpr ⟨l, hl, ht⟩) with rfl | rfl | ⟨e0, e1⟩
  · exact .name exG0 exG1 g1 g2 g3 g4 (g5.trans g6.symm) (Or.inl g5) g7 (by decide +kernel) g8 g9 g10
  · exact .name exX0 exX1 x1 x2 x3 x4 (x5.trans x6.symm) (Or.inr ⟨x5, exX0_vanish.1⟩) x7 (by decide +kernel) x8 x9 x10
  · exact .external e0 e1

/-- A file with a function clone, a string and a static variable, whose names are made by the compiler. -/
def exTwin : GenInput := exIn ["\t.text", "\t.type\thelper.isra.0, @function", "helper.isra.0:", "\tmovl n.1(%rip), %eax", "\tret",
  "\t.size\thelper.isra.0, .-helper.isra.0", "\t.section\t.rodata.str1.1,\"aMS\",@progbits,1", ".LC0:", "\t.string\t\"text\"",
  "\t.text", "\t.globl\tf", "\t.type\tf, @function", "f:", "\tleaq .LC0(%rip), %rdi", "\tcall\thelper.isra.0", "\tret", "\t.size\tf, .-f",
  "\t.local\tn.1", "\t.comm\tn.1,4,4", "\t.ident\t\"GCC\""]

def exTL : GSt := (loadBoth exTwin exTwin).get (by decide +kernel)

def exTOut : List Out := (gensrc exOpts exTwin exTwin).get (by decide +kernel)

/-- `C45_same_files_partial` applies: the output has no record, although the file has all these symbols. -/
example : recordsOf exTOut = [] ∧ exTL.f0.bs.filterMap (fun b => if b.ty = .func ∨ b.ty = .var then some (b.name.text, b.ty, b.auto) else none) =
    [(lit "helper.isra.0", .func, true), (lit ".LC0", .var, true), (lit "f", .func, false), (lit "n.1", .var, true)] := by
  have h := C45_same_files_partial (o := exOpts) (i0 := exTwin) (i1 := exTwin) (L := exTL) (out := exTOut) (by unfold GenInput.IsText; decide +kernel) rfl
    (Option.some_get _).symm (by unfold GFile.Named; decide +kernel) (by decide +kernel) (by decide +kernel) (Option.some_get _).symm
  refine ⟨List.eq_nil_iff_forall_not_mem.mpr fun r hr => ?_, by decide +kernel⟩
  obtain ⟨b, _, _, _, e⟩ := h.2.2.1 r hr
  cases e

/-! ### Violation -/

/-- The function `foo` calls its clone `foo.isra.0`, which follows it. -/
def exClone : GenInput := exIn ["\t.text", "\t.globl\tfoo", "\t.type\tfoo, @function", "foo:", "\tcall\tfoo.isra.0", "\tret", "\t.size\tfoo, .-foo",
  "\t.type\tfoo.isra.0, @function", "foo.isra.0:", "\tmovl $1, %eax", "\tret", "\t.size\tfoo.isra.0, .-foo.isra.0", "\t.ident\t\"GCC\""]

/-- C45 is violated: for twice the same file the generator replaces the function `foo` and adds `foo.isra.0`. -/
theorem C45_violated_clone : ∃ out, gensrc exOpts exClone exClone = some out ∧
    (recordsOf out).map (fun r => (r.name, r.target)) = [(lit "foo", some (lit "foo")), (lit "foo.isra.0", none)] :=
  ⟨(gensrc exOpts exClone exClone).getD [], by decide +kernel⟩

end X86

end Verif
