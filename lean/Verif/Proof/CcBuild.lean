import Verif.Spec.CcBuild
import Verif.Proof.Cc
/-
Lemmas about builds from several files.
-/
namespace Verif

/-! ### The input files of the scan -/

/-- What holds of the input positions when the scan stands at position `i`. -/
structure InputsInv (args : List CStr) (i : Nat) (st : CcScan) : Prop where
  arg : ∀ p ∈ st.inputs, 1 ≤ p ∧ p < i ∧ ∃ a, argPos args p = some a ∧ (argAt a 0 ≠ 45#8 ∨ argAt a 1 = 0#8)
  nulls : ∀ p ∈ st.nulls, p < i
  sep : ∀ p ∈ st.inputs, p ∉ st.nulls
  nodup : st.inputs.Nodup

theorem InputsInv.skip {args : List CStr} {i j : Nat} {st st' : CcScan} (h : InputsInv args i st) (hj : i ≤ j)
    (h1 : st'.inputs = st.inputs) (h2 : st'.nulls = st.nulls) : InputsInv args j st' := by
  refine ⟨?_, ?_, ?_, ?_⟩
  · intro p hp
    rw [h1] at hp
    obtain ⟨a, b, c⟩ := h.arg p hp
    exact ⟨a, by omega, c⟩
  · intro p hp
    rw [h2] at hp
    have := h.nulls p hp
    omega
  · rw [h1, h2]; exact h.sep
  · rw [h1]; exact h.nodup

theorem InputsInv.addInput {args : List CStr} {i : Nat} {st st' : CcScan} (h : InputsInv args i st) (hi : 1 ≤ i)
    {a : CStr} (ha : argPos args i = some a) (h0 : argAt a 0 ≠ 45#8 ∨ argAt a 1 = 0#8)
    (h1 : st'.inputs = i :: st.inputs) (h2 : st'.nulls = st.nulls) : InputsInv args (i + 1) st' := by
  refine ⟨?_, ?_, ?_, ?_⟩
  · intro p hp
    rw [h1, List.mem_cons] at hp
    rcases hp with rfl | hp
    · exact ⟨hi, by omega, a, ha, h0⟩
    · obtain ⟨b, c, d⟩ := h.arg p hp
      exact ⟨b, by omega, d⟩
  · intro p hp
    rw [h2] at hp
    have := h.nulls p hp
    omega
  · rw [h1, h2]
    intro p hp hn
    rcases List.mem_cons.1 hp with rfl | hp
    · have := h.nulls _ hn; omega
    · exact h.sep p hp hn
  · rw [h1, List.nodup_cons]
    refine ⟨?_, h.nodup⟩
    intro hm
    have := (h.arg i hm).2.1
    omega

theorem InputsInv.addNulls {args : List CStr} {i j : Nat} {st st' : CcScan} (h : InputsInv args i st)
    (ns : List Nat) (hns : ∀ p ∈ ns, i ≤ p ∧ p < j) (hij : i ≤ j)
    (h1 : st'.inputs = st.inputs) (h2 : st'.nulls = ns ++ st.nulls) : InputsInv args j st' := by
  refine ⟨?_, ?_, ?_, ?_⟩
  · intro p hp
    rw [h1] at hp
    obtain ⟨b, c, d⟩ := h.arg p hp
    exact ⟨b, by omega, d⟩
  · intro p hp
    rw [h2, List.mem_append] at hp
    rcases hp with hp | hp
    · exact (hns p hp).2
    · have := h.nulls p hp; omega
  · rw [h1, h2]
    intro p hp hn
    rcases List.mem_append.1 hn with hn | hn
    · have := (h.arg p hp).2.1
      have := (hns p hn).1
      omega
    · exact h.sep p hp hn
  · rw [h1]; exact h.nodup

theorem ccScan_inputs (args : List CStr) (n : Nat) : ∀ (l : List CStr) (i : Nat) (st : CcScan), l.length ≤ n → 1 ≤ i →
    (∀ k, l[k]? = args[i - 1 + k]?) → InputsInv args i st → ∃ j, InputsInv args j (ccScan l i st) := by
  induction n with
  | zero =>
    intro l i st hn _ _ h
    have : l = [] := List.length_eq_zero_iff.1 (by omega)
    subst this
    exact ⟨i, by rw [ccScan]; exact h⟩
  | succ n ih =>
    intro l i st hn hi hl h
    cases l with
    | nil => exact ⟨i, by rw [ccScan]; exact h⟩
    | cons a rest =>
      have hpos : argPos args i = some a := by
        have := hl 0
        simp only [List.getElem?_cons_zero, Nat.add_zero] at this
        rw [argPos, if_neg (by omega), ← this]
      have hl1 : ∀ k, rest[k]? = args[i + 1 - 1 + k]? := by
        intro k
        have := hl (k + 1)
        rw [List.getElem?_cons_succ] at this
        rw [this]; congr 1; omega
      have hl2 : ∀ k, (rest.drop 1)[k]? = args[i + 2 - 1 + k]? := by
        intro k
        rw [List.getElem?_drop, hl1]; congr 1; omega
      have hlen1 : rest.length ≤ n := by simpa using hn
      have hlen2 : (rest.drop 1).length ≤ n := by simp; omega
      rw [ccScan]
      by_cases h0 : argAt a 0 ≠ 45#8 ∨ argAt a 1 = 0#8
      · rw [if_pos h0]
        exact ih rest (i + 1) _ hlen1 (by omega) hl1 (h.addInput hi hpos h0 rfl rfl)
      · rw [if_neg h0]
        repeat' (refine iteP (P := fun r => ∃ j, InputsInv args j r) ?_ ?_ <;> intro _)
        all_goals first
          | exact ih _ (i + 1) _ hlen1 (by omega) hl1 (h.skip (by omega) rfl rfl)
          | exact ih _ (i + 2) _ hlen2 (by omega) hl2 (h.skip (by omega) rfl rfl)
          | exact ih _ (i + 2) _ hlen2 (by omega) hl2
              (h.addNulls [i + 1, i] (by simp) (by omega) rfl rfl)
          | exact ih _ (i + 1) _ hlen1 (by omega) hl1
              (h.addNulls [i] (by simp) (by omega) rfl rfl)

theorem decide_inputs (e : CcEnv) (args : List CStr) :
    ∃ j, InputsInv args j (ccDecide e args) := by
  have h0 : InputsInv args 1 { action := if args = [lit "-v"] then .showV else .passthrough } :=
    ⟨by simp, by simp, by simp, by simp⟩
  obtain ⟨j, hj⟩ := ccScan_inputs args args.length args 1 _ (Nat.le_refl _) (Nat.le_refl _) (by simp) h0
  exact ⟨j, hj.skip (Nat.le_refl _) rfl rfl⟩

/-! ### The array of input files -/

theorem compactInputs_spec (L : List (Option CStr)) (i j : Nat) (f : Nat → Option CStr) (hij : i ≤ j)
    (hgap : ∀ k, i ≤ k → k < j → f k = none) (hrem : ∀ n, L[n]? = some none → f (j + n) = none) :
    (∀ k < i, compactInputs L i j f k = f k) ∧
    (∀ n p, (keptOf L j)[n]? = some p → compactInputs L i j f (i + n) = f p.2) ∧
    (∀ k, i + (keptOf L j).length ≤ k → k < j + L.length → compactInputs L i j f k = none) ∧
    (∀ k, j + L.length ≤ k → compactInputs L i j f k = f k) := by
  induction L generalizing i j f with
  | nil =>
    refine ⟨fun _ _ => rfl, by simp [keptOf], ?_, fun _ _ => rfl⟩
    intro k h1 h2
    simp only [keptOf, List.length_nil, Nat.add_zero] at h1 h2
    exact hgap k h1 h2
  | cons o t ih =>
    cases o with
    | none =>
      rw [compactInputs, keptOf]
      have h0 : f j = none := by simpa using hrem 0 (by simp)
      obtain ⟨a, b, c, d⟩ := ih i (j + 1) f (by omega)
        (fun k h1 h2 => by
          by_cases hk : k = j
          · rw [hk]; exact h0
          · exact hgap k h1 (by omega))
        (fun n hn => by
          have := hrem (n + 1) (by simpa using hn)
          rw [← this]; congr 1; omega)
      refine ⟨a, b, ?_, ?_⟩
      · intro k h1 h2
        exact c k h1 (by simp only [List.length_cons] at h2; omega)
      · intro k h1
        exact d k (by simp only [List.length_cons] at h1; omega)
    | some x =>
      rw [compactInputs, keptOf]
      generalize hg : (if i ≠ j then fun k => if k = j then none else if k = i then f j else f k else f) = g
      have hgi : g i = f j := by
        rw [← hg]; by_cases h : i = j <;> simp [h]
      have hglt : ∀ k, k < i → g k = f k := by
        intro k hk
        rw [← hg]
        by_cases h : i = j
        · simp [h]
        · simp [h, show ¬ k = j by omega, show ¬ k = i by omega]
      have hggt : ∀ k, j < k → g k = f k := by
        intro k hk
        rw [← hg]
        by_cases h : i = j
        · simp [h]
        · simp [h, show ¬ k = j by omega, show ¬ k = i by omega]
      have hgap' : ∀ k, i + 1 ≤ k → k < j + 1 → g k = none := by
        intro k h1 h2
        rw [← hg]
        by_cases h : i = j
        · omega
        · by_cases hk : k = j
          · simp [h, hk]
          · simp only [ne_eq, h, not_false_eq_true, if_true, hk, if_false, show ¬ k = i by omega]
            exact hgap k (by omega) (by omega)
      obtain ⟨a, b, c, d⟩ := ih (i + 1) (j + 1) g (by omega) hgap'
        (fun n hn => by
          rw [hggt _ (by omega)]
          have := hrem (n + 1) (by simpa using hn)
          rw [← this]; congr 1; omega)
      refine ⟨?_, ?_, ?_, ?_⟩
      · intro k hk
        rw [a k (by omega), hglt k hk]
      · intro n p hp
        cases n with
        | zero =>
          simp only [List.getElem?_cons_zero, Option.some.injEq] at hp
          subst hp
          exact (a i (by omega)).trans hgi
        | succ n =>
          rw [List.getElem?_cons_succ] at hp
          have h1 := b n p hp
          rw [show i + (n + 1) = i + 1 + n by omega, h1]
          have := keptOf_ge t (j + 1) p (List.mem_of_getElem? hp)
          exact hggt _ (by omega)
      · intro k h1 h2
        simp only [List.length_cons] at h1 h2
        exact c k (by omega) (by omega)
      · intro k h1
        simp only [List.length_cons] at h1
        rw [d k (by omega), hggt k (by omega)]

/-! ### Exit statuses -/

/-- What holds of a run that starts in `w`: as long as it goes on every tool has exited with 0; when it stops,
either all have (and the status is 129 or 255), or the status is that of the last tool. -/
def StepOk {α : Type} (w : CcW) : CcRes α → Prop
  | .ok _ w' => ∃ l, w'.log = w.log ++ l ∧ ∀ x ∈ l, wexit x.2 = 0
  | .stop s w' => s ≠ 0 ∧ ∃ l, w'.log = w.log ++ l ∧
      ((∀ x ∈ l, wexit x.2 = 0) ∨ ∃ l' x, l = l' ++ [x] ∧ (∀ y ∈ l', wexit y.2 = 0) ∧ wexit x.2 = s)

theorem StepOk.andThen {α β : Type} {w : CcW} {r : CcRes α} {k : α → CcW → CcRes β} (h : StepOk w r)
    (hk : ∀ a w', StepOk w' (k a w')) : StepOk w (r.andThen k) := by
  cases r with
  | stop s w' => exact h
  | ok a w' =>
    obtain ⟨l, h1, h2⟩ := h
    have h3 := hk a w'
    simp only [CcRes.andThen]
    cases hr : k a w' with
    | ok b w'' =>
      rw [hr] at h3
      obtain ⟨l', h4, h5⟩ := h3
      refine ⟨l ++ l', by rw [h4, h1, List.append_assoc], ?_⟩
      intro x hx
      rcases List.mem_append.1 hx with hx | hx
      · exact h2 x hx
      · exact h5 x hx
    | stop s w'' =>
      rw [hr] at h3
      obtain ⟨h3, l', h4, h5⟩ := h3
      refine ⟨h3, l ++ l', by rw [h4, h1, List.append_assoc], ?_⟩
      rcases h5 with h5 | ⟨l2, x, e, h5, h6⟩
      · left
        intro x hx
        rcases List.mem_append.1 hx with hx | hx
        · exact h2 x hx
        · exact h5 x hx
      · right
        refine ⟨l ++ l2, x, by rw [e, List.append_assoc], ?_, h6⟩
        intro y hy
        rcases List.mem_append.1 hy with hy | hy
        · exact h2 y hy
        · exact h5 y hy

theorem stepOk_ok {α : Type} (a : α) (w : CcW) : StepOk w (.ok a w) := ⟨[], by simp, by simp⟩

theorem stepOk_stop {α : Type} (s : Nat) (h : s ≠ 0) (w : CcW) : StepOk w (.stop s w : CcRes α) :=
  ⟨h, [], by simp, Or.inl (by simp)⟩

theorem stepOk_gcc (t : CcTools) (argv : List CStr) (w : CcW) : StepOk w (runGcc t argv w) := by
  unfold runGcc
  dsimp only
  split
  · next h => exact ⟨[_], rfl, by simpa using h⟩
  · next h => exact ⟨h, [_], rfl, Or.inr ⟨[], _, rfl, by simp, rfl⟩⟩

theorem stepOk_gensrc (t : CcTools) (argv : List CStr) (w : CcW) : StepOk w (runGensrc t argv w) := by
  unfold runGensrc
  dsimp only
  split
  · next h => exact ⟨[_], rfl, by simpa using h⟩
  · next h => exact ⟨h, [_], rfl, Or.inr ⟨[], _, rfl, by simp, rfl⟩⟩

theorem stepOk_rename (t : CcTools) (a b : CStr) (w : CcW) : StepOk w (ccRename t a b w) := by
  unfold ccRename
  split
  · exact stepOk_stop _ (by decide) w
  · exact ⟨[], by simp, by simp⟩

theorem stepOk_copy (a b : CStr) (w : CcW) : StepOk w (ccCopy a b w) := by
  unfold ccCopy
  split
  · exact stepOk_stop _ (by decide) w
  · exact ⟨[], by simp, by simp⟩

theorem stepOk_dbgfilter (e : CcEnvB) (t : CcTools) (p : CStr) (w : CcW) : StepOk w (doDbgfilter e t p w) := by
  unfold doDbgfilter
  split
  · exact stepOk_ok _ w
  · exact (stepOk_gensrc t _ w).andThen fun _ w => stepOk_rename t _ _ w

theorem stepOk_generate (e : CcEnvB) (t : CcTools) (p : CStr) (w : CcW) : StepOk w (doGenerateKpatch e t p w) := by
  unfold doGenerateKpatch
  dsimp only
  refine StepOk.andThen ?_ fun _ w => (stepOk_dbgfilter e t _ w).andThen fun _ w =>
    (stepOk_gensrc t _ w).andThen fun _ w => (stepOk_rename t _ _ w).andThen fun _ w => stepOk_ok _ w
  split
  · exact stepOk_ok _ w
  · exact (stepOk_dbgfilter e t _ w).andThen fun _ w => stepOk_ok _ w

theorem stepOk_stage (e : CcEnvB) (t : CcTools) (p : CStr) (w : CcW) : StepOk w (stageStep e t p w) := by
  unfold stageStep
  split
  · exact stepOk_generate e t p w
  · exact stepOk_ok _ w

theorem stepOk_compileSingle (e : CcEnvB) (t : CcTools) (act : CcAction) (argv : List CStr) (x : CcIdx) (out : CStr)
    (w : CcW) : StepOk w (compileSingleW e t act argv x out w) := by
  unfold compileSingleW
  dsimp only
  refine StepOk.andThen ?_ fun _ w => (stepOk_stage e t _ w).andThen fun _ w => ?_
  · split
    · exact stepOk_copy _ _ w
    · exact stepOk_gcc t _ w
  · split
    · exact stepOk_copy _ _ w
    · exact stepOk_gcc t _ w

theorem stepOk_buildInput (e : CcEnvB) (t : CcTools) (others : List CStr) (lang out f : CStr) (w : CcW) :
    StepOk w (buildInput e t others lang out f w) := by
  unfold buildInput
  dsimp only
  split
  · exact stepOk_ok _ w
  · split
    · exact stepOk_ok _ w
    · exact (stepOk_copy _ _ w).andThen fun _ w => stepOk_stage e t _ w
  · split
    · exact stepOk_ok _ w
    · exact (stepOk_gcc t _ w).andThen fun _ w => stepOk_stage e t _ w
  · exact (stepOk_gcc t _ w).andThen fun _ w => stepOk_stage e t _ w
  · exact stepOk_stage e t _ w

theorem stepOk_buildInputs (e : CcEnvB) (t : CcTools) (others : List CStr) (lang out : CStr)
    (l : List (CStr × Option CStr)) (w : CcW) : StepOk w (buildInputs e t others lang out l w) := by
  induction l generalizing w with
  | nil => exact stepOk_ok _ w
  | cons p l ih =>
    obtain ⟨a, o⟩ := p
    cases o with
    | none =>
      rw [buildInputs]
      exact (ih w).andThen fun _ w => stepOk_ok _ w
    | some f =>
      rw [buildInputs]
      exact (stepOk_buildInput e t others lang out f w).andThen fun _ w =>
        (ih w).andThen fun _ w => stepOk_ok _ w

theorem stepOk_buildMultiple (e : CcEnvB) (t : CcTools) (argv : List CStr) (inp : Nat → Option CStr) (nin : Nat)
    (lang out : CStr) (w : CcW) : StepOk w (buildMultipleW e t argv inp nin lang out w) := by
  unfold buildMultipleW
  dsimp only
  split
  · exact stepOk_stop _ (by decide) w
  · exact (stepOk_buildInputs e t _ lang out _ w).andThen fun _ w => stepOk_gcc t _ w

/-! ### The commands -/

/-- The compiler runs of a run that starts in `w` and, if it goes to the end, yields `b`: all of `cmds`, or the
first of them if it stops. -/
def Cmds {α : Type} (w : CcW) (b : α) (cmds : List (List CStr)) : CcRes α → Prop
  | .ok a w' => a = b ∧ gccRuns w'.log = gccRuns w.log ++ cmds
  | .stop _ w' => ∃ pre, pre <+: cmds ∧ gccRuns w'.log = gccRuns w.log ++ pre

theorem Cmds.andThen {α β : Type} {w : CcW} {a : α} {b : β} {c1 c2 : List (List CStr)} {r : CcRes α}
    {k : α → CcW → CcRes β} (h : Cmds w a c1 r) (hk : ∀ w', Cmds w' b c2 (k a w')) :
    Cmds w b (c1 ++ c2) (r.andThen k) := by
  cases r with
  | stop s w' =>
    obtain ⟨pre, h1, h2⟩ := h
    exact ⟨pre, h1.trans (List.prefix_append _ _), h2⟩
  | ok x w' =>
    obtain ⟨rfl, h2⟩ := h
    have h3 := hk w'
    simp only [CcRes.andThen]
    cases hr : k x w' with
    | ok y w'' =>
      rw [hr] at h3
      exact ⟨h3.1, by rw [h3.2, h2, List.append_assoc]⟩
    | stop s w'' =>
      rw [hr] at h3
      obtain ⟨pre, h4, h5⟩ := h3
      refine ⟨c1 ++ pre, ?_, by rw [h5, h2, List.append_assoc]⟩
      rw [List.prefix_append_right_inj]
      exact h4

/-- The same without commands. -/
theorem Cmds.then0 {α β : Type} {w : CcW} {a : α} {b : β} {c2 : List (List CStr)} {r : CcRes α}
    {k : α → CcW → CcRes β} (h : Cmds w a [] r) (hk : ∀ w', Cmds w' b c2 (k a w')) :
    Cmds w b c2 (r.andThen k) := by
  have := Cmds.andThen h hk
  simpa using this

/-- The same, followed by no command. -/
theorem Cmds.then1 {α β : Type} {w : CcW} {a : α} {b : β} {c1 : List (List CStr)} {r : CcRes α}
    {k : α → CcW → CcRes β} (h : Cmds w a c1 r) (hk : ∀ w', Cmds w' b [] (k a w')) :
    Cmds w b c1 (r.andThen k) := by
  have := Cmds.andThen h hk
  simpa using this

theorem cmds_ok {α : Type} (a : α) (w : CcW) : Cmds w a [] (.ok a w) := ⟨rfl, by simp⟩

theorem cmds_stop {α : Type} (a : α) (s : Nat) (c : List (List CStr)) (w : CcW) : Cmds w a c (.stop s w) :=
  ⟨[], List.nil_prefix, by simp⟩

theorem cmds_gcc (t : CcTools) (argv : List CStr) (w : CcW) : Cmds w () [argv] (runGcc t argv w) := by
  unfold runGcc
  dsimp only
  split
  · exact ⟨rfl, by simp [gccRuns]⟩
  · exact ⟨[argv], List.prefix_refl _, by simp [gccRuns]⟩

theorem cmds_gensrc (t : CcTools) (argv : List CStr) (w : CcW) : Cmds w () [] (runGensrc t argv w) := by
  unfold runGensrc
  dsimp only
  split
  · exact ⟨rfl, by simp [gccRuns]⟩
  · exact ⟨[], List.prefix_refl _, by simp [gccRuns]⟩

theorem cmds_rename (t : CcTools) (a b : CStr) (w : CcW) : Cmds w () [] (ccRename t a b w) := by
  unfold ccRename
  split
  · exact cmds_stop _ _ _ w
  · exact ⟨rfl, by simp⟩

theorem cmds_copy (a b : CStr) (w : CcW) : Cmds w () [] (ccCopy a b w) := by
  unfold ccCopy
  split
  · exact cmds_stop _ _ _ w
  · exact ⟨rfl, by simp⟩

theorem cmds_dbgfilter (e : CcEnvB) (t : CcTools) (p : CStr) (w : CcW) : Cmds w () [] (doDbgfilter e t p w) := by
  unfold doDbgfilter
  split
  · exact cmds_ok _ w
  · exact (cmds_gensrc t _ w).then0 fun w => cmds_rename t _ _ w

theorem cmds_generate (e : CcEnvB) (t : CcTools) (p : CStr) (w : CcW) :
    Cmds w (p.take (p.length - 10) ++ lit ".s") [] (doGenerateKpatch e t p w) := by
  unfold doGenerateKpatch
  dsimp only
  have hrest : ∀ (o : CStr) (w : CcW), Cmds w (p.take (p.length - 10) ++ lit ".s") []
      ((doDbgfilter e t p w).andThen fun _ w =>
        (runGensrc t ([lit "kpatch_gensrc"] ++ e.patchArgs ++
          [lit "-i", o, lit "-i", p, lit "-o", p.take (p.length - 10) ++ lit ".s.tmp"]) w).andThen fun _ w =>
        (ccRename t (p.take (p.length - 10) ++ lit ".s.tmp") (p.take (p.length - 10) ++ lit ".s") w).andThen fun _ w =>
        .ok (p.take (p.length - 10) ++ lit ".s") w) := by
    intro o w
    exact (cmds_dbgfilter e t p w).then0 fun w => (cmds_gensrc t _ w).then0 fun w =>
      (cmds_rename t _ _ w).then0 fun w => cmds_ok _ w
  split
  · exact (cmds_ok _ w).then0 fun w => hrest _ w
  · have h1 : Cmds w (p.take (p.length - 10) ++ lit ".original.s") []
        ((doDbgfilter e t (p.take (p.length - 10) ++ lit ".original.s") w).andThen fun _ w =>
          .ok (p.take (p.length - 10) ++ lit ".original.s") w) :=
      (cmds_dbgfilter e t _ w).then0 fun w => cmds_ok _ w
    exact h1.then0 fun w => hrest _ w

theorem asmName_stem (e : CcEnvB) (out f : CStr) : asmName e out f = asmFile e out f := by
  unfold asmName asmFile asmStem CcEnvB.stageName
  have : lit "-" = [45#8] := by decide +kernel
  have h2 : lit "." ++ (if e.patched = true then lit "patched" else lit "original") ++ lit ".s" =
      if e.patched = true then lit ".patched.s" else lit ".original.s" := by
    split <;> decide +kernel
  rw [this]
  cases e.asmDir with
  | none => dsimp only; rw [← h2]; simp only [List.append_assoc]
  | some x => obtain ⟨d, r⟩ := x; dsimp only; rw [← h2]; simp only [List.append_assoc]

theorem cmds_stage (e : CcEnvB) (t : CcTools) (out f : CStr) (w : CcW) :
    Cmds w (linkedFile e out f) [] (stageStep e t (asmName e out f) w) := by
  unfold stageStep
  rw [asmName_stem]
  split
  · next h =>
    have := cmds_generate e t (asmFile e out f) w
    have h1 : (asmFile e out f).take ((asmFile e out f).length - 10) = asmStem e out f := by
      unfold asmFile
      rw [if_pos h]
      have : (lit ".patched.s").length = 10 := by decide +kernel
      rw [List.length_append, this, Nat.add_sub_cancel, List.take_left]
    rw [h1] at this
    unfold linkedFile
    rw [if_pos h]
    exact this
  · next h =>
    have : asmFile e out f = linkedFile e out f := by
      unfold asmFile linkedFile
      rw [if_neg h, if_neg h]
    rw [this]
    exact cmds_ok _ w

/-- The commands for one input. -/
def inputCmds (e : CcEnvB) (others : List CStr) (lang out f : CStr) : List (List CStr) :=
  match treatment e.gensrcAsm (getFileType lang f) with
  | .compiled opt => [others ++ [opt, f, lit "-o", asmFile e out f]]
  | _ => []

/-- What takes the place of one input. -/
def inputTo (e : CcEnvB) (lang out f : CStr) : CStr :=
  match treatment e.gensrcAsm (getFileType lang f) with
  | .asIs => f
  | _ => linkedFile e out f

theorem cmds_buildInput (e : CcEnvB) (t : CcTools) (others : List CStr) (lang out f : CStr) (w : CcW) :
    Cmds w (inputTo e lang out f) (inputCmds e others lang out f) (buildInput e t others lang out f w) := by
  unfold buildInput inputTo inputCmds
  dsimp only
  have hd : dashO = lit "-o" := rfl
  cases hty : getFileType lang f with
  | obj => exact cmds_ok _ w
  | asm =>
    simp only [treatment]
    cases hg : e.gensrcAsm with
    | false => exact cmds_ok _ w
    | true => exact (cmds_copy _ _ w).then0 fun w => cmds_stage e t out f w
  | asmCpp =>
    simp only [treatment]
    cases hg : e.gensrcAsm with
    | false => exact cmds_ok _ w
    | true =>
      simp only [if_true, Bool.true_eq_false, if_false]
      have h1 := cmds_gcc t (others ++ [lit "-E", f, dashO, asmName e out f]) w
      have := h1.then1 (k := fun _ w => stageStep e t (asmName e out f) w) fun w => cmds_stage e t out f w
      rw [hd, asmName_stem] at this
      rw [hd, asmName_stem]
      exact this
  | src =>
    simp only [treatment]
    have h1 := cmds_gcc t (others ++ [lit "-S", f, dashO, asmName e out f]) w
    have := h1.then1 (k := fun _ w => stageStep e t (asmName e out f) w) fun w => cmds_stage e t out f w
    rw [hd, asmName_stem] at this
    rw [hd, asmName_stem]
    exact this
  | devNull => exact cmds_stage e t out f w

/-- The commands for one argument with its entry. -/
def entryCmds (e : CcEnvB) (others : List CStr) (lang out : CStr) (p : CStr × Option CStr) : List (List CStr) :=
  match p.2 with
  | none => []
  | some f => inputCmds e others lang out f

/-- What becomes of one argument with its entry. -/
def entryTo (e : CcEnvB) (lang out : CStr) (p : CStr × Option CStr) : CStr :=
  match p.2 with
  | none => p.1
  | some f => inputTo e lang out f

theorem cmds_buildInputs (e : CcEnvB) (t : CcTools) (others : List CStr) (lang out : CStr)
    (l : List (CStr × Option CStr)) (w : CcW) :
    Cmds w (l.map (entryTo e lang out)) (l.flatMap (entryCmds e others lang out))
      (buildInputs e t others lang out l w) := by
  induction l generalizing w with
  | nil => exact cmds_ok _ w
  | cons p l ih =>
    obtain ⟨a, o⟩ := p
    cases o with
    | none =>
      rw [buildInputs]
      simp only [List.map_cons, List.flatMap_cons, entryTo, entryCmds, List.nil_append]
      exact (ih w).then1 fun w => cmds_ok _ w
    | some f =>
      rw [buildInputs]
      simp only [List.map_cons, List.flatMap_cons, entryTo, entryCmds]
      exact (cmds_buildInput e t others lang out f w).andThen fun w => (ih w).then1 fun w => cmds_ok _ w

theorem filter_count (inputs : List Nat) (l : List (CStr × Nat)) :
    (l.filter fun p => decide (p.2 ∈ inputs)).length + (l.filter fun p => decide (p.2 ∉ inputs)).length = l.length := by
  induction l with
  | nil => rfl
  | cons p l ih =>
    by_cases hm : p.2 ∈ inputs
    · simp only [List.filter_cons, hm, not_true, decide_true, decide_false, if_true, List.length_cons,
        Bool.false_eq_true, if_false]
      omega
    · simp only [List.filter_cons, hm, not_false_eq_true, decide_true, decide_false, if_true, List.length_cons,
        Bool.false_eq_true, if_false]
      omega

theorem inputs_flat (e : CcEnvB) (others : List CStr) (lang out : CStr) (inputs : List Nat) (l : List (CStr × Nat)) :
    (l.flatMap fun p => entryCmds e others lang out (p.1, if p.2 ∈ inputs then some p.1 else none)) =
    (l.filter fun p => decide (p.2 ∈ inputs)).filterMap fun p =>
      match treatment e.gensrcAsm (getFileType lang p.1) with
      | .compiled opt => some (others ++ [opt, p.1, lit "-o", asmFile e out p.1])
      | _ => none := by
  induction l with
  | nil => rfl
  | cons p l ih =>
    rw [List.flatMap_cons, ih, List.filter_cons]
    by_cases hm : p.2 ∈ inputs
    · simp only [hm, if_true, decide_true, List.filterMap_cons, entryCmds]
      unfold inputCmds
      cases treatment e.gensrcAsm (getFileType lang p.1) <;> simp
    · simp [hm, entryCmds]

theorem main_step (e : CcEnvB) (t : CcTools) (heap : Nat → Option CStr) (args : List CStr) (files : CcFiles)
    (rc : Nat) (w : CcW) (h : ccMain e t heap args files = .exit rc w) :
    ∃ r : CcRes Unit, StepOk ⟨files, []⟩ r ∧ r.end_ = .exit rc w := by
  unfold ccMain at h
  split at h
  · cases h
  · dsimp only at h
    split at h
    · cases h
    · exact ⟨_, stepOk_buildMultiple e t _ _ _ _ _ _, h⟩
    · exact ⟨_, stepOk_compileSingle e t _ _ _ _ _, h⟩

/-! ### The files -/

/-- A run changes only files in `S`. -/
def Touches {α : Type} (S : CStr → Prop) (w : CcW) : CcRes α → Prop
  | .ok _ w' => ∀ n, ¬ S n → w'.files n = w.files n
  | .stop _ w' => ∀ n, ¬ S n → w'.files n = w.files n

theorem Touches.andThen {α β : Type} {S : CStr → Prop} {w : CcW} {r : CcRes α} {k : α → CcW → CcRes β}
    (h : Touches S w r) (hk : ∀ a w', Touches S w' (k a w')) : Touches S w (r.andThen k) := by
  cases r with
  | stop s w' => exact h
  | ok a w' =>
    have h3 := hk a w'
    simp only [CcRes.andThen]
    cases hr : k a w' with
    | ok b w'' => rw [hr] at h3; exact fun n hn => (h3 n hn).trans (h n hn)
    | stop s w'' => rw [hr] at h3; exact fun n hn => (h3 n hn).trans (h n hn)

theorem touches_ok {α : Type} (S : CStr → Prop) (a : α) (w : CcW) : Touches S w (.ok a w) := fun _ _ => rfl

theorem Touches.mono {α : Type} {S T : CStr → Prop} {w : CcW} {r : CcRes α} (h : Touches S w r) (hi : ∀ n, S n → T n) :
    Touches T w r := by
  cases r with
  | ok a w' => exact fun n hn => h n fun hs => hn (hi n hs)
  | stop s w' => exact fun n hn => h n fun hs => hn (hi n hs)

theorem touches_gcc {t : CcTools} (ht : OnlyOutput t.gcc) (S : CStr → Prop) (argv : List CStr) (o : CStr) (hS : S o) (w : CcW) :
    Touches S w (runGcc t (argv ++ [lit "-o", o]) w) := by
  unfold runGcc
  dsimp only
  split <;> exact fun n hn => ht argv o w.files n fun (h : n = o) => hn (h ▸ hS)

theorem touches_gensrc {t : CcTools} (ht : OnlyOutput t.gensrc) (S : CStr → Prop) (argv : List CStr) (o : CStr) (hS : S o)
    (w : CcW) : Touches S w (runGensrc t (argv ++ [lit "-o", o]) w) := by
  unfold runGensrc
  dsimp only
  split <;> exact fun n hn => ht argv o w.files n fun (h : n = o) => hn (h ▸ hS)

theorem touches_rename (t : CcTools) (S : CStr → Prop) (a b : CStr) (ha : S a) (hb : S b) (w : CcW) :
    Touches S w (ccRename t a b w) := by
  unfold ccRename
  split
  · exact fun _ _ => rfl
  · intro n hn
    dsimp only
    rw [if_neg (fun h : n = b => hn (h ▸ hb)), if_neg (fun h : n = a => hn (h ▸ ha))]

theorem touches_copy (S : CStr → Prop) (a b : CStr) (hb : S b) (w : CcW) : Touches S w (ccCopy a b w) := by
  unfold ccCopy
  split
  · exact fun _ _ => rfl
  · intro n hn
    dsimp only
    rw [if_neg (fun h : n = b => hn (h ▸ hb))]

theorem touches_dbgfilter (e : CcEnvB) {t : CcTools} (ht : OnlyOutput t.gensrc) (S : CStr → Prop) (p : CStr) (h1 : S p)
    (h2 : S (p ++ lit ".tmp")) (w : CcW) : Touches S w (doDbgfilter e t p w) := by
  unfold doDbgfilter
  split
  · exact touches_ok S _ w
  · refine Touches.andThen ?_ fun _ w => touches_rename t S _ _ h2 h1 w
    have := touches_gensrc ht S ([lit "kpatch_gensrc"] ++ e.dbgArgs ++ [lit "-i", p]) (p ++ lit ".tmp") h2 w
    simpa using this

theorem stem_take (stem : CStr) : (stem ++ lit ".patched.s").take ((stem ++ lit ".patched.s").length - 10) = stem := by
  have : (lit ".patched.s").length = 10 := by decide +kernel
  rw [List.length_append, this, Nat.add_sub_cancel, List.take_left]

theorem touches_generate (e : CcEnvB) {t : CcTools} (ht : OnlyOutput t.gensrc) (stem : CStr) (w : CcW) :
    Touches (fun n => ∃ s ∈ madeSuffixes, n = stem ++ s) w (doGenerateKpatch e t (stem ++ lit ".patched.s") w) := by
  unfold doGenerateKpatch
  dsimp only
  rw [stem_take]
  have m1 : ∃ s ∈ madeSuffixes, stem ++ lit ".original.s" = stem ++ s := ⟨_, by simp [madeSuffixes], rfl⟩
  have m2 : ∃ s ∈ madeSuffixes, stem ++ lit ".original.s" ++ lit ".tmp" = stem ++ s :=
    ⟨lit ".original.s.tmp", by simp [madeSuffixes], by rw [List.append_assoc]; congr 1; decide +kernel⟩
  have m3 : ∃ s ∈ madeSuffixes, stem ++ lit ".patched.s" = stem ++ s := ⟨_, by simp [madeSuffixes], rfl⟩
  have m4 : ∃ s ∈ madeSuffixes, stem ++ lit ".patched.s" ++ lit ".tmp" = stem ++ s :=
    ⟨lit ".patched.s.tmp", by simp [madeSuffixes], by rw [List.append_assoc]; congr 1; decide +kernel⟩
  have m5 : ∃ s ∈ madeSuffixes, stem ++ lit ".s" = stem ++ s := ⟨_, by simp [madeSuffixes], rfl⟩
  have m6 : ∃ s ∈ madeSuffixes, stem ++ lit ".s.tmp" = stem ++ s := ⟨_, by simp [madeSuffixes], rfl⟩
  refine Touches.andThen ?_ fun o w => (touches_dbgfilter e ht _ _ m3 m4 w).andThen fun _ w =>
    Touches.andThen ?_ fun _ w => (touches_rename t _ _ _ m6 m5 w).andThen fun _ w => touches_ok _ _ w
  · split
    · exact touches_ok _ _ w
    · exact (touches_dbgfilter e ht _ _ m1 m2 w).andThen fun _ w => touches_ok _ _ w
  · have := touches_gensrc ht (fun n => ∃ s ∈ madeSuffixes, n = stem ++ s)
      ([lit "kpatch_gensrc"] ++ e.patchArgs ++ [lit "-i", o, lit "-i", stem ++ lit ".patched.s"]) (stem ++ lit ".s.tmp") m6 w
    simpa using this

theorem touches_stage (e : CcEnvB) {t : CcTools} (ht : OnlyOutput t.gensrc) (out f : CStr) (w : CcW) :
    Touches (MadeFor e out f) w (stageStep e t (asmFile e out f) w) := by
  unfold stageStep
  split
  · next h =>
    have : asmFile e out f = asmStem e out f ++ lit ".patched.s" := by unfold asmFile; rw [if_pos h]
    rw [this]
    exact touches_generate e ht (asmStem e out f) w
  · exact touches_ok _ _ w

theorem made_asm (e : CcEnvB) (out f : CStr) : MadeFor e out f (asmFile e out f) := by
  unfold asmFile
  split
  · exact ⟨_, by simp [madeSuffixes], rfl⟩
  · exact ⟨_, by simp [madeSuffixes], rfl⟩

theorem made_linked (e : CcEnvB) (out f : CStr) : MadeFor e out f (linkedFile e out f) := by
  unfold linkedFile
  split
  · exact ⟨_, by simp [madeSuffixes], rfl⟩
  · exact ⟨_, by simp [madeSuffixes], rfl⟩

theorem touches_buildInput (e : CcEnvB) {t : CcTools} (hg : OnlyOutput t.gcc) (ht : OnlyOutput t.gensrc) (others : List CStr)
    (lang out f : CStr) (w : CcW) :
    Touches (fun n => treatment e.gensrcAsm (getFileType lang f) ≠ .asIs ∧ MadeFor e out f n) w
      (buildInput e t others lang out f w) := by
  have hrun : ∀ (opt : CStr) (w : CcW), Touches (MadeFor e out f) w
      (runGcc t (others ++ [opt, f, dashO, asmFile e out f]) w) := by
    intro opt w
    have := touches_gcc hg (MadeFor e out f) (others ++ [opt, f]) (asmFile e out f) (made_asm e out f) w
    simpa [dashO] using this
  unfold buildInput
  dsimp only
  rw [asmName_stem]
  cases hty : getFileType lang f with
  | obj => exact touches_ok _ _ w
  | asm =>
    dsimp only [treatment]
    cases hb : e.gensrcAsm with
    | false => exact touches_ok _ _ w
    | true =>
      refine Touches.mono (S := MadeFor e out f) ?_ fun n hn => ⟨by simp, hn⟩
      exact (touches_copy _ _ _ (made_asm e out f) w).andThen fun _ w => touches_stage e ht out f w
  | asmCpp =>
    dsimp only [treatment]
    cases hb : e.gensrcAsm with
    | false => exact touches_ok _ _ w
    | true =>
      refine Touches.mono (S := MadeFor e out f) ?_ fun n hn => ⟨by simp, hn⟩
      exact (hrun _ w).andThen fun _ w => touches_stage e ht out f w
  | src =>
    refine Touches.mono (S := MadeFor e out f) ?_ fun n hn => ⟨by simp [treatment], hn⟩
    exact (hrun _ w).andThen fun _ w => touches_stage e ht out f w
  | devNull =>
    refine Touches.mono (S := MadeFor e out f) ?_ fun n hn => ⟨by simp [treatment], hn⟩
    exact touches_stage e ht out f w

/-- A file made for one of the inputs that are rewritten. -/
def MadeForSome (e : CcEnvB) (lang out : CStr) (l : List (CStr × Option CStr)) (n : CStr) : Prop :=
  ∃ p ∈ l, ∃ f, p.2 = some f ∧ treatment e.gensrcAsm (getFileType lang f) ≠ .asIs ∧ MadeFor e out f n

theorem touches_buildInputs (e : CcEnvB) {t : CcTools} (hg : OnlyOutput t.gcc) (ht : OnlyOutput t.gensrc)
    (others : List CStr) (lang out : CStr) (l : List (CStr × Option CStr)) (w : CcW) :
    Touches (MadeForSome e lang out l) w (buildInputs e t others lang out l w) := by
  induction l generalizing w with
  | nil => exact touches_ok _ _ w
  | cons p l ih =>
    obtain ⟨a, o⟩ := p
    have hmono : ∀ n, MadeForSome e lang out l n → MadeForSome e lang out ((a, o) :: l) n := by
      rintro n ⟨p, h1, h2⟩
      exact ⟨p, List.mem_cons_of_mem _ h1, h2⟩
    cases o with
    | none =>
      rw [buildInputs]
      exact ((ih w).mono hmono).andThen fun _ w => touches_ok _ _ w
    | some f =>
      rw [buildInputs]
      refine Touches.andThen ?_ fun _ w => ((ih w).mono hmono).andThen fun _ w => touches_ok _ _ w
      exact (touches_buildInput e hg ht others lang out f w).mono fun n hn =>
        ⟨_, List.mem_cons_self, f, rfl, hn.1, hn.2⟩

/-- The run over a list that contains an input: the state before and after that input. -/
theorem buildInputs_at (e : CcEnvB) (t : CcTools) (others : List CStr) (lang out : CStr)
    (l1 : List (CStr × Option CStr)) (a f : CStr) (l2 : List (CStr × Option CStr)) (w w' : CcW) (r : List CStr)
    (h : buildInputs e t others lang out (l1 ++ (a, some f) :: l2) w = .ok r w') :
    ∃ w1 w2 r1 r2 b, buildInputs e t others lang out l1 w = .ok r1 w1 ∧
      buildInput e t others lang out f w1 = .ok b w2 ∧ buildInputs e t others lang out l2 w2 = .ok r2 w' := by
  induction l1 generalizing w r with
  | nil =>
    rw [List.nil_append, buildInputs] at h
    cases hb : buildInput e t others lang out f w with
    | stop s x => rw [hb] at h; cases h
    | ok b w2 =>
      rw [hb] at h
      simp only [CcRes.andThen] at h
      cases hc : buildInputs e t others lang out l2 w2 with
      | stop s x => rw [hc] at h; cases h
      | ok r2 w3 =>
        rw [hc] at h
        simp only [CcRes.ok.injEq] at h
        obtain ⟨-, rfl⟩ := h
        exact ⟨w, w2, [], r2, b, by rw [buildInputs], hb, hc⟩
  | cons p l1 ih =>
    obtain ⟨x, o⟩ := p
    rw [List.cons_append] at h
    cases o with
    | none =>
      rw [buildInputs] at h
      cases hb : buildInputs e t others lang out (l1 ++ (a, some f) :: l2) w with
      | stop s y => rw [hb] at h; cases h
      | ok r3 w3 =>
        rw [hb] at h
        simp only [CcRes.andThen, CcRes.ok.injEq] at h
        obtain ⟨-, rfl⟩ := h
        obtain ⟨w1, w2, r1, r2, b, k1, k2, k3⟩ := ih w r3 hb
        exact ⟨w1, w2, x :: r1, r2, b, by rw [buildInputs, k1]; rfl, k2, k3⟩
    | some g =>
      rw [buildInputs] at h
      cases hg : buildInput e t others lang out g w with
      | stop s y => rw [hg] at h; cases h
      | ok b0 w0 =>
        rw [hg] at h
        simp only [CcRes.andThen] at h
        cases hb : buildInputs e t others lang out (l1 ++ (a, some f) :: l2) w0 with
        | stop s y => rw [hb] at h; cases h
        | ok r3 w3 =>
          rw [hb] at h
          simp only [CcRes.ok.injEq] at h
          obtain ⟨-, rfl⟩ := h
          obtain ⟨w1, w2, r1, r2, b, k1, k2, k3⟩ := ih w0 r3 hb
          exact ⟨w1, w2, b0 :: r1, r2, b, by rw [buildInputs, hg]; simp only [CcRes.andThen]; rw [k1], k2, k3⟩

theorem runGcc_ok {t : CcTools} {argv : List CStr} {w w' : CcW} (h : runGcc t argv w = .ok () w') :
    w'.files = (t.gcc argv w.files).2 := by
  unfold runGcc at h
  dsimp only at h
  split at h
  · simp only [CcRes.ok.injEq, true_and] at h; rw [← h]
  · cases h

theorem runGensrc_ok {t : CcTools} {argv : List CStr} {w w' : CcW} (h : runGensrc t argv w = .ok () w') :
    w'.files = (t.gensrc argv w.files).2 := by
  unfold runGensrc at h
  dsimp only at h
  split at h
  · simp only [CcRes.ok.injEq, true_and] at h; rw [← h]
  · cases h

theorem rename_ok {t : CcTools} {a b : CStr} {w w' : CcW} (h : ccRename t a b w = .ok () w') :
    w'.files b = w.files a ∧ ∀ n, n ≠ a → n ≠ b → w'.files n = w.files n := by
  unfold ccRename at h
  split at h
  · cases h
  · simp only [CcRes.ok.injEq, true_and] at h
    rw [← h]
    refine ⟨by simp, ?_⟩
    intro n h1 h2
    simp [h1, h2]

theorem dbgfilter_ok {e : CcEnvB} {t : CcTools} (ht : OnlyOutput t.gensrc) {p : CStr} {w w' : CcW}
    (h : doDbgfilter e t p w = .ok () w') :
    w'.files p = filtered e t w.files p ∧ ∀ n, n ≠ p → n ≠ p ++ lit ".tmp" → w'.files n = w.files n := by
  have hfr := touches_dbgfilter e ht (fun n => n = p ∨ n = p ++ lit ".tmp") p (Or.inl rfl) (Or.inr rfl) w
  rw [h] at hfr
  refine ⟨?_, fun n h1 h2 => hfr n (by rintro (k | k) <;> contradiction)⟩
  unfold doDbgfilter at h
  unfold filtered
  split at h
  · next hd =>
    simp only [CcRes.ok.injEq, true_and] at h
    rw [if_pos hd, ← h]
  · next hd =>
    rw [if_neg hd]
    cases hg : runGensrc t ([lit "kpatch_gensrc"] ++ e.dbgArgs ++ [lit "-i", p, lit "-o", p ++ lit ".tmp"]) w with
    | stop s x => rw [hg] at h; cases h
    | ok u w1 =>
      rw [hg] at h
      simp only [CcRes.andThen] at h
      rw [(rename_ok h).1, runGensrc_ok hg]
      rfl

/-- What the `patched` stage makes of the assembler file of an input. -/
theorem generate_ok {e : CcEnvB} {t : CcTools} (ht : OnlyOutput t.gensrc) {stem b : CStr} {w w' : CcW}
    (h : doGenerateKpatch e t (stem ++ lit ".patched.s") w = .ok b w') :
    ∃ fs1 fs2 : CcFiles,
      (∀ n, (¬ ∃ s ∈ madeSuffixes, n = stem ++ s) → fs1 n = w.files n ∧ fs2 n = w.files n) ∧
      fs1 (stem ++ lit ".patched.s") = w.files (stem ++ lit ".patched.s") ∧
      fs2 (stem ++ lit ".patched.s") = filtered e t fs1 (stem ++ lit ".patched.s") ∧
      (w.files (stem ++ lit ".original.s") ≠ none →
        fs2 (stem ++ lit ".original.s") = filtered e t w.files (stem ++ lit ".original.s")) ∧
      w'.files (stem ++ lit ".s") = patchOf e t fs2
        (if w.files (stem ++ lit ".original.s") = none then lit "/dev/null" else stem ++ lit ".original.s")
        (stem ++ lit ".patched.s") (stem ++ lit ".s.tmp") := by
  have hne : ∀ a b : CStr, a ≠ b → stem ++ a ≠ stem ++ b := fun a b h k => h (List.append_cancel_left k)
  have q1 : stem ++ lit ".patched.s" ≠ stem ++ lit ".original.s" := hne _ _ (by decide +kernel)
  have q2 : stem ++ lit ".patched.s" ≠ stem ++ lit ".original.s" ++ lit ".tmp" := by
    rw [List.append_assoc]; exact hne _ _ (by decide +kernel)
  have q3 : stem ++ lit ".original.s" ≠ stem ++ lit ".patched.s" := q1.symm
  have q4 : stem ++ lit ".original.s" ≠ stem ++ lit ".patched.s" ++ lit ".tmp" := by
    rw [List.append_assoc]; exact hne _ _ (by decide +kernel)
  have m1 : ∃ s ∈ madeSuffixes, stem ++ lit ".original.s" = stem ++ s := ⟨_, by simp [madeSuffixes], rfl⟩
  have m2 : ∃ s ∈ madeSuffixes, stem ++ lit ".original.s" ++ lit ".tmp" = stem ++ s :=
    ⟨lit ".original.s.tmp", by simp [madeSuffixes], by rw [List.append_assoc]; congr 1; decide +kernel⟩
  have m3 : ∃ s ∈ madeSuffixes, stem ++ lit ".patched.s" = stem ++ s := ⟨_, by simp [madeSuffixes], rfl⟩
  have m4 : ∃ s ∈ madeSuffixes, stem ++ lit ".patched.s" ++ lit ".tmp" = stem ++ s :=
    ⟨lit ".patched.s.tmp", by simp [madeSuffixes], by rw [List.append_assoc]; congr 1; decide +kernel⟩
  unfold doGenerateKpatch at h
  dsimp only at h
  rw [stem_take] at h
  -- the original
  have hfirst : ∃ (o : CStr) (w1 : CcW), (if w.files (stem ++ lit ".original.s") = none then CcRes.ok (lit "/dev/null") w
      else (doDbgfilter e t (stem ++ lit ".original.s") w).andThen fun _ w => .ok (stem ++ lit ".original.s") w) = .ok o w1 ∧
      o = (if w.files (stem ++ lit ".original.s") = none then lit "/dev/null" else stem ++ lit ".original.s") ∧
      (∀ n, (¬ ∃ s ∈ madeSuffixes, n = stem ++ s) → w1.files n = w.files n) ∧
      w1.files (stem ++ lit ".patched.s") = w.files (stem ++ lit ".patched.s") ∧
      (w.files (stem ++ lit ".original.s") ≠ none →
        w1.files (stem ++ lit ".original.s") = filtered e t w.files (stem ++ lit ".original.s")) := by
    by_cases hz : w.files (stem ++ lit ".original.s") = none
    · rw [if_pos hz, if_pos hz]
      exact ⟨_, w, rfl, rfl, fun _ _ => rfl, rfl, fun k => absurd hz k⟩
    · rw [if_neg hz] at h ⊢
      rw [if_neg hz]
      cases hd : doDbgfilter e t (stem ++ lit ".original.s") w with
      | stop s x => rw [hd] at h; cases h
      | ok u w1 =>
        obtain ⟨d1, d2⟩ := dbgfilter_ok ht hd
        exact ⟨_, w1, rfl, rfl, fun n hn => d2 n (fun k => hn (k ▸ m1)) (fun k => hn (k ▸ m2)), d2 _ q1 q2, fun _ => d1⟩
  obtain ⟨o, w1, f1, f2, f3, f4, f5⟩ := hfirst
  rw [f1] at h
  simp only [CcRes.andThen] at h
  cases hd : doDbgfilter e t (stem ++ lit ".patched.s") w1 with
  | stop s x => rw [hd] at h; cases h
  | ok u w2 =>
    rw [hd] at h
    obtain ⟨d1, d2⟩ := dbgfilter_ok ht hd
    dsimp only at h
    cases hg : runGensrc t ([lit "kpatch_gensrc"] ++ e.patchArgs ++
        [lit "-i", o, lit "-i", stem ++ lit ".patched.s", lit "-o", stem ++ lit ".s.tmp"]) w2 with
    | stop s x => rw [hg] at h; cases h
    | ok u3 w3 =>
      rw [hg] at h
      dsimp only at h
      cases hr : ccRename t (stem ++ lit ".s.tmp") (stem ++ lit ".s") w3 with
      | stop s x => rw [hr] at h; cases h
      | ok u4 w4 =>
        rw [hr] at h
        simp only [CcRes.ok.injEq] at h
        obtain ⟨-, rfl⟩ := h
        refine ⟨w1.files, w2.files, ?_, f4, d1, ?_, ?_⟩
        · intro n hn
          have h1 := f3 n hn
          exact ⟨h1, (d2 n (fun k => hn (k ▸ m3)) (fun k => hn (k ▸ m4))).trans h1⟩
        · intro hz
          rw [d2 _ q3 q4]
          exact f5 hz
        · rw [(rename_ok hr).1, runGensrc_ok hg, ← f2]
          rfl

/-! ### Names -/

theorem made_apart {e : CcEnvB} {out f g : CStr} (hne : asmStem e out f ≠ asmStem e out g)
    (hf : ∀ x ∈ [lit ".original", lit ".patched"], ∀ y, asmStem e out f ≠ y ++ x)
    (hg : ∀ x ∈ [lit ".original", lit ".patched"], ∀ y, asmStem e out g ≠ y ++ x) (n : CStr)
    (h1 : MadeFor e out f n) (h2 : MadeFor e out g n) : False := by
  have hdec : ∀ s1 ∈ madeSuffixes, ∀ s2 ∈ madeSuffixes, s1 = s1.take (s1.length - s2.length) ++ s2 →
      s1.take (s1.length - s2.length) = [] ∨ s1.take (s1.length - s2.length) = lit ".original" ∨
      s1.take (s1.length - s2.length) = lit ".patched" := by decide +kernel
  have hsuf : ∀ s1 ∈ madeSuffixes, ∀ s2 ∈ madeSuffixes, ∀ x, s1 = x ++ s2 →
      x = [] ∨ x = lit ".original" ∨ x = lit ".patched" := by
    intro s1 m1 s2 m2 x hx
    have hxe : x = s1.take (s1.length - s2.length) := by
      rw [hx, List.length_append, Nat.add_sub_cancel, List.take_left]
    rw [hxe]
    exact hdec s1 m1 s2 m2 (by rw [← hxe]; exact hx)
  obtain ⟨s1, m1, rfl⟩ := h1
  obtain ⟨s2, m2, h⟩ := h2
  rcases List.append_eq_append_iff.1 h with ⟨x, k1, k2⟩ | ⟨x, k1, k2⟩
  · rcases hsuf s1 m1 s2 m2 x k2 with rfl | rfl | rfl
    · rw [List.append_nil] at k1; exact hne k1.symm
    · exact hg _ (by simp) _ k1
    · exact hg _ (by simp) _ k1
  · rcases hsuf s2 m2 s1 m1 x k2 with rfl | rfl | rfl
    · rw [List.append_nil] at k1; exact hne k1
    · exact hf _ (by simp) _ k1
    · exact hf _ (by simp) _ k1

end Verif
