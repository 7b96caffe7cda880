import Verif.Spec.Cblock
import Verif.Props.Sections
/-
C44: the division of a file into blocks.
-/
namespace Verif

section Target

variable [AsmTarget]

theorem symArg_ok (l : List Byte) : (symArg l).Ok := getToken_ok _

theorem empty_ok : (Kpstr.mk [] 0).Ok := Nat.le_refl _

theorem funcStartLoop_ok : ∀ (ls : List Ln) (first func : Bool) (nm nm' : Kpstr), nm.Ok →
    funcStartLoop first func nm ls = some (some nm') → nm'.Ok := by
  intro ls
  induction ls with
  | nil =>
    intro first func nm nm' h hs
    simp only [funcStartLoop, Option.some.injEq] at hs
    split at hs
    · cases hs; exact h
    · cases hs
  | cons l r ih =>
    intro first func nm nm' h hs
    rw [funcStartLoop] at hs
    have hend : ∀ f : Bool, (some (if f then some nm else none) : Option (Option Kpstr)) = some (some nm') → nm'.Ok := by
      intro f hs
      cases f <;> simp at hs
      exact hs ▸ h
    split at hs
    · exact ih _ _ _ _ h hs
    split at hs
    · exact ih _ _ _ _ h hs
    split at hs
    · cases hs
    · dsimp only at hs
      split at hs
      · split at hs
        · cases hs
        · exact ih _ _ _ _ (symArg_ok _) hs
      · split at hs
        · exact ih _ _ _ _ h hs
        · exact hend _ hs

theorem varStartLoop_spec : ∀ (ls : List Ln) (first globl : Bool) (nm nm' : Kpstr) (n m : Nat) (g : Option Bool), nm.Ok →
    varStartLoop first globl nm n ls = some (some (m, g, nm')) → nm'.Ok ∧ n < m ∧ m ≤ n + ls.length := by
  intro ls
  induction ls with
  | nil => intro _ _ _ _ _ _ _ _ h; cases h
  | cons l r ih =>
    intro first globl nm nm' n m g h hs
    have next : ∀ (gl : Bool) (x : Kpstr), x.Ok → varStartLoop false gl x (n + 1) r = some (some (m, g, nm')) →
        nm'.Ok ∧ n < m ∧ m ≤ n + (l :: r).length := by
      intro gl x hx h
      obtain ⟨h1, h2, h3⟩ := ih _ _ _ _ _ _ _ hx h
      exact ⟨h1, by omega, by rw [List.length_cons]; omega⟩
    rw [varStartLoop] at hs
    split at hs
    · exact next _ _ h hs
    split at hs
    · exact next _ _ h hs
    dsimp only at hs
    generalize hn2 : (if l.dir = .type ∨ l.dir = .globl ∨ l.dir = .lcl then some (symArg l.text)
        else if l.dir = .label then some (getToken (some l.text)).1 else none) = nm2 at hs
    have hok : (nm2.getD nm).Ok := by
      rw [← hn2]
      split
      · exact symArg_ok _
      · split
        · exact getToken_ok _
        · exact h
    have found : some (some (n + 1, some globl, nm2.getD nm)) = some (some (m, g, nm')) →
        nm'.Ok ∧ n < m ∧ m ≤ n + (l :: r).length := by
      intro e
      simp only [Option.some.injEq, Prod.mk.injEq] at e
      obtain ⟨rfl, rfl, rfl⟩ := e
      exact ⟨hok, by omega, by rw [List.length_cons]; omega⟩
    split at hs
    · cases hs
    split at hs
    all_goals first
      | exact next _ _ hok hs
      | exact found hs
      | cases hs; done
      | skip
    · split at hs
      · cases hs
      · cases hs
      · split at hs
        · cases hs
        · exact next _ _ hok hs
    · split at hs
      · cases hs
      · exact next _ _ hok hs
    · split at hs
      · cases hs
      · exact next _ _ hok hs
    · split at hs
      · cases hs
      · exact found hs
    · split at hs
      · simp only [Option.some.injEq, Prod.mk.injEq] at hs
        obtain ⟨rfl, rfl, rfl⟩ := hs
        exact ⟨symArg_ok _, by omega, by rw [List.length_cons]; omega⟩
      · cases hs

theorem funcScan_len : ∀ (ls : List Ln) (nm : Kpstr) (c : Int) (r : FuncScan), ls ≠ [] → funcScan nm c ls = some r →
    r.seen.length + (if r.closed then 0 else 1) ≤ ls.length ∧ 1 ≤ r.seen.length + (if r.closed then 0 else 1) := by
  intro ls
  induction ls with
  | nil => intro _ _ _ h; exact absurd rfl h
  | cons l ls ih =>
    intro nm c r _ h
    cases ls with
    | nil => simp only [funcScan, Option.some.injEq] at h; subst h; simp
    | cons l2 rest =>
      rw [funcScan] at h
      dsimp only at h
      generalize (if l.dir = .kpflags then ({ l with text := [] } : Ln) else l) = l' at h
      split at h
      · cases h
      · rename_i b _
        generalize (if b = true then c + 1 else c) = cnt at h
        split at h
        · simp only [Option.some.injEq] at h; subst h; simp
        · rw [Option.map_eq_some_iff] at h
          obtain ⟨x, h1, rfl⟩ := h
          have := ih _ _ _ (by simp) h1
          simp only [List.length_cons] at *
          omega

theorem varScan_len : ∀ (fuel : Nat) (ls : List Ln) (nm : Kpstr) (g : Bool) (r : Nat × Bool),
    varScan nm fuel g ls = some r → r.1 ≤ ls.length := by
  intro fuel
  induction fuel with
  | zero => intro ls nm g r h; simp only [varScan, Option.some.injEq] at h; subst h; simp
  | succ fuel ih =>
    intro ls nm g r h
    cases ls with
    | nil => simp only [varScan, Option.some.injEq] at h; subst h; simp
    | cons l rest =>
      rw [varScan] at h
      split at h
      · cases h
      · rename_i n g' nm2 hv
        obtain ⟨-, h1, h2⟩ := varStartLoop_spec _ _ _ _ _ _ _ _ empty_ok hv
        split at h
        · simp only [Option.some.injEq] at h; subst h; simp
        · rw [Option.map_eq_some_iff] at h
          obtain ⟨x, h3, rfl⟩ := h
          have := ih _ _ _ _ h3
          rw [List.length_drop] at this
          dsimp only
          omega
      · split at h
        · rw [Option.map_eq_some_iff] at h
          obtain ⟨x, h3, rfl⟩ := h
          have := ih _ _ _ _ h3
          rw [List.length_cons]
          dsimp only
          omega
        · simp only [Option.some.injEq] at h; subst h; simp

theorem varScan_pos (fuel : Nat) (l : Ln) (rest : List Ln) (nm : Kpstr) (g : Bool) (r : Nat × Bool) (x : Nat × Option Bool)
    (hv : isVariableStart (l :: rest) = some (some (x.1, x.2, nm))) (h : varScan nm (fuel + 1) g (l :: rest) = some r) :
    0 < r.1 := by
  obtain ⟨hok, h1, h2⟩ := varStartLoop_spec _ _ _ _ _ _ _ _ empty_ok hv
  rw [varScan, hv] at h
  dsimp only at h
  rw [if_neg (by rw [Decidable.not_not, kpstrcmp_zero hok hok])] at h
  rw [Option.map_eq_some_iff] at h
  obtain ⟨y, _, rfl⟩ := h
  dsimp only
  omega

theorem otherLoop_len (bs : List Cblock) : ∀ (ls : List Ln) (flag : ExtFlag) (r : Nat × ExtFlag),
    otherLoop bs flag ls = some r → r.1 ≤ ls.length := by
  intro ls
  induction ls with
  | nil => intro flag r h; simp only [otherLoop, Option.some.injEq] at h; subst h; simp
  | cons l rest ih =>
    intro flag r h
    have next : ∀ fl, (otherLoop bs fl rest).map (fun x => (x.1 + 1, x.2)) = some r → r.1 ≤ (l :: rest).length := by
      intro fl h
      rw [Option.map_eq_some_iff] at h
      obtain ⟨y, h1, rfl⟩ := h
      have := ih _ _ h1
      rw [List.length_cons]
      dsimp only
      omega
    rw [otherLoop] at h
    split at h
    · cases h
    · simp only [Option.some.injEq] at h; subst h; simp
    · dsimp only at h
      generalize (if l.dir = .sect ∧ l.sect.name = lit ".init_array" then ExtFlag.iniarr else flag) = fl at h
      split at h
      · split at h
        · simp only [Option.some.injEq] at h; subst h; simp
        · split at h
          · simp only [Option.some.injEq] at h; subst h; simp
          · exact next _ h
      · exact next _ h

theorem otherLoop_pos (bs : List Cblock) (l : Ln) (rest : List Ln) (flag : ExtFlag) (r : Nat × ExtFlag)
    (hs : startsBlock (l :: rest) = some false) (h : otherLoop bs flag (l :: rest) = some r) : 0 < r.1 := by
  have next : ∀ fl, (otherLoop bs fl rest).map (fun x => (x.1 + 1, x.2)) = some r → 0 < r.1 := by
    intro fl h
    rw [Option.map_eq_some_iff] at h
    obtain ⟨y, h1, rfl⟩ := h
    dsimp only
    omega
  rw [otherLoop, hs] at h
  dsimp only at h
  generalize (if l.dir = .sect ∧ l.sect.name = lit ".init_array" then ExtFlag.iniarr else flag) = fl at h
  split at h
  · split at h
    · simp only [Option.some.injEq] at h; subst h; simp
    · split at h
      · simp only [Option.some.injEq] at h; subst h; simp
      · exact next _ h
  · exact next _ h

theorem otherLoop_update (bs : List Cblock) : ∀ (ls : List Ln) (flag : ExtFlag) (n : Nat),
    otherLoop bs flag ls = some (n, .update) → flag ≠ .update → ∃ b, bs.getLast? = some b := by
  intro ls
  induction ls with
  | nil => intro flag n h hf; simp only [otherLoop, Option.some.injEq, Prod.mk.injEq] at h; exact absurd h.2 hf
  | cons l rest ih =>
    intro flag n h hf
    have next : ∀ fl, fl ≠ .update → (otherLoop bs fl rest).map (fun x => (x.1 + 1, x.2)) = some (n, .update) →
        ∃ b, bs.getLast? = some b := by
      intro fl hfl h
      rw [Option.map_eq_some_iff] at h
      obtain ⟨⟨y, z⟩, h1, h2⟩ := h
      simp only [Prod.mk.injEq] at h2
      rw [h2.2] at h1
      exact ih _ _ h1 hfl
    rw [otherLoop] at h
    split at h
    · cases h
    · simp only [Option.some.injEq, Prod.mk.injEq] at h; exact absurd h.2 hf
    · dsimp only at h
      have hfl : (if l.dir = .sect ∧ l.sect.name = lit ".init_array" then ExtFlag.iniarr else flag) ≠ .update := by
        split
        · simp
        · exact hf
      generalize (if l.dir = .sect ∧ l.sect.name = lit ".init_array" then ExtFlag.iniarr else flag) = fl at h hfl
      split at h
      · split at h
        · simp only [Option.some.injEq, Prod.mk.injEq] at h; exact absurd h.2 hfl
        · exact ⟨_, ‹_›⟩
      · exact next _ hfl h

theorem otherRest_len : ∀ (ls : List Ln) (n : Nat), otherRest ls = some n → n ≤ ls.length := by
  intro ls
  induction ls with
  | nil => intro n h; simp only [otherRest, Option.some.injEq] at h; subst h; simp
  | cons l rest ih =>
    intro n h
    rw [otherRest] at h
    split at h
    · cases h
    · simp only [Option.some.injEq] at h; subst h; simp
    · rw [Option.map_eq_some_iff] at h
      obtain ⟨y, h1, rfl⟩ := h
      have := ih _ h1
      rw [List.length_cons]
      omega

/-! ### The invariant of cblocks_init -/

structure CbInv (ls0 : List Ln) (st : CbState) : Prop where
  len : st.ls.length = ls0.length
  tail : st.ls.drop st.i = ls0.drop st.i
  pos : 1 ≤ st.i
  le : st.i ≤ ls0.length
  sorted : st.bs.Pairwise fun a b => a.stop ≤ b.start
  bounds : ∀ b ∈ st.bs, 1 ≤ b.start ∧ b.start < b.stop ∧ b.stop ≤ st.i
  ok : ∀ b ∈ st.bs, b.name.Ok
  names : st.bs.Pairwise fun a b => b.name.l ≠ 0 → kpstrcmp a.name b.name ≠ 0
  cover : ∀ (k : Nat) (l : Ln), 1 ≤ k → k < st.i → ls0[k]? = some l →
    (∃ b ∈ st.bs, b.has k) ∨ l.text = [] ∨ RepeatedAttr st.bs k l

theorem RepeatedAttr.mono {bs : List Cblock} {k : Nat} {l : Ln} (x : List Cblock) (h : RepeatedAttr bs k l) :
    RepeatedAttr (bs ++ x) k l := by
  obtain ⟨h1, b, h2, h3⟩ := h
  exact ⟨h1, b, by simp [h2], h3⟩

theorem cbInv_add {ls0 : List Ln} {st : CbState} (h : CbInv ls0 st) {b : Cblock} {bs : List Cblock} {ls : List Ln}
    (ha : cblockAdd st.bs b = some bs) (hok : b.name.Ok) (hs : b.start = st.i) (he : st.i < b.stop)
    (hl : b.stop ≤ ls0.length) (hlen : ls.length = ls0.length) (ht : ls.drop b.stop = ls0.drop b.stop) :
    CbInv ls0 ⟨ls, bs, b.stop⟩ := by
  unfold cblockAdd at ha
  split at ha
  · cases ha
  rename_i hn
  cases ha
  have hp := h.pos
  refine ⟨hlen, ht, by dsimp only; omega, hl, ?_, ?_, ?_, ?_, ?_⟩
  · rw [List.pairwise_append]
    refine ⟨h.sorted, by simp, fun a ha c hc => ?_⟩
    rw [List.mem_singleton] at hc
    subst hc
    rw [hs]
    exact (h.bounds a ha).2.2
  · intro c hc
    rw [List.mem_append, List.mem_singleton] at hc
    rcases hc with hc | rfl
    · have := h.bounds c hc
      dsimp only
      omega
    · dsimp only
      omega
  · intro c hc
    rw [List.mem_append, List.mem_singleton] at hc
    rcases hc with hc | rfl
    · exact h.ok c hc
    · exact hok
  · rw [List.pairwise_append]
    refine ⟨h.names, by simp, fun a ha c hc => ?_⟩
    rw [List.mem_singleton] at hc
    subst hc
    intro hne heq
    apply hn
    refine ⟨hne, ?_⟩
    unfold findByName
    rw [List.find?_isSome]
    exact ⟨a, ha, by simpa using heq⟩
  · intro k l hk hk2 hl
    by_cases hlt : k < st.i
    · rcases h.cover k l hk hlt hl with ⟨b', h1, h2⟩ | h1 | h1
      · exact Or.inl ⟨b', by simp [h1], h2⟩
      · exact Or.inr (Or.inl h1)
      · exact Or.inr (Or.inr (h1.mono _))
    · exact Or.inl ⟨b, by simp, by rw [hs]; omega, hk2⟩

theorem cbInv_skip {ls0 : List Ln} {st : CbState} (h : CbInv ls0 st) {l : Ln} (hl : ls0[st.i]? = some l)
    (hc : l.text = [] ∨ RepeatedAttr st.bs st.i l) : CbInv ls0 { st with i := st.i + 1 } := by
  have hp := h.pos
  have hlt : st.i < ls0.length := (List.getElem?_eq_some_iff.mp hl).1
  refine ⟨h.len, ?_, by dsimp only; omega, by dsimp only; omega, h.sorted, ?_, h.ok, h.names, ?_⟩
  · have := congrArg (List.drop 1) h.tail
    simpa only [List.drop_drop] using this
  · intro b hb
    have := h.bounds b hb
    dsimp only
    omega
  · intro k l' hk hk2 hl'
    by_cases hlt : k < st.i
    · exact h.cover k l' hk hlt hl'
    · have : k = st.i := by dsimp only at hk2; omega
      subst this
      rw [hl] at hl'
      cases hl'
      exact Or.inr hc

theorem cbInv_extend {ls0 : List Ln} {st : CbState} (h : CbInv ls0 st) {b : Cblock} (hb : st.bs.getLast? = some b)
    {e : Nat} (he : st.i < e) (hl : e ≤ ls0.length) : CbInv ls0 ⟨st.ls, extendLast st.bs e, e⟩ := by
  have hp := h.pos
  obtain ⟨hne, hlast⟩ := List.getLast?_eq_some_iff.mp hb
  have hbs : extendLast st.bs e = hne ++ [{ b with stop := e }] := by
    unfold extendLast
    rw [hb]
    dsimp only
    rw [hlast, List.dropLast_concat]
  have hbmem : b ∈ st.bs := by rw [hlast]; simp
  have hsub : ∀ c ∈ hne, c ∈ st.bs := fun c hc => by rw [hlast]; simp [hc]
  have hsorted := h.sorted
  have hnames := h.names
  rw [hlast, List.pairwise_append] at hsorted hnames
  have hb2 := h.bounds b hbmem
  have e2 : (⟨st.ls, extendLast st.bs e, e⟩ : CbState) = ⟨st.ls, hne ++ [{ b with stop := e }], e⟩ := by rw [hbs]
  rw [e2]
  refine ⟨h.len, ?_, by dsimp only; omega, hl, ?_, ?_, ?_, ?_, ?_⟩
  · have := congrArg (List.drop (e - st.i)) h.tail
    simp only [List.drop_drop] at this
    rwa [show st.i + (e - st.i) = e by omega] at this
  · rw [List.pairwise_append]
    exact ⟨hsorted.1, by simp, fun a ha c hc => by
      rw [List.mem_singleton] at hc; subst hc; exact hsorted.2.2 a ha b (by simp)⟩
  · intro c hc
    rw [List.mem_append, List.mem_singleton] at hc
    rcases hc with hc | rfl
    · have := h.bounds c (hsub c hc)
      dsimp only
      omega
    · dsimp only
      omega
  · intro c hc
    rw [List.mem_append, List.mem_singleton] at hc
    rcases hc with hc | rfl
    · exact h.ok c (hsub c hc)
    · exact h.ok b hbmem
  · rw [List.pairwise_append]
    exact ⟨hnames.1, by simp, fun a ha c hc => by
      rw [List.mem_singleton] at hc; subst hc; exact hnames.2.2 a ha b (by simp)⟩
  · intro k l hk hk2 hkl
    by_cases hlt : b.start ≤ k
    · exact Or.inl ⟨{ b with stop := e }, by simp, hlt, hk2⟩
    · rcases h.cover k l hk (by omega) hkl with ⟨b', h1, h2⟩ | h1 | ⟨h1, b', h2, h3, h4⟩
      · rw [hlast, List.mem_append, List.mem_singleton] at h1
        rcases h1 with h1 | rfl
        · exact Or.inl ⟨b', by simp [h1], h2⟩
        · exact absurd h2.1 hlt
      · exact Or.inr (Or.inl h1)
      · rw [hlast, List.mem_append, List.mem_singleton] at h2
        rcases h2 with h2 | rfl
        · exact Or.inr (Or.inr ⟨h1, b', by simp [h2], h3, h4⟩)
        · omega

theorem attrName_text (l : Ln) (hd : l.dir = parseCtype l.text) (h : l.dir = .globl ∨ l.dir = .weak) :
    (attrName l.text).text = skipBlanks l.text ∧ (attrName l.text).Ok := by
  have hend : atEnd (skipBlanks l.text) = false := by
    rcases parseCtype_eq l.text with ⟨d, hd1, h1, h2⟩ | ⟨h1, h2⟩
    · have hdots : ∀ d ∈ asmDirectives, d.2 ≠ [] := by decide +kernel
      have := hdots d hd1
      rw [h1] at this
      by_contra hc
      rw [Bool.not_eq_false] at hc
      apply this
      unfold firstTok getToken
      rw [getTokenD_end _ _ hc]
      rfl
    · rw [← hd] at h2
      rcases h with h | h <;> rw [h] at h2 <;> simp at h2
  have : (getToken (some l.text)).1.s = skipBlanks l.text := by
    simp only [getToken, getTokenD, hend]
    rfl
  unfold attrName
  dsimp only
  rw [this]
  exact ⟨by simp [Kpstr.text], Nat.le_refl _⟩

theorem attr_tok {l : Ln} (hd : l.dir = parseCtype l.text) (h : l.dir = .globl ∨ l.dir = .weak) :
    firstTok l.text ∈ [lit ".globl", lit ".global", lit ".weak"] := by
  rcases parseCtype_eq l.text with ⟨d, hd1, h1, h2⟩ | ⟨_, h2⟩
  · have hw : ∀ d ∈ asmDirectives, d.1 = .globl ∨ d.1 = .weak → d.2 ∈ [lit ".globl", lit ".global", lit ".weak"] := by
      decide +kernel
    rw [← h1]
    exact hw d hd1 (by rw [← h2, ← hd]; exact h)
  · rw [← hd] at h2
    rcases h with h | h <;> rw [h] at h2 <;> simp at h2

theorem getElem?_of_drop_eq {α : Type} {a b : List α} {i : Nat} (h : a.drop i = b.drop i) : a[i]? = b[i]? := by
  have := congrArg (·[0]?) h
  simpa [List.getElem?_drop] using this

theorem cblockStep_inv {ls0 : List Ln} {st st' : CbState} {l : Ln} (hdir : ∀ l ∈ ls0, l.dir = parseCtype l.text)
    (h : CbInv ls0 st) (hl : st.ls[st.i]? = some l)
    (hs : cblockStep st l = some st') : CbInv ls0 st' ∧ st.i < st'.i := by
  have hp := h.pos
  have hl0 : ls0[st.i]? = some l := by rw [← hl]; exact (getElem?_of_drop_eq h.tail).symm
  have hlt : st.i < ls0.length := (List.getElem?_eq_some_iff.mp hl0).1
  have hcons : st.ls.drop st.i = l :: st.ls.drop (st.i + 1) := by
    obtain ⟨hi, e⟩ := List.getElem?_eq_some_iff.mp hl
    rw [List.drop_eq_getElem_cons hi, e]
  have htail : ∀ e, st.i ≤ e → st.ls.drop e = ls0.drop e := by
    intro e he
    have := congrArg (List.drop (e - st.i)) h.tail
    simp only [List.drop_drop] at this
    rwa [show st.i + (e - st.i) = e by omega] at this
  unfold cblockStep at hs
  split at hs
  · rename_i ht
    cases hs
    exact ⟨cbInv_skip h hl0 (Or.inl ht), by dsimp only; omega⟩
  split at hs
  · cases hs
  · -- function
    rename_i nm hf
    have hok : nm.Ok := funcStartLoop_ok _ _ _ _ _ empty_ok hf
    unfold initFuncBlock at hs
    rw [Option.bind_eq_some_iff] at hs
    obtain ⟨r, h1, h2⟩ := hs
    dsimp only at h2
    rw [Option.map_eq_some_iff] at h2
    obtain ⟨bs, h3, rfl⟩ := h2
    have hlen := funcScan_len _ _ _ _ (by rw [hcons]; simp) h1
    rw [List.length_drop, h.len] at hlen
    have hseen : st.i + r.seen.length ≤ ls0.length := by omega
    refine ⟨cbInv_add h h3 hok rfl (by dsimp only; omega) (by dsimp only; omega) ?_ ?_, by dsimp only; omega⟩
    · simp only [List.length_append, List.length_take, List.length_drop, h.len]
      omega
    · dsimp only
      have hA : (st.ls.take st.i ++ r.seen).length = st.i + r.seen.length := by
        rw [List.length_append, List.length_take, h.len]; omega
      rw [List.drop_append, List.drop_eq_nil_of_le (by rw [hA]; omega), List.nil_append, List.drop_drop, hA,
        ← htail _ (by omega)]
      congr 1
      omega
  · split at hs
    · cases hs
    · -- variable
      rename_i n g nm hv
      have hok : nm.Ok := (varStartLoop_spec _ _ _ _ _ _ _ _ empty_ok hv).1
      unfold initVarBlock at hs
      rw [Option.bind_eq_some_iff] at hs
      obtain ⟨r, h1, h2⟩ := hs
      rw [Option.map_eq_some_iff] at h2
      obtain ⟨bs, h3, rfl⟩ := h2
      have hle := varScan_len _ _ _ _ _ h1
      have hpos : 0 < r.1 := by
        rw [hcons] at h1 hv
        obtain ⟨f, hf⟩ : ∃ f, st.ls.length - st.i = f + 1 := ⟨st.ls.length - st.i - 1, by rw [h.len]; omega⟩
        rw [hf] at h1
        exact varScan_pos f l _ nm false r (n, g) hv h1
      rw [List.length_drop, h.len] at hle
      exact ⟨cbInv_add h h3 hok rfl (by dsimp only; omega) (by dsimp only; omega) h.len (htail _ (by dsimp only; omega)),
        by dsimp only; omega⟩
    · rename_i hf _ hv
      split at hs
      · -- set
        unfold initSetBlock at hs
        rw [Option.map_eq_some_iff] at hs
        obtain ⟨bs, h3, rfl⟩ := hs
        exact ⟨cbInv_add h h3 (symArg_ok _) rfl (by dsimp only; omega) (by dsimp only; omega) h.len
          (htail _ (by dsimp only; omega)), by dsimp only; omega⟩
      split at hs
      · -- attribute
        rename_i hd
        have hmem : l ∈ ls0 := List.mem_of_getElem? hl0
        obtain ⟨ht, hok⟩ := attrName_text l (hdir l hmem) hd.symm
        unfold initAttrBlock at hs
        dsimp only at hs
        split at hs
        · rename_i hfound
          cases hs
          refine ⟨cbInv_skip h hl0 (Or.inr ⟨attr_tok (hdir l (List.mem_of_getElem? hl0)) hd.symm, ?_⟩), by dsimp only; omega⟩
          obtain ⟨b, hb⟩ := Option.isSome_iff_exists.mp hfound
          unfold findByName at hb
          have hbm := List.mem_of_find?_eq_some hb
          have hbe := List.find?_some hb
          rw [decide_eq_true_iff, kpstrcmp_zero (h.ok b hbm) hok, ht] at hbe
          have := h.bounds b hbm
          exact ⟨b, hbm, by omega, hbe⟩
        · rw [Option.map_eq_some_iff] at hs
          obtain ⟨bs, h3, rfl⟩ := hs
          exact ⟨cbInv_add h h3 hok rfl (by dsimp only; omega) (by dsimp only; omega) h.len
            (htail _ (by dsimp only; omega)), by dsimp only; omega⟩
      · -- other
        unfold initOtherBlock at hs
        rw [Option.bind_eq_some_iff] at hs
        obtain ⟨⟨n, flag⟩, h1, h2⟩ := hs
        have hle := otherLoop_len _ _ _ _ h1
        have hst : startsBlock (st.ls.drop st.i) = some false := by
          unfold startsBlock
          rw [hf, hv]
          rfl
        have hpos : 0 < n := by
          rw [hcons] at h1 hst
          exact otherLoop_pos _ _ _ _ _ hst h1
        rw [List.length_drop, h.len] at hle
        dsimp only at hle h2
        split at h2
        · cases h2
          obtain ⟨b, hb⟩ := otherLoop_update _ _ _ _ h1 (by simp)
          exact ⟨cbInv_extend h hb (by omega) (by omega), by dsimp only; omega⟩
        · rw [Option.map_eq_some_iff] at h2
          obtain ⟨bs, h3, rfl⟩ := h2
          exact ⟨cbInv_add h h3 empty_ok rfl (by dsimp only; omega) (by dsimp only; omega) h.len
            (htail _ (by dsimp only; omega)), by dsimp only; omega⟩
        · rw [Option.bind_eq_some_iff] at h2
          obtain ⟨m, h3, h4⟩ := h2
          have hm := otherRest_len _ _ h3
          rw [List.length_drop, h.len] at hm
          rw [Option.map_eq_some_iff] at h4
          obtain ⟨bs, h5, rfl⟩ := h4
          exact ⟨cbInv_add h h5 empty_ok rfl (by dsimp only; omega) (by dsimp only; omega) h.len
            (htail _ (by dsimp only; omega)), by dsimp only; omega⟩

theorem cblocksLoop_inv {ls0 : List Ln} (hdir : ∀ l ∈ ls0, l.dir = parseCtype l.text) :
    ∀ (fuel : Nat) (st st' : CbState), CbInv ls0 st → ls0.length ≤ fuel + st.i → cblocksLoop fuel st = some st' →
      CbInv ls0 st' ∧ st'.i = ls0.length := by
  intro fuel
  induction fuel with
  | zero =>
    intro st st' h hf hs
    simp only [cblocksLoop, Option.some.injEq] at hs
    subst hs
    have := h.le
    exact ⟨h, by omega⟩
  | succ fuel ih =>
    intro st st' h hf hs
    rw [cblocksLoop] at hs
    split at hs
    · rename_i hn
      cases hs
      rw [List.getElem?_eq_none_iff, h.len] at hn
      have := h.le
      exact ⟨h, by omega⟩
    · rename_i l hl
      rw [Option.bind_eq_some_iff] at hs
      obtain ⟨st1, h1, h2⟩ := hs
      obtain ⟨h3, h4⟩ := cblockStep_inv hdir h hl h1
      exact ih st1 st' h3 (by omega) h2

theorem makeLines_dir {known : List SectInfo} {stmts : List (List Byte)} {ls : List Ln} {k : List SectInfo}
    (h : makeLines known stmts = some (ls, k)) : ∀ l ∈ ls, l.dir = parseCtype l.text := by
  unfold makeLines at h
  rw [Option.map_eq_some_iff] at h
  obtain ⟨r, _, h2⟩ := h
  simp only [Prod.mk.injEq] at h2
  rw [← h2.1]
  intro l hl
  obtain ⟨x, _, rfl⟩ := List.mem_map.mp hl
  rfl

/-- C44: the blocks of a file are in file order and do not overlap, every block has at least one line, and every line
after the first, which is empty and not of the file, belongs to exactly one block, unless it is empty or repeats a
`.globl` or `.weak` declaration. -/
theorem C44_blocks (known k : List SectInfo) (stmts : List (List Byte)) (ls : List Ln) (st : CbState)
    (hls : makeLines known stmts = some (ls, k)) (hne : ls ≠ []) (h : cblocksInit ls = some st) :
    st.bs.Pairwise (fun a b => a.stop ≤ b.start) ∧
    (∀ b ∈ st.bs, 1 ≤ b.start ∧ b.start < b.stop ∧ b.stop ≤ ls.length) ∧
    (∀ i l, 1 ≤ i → ls[i]? = some l →
      (∃ b ∈ st.bs, b.has i ∧ ∀ b' ∈ st.bs, b'.has i → b' = b) ∨ l.text = [] ∨ RepeatedAttr st.bs i l) := by
  have hpos : 0 < ls.length := List.length_pos_iff.mpr hne
  have h0 : CbInv ls ⟨ls, [], 1⟩ := ⟨rfl, rfl, Nat.le_refl _, hpos, by simp, by simp, by simp, by simp,
    fun k l h1 h2 => absurd h2 (by dsimp only; omega)⟩
  obtain ⟨hi, hend⟩ := cblocksLoop_inv (makeLines_dir hls) ls.length _ st h0 (by omega) h
  refine ⟨hi.sorted, fun b hb => ?_, fun i l h1 hl => ?_⟩
  · have := hi.bounds b hb
    omega
  · have hlt : i < ls.length := (List.getElem?_eq_some_iff.mp hl).1
    rcases hi.cover i l h1 (by omega) hl with ⟨b, hb, hbi⟩ | h2
    · refine Or.inl ⟨b, hb, hbi, fun b' hb' hbi' => ?_⟩
      obtain ⟨p, hp⟩ := List.getElem?_of_mem hb
      obtain ⟨q, hq⟩ := List.getElem?_of_mem hb'
      obtain ⟨hp1, hp2⟩ := List.getElem?_eq_some_iff.mp hp
      obtain ⟨hq1, hq2⟩ := List.getElem?_eq_some_iff.mp hq
      have hs := List.pairwise_iff_getElem.mp hi.sorted
      unfold Cblock.has at hbi hbi'
      rcases Nat.lt_trichotomy p q with hpq | rfl | hpq
      · have := hs p q hp1 hq1 hpq
        rw [hp2, hq2] at this
        omega
      · rw [hp] at hq; cases hq; rfl
      · have := hs q p hq1 hp1 hpq
        rw [hp2, hq2] at this
        omega
    · exact Or.inr h2

/-- C44: no two blocks have the same name, except that blocks of other lines have the empty name. -/
theorem C44_names (known k : List SectInfo) (stmts : List (List Byte)) (ls : List Ln) (st : CbState)
    (hls : makeLines known stmts = some (ls, k)) (hne : ls ≠ []) (h : cblocksInit ls = some st)
    (i j : Nat) (a b : Cblock) (hij : i < j) (ha : st.bs[i]? = some a) (hb : st.bs[j]? = some b)
    (hn : b.name.text ≠ []) : a.name.text ≠ b.name.text := by
  have hpos : 0 < ls.length := List.length_pos_iff.mpr hne
  have h0 : CbInv ls ⟨ls, [], 1⟩ := ⟨rfl, rfl, Nat.le_refl _, hpos, by simp, by simp, by simp, by simp,
    fun k l h1 h2 => absurd h2 (by dsimp only; omega)⟩
  obtain ⟨hi, hend⟩ := cblocksLoop_inv (makeLines_dir hls) ls.length _ st h0 (by omega) h
  obtain ⟨hp1, hp2⟩ := List.getElem?_eq_some_iff.mp ha
  obtain ⟨hq1, hq2⟩ := List.getElem?_eq_some_iff.mp hb
  have := List.pairwise_iff_getElem.mp hi.names i j hp1 hq1 hij
  rw [hp2, hq2] at this
  have hl : b.name.l ≠ 0 := by rintro e; apply hn; simp [Kpstr.text, e]
  have := this hl
  rwa [Ne, kpstrcmp_zero (hi.ok a (List.mem_of_getElem? ha)) (hi.ok b (List.mem_of_getElem? hb))] at this

/-- A file with a function, a variable, an alias, declarations and a list of constructors. -/
def exampleFile : List (List Byte) :=
  [[], lit "\t.file \"x.c\"", lit "\t.text", lit "\t.globl f", lit "\t.type f, @function", lit "f:", lit "\tret",
   lit "\t.size f, .-f", [], lit "\t.section .init_array,\"aw\"", lit "\t.quad f", lit "\t.globl x", lit "\t.data",
   lit "\t.type x, @object", lit "x:", lit "\t.long 1", lit "\t.set a, x", lit "\t.globl f", [], lit "\t.globl f",
   lit "\t.ident \"gcc\""]

def exampleBlocks : Option (List (Nat × Nat × List Byte × BType × Bool)) :=
  ((makeLines predefinedSections exampleFile).bind fun r => cblocksInit r.1).map fun st =>
    st.bs.map fun b => (b.start, b.stop, b.name.text, b.ty, b.globl)

end Target

section X86

attribute [local instance] x86Asm

set_option synthInstance.maxSize 1024 in
/-- The constructor list is joined to its function; the second `.globl f` is in no block. -/
example : exampleBlocks = some
    [(1, 2, [], .other, false), (2, 11, lit "f", .func, true), (11, 16, lit "x", .var, true),
     (16, 17, lit "a", .var, false), (17, 18, lit ".globl f", .attr, false), (20, 21, [], .other, false)] := by
  decide +kernel

end X86

end Verif
