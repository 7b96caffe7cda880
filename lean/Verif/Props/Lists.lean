import Verif.Proof.Lists
/-
C39: linked lists keep all elements in order.
-/
namespace Verif

/-- The links represent the lists. -/
structure ListsRep (h : Links) (s : Lists) : Prop where
  ring : ∀ hd xs, s hd = some xs → Ring h hd xs
  disj : ∀ hd hd' xs ys, hd ≠ hd' → s hd = some xs → s hd' = some ys → ∀ a ∈ hd :: xs, a ∉ hd' :: ys

theorem upd_self (s : Lists) (hd : Nat) (v) : s.upd hd v hd = v := by simp [Lists.upd]

theorem upd_ne (s : Lists) {hd a : Nat} (v) (h : a ≠ hd) : s.upd hd v a = s a := by simp [Lists.upd, h]

theorem rep_update {h h' : Links} {s : Lists} (hr : ListsRep h s) {hd : Nat} {xs xs' extra : List Nat}
    (hs : s hd = some xs)
    (hf : ∀ y, y ∉ hd :: xs → y ∉ extra → h'.next y = h.next y ∧ h'.prev y = h.prev y)
    (hring : Ring h' hd xs') (hsub : ∀ a ∈ xs', a ∈ xs ∨ a ∈ extra) (hex : ∀ a ∈ extra, ¬ s.Used a) :
    ListsRep h' (s.upd hd (some xs')) := by
  have hin : ∀ hd' ys, hd' ≠ hd → s hd' = some ys → ∀ a ∈ hd' :: ys, a ∉ hd :: xs ∧ a ∉ extra := by
    intro hd' ys hne hs' a ha
    exact ⟨hr.disj hd' hd ys xs hne hs' hs a ha, fun he => hex a he ⟨hd', ys, hs', ha⟩⟩
  have hin2 : ∀ hd' ys, hd' ≠ hd → s hd' = some ys → ∀ a ∈ hd' :: ys, a ∉ hd :: xs' := by
    intro hd' ys hne hs' a ha hc
    obtain ⟨p, q⟩ := hin hd' ys hne hs' a ha
    rcases List.mem_cons.mp hc with e | e
    · exact p (by rw [e]; simp)
    · rcases hsub a e with e' | e'
      · exact p (List.mem_cons_of_mem _ e')
      · exact q e'
  constructor
  · intro hd' ys hs'
    by_cases hne : hd' = hd
    · subst hne
      rw [upd_self] at hs'
      cases hs'
      exact hring
    · rw [upd_ne _ _ hne] at hs'
      refine ring_frame (hr.ring hd' ys hs') fun y hy => ?_
      obtain ⟨p, q⟩ := hin hd' ys hne hs' y hy
      exact hf y p q
  · intro a b ys zs hab ha hb w hw hw2
    by_cases h1 : a = hd
    · subst h1
      rw [upd_self] at ha
      cases ha
      rw [upd_ne _ _ (Ne.symm hab)] at hb
      exact hin2 b zs (Ne.symm hab) hb w hw2 hw
    · rw [upd_ne _ _ h1] at ha
      by_cases h2 : b = hd
      · subst h2
        rw [upd_self] at hb
        cases hb
        exact hin2 a ys h1 ha w hw hw2
      · rw [upd_ne _ _ h2] at hb
        exact hr.disj a b ys zs hab ha hb w hw hw2

theorem rep_remove {h : Links} {s : Lists} (hr : ListsRep h s) (l : Nat) : ListsRep h (s.upd l none) := by
  have key : ∀ a xs, s.upd l none a = some xs → s a = some xs := by
    intro a xs ha
    by_cases e : a = l
    · subst e; rw [upd_self] at ha; cases ha
    · rwa [upd_ne _ _ e] at ha
  exact ⟨fun a xs ha => hr.ring a xs (key a xs ha),
    fun a b xs ys hab ha hb => hr.disj a b xs ys hab (key _ _ ha) (key _ _ hb)⟩

theorem used_other {h : Links} {s : Lists} (hr : ListsRep h s) {hd a e : Nat} {xs ys : List Nat} (hs : s hd = some xs)
    (he : e ∈ xs) (hne : a ≠ hd) (ha : s a = some ys) : e ∉ ys := fun hh =>
  hr.disj hd a xs ys (Ne.symm hne) hs ha e (List.mem_cons_of_mem _ he) (List.mem_cons_of_mem _ hh)

theorem rep_add {h : Links} {s : Lists} (hr : ListsRep h s) {new hd : Nat} (hnew : ¬ s.Used new) {xs : List Nat}
    (hs : s hd = some xs) : ListsRep (listAdd h new hd) (s.upd hd (some (xs ++ [new]))) := by
  have hring := hr.ring hd xs hs
  have hp := seg_prev_mem hring.1
  refine rep_update hr (extra := [new]) hs ?_ (ring_add hring fun hh => hnew ⟨hd, xs, hs, hh⟩) ?_ ?_
  · intro y h1 h2
    have e1 : y ≠ hd := by rintro rfl; simp at h1
    have e2 : y ≠ new := by rintro rfl; simp at h2
    have e3 : y ≠ h.prev hd := by rintro rfl; exact h1 hp
    simp [listAdd, listAddBetween, Links.setNext, Links.setPrev, e1, e2, e3]
  · intro a ha; simpa using ha
  · intro a ha; simp at ha; subst ha; exact hnew

theorem rep_addHead {h : Links} {s : Lists} (hr : ListsRep h s) {new hd : Nat} (hnew : ¬ s.Used new) {xs : List Nat}
    (hs : s hd = some xs) : ListsRep (listAddHead h new hd) (s.upd hd (some (new :: xs))) := by
  have hring := hr.ring hd xs hs
  have hp := seg_next_mem hring.1
  refine rep_update hr (extra := [new]) hs ?_ (ring_addHead hring fun hh => hnew ⟨hd, xs, hs, hh⟩) ?_ ?_
  · intro y h1 h2
    have e1 : y ≠ hd := by rintro rfl; simp at h1
    have e2 : y ≠ new := by rintro rfl; simp at h2
    have e3 : y ≠ h.next hd := by rintro rfl; simp at hp h1; tauto
    simp [listAddHead, listAddBetween, Links.setNext, Links.setPrev, e1, e2, e3]
  · intro a ha; simp at ha ⊢; tauto
  · intro a ha; simp at ha; subst ha; exact hnew

theorem rep_del {h : Links} {s : Lists} (hr : ListsRep h s) {hd e : Nat} {xs : List Nat} (hs : s hd = some xs)
    (he : e ∈ xs) : ListsRep (listDel h e) (ListOp.spec s (.del e)) := by
  have hring := hr.ring hd xs hs
  obtain ⟨l1, l2, rfl⟩ := List.append_of_mem he
  have hspec : ListOp.spec s (.del e) = s.upd hd (some (l1 ++ l2)) := by
    funext a
    by_cases hne : a = hd
    · subst hne
      rw [upd_self]
      simp only [ListOp.spec, hs, Option.map_some, Option.some.injEq]
      have hn := hring.2
      simp only [List.nodup_cons, List.nodup_append, List.mem_append, List.mem_cons, not_or] at hn
      rw [List.filter_append, List.filter_cons_of_neg (by simp)]
      rw [List.filter_eq_self.mpr, List.filter_eq_self.mpr]
      · intro b hb
        simp only [ne_eq, decide_not, Bool.not_eq_eq_eq_not, Bool.not_true, decide_eq_false_iff_not]
        rintro rfl
        exact hn.2.2.1.1 hb
      · intro b hb
        simp only [ne_eq, decide_not, Bool.not_eq_eq_eq_not, Bool.not_true, decide_eq_false_iff_not]
        rintro rfl
        exact hn.2.2.2 b hb b (Or.inl rfl) rfl
    · rw [upd_ne _ _ hne]
      simp only [ListOp.spec]
      cases ha : s a with
      | none => rfl
      | some ys =>
        simp only [Option.map_some, Option.some.injEq]
        rw [List.filter_eq_self]
        intro b hb
        simp only [ne_eq, decide_not, Bool.not_eq_eq_eq_not, Bool.not_true, decide_eq_false_iff_not]
        rintro rfl
        exact used_other hr hs he hne ha hb
  rw [hspec]
  obtain ⟨s1, s2⟩ := (seg_append h l1 l2 e hd hd).mp hring.1
  have hp := seg_prev_mem s1
  have hq := seg_next_mem s2
  refine rep_update hr (extra := []) hs ?_ (ring_del hring) ?_ (by simp)
  · intro y h1 _
    have e1 : y ≠ h.prev e := by rintro rfl; simp at hp h1; tauto
    have e2 : y ≠ h.next e := by rintro rfl; simp at hq h1; tauto
    simp [listDel, listDelBetween, Links.setNext, Links.setPrev, e1, e2]
  · intro a ha; simp at ha ⊢; tauto

theorem rep_replace {h : Links} {s : Lists} (hr : ListsRep h s) {hd old new : Nat} (hnew : ¬ s.Used new)
    {xs : List Nat} (hs : s hd = some xs) (he : old ∈ xs) :
    ListsRep (listReplace h old new) (ListOp.spec s (.replace old new)) := by
  have hring := hr.ring hd xs hs
  have hmem : ∀ (l : List Nat), old ∉ l → l.map (fun x => if x = old then new else x) = l := by
    intro l hl
    induction l with
    | nil => rfl
    | cons b l ih =>
      simp only [List.mem_cons, not_or] at hl
      simp only [List.map_cons, if_neg (Ne.symm hl.1), ih hl.2]
  obtain ⟨l1, l2, rfl⟩ := List.append_of_mem he
  have hn := hring.2
  simp only [List.nodup_cons, List.nodup_append, List.mem_append, List.mem_cons, not_or] at hn
  have hspec : ListOp.spec s (.replace old new) = s.upd hd (some (l1 ++ new :: l2)) := by
    funext a
    by_cases hne : a = hd
    · subst hne
      rw [upd_self]
      simp only [ListOp.spec, hs, Option.map_some, Option.some.injEq, List.map_append, List.map_cons, if_true]
      rw [hmem l1 fun hh => hn.2.2.2 old hh old (Or.inl rfl) rfl, hmem l2 hn.2.2.1.1]
    · rw [upd_ne _ _ hne]
      simp only [ListOp.spec]
      cases ha : s a with
      | none => rfl
      | some ys =>
        simp only [Option.map_some, Option.some.injEq]
        exact hmem ys (used_other hr hs he hne ha)
  rw [hspec]
  obtain ⟨s1, s2⟩ := (seg_append h l1 l2 old hd hd).mp hring.1
  have hp := seg_prev_mem s1
  have hq := seg_next_mem s2
  have oq : old ≠ h.next old := by rintro e; rw [← e] at hq; simp at hq; tauto
  refine rep_update hr (extra := [new]) hs ?_ (ring_replace hring fun hh => hnew ⟨hd, _, hs, hh⟩) ?_ ?_
  · intro y h1 h2
    have e1 : y ≠ h.prev old := by rintro rfl; simp at hp h1; tauto
    have e2 : y ≠ h.next old := by rintro rfl; simp at hq h1; tauto
    have e3 : y ≠ new := by rintro rfl; simp at h2
    simp [listReplace, Links.setNext, Links.setPrev, e1, e2, e3, oq, Ne.symm oq]
  · intro a ha; simp at ha ⊢; tauto
  · intro a ha; simp at ha; subst ha; exact hnew

theorem rep_move {h : Links} {s : Lists} (hr : ListsRep h s) {hd0 hd e : Nat} {xs ys : List Nat} (hs : s hd0 = some xs)
    (he : e ∈ xs) (hs2 : s hd = some ys) : ListsRep (listMove h e hd) (ListOp.spec s (.move e hd)) := by
  have h1 := rep_del hr hs he
  have hun : ¬ Lists.Used (ListOp.spec s (.del e)) e := by
    rintro ⟨a, zs, ha, hz⟩
    simp only [ListOp.spec, Option.map_eq_some_iff] at ha
    obtain ⟨ws, hw, rfl⟩ := ha
    simp only [List.mem_cons, List.mem_filter] at hz
    rcases hz with rfl | hz
    · by_cases hq : e = hd0
      · subst hq
        exact (List.nodup_cons.mp (hr.ring _ _ hs).2).1 he
      · exact hr.disj hd0 e xs ws (Ne.symm hq) hs hw e (List.mem_cons_of_mem _ he) (by simp)
    · simp at hz
  have h2 := rep_add h1 hun (hd := hd) (xs := ys.filter (· ≠ e)) (by simp [ListOp.spec, hs2])
  have hspec : ListOp.spec s (.move e hd) = (ListOp.spec s (.del e)).upd hd (some (ys.filter (· ≠ e) ++ [e])) := by
    funext a
    by_cases hne : a = hd
    · subst hne; rw [upd_self]; simp [ListOp.spec, hs2]
    · rw [upd_ne _ _ hne]; simp [ListOp.spec, hne]
  rw [hspec]
  exact h2

theorem rep_step {h : Links} {s : Lists} (hr : ListsRep h s) (op : ListOp) (hl : op.Legal s) :
    ListsRep (op.run h) (op.spec s) := by
  cases op with
  | init hd =>
    have hin2 : ∀ hd' ys, s hd' = some ys → ∀ a ∈ hd' :: ys, a ≠ hd := by
      rintro hd' ys hs a ha rfl
      exact hl ⟨hd', ys, hs, ha⟩
    constructor
    · intro hd' ys hs
      by_cases hne : hd' = hd
      · subst hne
        simp only [ListOp.spec, upd_self] at hs
        cases hs
        exact ring_init h hd'
      · simp only [ListOp.spec, upd_ne _ _ hne] at hs
        refine ring_frame (hr.ring hd' ys hs) fun y hy => ?_
        have := hin2 hd' ys hs y hy
        simp [ListOp.run, listInit, Links.setNext, Links.setPrev, this]
    · intro a b ys zs hab ha hb w hw hw2
      by_cases h1 : a = hd
      · subst h1
        simp only [ListOp.spec, upd_self, upd_ne _ _ (Ne.symm hab)] at ha hb
        cases ha
        simp only [List.mem_singleton] at hw
        exact hin2 b zs hb w hw2 hw
      · simp only [ListOp.spec, upd_ne _ _ h1] at ha
        by_cases h2 : b = hd
        · subst h2
          simp only [ListOp.spec, upd_self] at hb
          cases hb
          simp only [List.mem_singleton] at hw2
          exact hin2 a ys ha w hw hw2
        · simp only [ListOp.spec, upd_ne _ _ h2] at hb
          exact hr.disj a b ys zs hab ha hb w hw hw2
  | add new hd =>
    obtain ⟨h1, h2⟩ := hl
    obtain ⟨xs, hs⟩ := Option.isSome_iff_exists.mp h2
    simp only [ListOp.spec, hs, Option.map_some]
    exact rep_add hr h1 hs
  | addHead new hd =>
    obtain ⟨h1, h2⟩ := hl
    obtain ⟨xs, hs⟩ := Option.isSome_iff_exists.mp h2
    simp only [ListOp.spec, hs, Option.map_some]
    exact rep_addHead hr h1 hs
  | del e =>
    obtain ⟨hd, xs, hs, he⟩ := hl
    exact rep_del hr hs he
  | replace old new =>
    obtain ⟨h1, hd, xs, hs, he⟩ := hl
    exact rep_replace hr h1 hs he
  | move e hd =>
    obtain ⟨h1, hd0, xs, hs, he⟩ := hl
    obtain ⟨ys, hs2⟩ := Option.isSome_iff_exists.mp h1
    exact rep_move hr hs he hs2
  | rotate hd =>
    obtain ⟨xs, hs⟩ := Option.isSome_iff_exists.mp hl
    have hring := hr.ring hd xs hs
    cases xs with
    | nil =>
      have he : listEmpty h hd = true := by simpa [listEmpty] using hring.1.1
      have hspec : ListOp.spec s (.rotate hd) = s := by
        funext a
        by_cases hne : a = hd
        · subst hne; simp [ListOp.spec, upd_self, hs]
        · simp [ListOp.spec, upd_ne _ _ hne]
      rw [hspec]
      simpa [ListOp.run, listRotateLeft, he] using hr
    | cons x xs =>
      have hn := hring.2
      simp only [List.nodup_cons, List.mem_cons, not_or] at hn
      have he : listEmpty h hd = false := by simpa [listEmpty, hring.1.1] using Ne.symm hn.1.1
      have hm := rep_move hr (hd := hd) hs (e := x) (by simp) hs
      have hspec : ListOp.spec s (.rotate hd) = ListOp.spec s (.move x hd) := by
        funext a
        by_cases hne : a = hd
        · subst hne
          simp only [ListOp.spec, upd_self, hs, Option.map_some, if_true, Option.some.injEq]
          simp only [List.drop_succ_cons, List.drop_zero, List.take_succ_cons, List.take_zero]
          rw [List.filter_cons_of_neg (by simp), List.filter_eq_self.mpr]
          intro b hb
          simp only [ne_eq, decide_not, Bool.not_eq_eq_eq_not, Bool.not_true, decide_eq_false_iff_not]
          rintro rfl
          exact hn.2.1 hb
        · simp only [ListOp.spec, upd_ne _ _ hne, if_neg hne]
          cases ha : s a with
          | none => rfl
          | some ys =>
            simp only [Option.map_some, Option.some.injEq]
            rw [List.filter_eq_self.mpr]
            intro b hb
            simp only [ne_eq, decide_not, Bool.not_eq_eq_eq_not, Bool.not_true, decide_eq_false_iff_not]
            rintro rfl
            exact used_other hr hs (by simp) hne ha hb
      rw [hspec]
      simpa [ListOp.run, listRotateLeft, he, hring.1.1] using hm
  | splice l hd =>
    obtain ⟨h1, h2, h3⟩ := hl
    obtain ⟨xs, hs⟩ := Option.isSome_iff_exists.mp h2
    obtain ⟨ys, hs2⟩ := Option.isSome_iff_exists.mp h3
    have r1 := hr.ring l xs hs
    have r2 := hr.ring hd ys hs2
    cases xs with
    | nil =>
      have he : listEmpty h l = true := by simpa [listEmpty] using r1.1.1
      simpa [ListOp.spec, hs, ListOp.run, listSplice, he] using hr
    | cons x xs =>
      simp only [ListOp.spec, hs, hs2]
      have hdis := hr.disj l hd (x :: xs) ys h1 hs hs2
      have hxl : x ≠ l := by have := r1.2; rintro rfl; simp at this
      have he : listEmpty h l = false := by simp [listEmpty, r1.1.1, hxl]
      have hz := seg_prev_mem r1.1.2.2
      have hq := seg_next_mem r2.1
      refine rep_update (rep_remove hr l) (xs := ys) (extra := x :: xs) ?_ ?_ (ring_splice r1 r2 hdis) ?_ ?_
      · rw [upd_ne _ _ (Ne.symm h1)]; exact hs2
      · intro y q1 q2
        have e1 : y ≠ x := by rintro rfl; simp at q2
        have e2 : y ≠ hd := by rintro rfl; simp at q1
        have e3 : y ≠ h.prev l := by rintro rfl; exact q2 hz
        have e4 : y ≠ h.next hd := by rintro rfl; simp at hq q1; tauto
        simp [ListOp.run, listSplice, he, listSpliceBetween, Links.setNext, Links.setPrev, r1.1.1, e1, e2, e3, e4]
      · intro a ha; simp at ha ⊢; tauto
      · rintro a ha ⟨b, zs, hb, hbz⟩
        by_cases hne : b = l
        · subst hne; rw [upd_self] at hb; cases hb
        · rw [upd_ne _ _ hne] at hb
          exact hr.disj l b _ _ (Ne.symm hne) hs hb a (List.mem_cons_of_mem _ ha) hbz
  | spliceTail l hd =>
    obtain ⟨h1, h2, h3⟩ := hl
    obtain ⟨xs, hs⟩ := Option.isSome_iff_exists.mp h2
    obtain ⟨ys, hs2⟩ := Option.isSome_iff_exists.mp h3
    have r1 := hr.ring l xs hs
    have r2 := hr.ring hd ys hs2
    cases xs with
    | nil =>
      have he : listEmpty h l = true := by simpa [listEmpty] using r1.1.1
      simpa [ListOp.spec, hs, ListOp.run, listSpliceTail, he] using hr
    | cons x xs =>
      simp only [ListOp.spec, hs, hs2]
      have hdis := hr.disj l hd (x :: xs) ys h1 hs hs2
      have hxl : x ≠ l := by have := r1.2; rintro rfl; simp at this
      have he : listEmpty h l = false := by simp [listEmpty, r1.1.1, hxl]
      have hz := seg_prev_mem r1.1.2.2
      have hq := seg_prev_mem r2.1
      refine rep_update (rep_remove hr l) (xs := ys) (extra := x :: xs) ?_ ?_ (ring_spliceTail r1 r2 hdis) ?_ ?_
      · rw [upd_ne _ _ (Ne.symm h1)]; exact hs2
      · intro y q1 q2
        have e1 : y ≠ x := by rintro rfl; simp at q2
        have e2 : y ≠ hd := by rintro rfl; simp at q1
        have e3 : y ≠ h.prev l := by rintro rfl; exact q2 hz
        have e4 : y ≠ h.prev hd := by rintro rfl; exact q1 hq
        simp [ListOp.run, listSpliceTail, he, listSpliceBetween, Links.setNext, Links.setPrev, r1.1.1, e1, e2, e3, e4]
      · intro a ha; simp at ha ⊢; tauto
      · rintro a ha ⟨b, zs, hb, hbz⟩
        by_cases hne : b = l
        · subst hne; rw [upd_self] at hb; cases hb
        · rw [upd_ne _ _ hne] at hb
          exact hr.disj l b _ _ (Ne.symm hne) hs hb a (List.mem_cons_of_mem _ ha) hbz

theorem rep_run : ∀ (ops : List ListOp) (h : Links) (s : Lists), ListsRep h s → ListsLegal s ops →
    ListsRep (ops.foldl ListOp.run h) (ops.foldl ListOp.spec s) := by
  intro ops
  induction ops with
  | nil => intro h s hr _; exact hr
  | cons o os ih => intro h s hr hl; exact ih _ _ (rep_step hr o hl.1) hl.2

/-! ### Iteration -/

theorem walk_seg {h : Links} {hd : Nat} : ∀ (xs : List Nat) (a fuel : Nat), Seg h a xs hd → hd ∉ xs →
    xs.length ≤ fuel → listWalk h hd fuel (h.next a) = some xs := by
  intro xs
  induction xs with
  | nil => intro a fuel hs _ _; unfold listWalk; simp [hs.1]
  | cons x xs ih =>
    intro a fuel hs hn hf
    simp only [List.mem_cons, not_or] at hn
    obtain ⟨s1, s2, s3⟩ := hs
    cases fuel with
    | zero => simp at hf
    | succ fuel =>
      unfold listWalk
      rw [s1, if_neg (Ne.symm hn.1)]
      simp only
      rw [ih x fuel s3 hn.2 (by simpa using hf)]
      rfl

theorem walkPrev_seg {h : Links} {hd : Nat} : ∀ (n : Nat) (xs : List Nat) (b fuel : Nat), xs.length = n →
    Seg h hd xs b → hd ∉ xs → xs.length ≤ fuel → listWalkPrev h hd fuel (h.prev b) = some xs.reverse := by
  intro n
  induction n with
  | zero =>
    intro xs b fuel hx hs _ _
    rw [List.length_eq_zero_iff] at hx
    subst hx
    unfold listWalkPrev
    simp [hs.2]
  | succ n ih =>
    intro xs b fuel hx hs hn hf
    have hne : xs ≠ [] := by rintro rfl; simp at hx
    obtain ⟨ys, y, rfl⟩ : ∃ ys y, xs = ys ++ [y] := ⟨xs.dropLast, xs.getLast hne, (List.dropLast_concat_getLast hne).symm⟩
    simp only [List.mem_append, List.mem_singleton, not_or] at hn
    simp only [List.length_append, List.length_cons, List.length_nil] at hx hf
    obtain ⟨s1, s2⟩ := (seg_append h ys [] y b hd).mp hs
    cases fuel with
    | zero => omega
    | succ fuel =>
      unfold listWalkPrev
      rw [s2.2, if_neg (Ne.symm hn.2)]
      simp only
      rw [ih ys y fuel (by omega) s1 hn.1 (by omega)]
      simp

/-- C39.  After every legal history of list operations, for every list of the program: the forward loop visits
exactly the entries of the list, in order, and stops; the backward loop visits them in the opposite order.  The
entries of a list are given by the specification `ListOp.spec` on sequences. -/
theorem C39_order (ops : List ListOp) (h : Links) (hl : ListsLegal (fun _ => none) ops) (hd : Nat) (xs : List Nat)
    (hs : ops.foldl ListOp.spec (fun _ => none) hd = some xs) :
    let h' := ops.foldl ListOp.run h
    (∀ fuel, xs.length ≤ fuel → listForEach h' hd fuel = some xs ∧ listForEachPrev h' hd fuel = some xs.reverse) ∧
      (listEmpty h' hd = true ↔ xs = []) ∧ (listIsSingular h' hd = true ↔ xs.length = 1) ∧
      (∀ x ∈ xs, listIsLast h' x hd = true ↔ xs.getLast? = some x) ∧ xs.Nodup := by
  intro h'
  have hr := rep_run ops h (fun _ => none) ⟨by simp, by simp⟩ hl
  obtain ⟨hseg, hn⟩ := hr.ring hd xs hs
  change Seg h' hd xs hd at hseg
  have hn' := List.nodup_cons.mp hn
  refine ⟨fun fuel hf => ⟨walk_seg xs hd fuel hseg hn'.1 hf, walkPrev_seg _ xs hd fuel rfl hseg hn'.1 hf⟩, ?_, ?_, ?_, hn'.2⟩
  · cases xs with
    | nil => simpa [listEmpty] using hseg.1
    | cons x xs =>
      have : x ≠ hd := by rintro rfl; exact hn'.1 (by simp)
      simp [listEmpty, hseg.1, this]
  · cases xs with
    | nil => simp [listIsSingular, listEmpty, hseg.1]
    | cons x xs =>
      have hx : x ≠ hd := by rintro rfl; exact hn'.1 (by simp)
      have hp := seg_prev_mem hseg.2.2
      simp only [listIsSingular, listEmpty, hseg.1, beq_iff_eq, Bool.and_eq_true, Bool.not_eq_true', beq_eq_false_iff_ne,
        ne_eq, hx, not_false_eq_true, true_and, List.length_cons, Nat.add_eq_right, List.length_eq_zero_iff]
      constructor
      · intro e
        cases xs with
        | nil => rfl
        | cons y ys =>
          have := seg_prev_mem hseg.2.2.2.2
          rw [← e] at this
          exact absurd this (List.nodup_cons.mp hn'.2).1
      · rintro rfl
        exact hseg.2.2.2.symm
  · intro x hx
    obtain ⟨l1, l2, rfl⟩ := List.append_of_mem hx
    obtain ⟨_, s2⟩ := (seg_append h' l1 l2 x hd hd).mp hseg
    cases l2 with
    | nil => simp [listIsLast, s2.1]
    | cons y l2 =>
      have hy : y ≠ hd := by rintro rfl; exact hn'.1 (by simp)
      simp only [listIsLast, s2.1, beq_iff_eq, hy, false_iff]
      rw [List.getLast?_append, List.getLast?_cons_cons]
      intro hc
      have hm : x ∈ y :: l2 := by
        cases hg : (y :: l2).getLast? with
        | none => simp at hg
        | some z =>
          rw [hg, Option.some_or, Option.some.injEq] at hc
          subst hc
          exact List.mem_of_getLast? hg
      have := hn'.2
      rw [List.nodup_append, List.nodup_cons] at this
      exact this.2.1.1 hm

theorem walkSafe_seg {pick : Nat → Bool} {junk : Nat → Nat × Nat} {hd : Nat} : ∀ (xs done : List Nat) (h : Links)
    (fuel pos n : Nat), Ring h hd (done ++ xs) → pos = (xs ++ [hd]).head (by simp) → n = h.next pos →
    xs.length ≤ fuel →
    ∃ h', listWalkSafe pick junk hd fuel h pos n = some (xs, h') ∧ Ring h' hd (done ++ xs.filter fun x => !pick x) ∧
      ∀ y, y ∉ hd :: (done ++ xs) → h'.next y = h.next y ∧ h'.prev y = h.prev y := by
  intro xs
  induction xs with
  | nil =>
    intro done h fuel pos n hr hp _ _
    simp at hp
    subst hp
    refine ⟨h, ?_, by simpa using hr, fun _ _ => ⟨rfl, rfl⟩⟩
    unfold listWalkSafe
    simp
  | cons x xs ih =>
    intro done h fuel pos n hr hp hn hf
    simp at hp
    subst hp
    have hnd := hr.2
    simp only [List.nodup_cons, List.nodup_append, List.mem_append, List.mem_cons, not_or] at hnd
    obtain ⟨⟨m1, m2, m3⟩, m4, ⟨m5, m6⟩, m7⟩ := hnd
    cases fuel with
    | zero => simp at hf
    | succ fuel =>
      obtain ⟨s1, s2⟩ := (seg_append h done xs pos hd hd).mp hr.1
      have hp := seg_prev_mem s1
      have hq := seg_next_mem s2
      have hnx : h.next pos = (xs ++ [hd]).head (by simp) := by
        cases xs with
        | nil => simp [s2.1]
        | cons y ys => simp [s2.1]
      have px : pos ≠ hd := Ne.symm m2
      rw [show listWalkSafe pick junk hd (fuel + 1) h pos n =
        (listWalkSafe pick junk hd fuel (if pick pos then listPoison (listDel h pos) pos (junk pos) else h) n
          ((if pick pos then listPoison (listDel h pos) pos (junk pos) else h).next n)).map
            fun r => (pos :: r.1, r.2) by
          rw [listWalkSafe, if_neg px]]
      cases hpick : pick pos with
      | false =>
        simp only [Bool.false_eq_true, if_false]
        obtain ⟨h', e1, e2, e3⟩ := ih (done ++ [pos]) h fuel n (h.next n) (by simpa using hr) (by rw [hn]; exact hnx) rfl
          (by simpa using hf)
        refine ⟨h', by simp [e1], by simpa [hpick] using e2, fun y hy => e3 y ?_⟩
        simpa using hy
      | true =>
        simp only [if_true]
        have hr' : Ring (listPoison (listDel h pos) pos (junk pos)) hd (done ++ xs) := by
          refine ring_frame (ring_del hr) fun y hy => ?_
          have : y ≠ pos := by
            rintro rfl
            simp only [List.mem_cons, List.mem_append] at hy
            rcases hy with q | q | q
            · exact px q
            · exact m7 y q y (Or.inl rfl) rfl
            · exact m5 q
          simp [listPoison, Links.setNext, Links.setPrev, this]
        obtain ⟨h', e1, e2, e3⟩ := ih done _ fuel n ((listPoison (listDel h pos) pos (junk pos)).next n) hr'
          (by rw [hn]; exact hnx) rfl (by simpa using hf)
        refine ⟨h', by simp [e1], by simpa [hpick] using e2, fun y hy => ?_⟩
        have hy1 : y ≠ pos := by rintro rfl; simp at hy
        have hy2 : y ∉ hd :: (done ++ xs) := by simp at hy ⊢; tauto
        have hy3 : y ≠ h.prev pos := by rintro rfl; simp at hp hy; tauto
        have hy4 : y ≠ h.next pos := by rintro rfl; simp at hq hy; tauto
        obtain ⟨f1, f2⟩ := e3 y hy2
        rw [f1, f2]
        simp [listPoison, listDel, listDelBetween, Links.setNext, Links.setPrev, hy1, hy3, hy4]

/-- C39 for loops that delete: `list_for_each_entry_safe` over a list of a legal history, whose body deletes and frees
the entries chosen by `pick`, visits every entry once in order, although the links of the freed entries become
arbitrary; afterwards the list has exactly the other entries, in order, and no other list is changed. -/
theorem C39_safe_loop (ops : List ListOp) (h : Links) (hl : ListsLegal (fun _ => none) ops) (hd : Nat) (xs : List Nat)
    (hs : ops.foldl ListOp.spec (fun _ => none) hd = some xs) (pick : Nat → Bool) (junk : Nat → Nat × Nat)
    (fuel : Nat) (hf : xs.length ≤ fuel) :
    ∃ h', listForEachSafe pick junk (ops.foldl ListOp.run h) hd fuel = some (xs, h') ∧
      (∀ fuel, xs.length ≤ fuel → listForEach h' hd fuel = some (xs.filter fun x => !pick x) ∧
        listForEachPrev h' hd fuel = some (xs.filter fun x => !pick x).reverse) ∧
      ∀ hd' ys fuel, hd' ≠ hd → ops.foldl ListOp.spec (fun _ => none) hd' = some ys → ys.length ≤ fuel →
        listForEach h' hd' fuel = some ys ∧ listForEachPrev h' hd' fuel = some ys.reverse := by
  have hr := rep_run ops h (fun _ => none) ⟨by simp, by simp⟩ hl
  have hring := hr.ring hd xs hs
  obtain ⟨h', e1, e2, e3⟩ := walkSafe_seg (pick := pick) (junk := junk) xs [] _ fuel _ _ (by simpa using hring)
    (by cases xs with
        | nil => simpa using hring.1.1
        | cons x xs => simpa using hring.1.1) rfl hf
  simp only [List.nil_append] at e2 e3
  have done : ∀ hd ys fuel, Ring h' hd ys → ys.length ≤ fuel →
      listForEach h' hd fuel = some ys ∧ listForEachPrev h' hd fuel = some ys.reverse := by
    intro hd ys fuel hr hf
    have := (List.nodup_cons.mp hr.2).1
    exact ⟨walk_seg ys hd fuel hr.1 this hf, walkPrev_seg _ ys hd fuel rfl hr.1 this hf⟩
  refine ⟨h', e1, fun fuel hf => done hd _ fuel e2 (Nat.le_trans (List.length_filter_le ..) hf), ?_⟩
  intro hd' ys fuel hne hs' hf
  refine done hd' ys fuel (ring_frame (hr.ring hd' ys hs') fun y hy => ?_) hf
  exact e3 y (hr.disj hd' hd ys xs hne hs' hs y hy)

/-- `__list_cut_position` moves the entries up to `entry` to the list `l`. -/
theorem C39_cut (h : Links) (l hd entry : Nat) (xs ys : List Nat) (hr : Ring h hd (xs ++ entry :: ys))
    (hl : l ∉ hd :: (xs ++ entry :: ys)) :
    Ring (listCut h l hd entry) l (xs ++ [entry]) ∧ Ring (listCut h l hd entry) hd ys := by
  obtain ⟨hs, hn⟩ := hr
  have hfull := seg_next_mem hs
  obtain ⟨s1, s2⟩ := (seg_append h xs ys entry hd hd).mp hs
  have hq := seg_next_mem s2
  have hf := seg_next_mem s1
  simp only [List.nodup_cons, List.nodup_append, List.mem_append, List.mem_cons, not_or] at hn hl
  obtain ⟨⟨m1, m2, m3⟩, m4, ⟨m5, m6⟩, m7⟩ := hn
  obtain ⟨w1, w2, w3, w4⟩ := hl
  have lf : l ≠ h.next hd := by rintro e; rw [← e] at hf; simp at hf; tauto
  have lq : l ≠ h.next entry := by rintro e; rw [← e] at hq; simp at hq; tauto
  have fq : h.next hd ≠ h.next entry := by
    intro e
    rw [e] at hf
    simp only [List.mem_append, List.mem_singleton] at hf hq
    rcases hf with q | q <;> rcases hq with r | r
    · exact m7 _ q _ (Or.inr r) rfl
    · rw [r] at q; exact m1 q
    · rw [q] at r; exact m5 r
    · exact m2 (r.symm.trans q)
  have hnext : ∀ y, (listCut h l hd entry).next y =
      if y = hd then h.next entry else if y = entry then l else if y = l then h.next hd else h.next y := by
    intro y
    simp [listCut, Links.setNext, Links.setPrev]
  have hprev : ∀ y, (listCut h l hd entry).prev y =
      if y = h.next entry then hd else if y = l then entry else if y = h.next hd then l else h.prev y := by
    intro y
    simp [listCut, Links.setNext, Links.setPrev]
  have n1 : (xs ++ [entry]).Nodup := by
    rw [List.nodup_append]
    refine ⟨m4, by simp, fun a ha b hb => ?_⟩
    simp at hb
    subst hb
    exact m7 a ha _ (Or.inl rfl)
  refine ⟨⟨?_, ?_⟩, ?_, ?_⟩
  · rw [seg_append]
    refine ⟨seg_rehead s1 n1 ?_ ?_ ?_ ?_, ?_, ?_⟩
    · rw [hnext]; simp [w1, w3]
    · rw [hprev]; simp [fq, Ne.symm lf]
    · intro y hy hy2
      have e1 : y ≠ h.next entry := by
        rintro rfl
        simp only [List.mem_append, List.mem_singleton] at hy hq
        rcases hy with q | q <;> rcases hq with r | r
        · exact m7 _ q _ (Or.inr r) rfl
        · rw [r] at q; exact m1 q
        · rw [q] at r; exact m5 r
        · exact m2 (r.symm.trans q)
      have e2 : y ≠ l := by rintro rfl; simp at hy; tauto
      rw [hprev]; simp [e1, e2, hy2]
    · intro y hy
      have e1 : y ≠ hd := by rintro rfl; exact m1 hy
      have e2 : y ≠ entry := m7 y hy _ (Or.inl rfl)
      have e3 : y ≠ l := by rintro rfl; exact w2 hy
      rw [hnext]; simp [e1, e2, e3]
    · rw [hnext]; simp [Ne.symm m2]
    · rw [hprev]; simp [lq]
  · rw [List.nodup_cons]
    refine ⟨?_, n1⟩
    simp
    tauto
  · refine seg_rehead s2 (nodup_rot (List.nodup_cons.mpr ⟨m3, m6⟩)) ?_ ?_ ?_ ?_
    · rw [hnext]; simp
    · rw [hprev]; simp
    · intro y hy hy2
      have e2 : y ≠ l := by rintro rfl; simp at hy; tauto
      have e3 : y ≠ h.next hd := by
        rintro rfl
        simp only [List.mem_append, List.mem_singleton] at hy hf
        rcases hf with q | q <;> rcases hy with r | r
        · exact m7 _ q _ (Or.inr r) rfl
        · rw [r] at q; exact m1 q
        · rw [q] at r; exact m5 r
        · exact m2 (r.symm.trans q)
      rw [hprev]; simp [e2, e3, hy2]
    · intro y hy
      have e1 : y ≠ hd := by rintro rfl; exact m3 hy
      have e2 : y ≠ entry := by rintro rfl; exact m5 hy
      have e3 : y ≠ l := by rintro rfl; exact w4 hy
      rw [hnext]; simp [e1, e2, e3]
  · exact List.nodup_cons.mpr ⟨m3, m6⟩

/-- Example: two lists, entries moved, replaced, deleted, and one list spliced into the other. -/
def exListOps : List ListOp :=
  [.init 100, .init 200, .add 1 100, .add 2 100, .addHead 3 100, .add 4 200, .add 5 200, .del 2, .replace 3 7,
   .move 1 200, .rotate 200, .add 2 100]

theorem exLists_legal : ListsLegal (fun _ => none) exListOps := by
  have used : ∀ (s : Lists) (a : Nat) (l : List Nat), (∀ hd, hd ∉ l → s hd = none) →
      (∀ hd ∈ l, ∀ xs, s hd = some xs → a ∉ hd :: xs) → ¬ s.Used a := by
    rintro s a l h1 h2 ⟨hd, xs, hs, ha⟩
    by_cases hm : hd ∈ l
    · exact h2 hd hm xs hs ha
    · rw [h1 hd hm] at hs; cases hs
  simp only [exListOps, ListsLegal, ListOp.Legal]
  refine ⟨?_, ?_, ⟨?_, rfl⟩, ⟨?_, rfl⟩, ⟨?_, rfl⟩, ⟨?_, rfl⟩, ⟨?_, rfl⟩, ⟨100, _, rfl, by decide⟩,
    ⟨?_, 100, _, rfl, by decide⟩, ⟨rfl, 100, _, rfl, by decide⟩, rfl, ⟨?_, rfl⟩, trivial⟩ <;>
  · refine used _ _ [100, 200] ?_ ?_
    · intro hd hm
      simp only [List.mem_cons, List.not_mem_nil, or_false, not_or] at hm
      simp [ListOp.spec, Lists.upd, hm]
    · intro hd hm xs hs
      simp only [List.mem_cons, List.not_mem_nil, or_false] at hm
      rcases hm with rfl | rfl <;> simp [ListOp.spec, Lists.upd] at hs <;> first | cases hs; done | (subst hs; decide)

example : exListOps.foldl ListOp.spec (fun _ => none) 100 = some [7, 2] ∧
    exListOps.foldl ListOp.spec (fun _ => none) 200 = some [5, 1, 4] := by decide

end Verif
