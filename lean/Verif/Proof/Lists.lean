import Verif.Spec.Lists
import Mathlib.Tactic.Tauto
/-
Segments of linked lists.
-/
namespace Verif

/-- From `a` over the entries `l` to `b`, in both directions. -/
def Seg (h : Links) : Nat → List Nat → Nat → Prop
  | a, [], b => h.next a = b ∧ h.prev b = a
  | a, x :: l, b => h.next a = x ∧ h.prev x = a ∧ Seg h x l b

theorem seg_append (h : Links) (l1 l2 : List Nat) (x b : Nat) : ∀ a,
    Seg h a (l1 ++ x :: l2) b ↔ Seg h a l1 x ∧ Seg h x l2 b := by
  induction l1 with
  | nil => intro a; simp [Seg, and_assoc]
  | cons y l1 ih => intro a; simp [Seg, ih, and_assoc]

theorem seg_frame {h h' : Links} {b : Nat} : ∀ {l : List Nat} {a : Nat}, Seg h a l b →
    (∀ y ∈ a :: l, h'.next y = h.next y) → (∀ y ∈ l ++ [b], h'.prev y = h.prev y) → Seg h' a l b := by
  intro l
  induction l with
  | nil =>
    intro a hs h1 h2
    exact ⟨by rw [h1 a (by simp)]; exact hs.1, by rw [h2 b (by simp)]; exact hs.2⟩
  | cons x l ih =>
    intro a hs h1 h2
    obtain ⟨s1, s2, s3⟩ := hs
    refine ⟨by rw [h1 a (by simp)]; exact s1, by rw [h2 x (by simp)]; exact s2, ih s3 ?_ ?_⟩
    · intro y hy; exact h1 y (List.mem_cons_of_mem _ hy)
    · intro y hy; exact h2 y (by simp at hy ⊢; exact Or.inr hy)

theorem seg_prev_mem {h : Links} {b : Nat} : ∀ {l : List Nat} {a : Nat}, Seg h a l b → h.prev b ∈ a :: l := by
  intro l
  induction l with
  | nil => intro a hs; simp [hs.2]
  | cons x l ih => intro a hs; exact List.mem_cons_of_mem _ (ih hs.2.2)

theorem seg_next_mem {h : Links} {b : Nat} {l : List Nat} {a : Nat} (hs : Seg h a l b) : h.next a ∈ l ++ [b] := by
  cases l with
  | nil => simp [hs.1]
  | cons x l => simp [hs.1]

/-- The segment gets another end. -/
theorem seg_retarget {h h' : Links} {b c : Nat} : ∀ {l : List Nat} {a : Nat}, Seg h a l b → (a :: l).Nodup →
    h'.next (h.prev b) = c → h'.prev c = h.prev b →
    (∀ y ∈ a :: l, y ≠ h.prev b → h'.next y = h.next y) → (∀ y ∈ l, h'.prev y = h.prev y) → Seg h' a l c := by
  intro l
  induction l with
  | nil =>
    intro a hs _ h1 h2 _ _
    rw [hs.2] at h1 h2
    exact ⟨h1, h2⟩
  | cons x l ih =>
    intro a hs hn h1 h2 h3 h4
    obtain ⟨s1, s2, s3⟩ := hs
    have hp := seg_prev_mem s3
    rw [List.nodup_cons] at hn
    have hne : a ≠ h.prev b := by rintro e; rw [e] at hn; exact hn.1 hp
    refine ⟨by rw [h3 a (by simp) hne]; exact s1, by rw [h4 x (by simp)]; exact s2, ih s3 hn.2 h1 h2 ?_ ?_⟩
    · intro y hy; exact h3 y (List.mem_cons_of_mem _ hy)
    · intro y hy; exact h4 y (List.mem_cons_of_mem _ hy)

/-- The segment gets another start. -/
theorem seg_rehead {h h' : Links} {a b c : Nat} {l : List Nat} (hs : Seg h a l b) (hn : (l ++ [b]).Nodup)
    (h1 : h'.next c = h.next a) (h2 : h'.prev (h.next a) = c)
    (h3 : ∀ y ∈ l ++ [b], y ≠ h.next a → h'.prev y = h.prev y) (h4 : ∀ y ∈ l, h'.next y = h.next y) :
    Seg h' c l b := by
  cases l with
  | nil =>
    rw [hs.1] at h1 h2
    exact ⟨h1, h2⟩
  | cons x l =>
    obtain ⟨s1, s2, s3⟩ := hs
    rw [s1] at h1 h2 h3
    refine ⟨h1, h2, seg_frame s3 h4 ?_⟩
    intro y hy
    rw [List.cons_append, List.nodup_cons] at hn
    exact h3 y (by simp at hy ⊢; exact Or.inr hy) (by rintro rfl; exact hn.1 hy)

/-! ### One list -/

/-- The list with head `hd` and entries `xs`. -/
def Ring (h : Links) (hd : Nat) (xs : List Nat) : Prop := Seg h hd xs hd ∧ (hd :: xs).Nodup

theorem ring_frame {h h' : Links} {hd : Nat} {xs : List Nat} (hr : Ring h hd xs)
    (h1 : ∀ y ∈ hd :: xs, h'.next y = h.next y ∧ h'.prev y = h.prev y) : Ring h' hd xs := by
  refine ⟨seg_frame hr.1 (fun y hy => (h1 y hy).1) (fun y hy => (h1 y ?_).2), hr.2⟩
  simp at hy ⊢
  tauto

theorem nodup_rot {a : Nat} {l : List Nat} (h : (a :: l).Nodup) : (l ++ [a]).Nodup := by
  rw [List.nodup_append]
  rw [List.nodup_cons] at h
  refine ⟨h.2, by simp, ?_⟩
  intro x hx y hy
  simp at hy
  subst hy
  rintro rfl
  exact h.1 hx

theorem ring_init (h : Links) (hd : Nat) : Ring (listInit h hd) hd [] := by
  simp [Ring, Seg, listInit, Links.setNext, Links.setPrev]

theorem ring_add {h : Links} {hd new : Nat} {xs : List Nat} (hr : Ring h hd xs) (hnew : new ∉ hd :: xs) :
    Ring (listAdd h new hd) hd (xs ++ [new]) := by
  obtain ⟨hs, hn⟩ := hr
  have hp := seg_prev_mem hs
  have hne : new ≠ hd := by rintro rfl; simp at hnew
  have hnp : new ≠ h.prev hd := by rintro e; rw [e] at hnew; exact hnew hp
  refine ⟨?_, ?_⟩
  · rw [seg_append]
    refine ⟨seg_retarget hs hn ?_ ?_ ?_ ?_, ?_, ?_⟩
    · simp [listAdd, listAddBetween, Links.setNext, Links.setPrev]
    · simp [listAdd, listAddBetween, Links.setNext, Links.setPrev]
    · intro y hy hy2
      have : y ≠ new := by rintro rfl; exact hnew hy
      simp [listAdd, listAddBetween, Links.setNext, Links.setPrev, this, hy2]
    · intro y hy
      have : y ≠ new := by rintro rfl; exact hnew (List.mem_cons_of_mem _ hy)
      have h2 : y ≠ hd := by rintro rfl; exact (List.nodup_cons.mp hn).1 hy
      simp [listAdd, listAddBetween, Links.setNext, Links.setPrev, this, h2]
    · simp [listAdd, listAddBetween, Links.setNext, Links.setPrev, hnp]
    · simp [listAdd, listAddBetween, Links.setNext, Links.setPrev, Ne.symm hne]
  · rw [← List.cons_append, List.nodup_append]
    refine ⟨hn, by simp, ?_⟩
    intro a ha b hb
    simp at hb
    subst hb
    rintro rfl
    exact hnew ha

theorem ring_addHead {h : Links} {hd new : Nat} {xs : List Nat} (hr : Ring h hd xs) (hnew : new ∉ hd :: xs) :
    Ring (listAddHead h new hd) hd (new :: xs) := by
  obtain ⟨hs, hn⟩ := hr
  have hp := seg_next_mem hs
  have hne : new ≠ hd := by rintro rfl; simp at hnew
  have hnp : new ≠ h.next hd := by rintro e; rw [← e] at hp; simp at hp hnew; tauto
  refine ⟨?_, ?_⟩
  · refine ⟨?_, ?_, seg_rehead hs (nodup_rot hn) ?_ ?_ ?_ ?_⟩
    · simp [listAddHead, listAddBetween, Links.setNext, Links.setPrev]
    · simp [listAddHead, listAddBetween, Links.setNext, Links.setPrev]
    · simp [listAddHead, listAddBetween, Links.setNext, Links.setPrev, hne]
    · simp [listAddHead, listAddBetween, Links.setNext, Links.setPrev, Ne.symm hnp]
    · intro y hy hy2
      have : y ≠ new := by rintro rfl; simp at hy hnew; tauto
      simp [listAddHead, listAddBetween, Links.setNext, Links.setPrev, this, hy2]
    · intro y hy
      have : y ≠ new := by rintro rfl; exact hnew (List.mem_cons_of_mem _ hy)
      have h2 : y ≠ hd := by rintro rfl; exact (List.nodup_cons.mp hn).1 hy
      simp [listAddHead, listAddBetween, Links.setNext, Links.setPrev, this, h2]
  · simp only [List.nodup_cons, List.mem_cons, not_or] at hn hnew ⊢
    exact ⟨⟨Ne.symm hnew.1, hn.1⟩, hnew.2, hn.2⟩

theorem ring_del {h : Links} {hd e : Nat} {l1 l2 : List Nat} (hr : Ring h hd (l1 ++ e :: l2)) :
    Ring (listDel h e) hd (l1 ++ l2) := by
  obtain ⟨hs, hn⟩ := hr
  rw [seg_append] at hs
  obtain ⟨s1, s2⟩ := hs
  have hp := seg_prev_mem s1
  have hn' : (hd :: (l1 ++ l2)).Nodup := by
    refine hn.sublist ?_
    exact List.Sublist.cons_cons _ (List.Sublist.append_left (List.sublist_cons_self ..) _)
  simp only [List.nodup_cons, List.nodup_append, List.mem_append, List.mem_cons, not_or] at hn
  obtain ⟨⟨m1, m2, m3⟩, m4, ⟨m5, m6⟩, m7⟩ := hn
  have hn1 : (hd :: l1).Nodup := List.nodup_cons.mpr ⟨m1, m4⟩
  refine ⟨?_, hn'⟩
  cases l2 with
  | nil =>
    obtain ⟨e1, e2⟩ := s2
    rw [List.append_nil]
    refine seg_retarget s1 hn1 ?_ ?_ ?_ ?_
    · simp [listDel, listDelBetween, Links.setNext, Links.setPrev, e1]
    · simp [listDel, listDelBetween, Links.setNext, Links.setPrev, e1]
    · intro y _ hy; simp [listDel, listDelBetween, Links.setNext, Links.setPrev, hy]
    · intro y hy
      have : y ≠ hd := by rintro rfl; exact m1 hy
      simp [listDel, listDelBetween, Links.setNext, Links.setPrev, e1, this]
  | cons x l2 =>
    obtain ⟨e1, e2, e3⟩ := s2
    rw [seg_append]
    refine ⟨seg_retarget s1 hn1 ?_ ?_ ?_ ?_, seg_frame e3 ?_ ?_⟩
    · simp [listDel, listDelBetween, Links.setNext, Links.setPrev, e1]
    · simp [listDel, listDelBetween, Links.setNext, Links.setPrev, e1]
    · intro y _ hy; simp [listDel, listDelBetween, Links.setNext, Links.setPrev, hy]
    · intro y hy
      have : y ≠ x := m7 y hy x (by simp)
      simp [listDel, listDelBetween, Links.setNext, Links.setPrev, e1, this]
    · intro y hy
      have : y ≠ h.prev e := by
        rintro rfl
        rcases List.mem_cons.mp hp with q | q
        · rw [q] at hy; exact m3 hy
        · exact m7 _ q _ (Or.inr hy) rfl
      simp [listDel, listDelBetween, Links.setNext, Links.setPrev, this]
    · intro y hy
      have : y ≠ x := by
        rintro rfl
        rw [List.mem_append, List.mem_singleton] at hy
        rcases hy with q | q
        · exact (List.nodup_cons.mp m6).1 q
        · exact m3 (by rw [q]; simp)
      simp [listDel, listDelBetween, Links.setNext, Links.setPrev, e1, this]

theorem ring_replace {h : Links} {hd old new : Nat} {l1 l2 : List Nat} (hr : Ring h hd (l1 ++ old :: l2))
    (hnew : new ∉ hd :: (l1 ++ old :: l2)) : Ring (listReplace h old new) hd (l1 ++ new :: l2) := by
  obtain ⟨hs, hn⟩ := hr
  rw [seg_append] at hs
  obtain ⟨s1, s2⟩ := hs
  have hp := seg_prev_mem s1
  have hq := seg_next_mem s2
  simp only [List.nodup_cons, List.nodup_append, List.mem_append, List.mem_cons, not_or] at hn hnew
  obtain ⟨⟨m1, m2, m3⟩, m4, ⟨m5, m6⟩, m7⟩ := hn
  obtain ⟨w1, w2, w3, w4⟩ := hnew
  have hn1 : (hd :: l1).Nodup := List.nodup_cons.mpr ⟨m1, m4⟩
  have hn2 : (l2 ++ [hd]).Nodup := nodup_rot (List.nodup_cons.mpr ⟨m3, m6⟩)
  have np : new ≠ h.prev old := by rintro e; rw [← e] at hp; simp at hp; tauto
  have nq : new ≠ h.next old := by rintro e; rw [← e] at hq; simp at hq; tauto
  have oq : old ≠ h.next old := by rintro e; rw [← e] at hq; simp at hq; tauto
  have hnext : ∀ y, (listReplace h old new).next y =
      if y = h.prev old then new else if y = new then h.next old else h.next y := by
    intro y
    simp [listReplace, Links.setNext, Links.setPrev, oq, Ne.symm oq]
  have hprev : ∀ y, (listReplace h old new).prev y =
      if y = new then h.prev old else if y = h.next old then new else h.prev y := by
    intro y
    simp [listReplace, Links.setNext, Links.setPrev, oq, Ne.symm oq]
  refine ⟨?_, ?_⟩
  · rw [seg_append]
    refine ⟨seg_retarget s1 hn1 ?_ ?_ ?_ ?_, seg_rehead s2 hn2 ?_ ?_ ?_ ?_⟩
    · rw [hnext]; simp
    · rw [hprev]; simp
    · intro y hy hy2
      have : y ≠ new := by rintro rfl; simp at hy; tauto
      rw [hnext]; simp [this, hy2]
    · intro y hy
      have h1 : y ≠ new := by rintro rfl; exact w2 hy
      have h2 : y ≠ h.next old := by
        rintro rfl
        rw [List.mem_append, List.mem_singleton] at hq
        rcases hq with q | q
        · exact m7 _ hy _ (Or.inr q) rfl
        · rw [q] at hy; exact m1 hy
      rw [hprev]; simp [h1, h2]
    · rw [hnext]; simp [np]
    · rw [hprev]; simp [Ne.symm nq]
    · intro y hy hy2
      have : y ≠ new := by rintro rfl; simp at hy; tauto
      rw [hprev]; simp [this, hy2]
    · intro y hy
      have h1 : y ≠ new := by rintro rfl; exact w4 hy
      have h2 : y ≠ h.prev old := by
        rintro rfl
        rcases List.mem_cons.mp hp with q | q
        · rw [q] at hy; exact m3 hy
        · exact m7 _ q _ (Or.inr hy) rfl
      rw [hnext]; simp [h1, h2]
  · simp only [List.nodup_cons, List.nodup_append, List.mem_append, List.mem_cons, not_or]
    refine ⟨⟨m1, Ne.symm w1, m3⟩, m4, ⟨w4, m6⟩, ?_⟩
    intro a ha b hb
    rcases hb with rfl | hb
    · rintro rfl; exact w2 ha
    · exact m7 a ha b (Or.inr hb)

theorem ring_splice {h : Links} {l hd x : Nat} {xs ys : List Nat} (h1 : Ring h l (x :: xs)) (h2 : Ring h hd ys)
    (hd12 : ∀ a ∈ l :: x :: xs, a ∉ hd :: ys) : Ring (listSplice h l hd) hd (x :: xs ++ ys) := by
  obtain ⟨⟨a1, a2, a3⟩, n1⟩ := h1
  obtain ⟨b1, n2⟩ := h2
  have hz := seg_prev_mem a3
  have hq := seg_next_mem b1
  have hxl : x ≠ l := by rintro rfl; simp at n1
  have hemp : listEmpty h l = false := by simp [listEmpty, a1, hxl]
  have e : listSplice h l hd = listSpliceBetween h l hd (h.next hd) := by simp [listSplice, hemp]
  have hzx : ∀ a ∈ x :: xs, a ∉ hd :: ys := fun a ha => hd12 a (List.mem_cons_of_mem _ ha)
  have hz2 := hzx _ hz
  have hq2 : h.next hd ∉ x :: xs := by
    intro hh
    refine hzx _ hh ?_
    simp at hq ⊢
    tauto
  have hdx : hd ∉ x :: xs := fun hh => hzx _ hh (by simp)
  have hzhd : h.prev l ≠ hd := by rintro e; rw [e] at hz2; simp at hz2
  have hqx : h.next hd ≠ x := by rintro e; rw [e] at hq2; simp at hq2
  have hnext : ∀ y, (listSplice h l hd).next y =
      if y = h.prev l then h.next hd else if y = hd then x else h.next y := by
    intro y
    rw [e]
    simp [listSpliceBetween, Links.setNext, Links.setPrev, a1]
  have hprev : ∀ y, (listSplice h l hd).prev y =
      if y = h.next hd then h.prev l else if y = x then hd else h.prev y := by
    intro y
    rw [e]
    simp [listSpliceBetween, Links.setNext, Links.setPrev, a1]
  have nx : (x :: xs).Nodup := (List.nodup_cons.mp n1).2
  refine ⟨⟨?_, ?_, ?_⟩, ?_⟩
  · rw [hnext]; simp [Ne.symm hzhd]
  · rw [hprev]; simp [Ne.symm hqx]
  · have key : Seg (listSplice h l hd) x xs (h.next hd) := by
      refine seg_retarget a3 nx ?_ ?_ ?_ ?_
      · rw [hnext]; simp
      · rw [hprev]; simp
      · intro y hy hy2
        have : y ≠ hd := by rintro rfl; exact hdx hy
        rw [hnext]; simp [hy2, this]
      · intro y hy
        have h1 : y ≠ h.next hd := by rintro rfl; exact hq2 (List.mem_cons_of_mem _ hy)
        have h2 : y ≠ x := by rintro rfl; exact (List.nodup_cons.mp nx).1 hy
        rw [hprev]; simp [h1, h2]
    cases ys with
    | nil => rw [b1.1] at key; simpa using key
    | cons y ys =>
      obtain ⟨c1, c2, c3⟩ := b1
      rw [c1] at key
      change Seg _ x (xs ++ y :: ys) hd
      rw [seg_append]
      refine ⟨key, seg_frame c3 ?_ ?_⟩
      · intro w hw
        have h1 : w ≠ h.prev l := by rintro rfl; exact hz2 (List.mem_cons_of_mem _ hw)
        have h2 : w ≠ hd := by rintro rfl; exact (List.nodup_cons.mp n2).1 hw
        rw [hnext]; simp [h1, h2]
      · intro w hw
        have h1 : w ≠ y := by
          rintro rfl
          have := nodup_rot n2
          rw [List.cons_append, List.nodup_cons] at this
          exact this.1 hw
        have h2 : w ≠ x := by
          rintro rfl
          refine hzx w (by simp) ?_
          simp at hw ⊢
          tauto
        rw [hprev, c1]; simp [h1, h2]
  · rw [List.nodup_cons, List.nodup_append, List.mem_append, not_or]
    rw [List.nodup_cons] at n2
    exact ⟨⟨hdx, n2.1⟩, nx, n2.2, fun a ha b hb e => hzx a ha (by rw [e]; exact List.mem_cons_of_mem _ hb)⟩

theorem ring_spliceTail {h : Links} {l hd x : Nat} {xs ys : List Nat} (h1 : Ring h l (x :: xs)) (h2 : Ring h hd ys)
    (hd12 : ∀ a ∈ l :: x :: xs, a ∉ hd :: ys) : Ring (listSpliceTail h l hd) hd (ys ++ x :: xs) := by
  obtain ⟨⟨a1, a2, a3⟩, n1⟩ := h1
  obtain ⟨b1, n2⟩ := h2
  have hz := seg_prev_mem a3
  have hp := seg_prev_mem b1
  have hxl : x ≠ l := by rintro rfl; simp at n1
  have hemp : listEmpty h l = false := by simp [listEmpty, a1, hxl]
  have e : listSpliceTail h l hd = listSpliceBetween h l (h.prev hd) hd := by simp [listSpliceTail, hemp]
  have hzx : ∀ a ∈ x :: xs, a ∉ hd :: ys := fun a ha => hd12 a (List.mem_cons_of_mem _ ha)
  have hz2 := hzx _ hz
  have hp2 : h.prev hd ∉ x :: xs := fun hh => hzx _ hh hp
  have hdx : hd ∉ x :: xs := fun hh => hzx _ hh (by simp)
  have hzp : h.prev hd ≠ h.prev l := by rintro e; rw [e] at hp; exact hz2 hp
  have hdx' : hd ≠ x := by rintro rfl; simp at hdx
  have hnext : ∀ y, (listSpliceTail h l hd).next y =
      if y = h.prev l then hd else if y = h.prev hd then x else h.next y := by
    intro y
    rw [e]
    simp [listSpliceBetween, Links.setNext, Links.setPrev, a1]
  have hprev : ∀ y, (listSpliceTail h l hd).prev y =
      if y = hd then h.prev l else if y = x then h.prev hd else h.prev y := by
    intro y
    rw [e]
    simp [listSpliceBetween, Links.setNext, Links.setPrev, a1]
  have nx : (x :: xs).Nodup := (List.nodup_cons.mp n1).2
  refine ⟨?_, ?_⟩
  · rw [seg_append]
    refine ⟨seg_retarget b1 n2 ?_ ?_ ?_ ?_, seg_retarget a3 nx ?_ ?_ ?_ ?_⟩
    · rw [hnext]; simp [hzp]
    · rw [hprev]; simp [Ne.symm hdx']
    · intro y hy hy2
      have : y ≠ h.prev l := by rintro rfl; exact hz2 hy
      rw [hnext]; simp [hy2, this]
    · intro y hy
      have h1 : y ≠ hd := by rintro rfl; exact (List.nodup_cons.mp n2).1 hy
      have h2 : y ≠ x := by rintro rfl; exact hzx y (by simp) (List.mem_cons_of_mem _ hy)
      rw [hprev]; simp [h1, h2]
    · rw [hnext]; simp
    · rw [hprev]; simp
    · intro y hy hy2
      have : y ≠ h.prev hd := by rintro rfl; exact hp2 hy
      rw [hnext]; simp [hy2, this]
    · intro y hy
      have h1 : y ≠ hd := by rintro rfl; exact hdx (List.mem_cons_of_mem _ hy)
      have h2 : y ≠ x := by rintro rfl; exact (List.nodup_cons.mp nx).1 hy
      rw [hprev]; simp [h1, h2]
  · rw [List.nodup_cons, List.nodup_append, List.mem_append, not_or]
    rw [List.nodup_cons] at n2
    exact ⟨⟨n2.1, hdx⟩, n2.2, nx, fun a ha b hb e => hzx b hb (by rw [← e]; exact List.mem_cons_of_mem _ ha)⟩

end Verif
