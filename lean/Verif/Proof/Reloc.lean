import Verif.Model.Reloc
import Verif.Spec.Reloc
import Verif.Proof.Bits
import Verif.Proof.Jump
/- Helper lemmas for relocations (C25-C28). -/
namespace Verif
open Cpu

theorem pokeAt_length (img : List Byte) (off : Nat) (bs : List Byte) (h : off + bs.length ≤ img.length) :
    (pokeAt img off bs).length = img.length := by
  simp only [pokeAt, List.length_append, List.length_take, List.length_drop]; omega

theorem pokeAt_nil (img : List Byte) (off : Nat) : pokeAt img off [] = img := by
  simp [pokeAt]

theorem pokeAt_getElem?_out (img : List Byte) (off : Nat) (bs : List Byte) (k : Nat)
    (h : off + bs.length ≤ img.length) (hk : k < off ∨ off + bs.length ≤ k) :
    (pokeAt img off bs)[k]? = img[k]? := by
  unfold pokeAt
  rcases hk with hk | hk
  · rw [List.append_assoc, List.getElem?_append_left (by simp; omega), List.getElem?_take, if_pos hk]
  · rw [List.getElem?_append_right (by simp; omega), List.getElem?_drop]
    simp only [List.length_append, List.length_take]
    congr 1
    omega

theorem bytesAt_congr (a b : List Byte) (off n : Nat)
    (h : ∀ k, off ≤ k → k < off + n → a[k]? = b[k]?) : bytesAt a off n = bytesAt b off n := by
  unfold bytesAt
  apply List.ext_getElem?
  intro k
  rw [List.getElem?_take, List.getElem?_take]
  split
  · rw [List.getElem?_drop, List.getElem?_drop]
    exact h _ (by omega) (by omega)
  · rfl

theorem bytesAt_pokeAt (img : List Byte) (off : Nat) (bs : List Byte) (h : off + bs.length ≤ img.length) :
    bytesAt (pokeAt img off bs) off bs.length = bs := by
  unfold bytesAt pokeAt
  have h1 : (img.take off).length = off := by simp; omega
  rw [List.append_assoc, List.drop_append_of_le_length (by omega), List.drop_of_length_le (by omega),
    List.nil_append, List.take_append_of_le_length (by omega), List.take_of_length_le (by omega)]

/-- A relocation handler that looks at and changes at most `w r` bytes at the place. -/
structure LocalAct {T : Type} (act : Rela T → Sym → List Byte → Act) (w : Rela T → Nat) : Prop where
  reads : ∀ r s d d', d.take (w r) = d'.take (w r) → act r s d = act r s d'
  writes : ∀ r s d bs, act r s d = .write bs → bs.length ≤ w r

/-- The default symbol for an index outside the table. -/
abbrev symAt (syms : List Sym) (i : Nat) : Sym := syms.getD i ⟨0, 0, 0, .notype, .loc⟩

/-- If a section is relocated successfully, its fields lie inside it and do not overlap, then each
relocation acted on the original bytes of its field, its result is there at the end, and nothing else
changed. -/
theorem relocLoop_spec {T : Type} (act : Rela T → Sym → List Byte → Act) (w : Rela T → Nat)
    (hl : LocalAct act w) (sec : RelSec) (syms : List Sym) (img0 : List Byte)
    (hsz : sec.fileOff + sec.size ≤ img0.length) :
    ∀ (rs : List (Rela T)) (img : List Byte), img.length = img0.length →
      (∀ r ∈ rs, r.offset + w r ≤ sec.size) →
      rs.Pairwise (fun a b => a.offset + w a ≤ b.offset ∨ b.offset + w b ≤ a.offset) →
      (∀ r ∈ rs, ∀ d, act r (symAt syms r.sym) d ≠ .stop) →
      (relocLoop act sec syms rs img).2 = true →
      (relocLoop act sec syms rs img).1.length = img0.length ∧
      (∀ r ∈ rs, r.offset < sec.size ∧
        ∃ bs, act r (symAt syms r.sym) (img.drop (sec.fileOff + r.offset)) = .write bs ∧
          bytesAt (relocLoop act sec syms rs img).1 (sec.fileOff + r.offset) bs.length = bs) ∧
      (∀ k, (∀ r ∈ rs, k < sec.fileOff + r.offset ∨ sec.fileOff + r.offset + w r ≤ k) →
        (relocLoop act sec syms rs img).1[k]? = img[k]?) := by
  intro rs
  induction rs with
  | nil => intro img himg _ _ _ _; exact ⟨himg, by simp, by simp [relocLoop]⟩
  | cons r rs ih =>
    intro img himg hin hdis hns hok
    simp only [relocLoop] at hok ⊢
    by_cases hge : r.offset ≥ sec.size
    · rw [if_pos hge] at hok; simp at hok
    rw [if_neg hge] at hok ⊢
    have hr := hin r (by simp)
    have hns' := hns r (by simp) (img.drop (sec.fileOff + r.offset))
    cases hact : act r (syms.getD r.sym ⟨0, 0, 0, .notype, .loc⟩) (img.drop (sec.fileOff + r.offset)) with
    | fail => rw [hact] at hok; simp at hok
    | stop => exact absurd hact hns'
    | write bs =>
      rw [hact] at hok
      simp only [] at hok ⊢
      have hlen := hl.writes _ _ _ _ hact
      have hfit : sec.fileOff + r.offset + bs.length ≤ img.length := by omega
      have hd := List.pairwise_cons.1 hdis
      obtain ⟨h1, h2, h3⟩ := ih (pokeAt img (sec.fileOff + r.offset) bs) (by rw [pokeAt_length _ _ _ hfit]; exact himg)
        (fun x hx => hin x (by simp [hx])) hd.2 (fun x hx => hns x (by simp [hx])) hok
      refine ⟨h1, ?_, ?_⟩
      · intro x hx
        rcases List.mem_cons.1 hx with rfl | hx
        · refine ⟨by omega, bs, hact, ?_⟩
          have := bytesAt_pokeAt img (sec.fileOff + x.offset) bs hfit
          rw [← this]
          rw [this]
          conv_rhs => rw [← this]
          apply bytesAt_congr
          intro k hk1 hk2
          apply h3
          intro y hy
          have := hd.1 y hy
          omega
        · obtain ⟨hlt, bs', hb1, hb2⟩ := h2 x hx
          refine ⟨hlt, bs', ?_, hb2⟩
          rw [← hb1]
          apply hl.reads
          have := bytesAt_congr (pokeAt img (sec.fileOff + r.offset) bs) img (sec.fileOff + x.offset) (w x) (by
            intro k hk1 hk2
            apply pokeAt_getElem?_out _ _ _ _ hfit
            have := hd.1 x hx
            omega)
          exact this.symm
      · intro k hk
        rw [h3 k (fun x hx => hk x (by simp [hx]))]
        apply pokeAt_getElem?_out _ _ _ _ hfit
        have := hk r (by simp)
        omega

/-- A section whose relocations all fit is relocated. -/
theorem relocLoop_runs {T : Type} (act : Rela T → Sym → List Byte → Act) (w : Rela T → Nat)
    (hl : LocalAct act w) (sec : RelSec) (syms : List Sym) (img0 : List Byte)
    (hsz : sec.fileOff + sec.size ≤ img0.length) :
    ∀ (rs : List (Rela T)) (img : List Byte), img.length = img0.length →
      (∀ r ∈ rs, r.offset + w r ≤ sec.size) →
      rs.Pairwise (fun a b => a.offset + w a ≤ b.offset ∨ b.offset + w b ≤ a.offset) →
      (∀ r ∈ rs, r.offset < sec.size ∧ act r (symAt syms r.sym) (img.drop (sec.fileOff + r.offset)) ≠ .fail) →
      (relocLoop act sec syms rs img).2 = true := by
  intro rs
  induction rs with
  | nil => intro img _ _ _ _; rfl
  | cons r rs ih =>
    intro img himg hin hdis hfit
    simp only [relocLoop]
    obtain ⟨f1, f2⟩ := hfit r (by simp)
    rw [if_neg (by omega)]
    have hr := hin r (by simp)
    have hd := List.pairwise_cons.1 hdis
    cases hact : act r (syms.getD r.sym ⟨0, 0, 0, .notype, .loc⟩) (img.drop (sec.fileOff + r.offset)) with
    | fail => exact absurd hact f2
    | stop => rfl
    | write bs =>
      dsimp only
      have hlen := hl.writes _ _ _ _ hact
      have hfb : sec.fileOff + r.offset + bs.length ≤ img.length := by omega
      refine ih _ (by rw [pokeAt_length _ _ _ hfb]; exact himg) (fun x hx => hin x (by simp [hx])) hd.2 ?_
      intro x hx
      obtain ⟨g1, g2⟩ := hfit x (by simp [hx])
      refine ⟨g1, ?_⟩
      rw [hl.reads _ _ _ (img.drop (sec.fileOff + x.offset))]
      · exact g2
      · exact bytesAt_congr (pokeAt img (sec.fileOff + r.offset) bs) img (sec.fileOff + x.offset) (w x) (by
          intro k hk1 hk2
          apply pokeAt_getElem?_out _ _ _ _ hfb
          have := hd.1 x hx
          have := hin x (by simp [hx])
          omega)

theorem field32_le32 (w : BitVec 32) : field32 (le32 w) = some w := by
  simp only [le32, field32, fetch32_le32]

theorem field64_le64 (w : BitVec 64) : field64 (le64 w) = some w := by
  simp only [le64, le32, List.cons_append, List.nil_append, field64, fetch32_le32]
  congr 1
  apply BitVec.eq_of_getLsbD_eq
  intro i hi
  simp only [BitVec.getLsbD_or, BitVec.getLsbD_setWidth, BitVec.getLsbD_extractLsb', BitVec.getLsbD_shiftLeft]
  by_cases h : i < 32
  · simp [h, hi]
  · have h3 : i - 32 < 32 := by omega
    have h4 : 32 + (i - 32) = i := by omega
    have h5 : i - 32 < 64 := by omega
    simp [h, hi, h3, h4, h5]

theorem le64_length (w : BitVec 64) : (le64 w).length = 8 := rfl

end Verif
