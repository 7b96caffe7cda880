import Verif.Proof.PatchPrep
import Verif.Proof.JumpTable
/-
When `kpatch_resolve` and `kpatch_relocate` succeed.
-/
namespace Verif

/-- Without library symbols no jump table is needed. -/
theorem resolveSyms_plain (a : Arch) (junk : Nat → BitVec 32) (resolve : CStr → BitVec 64)
    (secAddr : Nat → BitVec 64) (base : BitVec 64) :
    ∀ (ss : List PSym) (i : Nat) (t : Option JmpTable),
      (∀ s ∈ ss, s.sym.typ ≠ .ifunc ∧ s.sym.typ ≠ .other) → (∀ s ∈ ss, s.lib = false) →
      (resolveSyms a junk resolve secAddr base i ss t).isSome
  | [], _, _, _, _ => rfl
  | s :: ss, i, t, hty, hlib => by
    unfold resolveSyms
    have hs : ∃ s', symbolResolve a (junk i) resolve secAddr base s t = some (s', t) := by
      have h1 := hty s (by simp)
      have hl := hlib s (by simp)
      unfold symbolResolve
      cases hft : s.sym.typ <;> dsimp only
      case func | object =>
        have hnw : ¬ s.sym.wanted = true := by
          intro hw
          unfold PSym.lib at hl
          simp [hw, hft] at hl
        rw [if_neg hnw]
        exact ⟨_, rfl⟩
      case ifunc => exact absurd hft h1.1
      case other => exact absurd hft h1.2
      all_goals exact ⟨_, rfl⟩
    obtain ⟨s', e⟩ := hs
    rw [e]
    have ih := resolveSyms_plain a junk resolve secAddr base ss (i + 1) t
      (fun x hx => hty x (by simp [hx])) (fun x hx => hlib x (by simp [hx]))
    dsimp only
    cases h : resolveSyms a junk resolve secAddr base (i + 1) ss t with
    | none => rw [h] at ih; simp at ih
    | some q => simp

theorem kpatchResolve_runs (a : Arch) (junk : Nat → BitVec 32) (resolve : CStr → BitVec 64) (kpta : BitVec 64)
    (jmpOffset elfOffset : Nat) (load : BitVec 64) (secs : List PSec) (syms : List PSym)
    (hty : ∀ s ∈ syms.drop 1, s.sym.typ ≠ .ifunc ∧ s.sym.typ ≠ .other)
    (hres : ∀ s ∈ syms.drop 1, s.lib = true → resolve s.name ≠ 0#64)
    (hbase : ∀ e < countUndefined syms, kpta + BitVec.ofNat 64 jmpOffset + BitVec.ofNat 64 (16 + e * a.jmpEntrySize) ≠ 0#64) :
    kpatchResolve a junk resolve kpta jmpOffset elfOffset load secs syms ≠ none := by
  unfold kpatchResolve
  cases syms with
  | nil => simp
  | cons s0 ss =>
    dsimp only
    generalize (fun i => if i = 0 then (secs[0]?.map PSec.addr).getD 0#64
      else (secs[i]?.map (resolveSection kpta elfOffset load)).getD 0#64) = secAddr
    have hs : (resolveSyms a junk resolve secAddr (kpta + BitVec.ofNat 64 jmpOffset) 1 ss
        (if countUndefined (s0 :: ss) ≠ 0 then some (newJmpTable a (countUndefined (s0 :: ss))) else none)).isSome := by
      have hge : ss.countP PSym.lib ≤ countUndefined (s0 :: ss) := by
        unfold countUndefined
        rw [List.drop_one, List.tail_cons]
        apply List.countP_mono_left
        intro s _ h
        unfold PSym.lib at h
        simp only [Bool.and_eq_true] at h
        exact h.1
      split
      · refine resolveSyms_succeeds a junk resolve secAddr _ ss 1 _ hty hres ?_ hbase
        simp only [newJmpTable]
        omega
      · rename_i h0
        refine resolveSyms_plain a junk resolve secAddr _ ss 1 none hty ?_
        intro s hs
        have : ss.countP PSym.lib = 0 := by omega
        rw [List.countP_eq_zero] at this
        simpa using this s hs
    cases h : resolveSyms a junk resolve secAddr (kpta + BitVec.ofNat 64 jmpOffset) 1 ss
        (if countUndefined (s0 :: ss) ≠ 0 then some (newJmpTable a (countUndefined (s0 :: ss))) else none) with
    | none => rw [h] at hs; simp at hs
    | some q => simp

theorem prepareElf_runs {o : ElfObj} {w : Rela Nat → Nat} {img : List Byte}
    (E : o.Encoded img) (W : o.WellFormed w img.length) (a : Arch) (ra : RelocArch)
    (hl : ∀ sec e, LocalAct (ra.act sec e) w) (pe : PrepEnv)
    (hres : ∀ x y, unversioned x = unversioned y → pe.resolve x = pe.resolve y)
    (hns : ∀ i, o.isRela i → ∀ r ∈ o.rels i, ∀ p s, o.syms[r.sym]? = some p → p.2.sym.shndx = s.shndx →
      p.2.sym.typ = s.typ → p.2.sym.bind = s.bind → ra.Simple r s)
    (kpta : BitVec 64) (jmpOffset elfOffset : Nat)
    (hty : ∀ s ∈ (o.syms.map (·.2)).drop 1, s.sym.typ ≠ .ifunc ∧ s.sym.typ ≠ .other)
    (hlib : ∀ s ∈ (o.syms.map (·.2)).drop 1, s.lib = true → pe.resolve s.name ≠ 0#64)
    (hbase : ∀ e < countUndefined (o.syms.map (·.2)),
      kpta + BitVec.ofNat 64 jmpOffset + BitVec.ofNat 64 (16 + e * a.jmpEntrySize) ≠ 0#64)
    (h0 : (o.sec 0).typ ≠ 9)
    (hin : ∀ i, o.isRela i → ∀ r ∈ o.rels i, r.offset < (o.sec (o.sec i).info).size)
    (hfit : ∀ (syms' : List Sym) (t : Option JmpTable),
      kpatchResolve a pe.junk pe.resolve kpta jmpOffset elfOffset pe.load o.psecs (o.syms.map (·.2)) = some (syms', t) →
      (∀ (k : Nat) (s : Nat × PSym), o.syms[k + 1]? = some s → ∃ s', syms'[k + 1]? = some s' ∧
        s.2.sym.RunsAt (o.runAddr (kpta + BitVec.ofNat 64 elfOffset) pe.load) s') → syms'[0]? = o.syms[0]?.map (·.2.sym) →
      ∀ i, o.isRela i → ∀ j r, (o.rels i)[j]? = some r →
        ra.act (o.relSec (kpta + BitVec.ofNat 64 elfOffset) pe.load i) (o.before syms' i j) r (syms'.getD r.sym ⟨0, 0, 0, .notype, .loc⟩)
          (img.drop (o.place i r)) ≠ .fail) :
    ∃ q, prepareElf a ra pe kpta jmpOffset elfOffset img = some q := by
  have hk := kpatchResolve_runs a pe.junk pe.resolve kpta jmpOffset elfOffset pe.load o.psecs (o.syms.map (·.2)) hty hlib hbase
  obtain ⟨img2, t, hr⟩ := resolveElf_runs E W a pe.junk pe.resolve hres kpta jmpOffset elfOffset pe.load hk
  obtain ⟨syms', g1, g2⟩ := resolveElf_obj E W a pe.junk pe.resolve hres kpta jmpOffset elfOffset pe.load img2 t hr
  have hok := (relocate_obj E W ra (kpta + BitVec.ofNat 64 jmpOffset) t hl _ _ img2 syms' g2 (allSimple W hns g2)).1 h0
    (fun i hi j r hr => ⟨hin i hi r (List.mem_of_getElem? hr), hfit syms' t g1 g2.runs g2.sym0 i hi j r hr⟩)
  unfold prepareElf
  rw [hr]
  dsimp only
  rw [hok]
  exact ⟨_, rfl⟩

end Verif
