import Verif.Spec.Target
import Verif.Proof.PatchLoad
/-
The records of a prepared image are those the object describes.
-/
namespace Verif
open Cpu

/-- What the tool reads of the record of a function, when the object is at `base` and the program was moved by `load`. -/
def PatchFn.info (base load : BitVec 64) (f : PatchFn) : Info :=
  { daddr := match f.old with | none => 0 | some (d, _) => (d + load).toNat
    saddr := (base + BitVec.ofNat 64 f.new).toNat
    dlen := match f.old with | none => 0 | some (_, l) => l
    slen := f.len
    applied := false }

theorem parseInfos_eq (image : List Byte) : ∀ (n off : Nat),
    parseInfos image off n = (List.range n).map fun j => parseInfo ((image.drop (off + 48 * j)).take 48)
  | 0, _ => rfl
  | n + 1, off => by
    rw [parseInfos, parseInfos_eq image n (off + 48), List.range_succ_eq_map, List.map_cons, List.map_map]
    congr 1
    apply List.map_congr_left
    intro j _
    simp only [Function.comp_apply]
    rw [show off + 48 + 48 * j = off + 48 * (j + 1) by omega]

section
variable {o : ElfObj} {img image : List Byte} {w : Rela Nat → Nat} {ra : RelocArch} {base load : BitVec 64} {syms : List Sym}
  {n : Nat}

theorem prepared_plain (W : o.WellFormed w img.length) (P : PreparedImg o ra w base load img image syms)
    (hn : o.inFile n) (hk : (o.sec n).typ ∉ [2, 3, 8]) {k : Nat} (h1 : (o.sec n).offset ≤ k)
    (h2 : k < (o.sec n).offset + (o.sec n).size) (hr : ¬ o.Relocated w k) : image[k]? = img[k]? := by
  have hf := W.fits n hn
  have hs := W.symtab
  simp only [List.mem_cons, List.not_mem_nil, or_false, not_or] at hk
  apply P.other k (by omega) _ _ hr
  · intro hc
    have : n ≠ o.symtab := fun hc => hk.1 ((hs.2.2 n hn.1 hn.2.1).2 hc)
    have := W.apart n _ hn hc.1 this
    have := hc.2
    omega
  · intro hc
    have : n ≠ (o.sec o.symtab).link := fun hc => hk.2.1 (by rw [hc]; exact W.strtab.2.2.1)
    have := W.apart n _ hn hc.1 this
    have := hc.2
    omega

theorem prepared_field (W : o.WellFormed w img.length) (P : PreparedImg o ra w base load img image syms)
    (hn : o.inFile n) (hk : (o.sec n).typ ∉ [2, 3, 8]) {p c v : Nat} (hf : FieldAt img p c v) (h1 : (o.sec n).offset ≤ p)
    (h2 : p + c ≤ (o.sec n).offset + (o.sec n).size) (hr : ∀ k, k < c → ¬ o.Relocated w (p + k)) : FieldAt image p c v :=
  ⟨hf.1, fun j hj => by
    rw [prepared_plain W P hn hk (by omega) (by omega) (hr j hj)]
    exact hf.2 j hj⟩

/-- The value of a symbol that stands for a place in section `s`. -/
theorem symIs_value (W : o.WellFormed w img.length)
    (runs : ∀ (k : Nat) (s : Nat × PSym), o.syms[k + 1]? = some s → ∃ s', syms[k + 1]? = some s' ∧
      s.2.sym.RunsAt (o.runAddr base load) s')
    {k s : Nat} {d : BitVec 64} (h : o.SymIs k s d) :
    (symAt syms k).value = d + o.runAddr base load s ∧ (symAt syms k).isUndef = false ∧ (symAt syms k).typ ≠ .tls := by
  obtain ⟨h1, h2, h3, p, hp, hs, hd⟩ := h
  obtain ⟨k, rfl⟩ : ∃ k', k = k' + 1 := ⟨k - 1, by omega⟩
  obtain ⟨s', e1, e2, e3, e4, e5⟩ := runs k p hp
  have ea : symAt syms (k + 1) = s' := by unfold symAt; rw [List.getD_eq_getElem?_getD, e1]; rfl
  rw [ea]
  refine ⟨?_, ?_, ?_⟩
  · rcases hd with ⟨t, rfl⟩ | ⟨t, rfl⟩
    · rw [t] at e5
      rw [e5, hs]; simp
    · have hl : ¬ p.2.sym.isLib := fun hc => h2 (by rw [← hs]; exact hc.2.1)
      cases ht : p.2.sym.typ <;> rw [ht] at e5 t <;> simp_all
  · unfold Sym.isUndef
    rw [e2, hs]
    simp; omega
  · rw [e3]
    rcases hd with ⟨t, -⟩ | ⟨t, -⟩
    · rw [t]; simp
    · intro hc; rw [hc] at t; simp at t

theorem record_parse (W : o.WellFormed w img.length) (P : PreparedImg o ra w base load img image syms)
    (runs : ∀ (k : Nat) (s : Nat × PSym), o.syms[k + 1]? = some s → ∃ s', syms[k + 1]? = some s' ∧
      s.2.sym.RunsAt (o.runAddr base load) s')
    {abs i j : Nat} (hn : o.inFile n) (hk : (o.sec n).typ ∉ [2, 3, 8]) (hin : (o.sec i).info = n)
    (habs : ∀ r ∈ o.rels i, r.typ = abs → (symAt syms r.sym).isUndef = false → (symAt syms r.sym).typ ≠ .tls →
      ∃ bs, bs.length = 8 ∧ bytesAt image (o.place i r) bs.length = bs ∧
        field64 bs = some ((symAt syms r.sym).value + r.addend))
    {f : PatchFn} (hj : 48 * j + 48 ≤ (o.sec n).size) (R : o.RecordIs w img abs i n j f) :
    parseInfo ((image.drop ((o.sec n).offset + 48 * j)).take 48) = f.info base load := by
  have hsub : ∀ c l, c + l ≤ 48 → (((image.drop ((o.sec n).offset + 48 * j)).take 48).drop c).take l =
      bytesAt image ((o.sec n).offset + 48 * j + c) l := by
    intro c l h
    rw [List.drop_take, List.drop_drop, List.take_take, Nat.min_eq_left (by omega)]
    rfl
  have hpl : ∀ c l v, FieldAt img ((o.sec n).offset + 48 * j + c) l v → 16 ≤ c → c + l ≤ 48 →
      leVal (bytesAt image ((o.sec n).offset + 48 * j + c) l) = v := by
    intro c l v hf h1 h2
    refine (prepared_field W P hn hk hf (by omega) (by omega) ?_).ld
    intro k hk
    rw [Nat.add_assoc _ c k]
    exact R.plain _ (by omega) (by omega)
  have hadr : ∀ pos s off, o.AddressAt abs i pos s off →
      leVal (bytesAt image ((o.sec n).offset + pos) 8) = (off + o.runAddr base load s).toNat := by
    rintro pos s off ⟨r, hr, ht, rfl, d, hd, rfl⟩
    obtain ⟨v1, v2, v3⟩ := symIs_value W runs hd
    obtain ⟨bs, b1, b2, b3⟩ := habs r hr ht v2 v3
    have := field64_leVal b3
    unfold ElfObj.place at b2
    rw [b1, hin] at b2
    rw [b2, this, v1]
    congr 1
    rw [BitVec.add_assoc, BitVec.add_assoc, BitVec.add_comm r.addend]
  have hinfo : ∀ x y : Info, x.daddr = y.daddr → x.saddr = y.saddr → x.dlen = y.dlen → x.slen = y.slen →
      x.applied = y.applied → x = y := by
    rintro ⟨⟩ ⟨⟩ h1 h2 h3 h4 h5
    simp only at h1 h2 h3 h4 h5
    subst h1 h2 h3 h4 h5
    rfl
  apply hinfo
  · show leVal (List.take 8 (((image.drop ((o.sec n).offset + 48 * j)).take 48))) = _
    have e0 := hsub 0 8 (by omega)
    rw [List.drop_zero] at e0
    rw [e0]
    unfold PatchFn.info
    cases ho : f.old with
    | none =>
      obtain ⟨a1, -, a3⟩ := R.added ho
      exact (prepared_field W P hn hk a1 (by omega) (by omega) a3).ld
    | some q =>
      obtain ⟨d, len⟩ := q
      obtain ⟨-, s, off, a1, a2, a3, rfl⟩ := R.old d len ho
      have hs0 : s ≠ 0 := by obtain ⟨_, _, _, _, _, hx, _⟩ := a1; exact hx.2.1
      have := hadr _ _ _ a1
      rw [Nat.add_zero, this]
      unfold ElfObj.runAddr
      rw [if_neg hs0, if_pos a2, if_neg a3]
      dsimp only
      congr 1
      rw [BitVec.add_comm (o.sec s).addr off, BitVec.add_assoc]
  · show leVal (List.take 8 (List.drop 8 _)) = _
    rw [hsub 8 8 (by omega)]
    obtain ⟨-, s, off, a1, a2, a3⟩ := R.new
    have hs0 : s ≠ 0 := by obtain ⟨_, _, _, _, _, hx, _⟩ := a1; exact hx.2.1
    have := hadr _ _ _ a1
    rw [Nat.add_assoc, this]
    unfold ElfObj.runAddr PatchFn.info
    rw [if_neg hs0, if_neg a2]
    dsimp only
    rw [a3]
    congr 1
    rw [BitVec.add_comm off, BitVec.add_assoc]
  · show leVal (List.take 4 (List.drop 16 _)) = _
    rw [hsub 16 4 (by omega)]
    unfold PatchFn.info
    cases ho : f.old with
    | none => exact hpl 16 4 0 (R.added ho).2.1 (by omega) (by omega)
    | some q => exact hpl 16 4 q.2 (R.old q.1 q.2 ho).1 (by omega) (by omega)
  · show leVal (List.take 4 (List.drop 20 _)) = _
    rw [hsub 20 4 (by omega)]
    exact hpl 20 4 _ R.len (by omega) (by omega)
  · show (leVal (List.take 4 (List.drop 40 _))).testBit 31 = false
    obtain ⟨x, hx, hf⟩ := R.flags
    rw [hsub 40 4 (by omega), hpl 40 4 x hf (by omega) (by omega)]
    exact Nat.testBit_lt_two_pow hx

theorem records_parse (W : o.WellFormed w img.length) (P : PreparedImg o ra w base load img image syms)
    (runs : ∀ (k : Nat) (s : Nat × PSym), o.syms[k + 1]? = some s → ∃ s', syms[k + 1]? = some s' ∧
      s.2.sym.RunsAt (o.runAddr base load) s')
    {abs : Nat} (hn : 1 ≤ n ∧ n < o.secs.length)
    (habs : ∀ i, o.isRela i → ∀ r ∈ o.rels i, r.typ = abs → (symAt syms r.sym).isUndef = false → (symAt syms r.sym).typ ≠ .tls →
      ∃ bs, bs.length = 8 ∧ bytesAt image (o.place i r) bs.length = bs ∧
        field64 bs = some ((symAt syms r.sym).value + r.addend))
    {fns : List PatchFn} (R : o.Replaces w img abs n fns) :
    (o.sec n).size / 48 = fns.length ∧
    parseInfos image (o.sec n).offset fns.length = fns.map (PatchFn.info base load) ∧
    ∀ k, k < 24 → image[(o.sec n).offset + 48 * fns.length + k]? = some 0#8 := by
  have hf : o.inFile n := ⟨hn.1, hn.2, fun h => R.kind (by rw [h]; simp)⟩
  have hs := R.size
  refine ⟨by omega, ?_, ?_⟩
  · rw [parseInfos_eq]
    apply List.ext_getElem (by simp)
    intro j h1 h2
    simp only [List.length_map, List.length_range] at h1
    simp only [List.getElem_map, List.getElem_range]
    obtain ⟨i, g1, g2, g3⟩ := R.records (fun h => by rw [h] at h1; simp at h1)
    exact record_parse W P runs hf R.kind g2 (habs i g1) (by omega) (g3 j _ (List.getElem?_eq_getElem h1))
  · intro k hk
    rw [prepared_plain W P hf R.kind (by omega) (by omega) (R.ending k hk).2]
    exact (R.ending k hk).1

end
end Verif
