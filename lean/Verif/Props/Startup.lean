import Verif.Spec.Startup
import Verif.Spec.Memory
import Verif.Proof.Bytes
import Verif.Proof.Mem
/-
C72: the name of the process.  C73: the address until which a process that was just started is run.
-/
namespace Verif

/-! ### C73 -/

/-- The state of the code for the state of the process. -/
def waitState : Option SysCall → BitVec 32
  | none => 0
  | some s => s.nr.setWidth 32

theorem mmapNr_eq (isa : Isa) : mmapNr isa = nrMmap isa := by cases isa <;> rfl

theorem setWidth32_inj {a b : BitVec 64} (ha : a.toNat < 2 ^ 31) (hb : b.toNat < 2 ^ 31)
    (h : a.setWidth 32 = b.setWidth 32) : a = b := by
  have := congrArg BitVec.toNat h
  simp only [BitVec.toNat_setWidth] at this
  apply BitVec.eq_of_toNat_eq
  omega

theorem waitMmap_history {isa : Isa} {N : TEvent → Prop} (h : isa = .x86 ∨ isa = .riscv)
    (hN : ∀ e, N e → ∀ ins es, waitMmap isa ins (e :: es) = waitMmap isa ins es)
    {p : Option SysCall} {cs : List SysCall} {es : List TEvent} (hh : CallHistory isa N p cs es)
    {v : BitVec 64} (hf : firstMmap isa (p.toList ++ cs) = some v)
    (hlt : ∀ s ∈ p.toList ++ cs, s.nr.toNat < 2 ^ 31) : waitMmap isa (waitState p) es = .base v := by
  have hnr : ∀ c o, peekNr isa c o = kernelNr isa c o := by rcases h with rfl | rfl <;> intros <;> rfl
  have hres : ∀ c, peekRes isa c = kernelRes isa c := by rcases h with rfl | rfl <;> intros <;> rfl
  have hsk : skipsStop isa 5 = false := by rcases h with rfl | rfl <;> rfl
  have hfl : ∀ x : BitVec 64, x.toNat < 2 ^ 31 → peekFails isa x = false := by
    intro x hx
    rcases h with rfl | rfl
    · simp only [peekFails, beq_eq_false_iff_ne, ne_eq]
      rintro rfl
      simp at hx
    · rfl
  have hm0 : (nrMmap isa).setWidth 32 ≠ (0 : BitVec 32) := by rcases h with rfl | rfl <;> decide
  have hmlt : (nrMmap isa).toNat < 2 ^ 31 := by rcases h with rfl | rfl <;> decide
  clear h
  induction hh with
  | rest es => simp [firstMmap] at hf
  | noise hn _ ih => rw [hN _ hn]; exact ih hf hlt
  | @enter s cs c o es hc _ ih =>
    have hs := hlt s (by simp)
    simp only [waitMmap, hsk, waitState, hnr, hc, hfl _ hs, Bool.false_eq_true, if_false, if_true]
    exact ih (by simpa using hf) (by simpa using hlt)
  | @leave s cs c o es hc hr _ ih =>
    have hs := hlt s (by simp)
    simp only [waitMmap, hsk, waitState, hnr, hc, hres, hr, hfl _ hs, Bool.false_eq_true, if_false]
    simp only [firstMmap, Option.toList_some, List.cons_append, List.nil_append, mmapNr_eq] at hf
    by_cases hmm : s.nr = nrMmap isa
    · rw [if_neg (by rw [hmm]; exact hm0), if_pos (by rw [hmm])]
      rw [List.find?_cons_of_pos (by simp [hmm])] at hf
      simp only [Option.map_some, Option.some.injEq] at hf
      rw [hf]
    · rw [List.find?_cons_of_neg (by simp [hmm])] at hf
      have ih := ih (by simpa [firstMmap, mmapNr_eq] using hf) (fun x hx => hlt x (by simp at hx ⊢; exact Or.inr hx))
      simp only [waitState] at ih
      by_cases h0 : s.nr.setWidth 32 = (0 : BitVec 32)
      · rw [if_pos h0, h0]; exact ih
      · rw [if_neg h0, if_neg (fun e => hmm (setWidth32_inj hs hmlt e))]; exact ih

/-- **C73 (x86).**  For every history of system calls without signals: the code that follows a program started through
the dynamic linker takes the result of the first `mmap`. -/
theorem C73_first_mmap_x86_partial {cs : List SysCall} {es : List TEvent} {v : BitVec 64}
    (hh : CallHistory .x86 noSignals none cs es) (hf : firstMmap .x86 cs = some v)
    (hlt : ∀ s ∈ cs, s.nr.toNat < 2 ^ 31) : waitMmap .x86 0 es = .base v := by
  refine waitMmap_history (Or.inl rfl) ?_ hh (by simpa using hf) (by simpa using hlt)
  intro e he ins es
  cases e <;> simp [noSignals] at he
  simp [waitMmap]

/-- **C73 (riscv64).**  The same, with any signals anywhere between the stops. -/
theorem C73_first_mmap_riscv {cs : List SysCall} {es : List TEvent} {v : BitVec 64}
    (hh : CallHistory .riscv anySignals none cs es) (hf : firstMmap .riscv cs = some v)
    (hlt : ∀ s ∈ cs, s.nr.toNat < 2 ^ 31) : waitMmap .riscv 0 es = .base v := by
  refine waitMmap_history (Or.inr rfl) ?_ hh (by simpa using hf) (by simpa using hlt)
  intro e he ins es
  cases e with
  | exited => simp [anySignals] at he
  | other => simp [waitMmap]
  | stopped sig c o =>
    simp only [anySignals] at he
    simp [waitMmap, skipsStop, he]

/-- The header of a program in memory gives the address of its entry. -/
theorem handleLd_base {isa : Isa} {lim : Nat} {m : Mem} {es : List TEvent} {base entry : BitVec 64} {typ : Nat}
    {h : List Byte} (hlim : 64 ≤ lim) (hw : waitMmap isa 0 es = .base base) (hh : Holds m base.toNat h)
    (he : IsEhdr h typ entry) : handleLdLinux isa lim m es = some (runEntry typ entry base) := by
  obtain ⟨h64, ht, h1, h2⟩ := he
  have hm : Mapped m base.toNat 64 := by
    intro k hk
    rw [hh k (by omega)]
    simp
  obtain ⟨bs, hr, hl, hb⟩ := memRead_full (lim := lim) (m := m) (a := base.toNat) (n := 64) hlim hm
  have : bs = h := by
    apply List.ext_getElem (by omega)
    intro k h1 h2
    have a := hb k h1
    rw [hh k h2] at a
    exact (Option.some.inj a).symm
  subst this
  unfold handleLdLinux
  rw [hw]
  simp only [hr]
  rw [h1, h2, leVal_leBytes, leVal_leBytes, Nat.mod_eq_of_lt (by omega), Nat.mod_eq_of_lt (by have := entry.isLt; omega),
    BitVec.ofNat_toNat, BitVec.setWidth_eq]
  unfold runEntry
  split
  · rw [BitVec.add_comm]
  · rfl

/-- **C73 (programs started through the dynamic linker).**  On x86 without signals and on riscv64: if the first `mmap`
maps the program, the process is run until the entry of the program. -/
theorem C73_ld_entry_partial {isa : Isa} {N : TEvent → Prop}
    (hN : isa = .x86 ∧ N = noSignals ∨ isa = .riscv ∧ N = anySignals)
    {cs : List SysCall} {es : List TEvent} {base entry : BitVec 64} {typ lim : Nat} {m : Mem} {h : List Byte}
    (hh : CallHistory isa N none cs es) (hf : firstMmap isa cs = some base) (hlt : ∀ s ∈ cs, s.nr.toNat < 2 ^ 31)
    (hlim : 64 ≤ lim) (hm : Holds m base.toNat h) (he : IsEhdr h typ entry) :
    handleLdLinux isa lim m es = some (runEntry typ entry base) := by
  refine handleLd_base hlim ?_ hm he
  rcases hN with ⟨rfl, rfl⟩ | ⟨rfl, rfl⟩
  · exact C73_first_mmap_x86_partial hh hf hlt
  · exact C73_first_mmap_riscv hh hf hlt

/-- **C73 (other programs).**  However reading the auxiliary vector is interrupted: the process is run until the
address in the first `AT_ENTRY` (9) of the vector, and refused if there is none. -/
theorem C73_auxv (junk : BitVec 64) (vec : List (BitVec 64 × BitVec 64)) (rs : List AuxRead)
    (h : rs.filter (· ≠ .eintr) = vec.map fun p => .pair p.1 p.2) :
    getEntryPoint junk rs = (vec.find? fun p => p.1 == 9).map Prod.snd := by
  have key : ∀ (rs : List AuxRead) (vec : List (BitVec 64 × BitVec 64)) (cur : BitVec 64), cur ≠ 9 →
      (rs.filter (· ≠ .eintr) = vec.map fun p => .pair p.1 p.2) →
      entryGo junk cur rs = (vec.find? fun p => p.1 == 9).map Prod.snd := by
    intro rs
    induction rs with
    | nil =>
      intro vec cur hc h
      simp at h
      subst h
      simp only [entryGo, if_neg hc, List.find?_nil, Option.map_none]
    | cons r rs ih =>
      intro vec cur hc h
      cases r with
      | eintr => exact ih vec cur hc (by simpa using h)
      | error => cases vec <;> simp at h
      | short => cases vec <;> simp at h
      | pair k v =>
        cases vec with
        | nil => simp at h
        | cons p vec =>
          simp only [ne_eq, decide_not, reduceCtorEq, decide_false, Bool.not_false, List.filter_cons_of_pos,
            List.map_cons, List.cons.injEq, AuxRead.pair.injEq] at h
          obtain ⟨⟨rfl, rfl⟩, h⟩ := h
          unfold entryGo
          by_cases h9 : p.1 = 9
          · simp [h9]
          · rw [if_neg h9, List.find?_cons_of_neg (by simpa using h9)]
            exact ih vec p.1 h9 (by simpa using h)
  exact key rs vec 0 (by decide) h

namespace ExStart

/-- Registers that are all zero but two. -/
def cpu (r1 : Nat) (v1 : BitVec 64) (r2 : Nat) (v2 : BitVec 64) : Cpu :=
  ⟨fun r => if r = r1 then v1 else if r = r2 then v2 else 0, 0x7f0000001000⟩

/-- `brk`, `read` (number 0) and `mmap` on x86, with a report that is not a stop inside. -/
def evX86 : List TEvent :=
  [.stopped 5 (cpu 0 (-38) 7 0) 12, .stopped 5 (cpu 0 0x5000 7 0) 12, .stopped 5 (cpu 0 (-38) 7 3) 0, .other,
   .stopped 5 (cpu 0 64 7 3) 0, .stopped 5 (cpu 0 (-38) 7 0) 9, .stopped 5 (cpu 0 0x7f0000000000 7 0) 9,
   .stopped 5 (cpu 0 (-38) 7 3) 3]

/-- The hypotheses of `C73_first_mmap_x86_partial` are met. -/
example : waitMmap .x86 0 evX86 = .base 0x7f0000000000 :=
  C73_first_mmap_x86_partial (cs := [⟨12, 0x5000⟩, ⟨0, 64⟩, ⟨9, 0x7f0000000000⟩])
    (.enter rfl (.leave rfl rfl (.enter rfl (.noise trivial (.leave rfl rfl (.enter rfl (.leave rfl rfl
      (.rest _)))))))) (by decide) (by decide)

/-- The same on riscv64 with a signal between the calls. -/
def evRiscv : List TEvent :=
  [.stopped 5 (cpu 17 214 10 0) 0, .stopped 5 (cpu 17 214 10 0x5000) 0, .stopped 17 (cpu 17 214 10 0x5000) 0,
   .stopped 5 (cpu 17 222 10 0) 0, .stopped 5 (cpu 17 222 10 0x7f0000000000) 0]

/-- The hypotheses of `C73_first_mmap_riscv` are met. -/
example : waitMmap .riscv 0 evRiscv = .base 0x7f0000000000 :=
  C73_first_mmap_riscv (cs := [⟨214, 0x5000⟩, ⟨222, 0x7f0000000000⟩])
    (.enter rfl (.leave rfl rfl (.noise (show (17 : Nat) ≠ 5 by decide) (.enter rfl (.leave rfl rfl (.rest _)))))) (by decide) (by decide)

/-- The header of a position-independent program. -/
def hdr : List Byte := List.replicate 16 0 ++ leBytes 2 3 ++ List.replicate 6 0 ++ leBytes 8 0x1040 ++ List.replicate 32 0
/-- Memory that holds it. -/
def mem : Mem := fun x => hdr[x - 0x7f0000000000]?

/-- The hypotheses of `C73_ld_entry_partial` are met: the process is run until `0x7f0000001040`. -/
example : handleLdLinux .riscv 4096 mem evRiscv = some 0x7f0000001040 := by
  have he : IsEhdr hdr 3 0x1040 := by unfold IsEhdr; decide +kernel
  have hh : CallHistory .riscv anySignals none [⟨214, 0x5000⟩, ⟨222, 0x7f0000000000⟩] evRiscv :=
    .enter rfl (.leave rfl rfl (.noise (show (17 : Nat) ≠ 5 by decide) (.enter rfl (.leave rfl rfl (.rest _)))))
  refine (C73_ld_entry_partial (Or.inr ⟨rfl, rfl⟩) hh (base := 0x7f0000000000) (by decide) (by decide)
    (by decide) ?_ he).trans (by decide)
  intro k hk
  simp only [mem]
  rw [show (0x7f0000000000 : BitVec 64).toNat + k - 0x7f0000000000 = k by simp, List.getElem?_eq_getElem hk]

/-- The hypothesis of `C73_auxv` is met: `AT_PAGESZ`, an interruption and `AT_ENTRY`. -/
example : getEntryPoint 0 [.pair 6 4096, .eintr, .pair 9 0x401000, .pair 0 0] = some 0x401000 :=
  C73_auxv 0 [(6, 4096), (9, 0x401000), (0, 0)] _ (by decide)

end ExStart

/-- **C73 violated on x86 by a signal.**  A signal that is delivered at the end of a system call is taken for the entry
to one: from then on entries and exits are mistaken for each other, and the base found is what register `rax` holds at
the entry to the call after `mmap` (`-ENOSYS`). -/
theorem C73_violated_signal : ∃ (cs : List SysCall) (es : List TEvent),
    CallHistory .x86 anySignals none cs es ∧ firstMmap .x86 cs = some 0x7f0000000000 ∧ (∀ s ∈ cs, s.nr.toNat < 2 ^ 31) ∧
    waitMmap .x86 0 es = .base (-38) :=
  ⟨[⟨12, 0x5000⟩, ⟨9, 0x7f0000000000⟩, ⟨3, 0⟩],
   [.stopped 5 (ExStart.cpu 0 (-38) 7 0) 12, .stopped 5 (ExStart.cpu 0 0x5000 7 0) 12,
    .stopped 17 (ExStart.cpu 0 0x5000 7 0) 12,
    .stopped 5 (ExStart.cpu 0 (-38) 7 0) 9, .stopped 5 (ExStart.cpu 0 0x7f0000000000 7 0) 9,
    .stopped 5 (ExStart.cpu 0 (-38) 7 3) 3, .stopped 5 (ExStart.cpu 0 0 7 3) 3],
   .enter rfl (.leave rfl rfl (.noise (show (17 : Nat) ≠ 5 by decide) (.enter rfl (.leave rfl rfl (.enter rfl (.leave rfl rfl
     (.rest _))))))), by decide, by decide, by decide⟩

/-- On x86 a stop outside of any system call (`orig_rax` is -1 there) ends the search with an error. -/
theorem C73_stop_outside_call_x86 (c : Cpu) (sig : Nat) (es : List TEvent) : waitMmap .x86 0 (.stopped sig c (-1) :: es) = .failed := by
  simp [waitMmap, skipsStop, peekFails, peekNr]

/-- **C73 violated on aarch64.**  The number of the system call is taken from register 29 instead of 8: a call of `mmap`
is not seen. -/
theorem C73_violated_aarch64 : ∃ (cs : List SysCall) (es : List TEvent),
    CallHistory .aarch64 noSignals none cs es ∧ firstMmap .aarch64 cs = some 0x7f0000000000 ∧
    waitMmap .aarch64 0 es = .waiting :=
  ⟨[⟨222, 0x7f0000000000⟩],
   [.stopped 5 (ExStart.cpu 8 222 29 0x7ffc0000) 0, .stopped 5 (ExStart.cpu 8 222 0 0x7f0000000000) 0],
   .enter rfl (.leave rfl rfl (.rest _)), by decide, by decide⟩

/-- **C73 violated on aarch64, every call.**  What is taken for the number of any call is the frame pointer of the function that makes it:
a frame pointer that is not the number of `mmap` hides the call, whatever call it is. -/
theorem C73_violated_aarch64_number (c c' : Cpu) (o o' : BitVec 64) (es : List TEvent) (h : (c.g 29).toNat < 2 ^ 31) (h0 : c.g 29 ≠ 0)
    (hc : c.g 29 ≠ mmapNr .aarch64) :
    waitMmap .aarch64 0 (.stopped 5 c o :: .stopped 5 c' o' :: es) = waitMmap .aarch64 0 es := by
  have h1 : (c.g 29).setWidth 32 ≠ 0#32 := by
    intro e
    exact h0 (setWidth32_inj h (by decide) (e.trans (by decide)))
  have h2 : (c.g 29).setWidth 32 ≠ 222#32 := by
    intro e
    exact hc (setWidth32_inj h (by decide) (e.trans (by decide)))
  have hf : (c.g 29 == (-1 : BitVec 64)) = false := by
    rw [beq_eq_false_iff_ne]
    intro e
    rw [e] at h
    exact absurd h (by decide)
  have hf' : ¬ c.g 29 = 18446744073709551615#64 := by
    rw [beq_eq_false_iff_ne] at hf
    exact hf
  simp [waitMmap, skipsStop, peekFails, peekNr, nrMmap]
  rw [if_neg hf', if_neg h1, if_neg h2]

/-- **C73 violated on aarch64, the result.**  Even when a call of `mmap` has been seen, its result is not taken: at every
exit from it the code reads register 8, which holds the number 222. -/
theorem C73_violated_aarch64_result (c : Cpu) (o : BitVec 64) (es : List TEvent)
    (h : kernelNr .aarch64 c o = mmapNr .aarch64) :
    waitMmap .aarch64 ((nrMmap .aarch64).setWidth 32) (.stopped 5 c o :: es) = .base 222 := by
  have : c.g 8 = 222 := h
  rw [waitMmap]
  simp [skipsStop, nrMmap, peekRes, this]

/-- **C73 violated on loongarch64.**  For every call of `mmap`: what is taken for its result is the program counter. -/
theorem C73_violated_loongarch (s : SysCall) (c c' : Cpu) (o o' : BitVec 64) (es : List TEvent)
    (hs : s.nr = mmapNr .loongarch) (h1 : kernelNr .loongarch c o = s.nr) :
    waitMmap .loongarch 0 (.stopped 5 c o :: .stopped 5 c' o' :: es) = .base (BitVec.ofNat 64 c'.pc) := by
  have : c.g 11 = 222 := h1.trans hs
  simp [waitMmap, skipsStop, peekFails, peekNr, peekRes, this, nrMmap]

/-- The hypotheses of `C73_violated_loongarch` are met by a call with another result. -/
example : ∃ c c' : Cpu, kernelNr .loongarch c 0 = mmapNr .loongarch ∧ kernelRes .loongarch c' = 0x7f0000000000 ∧
    BitVec.ofNat 64 c'.pc ≠ kernelRes .loongarch c' :=
  ⟨ExStart.cpu 11 222 4 0, ExStart.cpu 11 222 4 0x7f0000000000, rfl, rfl, by decide⟩

/-! ### C72 -/

theorem baseName_inDir {dir name : List Byte} (h : 47#8 ∉ name) : baseName (inDir dir name) = name := by
  have e : lit "/" = [47#8] := by decide +kernel
  unfold baseName inDir
  rw [e, List.reverse_append, List.reverse_append, List.takeWhile_append_of_pos]
  · simp
  · intro a ha
    simp only [List.mem_reverse] at ha
    simp only [ne_eq, decide_not, Bool.not_eq_true', decide_eq_false_iff_not]
    rintro rfl
    exact h ha

theorem inDir_dropLast {dir name : List Byte} (h : name ≠ []) : (inDir dir name).dropLast = inDir dir name.dropLast := by
  unfold inDir
  rw [List.dropLast_append_of_ne_nil h]

theorem subIndex_of_not_hasSub {h n : List Byte} (hs : hasSub h n = false) : subIndex h n = none := by
  induction h with
  | nil => simp [hasSub] at hs; simp [subIndex, hs]
  | cons c t ih =>
    simp only [hasSub, Bool.or_eq_false_iff] at hs
    simp [subIndex, hs.1, ih hs.2]

theorem hasSub_append {a b n : List Byte} (h : hasSub a n = true) : hasSub (a ++ b) n = true := by
  induction a with
  | nil =>
    have : n = [] := by simpa [hasSub] using h
    subst this
    cases b <;> simp [hasSub]
  | cons c t ih =>
    simp only [hasSub, Bool.or_eq_true, List.cons_append] at h ⊢
    rcases h with h | h
    · left
      rw [List.isPrefixOf_iff_prefix] at h ⊢
      rw [← List.cons_append]
      exact h.trans (List.prefix_append _ _)
    · exact Or.inr (ih h)

theorem hasSub_take {a n : List Byte} (k : Nat) (h : hasSub a n = false) : hasSub (a.take k) n = false := by
  by_cases hh : hasSub (a.take k) n = true
  · have := hasSub_append (b := a.drop k) hh
    rw [List.take_append_drop, h] at this
    contradiction
  · simpa using hh

theorem commOfLink_plain {dir name : List Byte} (hn : name ≠ []) (hs : 47#8 ∉ name)
    (hd : hasSub name.dropLast (lit " (deleted)") = false) : commOfLink (inDir dir name) = name.dropLast.take 15 := by
  unfold commOfLink
  rw [inDir_dropLast hn, baseName_inDir (fun h => hs (List.dropLast_subset _ h))]
  simp only [subIndex_of_not_hasSub (hasSub_take 127 hd), commLen, List.take_take]
  rfl

theorem ldPrefix_take {a b : List Byte} {k : Nat} (hp : b <+: a)
    (h : (lit "ld").isPrefixOf a = false) : (lit "ld").isPrefixOf (b.take k) = false := by
  by_cases hh : (lit "ld").isPrefixOf (b.take k) = true
  · rw [List.isPrefixOf_iff_prefix] at hh
    have : (lit "ld").isPrefixOf a = true :=
      List.isPrefixOf_iff_prefix.mpr ((hh.trans (List.take_prefix _ _)).trans hp)
    rw [h] at this
    contradiction
  · exact Bool.not_eq_true _ ▸ hh

/-- **C72 (partial).**  For a program with a name of at least sixteen bytes that does not begin with `ld` and does not
contain ` (deleted)`: the name of the process is the one the kernel uses, the first fifteen bytes.  Missing: shorter
names, deleted programs, names that begin with `ld`; see the violations. -/
theorem C72_name_partial {dir name data junk : List Byte} (hn : FileName name) (hl : 16 ≤ name.length)
    (hd : hasSub name (lit " (deleted)") = false) (hld : (lit "ld").isPrefixOf name = false) :
    getComm (some (inDir dir name)) data junk = some (kernelComm name, false) := by
  have hp : name.dropLast <+: name := List.dropLast_prefix name
  have hdl : hasSub name.dropLast (lit " (deleted)") = false := by
    rw [List.dropLast_eq_take]
    exact hasSub_take _ hd
  unfold getComm
  simp only [commOfLink_plain hn.1 hn.2.1 hdl, ldPrefix_take hp hld, Bool.false_eq_true, if_false]
  rw [List.dropLast_eq_take, List.take_take, Nat.min_eq_left (by omega)]
  rfl

/-- **C72 violated: every shorter name.**  The last byte of every shorter name is lost: the code overwrites the last byte
of the path instead of the one behind it. -/
theorem C72_violated_name {dir name data junk : List Byte} (hn : FileName name) (hl : name.length ≤ 15)
    (hd : hasSub name (lit " (deleted)") = false) (hld : (lit "ld").isPrefixOf name = false) :
    getComm (some (inDir dir name)) data junk = some (name.dropLast, false) ∧ name.dropLast ≠ kernelComm name := by
  have hp : name.dropLast <+: name := List.dropLast_prefix name
  have hpos : 0 < name.length := List.length_pos_iff.mpr hn.1
  have hdl : hasSub name.dropLast (lit " (deleted)") = false := by
    rw [List.dropLast_eq_take]
    exact hasSub_take _ hd
  constructor
  · unfold getComm
    simp only [commOfLink_plain hn.1 hn.2.1 hdl, ldPrefix_take hp hld, Bool.false_eq_true, if_false]
    rw [List.take_of_length_le (by simp; omega)]
  · intro h
    have := congrArg List.length h
    simp [kernelComm] at this
    omega

theorem hasSub_deleted {name : List Byte} (hs : 32#8 ∉ name) :
    hasSub (name ++ lit " (deleted") (lit " (deleted)") = false := by
  have e : lit " (deleted)" = 32#8 :: lit "(deleted)" := by decide +kernel
  induction name with
  | nil => decide +kernel
  | cons c t ih =>
    simp only [List.mem_cons, not_or] at hs
    simp only [List.cons_append, hasSub, Bool.or_eq_false_iff]
    refine ⟨?_, ih hs.2⟩
    rw [e]
    simp [List.isPrefixOf, hs.1]

/-- **C72 violated: deleted programs.**  The kernel marks the path of a program whose file was deleted or replaced with
` (deleted)`.  The code removes that mark only after it has cut the last byte of it, so it is never found. -/
theorem C72_violated_deleted {dir name data junk : List Byte} (hn : FileName name) (hsp : 32#8 ∉ name)
    (hl : name.length ≤ 14) (hld : (lit "ld").isPrefixOf (name ++ lit " (deleted") = false) :
    getComm (some (inDir dir (name ++ lit " (deleted)"))) data junk =
      some ((name ++ lit " (deleted").take 15, false) ∧ (name ++ lit " (deleted").take 15 ≠ kernelComm name := by
  have e : (name ++ lit " (deleted)").dropLast = name ++ lit " (deleted" := by
    rw [List.dropLast_append_of_ne_nil (by decide +kernel)]
    congr 1
    decide +kernel
  have hne : 47#8 ∉ name ++ lit " (deleted)" := by
    have : 47#8 ∉ lit " (deleted)" := by decide +kernel
    simp [hn.2.1, this]
  constructor
  · unfold getComm
    simp only [commOfLink_plain (dir := dir) (name := name ++ lit " (deleted)") (by simp [hn.1]) hne
      (by rw [e]; exact hasSub_deleted hsp), e, ldPrefix_take (List.prefix_refl _) hld, Bool.false_eq_true, if_false]
  · intro h
    have := congrArg List.length h
    have l : (lit " (deleted").length = 9 := by decide +kernel
    simp [kernelComm, l] at this
    omega

/-- A program whose name (of at least three bytes) begins with `ld` is taken for the dynamic linker: the name of the
process is that of the first argument.  This is what one wants for the dynamic linker. -/
theorem C72_ld {dir name a0 a1 junk data tl : List Byte} {rest : List (List Byte)} (hn : FileName name)
    (hl : 3 ≤ name.length) (hd : hasSub name (lit " (deleted)") = false) (hld : (lit "ld").isPrefixOf name = true)
    (h0 : a0 ≠ []) (hz0 : 0#8 ∉ a0) (hz1 : 0#8 ∉ a1)
    (hdata : cmdline (a0 :: a1 :: rest) = data ++ tl) (hbuf : a0.length + a1.length + 2 ≤ data.length) :
    getComm (some (inDir dir name)) data junk = some (kernelComm (baseName a1), true) := by
  have hdl : hasSub name.dropLast (lit " (deleted)") = false := by
    rw [List.dropLast_eq_take]
    exact hasSub_take _ hd
  have hpre : (lit "ld").isPrefixOf (name.dropLast.take 15) = true := by
    rw [List.isPrefixOf_iff_prefix] at hld ⊢
    have : (lit "ld").length = 2 := by decide +kernel
    rw [List.dropLast_eq_take, List.take_take]
    exact List.prefix_take_iff.mpr ⟨hld, by omega⟩
  have hz : ∀ (a : List Byte), 0#8 ∉ a → ∀ r, (a ++ 0 :: r).takeWhile (· != 0) = a := by
    intro a ha r
    rw [List.takeWhile_append_of_pos]
    · simp
    · intro x hx
      simp only [bne_iff_ne, ne_eq]
      rintro rfl
      exact ha hx
  obtain ⟨r, hr⟩ : ∃ r, data = a0 ++ 0 :: (a1 ++ 0 :: r) := by
    have e : data ++ tl = (a0 ++ 0 :: (a1 ++ [0])) ++ cmdline rest := by
      rw [← hdata]
      simp [cmdline]
    have hp : (a0 ++ 0 :: (a1 ++ [0])) <+: data := by
      refine List.prefix_of_prefix_length_le ⟨cmdline rest, e.symm⟩ ⟨tl, rfl⟩ ?_
      simp
      omega
    obtain ⟨r, hr⟩ := hp
    exact ⟨r, by rw [← hr]; simp⟩
  unfold getComm
  simp only [commOfLink_plain hn.1 hn.2.1 hdl, hpre, if_true]
  unfold commLd
  rw [hr, hz a0 hz0, if_neg (by simpa using h0)]
  simp only [Option.map_some, List.append_assoc, List.cons_append]
  rw [show a0 ++ 0 :: (a1 ++ 0 :: (r ++ junk)) = (a0 ++ [0]) ++ (a1 ++ 0 :: (r ++ junk)) by simp,
    List.drop_append_of_le_length (by simp), List.drop_of_length_le (by simp), List.nil_append]
  unfold cstr
  rw [hz a1 hz1]
  rfl

namespace ExComm

/-- The hypotheses of `C72_name_partial` are met. -/
example : getComm (some (inDir (lit "/usr/bin") (lit "qemu-system-x86_64"))) [] [] =
    some (lit "qemu-system-x86", false) :=
  (C72_name_partial ⟨by decide +kernel, by decide +kernel, by decide +kernel⟩ (by decide +kernel) (by decide +kernel)
    (by decide +kernel)).trans (by decide +kernel)

/-- The hypotheses of `C72_violated_name` are met: `mysqld` becomes `mysql`. -/
example : getComm (some (inDir (lit "/usr/sbin") (lit "mysqld"))) [] [] = some (lit "mysql", false) :=
  (C72_violated_name ⟨by decide +kernel, by decide +kernel, by decide +kernel⟩ (by decide +kernel) (by decide +kernel)
    (by decide +kernel)).1.trans (by decide +kernel)

/-- The hypotheses of `C72_violated_deleted` are met. -/
example : getComm (some (inDir (lit "/usr/sbin") (lit "mysqld" ++ lit " (deleted)"))) [] [] =
    some (lit "mysqld (deleted", false) :=
  (C72_violated_deleted ⟨by decide +kernel, by decide +kernel, by decide +kernel⟩ (by decide +kernel) (by decide +kernel)
    (by decide +kernel)).1.trans (by decide +kernel)

/-- The hypotheses of `C72_ld` are met by the dynamic linker. -/
example : getComm (some (inDir (lit "/lib64") (lit "ld-2.28.so")))
    (cmdline [lit "/lib64/ld-linux-x86-64.so.2", lit "/usr/bin/prog", lit "-v"]) [] = some (lit "prog", true) :=
  (C72_ld (a0 := lit "/lib64/ld-linux-x86-64.so.2") (a1 := lit "/usr/bin/prog") (rest := [lit "-v"]) (tl := [])
    ⟨by decide +kernel, by decide +kernel, by decide +kernel⟩ (by decide +kernel) (by decide +kernel)
    (by decide +kernel) (by decide +kernel) (by decide +kernel) (by decide +kernel) (by decide +kernel)
    (by decide +kernel)).trans (by decide +kernel)

end ExComm

/-- **C72 violated: names that begin with `ld`.**  A program that has nothing to do with the dynamic linker is taken for
it, and its option for its name. -/
theorem C72_violated_ld : ∃ (dir name : List Byte) (args : List (List Byte)), FileName name ∧
    getComm (some (inDir dir name)) (cmdline args) [] = some (lit "-f", true) ∧ lit "-f" ≠ kernelComm name :=
  ⟨lit "/usr/sbin", lit "ldapd", [lit "ldapd", lit "-f", lit "/etc/ldapd.conf"],
    ⟨by decide +kernel, by decide +kernel, by decide +kernel⟩, by decide +kernel, by decide +kernel⟩

/-- **C72 violated: the name of no program is `fail_coro_listed`.**  The name has at most fifteen bytes, so the test for
this program (`src/kpatch_coro.c` 249, 331) never succeeds. -/
theorem C72_violated_listed (link : Option (List Byte)) (data junk : List Byte) (c : List Byte) (b : Bool)
    (h : getComm link data junk = some (c, b)) : c ≠ lit "fail_coro_listed" := by
  have hc : c.length ≤ 15 := by
    unfold getComm at h
    split at h
    · contradiction
    · simp only at h
      split at h
      · unfold commLd at h
        simp only at h
        split at h
        · simp at h
        · simp only [Option.map_some, Option.some.injEq, Prod.mk.injEq] at h
          rw [← h.1]
          simp [commLen]
          omega
      · simp only [Option.some.injEq, Prod.mk.injEq] at h
        rw [← h.1]
        unfold commOfLink
        simp [commLen]
        omega
  rintro rfl
  revert hc
  decide +kernel

end Verif
