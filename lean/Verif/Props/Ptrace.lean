import Verif.Proof.Ptrace
/-
C20-C23: breakpoints, remote calls, remote writes and buffered remote reads.
-/
namespace Verif

/-! ### C22 -/

/-- C22: whichever way the write goes (`pwrite`, or word-wise `ptrace` after `EINVAL` or because an
earlier write met `EINVAL`), for every length, address and memory: if it reports success the requested
bytes are in place; successful or not, no byte outside the requested range changes, and a byte inside
the range is either old or as requested. -/
theorem C22_write_exact (usePwrite : Bool) (o : WriteOutcome) (lims : Nat → Nat) (plim : Nat) (m : Mem) (dst : Nat)
    (bs : List Byte) :
    ((memWriteAny usePwrite o lims plim m dst bs).2.2 = true →
      Holds (memWriteAny usePwrite o lims plim m dst bs).1 dst bs) ∧
    (∀ x, ¬ InRange x dst bs.length → (memWriteAny usePwrite o lims plim m dst bs).1 x = m x) ∧
    (∀ k (h : k < bs.length), (memWriteAny usePwrite o lims plim m dst bs).1 (dst + k) = m (dst + k) ∨
      (memWriteAny usePwrite o lims plim m dst bs).1 (dst + k) = some bs[k]) := by
  have hp := memWritePtrace_spec lims plim bs.length 0 m dst bs rfl
  unfold memWriteAny
  split
  · cases o with
    | einval => exact ⟨hp.2, hp.1.1, hp.1.2⟩
    | upTo lim =>
      have := memWrite_partly lim m dst bs
      exact ⟨fun h => (memWrite_ok lim m dst bs h).1, this.1, this.2⟩
  · exact ⟨hp.2, hp.1.1, hp.1.2⟩

theorem memWritePtrace_runs (lims : Nat → Nat) (plim : Nat) (hl : ∀ k, 8 ≤ lims k) (hp : 8 ≤ plim) : ∀ (n k : Nat) (m : Mem) (dst : Addr)
    (bs : List Byte), bs.length = n → Mapped m dst ((bs.length + 7) / 8 * 8) → (memWritePtrace lims plim k m dst bs).2 = true := by
  intro n
  induction n using Nat.strongRecOn with
  | ind n ih =>
    intro k m dst bs hn hm
    rw [memWritePtrace]
    split
    · rename_i h8
      have hlen : (bs.take 8).length = 8 := by simp; omega
      have hw : (poke (lims k) m dst (bs.take 8)).2 = true := memWrite_full (by rw [hlen]; exact hl k) (by
        rw [hlen]; exact fun j hj => hm j (by omega))
      dsimp only
      rw [hw]
      refine ih (n - 8) (by omega) _ _ _ _ (by simp; omega) ?_
      intro j hj hc
      rw [List.length_drop] at hj
      refine hm (8 + j) (by omega) ?_
      rw [← Nat.add_assoc]
      exact (memWrite_dom _ _ _ _ _).1 hc
    · split
      · rfl
      · rename_i h8 h0
        have hm8 : Mapped m dst 8 := fun j hj => hm j (by omega)
        obtain ⟨old, e1, e2, -⟩ := memRead_full hp hm8
        rw [e1]
        refine memWrite_full ?_ ?_ <;> simp only [List.length_append, List.length_drop, e2]
        · have := hl k; omega
        · exact fun j hj => hm8 j (by omega)

/-- C87: a write that the kernel does not refuse succeeds.  With `ptrace` the whole word of the last byte has to be mapped: a few bytes at
the end of a mapping cannot be written that way, see `C87_violated_tail`. -/
theorem C87_write_done_partial (usePwrite : Bool) (o : WriteOutcome) (lims : Nat → Nat) (plim : Nat) (m : Mem) (dst : Nat)
    (bs : List Byte) (ho : ∀ n, o = .upTo n → bs.length ≤ n) (hl : ∀ k, 8 ≤ lims k) (hp : 8 ≤ plim)
    (hm : Mapped m dst bs.length) (hm' : usePwrite = false ∨ o = .einval → Mapped m dst ((bs.length + 7) / 8 * 8)) :
    (memWriteAny usePwrite o lims plim m dst bs).2.2 = true := by
  have hr := memWritePtrace_runs lims plim hl hp bs.length 0 m dst bs rfl
  unfold memWriteAny
  split
  · cases o with
    | einval => exact hr (hm' (Or.inr rfl))
    | upTo lim => exact memWrite_full (ho lim rfl) hm
  · rename_i hu
    exact hr (hm' (Or.inl (by simpa using hu)))

/-- The hypotheses are met: five bytes in a mapping of sixteen, written word by word. -/
example : let m : Mem := fun x => if x < 16 then some 7 else none
    (memWriteAny true .einval (fun _ => 8) 8 m 3 [1, 2, 3, 4, 5]).2.2 = true := by
  intro m
  have h : ∀ k, k < 16 → m k ≠ none := fun k hk => by show (if k < 16 then some (7 : Byte) else none) ≠ none; rw [if_pos hk]; simp
  refine C87_write_done_partial _ _ _ _ _ _ _ (fun n h => by cases h) (fun _ => Nat.le_refl 8) (Nat.le_refl 8) ?_ fun _ => ?_
  · intro k hk; exact h _ (by have : k < 5 := hk; omega)
  · intro k hk; exact h _ (by have : k < 8 := hk; omega)

/-- C87: `pwrite` is not tried again once the kernel has refused it with `EINVAL`, and only then. -/
theorem C87_fallback (usePwrite : Bool) (o : WriteOutcome) (lims : Nat → Nat) (plim : Nat) (m : Mem) (dst : Nat) (bs : List Byte) :
    (memWriteAny usePwrite o lims plim m dst bs).2.1 = true ↔ usePwrite = true ∧ o ≠ .einval := by
  unfold memWriteAny
  split
  · rename_i h
    cases o <;> simp [h]
  · rename_i h
    simp [h]

/-- **C87 violated at the end of a mapping.**  Three bytes, all of them mapped, cannot be written with `ptrace` when nothing is mapped
behind them. -/
theorem C87_violated_tail : ∃ (m : Mem) (dst : Nat) (bs : List Byte), Mapped m dst bs.length ∧
    (memWriteAny false (.upTo 100) (fun _ => 8) 8 m dst bs).2.2 = false := by
  refine ⟨fun x => if x < 32 then some 7 else none, 29, [1, 2, 3], ?_, ?_⟩
  · intro k hk
    have : k < 3 := hk
    simp only
    rw [if_pos (by omega)]
    simp
  · simp [memWriteAny, memWritePtrace, memRead, pread]

/-- C22 for copies inside the target: on success the destination holds what the source held; nothing else
changes. -/
theorem C22_copy_exact (rlim wlim : Nat) (m : Mem) (dst src size : Nat) :
    ((memCpy rlim wlim m dst src size).2 = true →
      ∀ k, k < size → (memCpy rlim wlim m dst src size).1 (dst + k) = m (src + k)) ∧
    (∀ x, ¬ InRange x dst size → (memCpy rlim wlim m dst src size).1 x = m x) :=
  ⟨fun h k hk => (memCpy_ok rlim wlim m dst src size h k hk).1, fun x hx => memCpy_frame rlim wlim m dst src size x hx⟩

/-- The fallback succeeds on mapped memory when the word containing the last byte is mapped too (here: 11
bytes over 16 mapped bytes). -/
example : (memWriteAny true .einval (fun _ => 8) 8 (fun x => if x < 32 then some 7 else none) 8
    [1, 2, 3, 4, 5, 6, 7, 8, 9, 10, 11]).2.2 = true := by
  simp [memWriteAny, memWritePtrace, poke, memWrite, memRead, pread, pwrite, Mem.set]

/-! ### C23 -/

theorem peekAny_ok {m : Mem} {page : Nat} {it : MemIter} (hit : IterOk m page it) (r : ReadReq)
    (h1 : ∃ lim, 0 < lim ∧ r.outcome = .upTo lim) (h2 : m r.addr ≠ none) (h3 : 0 < r.size)
    (h4 : r.addr + page < 2 ^ 64) {bs : List Byte} (h : (it.peekAny m r).2 = some bs) :
    IterOk m page (it.peekAny m r).1 ∧ bs.length = r.size ∧ Holds m r.addr bs := by
  obtain ⟨lim, hlim, ho⟩ := h1
  unfold MemIter.peekAny at *
  split
  · rename_i hc
    rw [if_pos hc] at h
    exact ⟨hit, memRead_ok _ _ _ _ _ h⟩
  · rename_i hc
    rw [if_neg hc, ho] at h
    rw [ho]
    have hsp : r.size ≤ page := by have := hit.1; omega
    exact peek_ok hit lim r.size r.addr hlim h2 h3 hsp h4 (it' := _) (bs := bs) (Prod.ext rfl h)

/-- C23, partial: for every sequence of requests through a fresh buffered reader in which no `pread`
fails outright (the first byte of each request is mapped and the kernel delivers at least one byte;
short reads are allowed) and all earlier requests succeeded, a successful request returns exactly the
target's bytes.  Missing: requests after a failed one and requests whose `pread` returns -1, for which
the claim is false (the two `C23_violated_*` theorems). -/
theorem C23_buffered_reads_partial (m : Mem) (page : Nat) (before : List ReadReq) (r : ReadReq)
    (hreq : ∀ q ∈ before ++ [r], (∃ lim, 0 < lim ∧ q.outcome = .upTo lim) ∧ m q.addr ≠ none ∧ 0 < q.size ∧
      q.addr + page < 2 ^ 64)
    (hbefore : ∀ x ∈ (MemIter.init page).peekAll m before, x ≠ none)
    (bs : List Byte) (h : ((MemIter.init page).peekAll m (before ++ [r])).getLast? = some (some bs)) :
    bs.length = r.size ∧ Holds m r.addr bs := by
  have key : ∀ (before : List ReadReq) (it : MemIter), IterOk m page it →
      (∀ q ∈ before ++ [r], (∃ lim, 0 < lim ∧ q.outcome = .upTo lim) ∧ m q.addr ≠ none ∧ 0 < q.size ∧
        q.addr + page < 2 ^ 64) →
      (∀ x ∈ it.peekAll m before, x ≠ none) →
      (it.peekAll m (before ++ [r])).getLast? = some (some bs) → bs.length = r.size ∧ Holds m r.addr bs := by
    intro before
    induction before with
    | nil =>
      intro it hit hq _ h
      simp only [List.nil_append, MemIter.peekAll, List.getLast?_singleton, Option.some.injEq] at h
      obtain ⟨q1, q2, q3, q4⟩ := hq r (by simp)
      exact (peekAny_ok hit r q1 q2 q3 q4 h).2
    | cons q before ih =>
      intro it hit hq hb h
      simp only [List.cons_append, MemIter.peekAll] at h hb
      obtain ⟨q1, q2, q3, q4⟩ := hq q (by simp)
      have hne := hb (it.peekAny m q).2 (List.mem_cons_self ..)
      cases hres : (it.peekAny m q).2 with
      | none => exact absurd hres hne
      | some bs' =>
        obtain ⟨hit', -, -⟩ := peekAny_ok hit q q1 q2 q3 q4 hres
        apply ih _ hit' (fun x hx => hq x (by
          simp only [List.cons_append, List.mem_cons]; exact Or.inr hx)) (fun x hx => hb x (by simp [hx]))
        rw [List.getLast?_cons] at h
        cases hl : ((it.peekAny m q).1.peekAll m (before ++ [r])).getLast? with
        | none =>
          exfalso
          rw [List.getLast?_eq_none_iff] at hl
          cases before <;> simp [MemIter.peekAll] at hl
        | some y =>
          rw [hl] at h
          simp only [Option.getD_some] at h
          exact h
  exact key before _ (iterOk_init m page) hreq hbefore h

namespace ExIter
/-- 64 mapped bytes at 100. -/
def mem : Mem := fun x => if 100 ≤ x ∧ x < 164 then some (BitVec.ofNat 8 x) else none

/-- Three reads: one filling the buffer (short: 64 bytes of a page of 128), two served from it. -/
example : (MemIter.init 128).peekAll mem
    [⟨.upTo 999, 0, 4, 100⟩, ⟨.upTo 999, 0, 4, 102⟩, ⟨.upTo 999, 0, 2, 160⟩] =
    [some [100, 101, 102, 103], some [102, 103, 104, 105], some [160, 161]] := by decide +kernel

end ExIter

open ExIter in
/-- C23 is false when `pread` fails: -1 is stored in a `size_t`, passes the length check, and the
uninitialised buffer is returned as data of an address that is not even mapped. -/
theorem C23_violated_by_failed_pread :
    mem 50 = none ∧ ((MemIter.init 128).peekAll mem [⟨.upTo 999, 0, 4, 50⟩]) = [some [0, 0, 0, 0]] := by
  decide +kernel

open ExIter in
/-- C23 is false after a failed read: the base was already moved but the length was not, so the next read is
served from the wrong place.  First read: 4 bytes at 100 (fills the buffer).  Second: 8 bytes at 160, only
4 are there, fails.  Third: 2 bytes at 164, not mapped, yet reported as successfully read. -/
theorem C23_violated_after_short_read :
    mem 164 = none ∧
    ((MemIter.init 128).peekAll mem [⟨.upTo 999, 0, 4, 100⟩, ⟨.upTo 999, 0, 8, 160⟩, ⟨.upTo 999, 0, 2, 164⟩]) =
      [some [100, 101, 102, 103], none, some [104, 105]] := by
  decide +kernel

/-! ### C20 -/

/-- C20 for any breakpoint length: `code` is the set of code bytes, which the running target does not
write.  Then after the wait every code byte is what it was, provided the stop addresses are far enough
apart, a failing installation wrote nothing, and the kernel does not refuse the restoring writes. -/
theorem C20_breakpoints_removed_partial (brk : List Byte) (e : UntilEnv) (untils : List Nat) (m : Mem)
    (code : Nat → Prop)
    (hcode : ∀ u ∈ untils, u ≠ 0 → ∀ k, k < brk.length → code (u + k))
    (hrun : ∀ m' x, code x → e.run m' x = m' x)
    (hins : ∀ k, (e.install k).wlim = 0 ∨ brk.length ≤ (e.install k).wlim)
    (hres : ∀ n, brk.length ≤ e.restore n)
    (hapart : ∀ u ∈ untils, u ≠ 0 → ∀ v ∈ untils, v ≠ 0 → u = v ∨ u + brk.length ≤ v ∨ v + brk.length ≤ u) :
    ∀ x, code x → (executeUntil brk e untils m).1 x = m x := by
  intro x hx
  unfold executeUntil
  split
  · rfl
  split
  · rfl
  dsimp only
  obtain ⟨H, hsub⟩ := installBreaks_ok brk e.install m hins untils m []
    ⟨by simp, fun _ _ => rfl, fun _ => Iff.rfl⟩ hapart (by simp)
  generalize installBreaks brk e.install m [] untils = i at *
  have hm2 : ∀ y, code y → (if i.2.2 && e.sigmaskOk then e.run i.1 else i.1) y = i.1 y := by
    intro y hy
    split
    · exact hrun _ _ hy
    · rfl
  generalize (if i.2.2 && e.sigmaskOk then e.run i.1 else i.1) = m2 at *
  have hmap : ∀ b ∈ i.2.1, Mapped m2 b.1 brk.length := by
    intro b hb k hk hc
    rcases hsub b hb with h | ⟨h, h0⟩
    · simp at h
    · rw [hm2 _ (hcode b.1 h h0 k hk), H.dom] at hc
      obtain ⟨h1, h2⟩ := H.saved b hb
      rw [h2 k (by omega)] at hc
      simp at hc
  obtain ⟨r1, r2⟩ := restoreBreaks_spec e.restore brk.length m hres i.2.1 m2 0 i.2.2 H.saved hmap x
  by_cases hb : InBreaks brk.length i.2.1 x
  · exact r1 hb
  · rw [r2 hb, hm2 x hx, H.frame x hb]

/-- C20 where breakpoints are one byte long (x86-64, AArch64, LoongArch): no condition on the stop
addresses and on the failures remains, except that the kernel accepts the restoring writes. -/
theorem C20_breakpoints_removed (e : UntilEnv) (untils : List Nat) (m : Mem) (code : Nat → Prop)
    (hcode : ∀ u ∈ untils, u ≠ 0 → code u)
    (hrun : ∀ m' x, code x → e.run m' x = m' x)
    (hres : ∀ n, 1 ≤ e.restore n) :
    ∀ x, code x → (executeUntil breakInsnOther e untils m).1 x = m x := by
  apply C20_breakpoints_removed_partial breakInsnOther e untils m code
  · intro u hu h0 k hk
    have : k = 0 := by simp [breakInsnOther] at hk; exact hk
    subst this
    exact hcode u hu h0
  · exact hrun
  · intro k; simp only [breakInsnOther, List.length_singleton]; omega
  · simpa [breakInsnOther] using hres
  · intro u _ _ v _ _; simp only [breakInsnOther, List.length_singleton]; omega

namespace ExBreak
def mem : Mem := fun x => if 0x1000 ≤ x ∧ x < 0x1040 then some (BitVec.ofNat 8 x) else none
def env : UntilEnv where
  callocOk := true
  install := fun _ => ⟨100, 100⟩
  sigmaskOk := true
  run := fun m x => if x = 0x1030 then some 0xff else m x
  restore := fun _ => 100

/-- Three threads, two with the same stop address; the target modifies its data at 0x1030. -/
example : (executeUntil breakInsnOther env [0x1004, 0, 0x1008, 0x1004] mem).2 = true ∧
    (installBreaks breakInsnOther env.install mem [] [0x1004, 0, 0x1008, 0x1004]).1 0x1004 = some 0xcc ∧
    (executeUntil breakInsnOther env [0x1004, 0, 0x1008, 0x1004] mem).1 0x1004 = some 4 ∧
    (executeUntil breakInsnOther env [0x1004, 0, 0x1008, 0x1004] mem).1 0x1030 = some 0xff := by decide +kernel

end ExBreak

open ExBreak in
/-- C20 is false on RISC-V: two threads to be stopped at addresses two bytes apart (compressed
instructions).  The breakpoints overlap and are restored in the order of installation, so that two bytes of
the second breakpoint instruction stay in the code. -/
theorem C20_violated_riscv_overlap :
    (executeUntil breakInsnRiscv env [0x1004, 0x1006] mem).2 = true ∧
    mem 0x1006 = some 0x06 ∧ (executeUntil breakInsnRiscv env [0x1004, 0x1006] mem).1 0x1006 = some 0x10 := by
  decide +kernel

open ExBreak in
/-- C20 is false on RISC-V also when the write of a breakpoint is cut: the written bytes are not restored. -/
theorem C20_violated_riscv_cut_write :
    mem 0x1005 = some 0x05 ∧
    (executeUntil breakInsnRiscv { env with install := fun _ => ⟨100, 2⟩ } [0x1004] mem).1 0x1005 = some 0x00 := by
  decide +kernel

/-! ### C21 -/

/-- C21, partial: the code used for the call is restored in every outcome, the rest of the memory is what the
remote call made of it, and the registers are restored unless the call failed after the registers were
changed.  `m'` is the memory the target was in when it stopped.  Missing: failures after the registers
were set (`C21_violated_registers`). -/
theorem C21_remote_call_traceless_partial {R : Type} (e : RemoteEnv R) (base : Nat) (code : List Byte) (prepare : R → R)
    (m : Mem) (regs : R)
    (hfunc : ∀ m' r x, InRange x base code.length → ((e.func m' r).1 x = none ↔ m' x = none))
    (hw2 : code.length ≤ e.wlim2) :
    let r := executeRemote e base code prepare m regs
    (∀ x, InRange x base code.length → r.1 x = m x) ∧
    ((∀ x, ¬ InRange x base code.length → r.1 x = m x) ∨
      ∃ m', (∀ x, ¬ InRange x base code.length → m' x = m x) ∧
        ∀ x, ¬ InRange x base code.length → r.1 x = (e.func m' (prepare regs)).1 x) ∧
    (r.2.2.2 = true → r.2.1 = regs) ∧
    (e.setRegs1 = false → r.2.1 = regs) := by
  intro r
  show (∀ x, InRange x base code.length → r.1 x = m x) ∧ _
  revert r
  unfold executeRemote
  intro r
  by_cases h1 : (!e.getRegs1) = true
  · have : r = (m, regs, none, false) := by simp only [r]; rw [if_pos h1]
    rw [this]; simp
  cases hr : memRead e.rlim m base code.length with
  | none =>
    have : r = (m, regs, none, false) := by simp only [r]; rw [if_neg h1, hr]
    rw [this]; simp
  | some orig =>
    obtain ⟨ol, oh⟩ := memRead_ok _ _ _ _ _ hr
    -- restoring puts the original bytes back
    have back : ∀ m' : Mem, (∀ x, InRange x base code.length → m' x ≠ none) →
        (∀ x, InRange x base code.length → (memWrite e.wlim2 m' base orig).1 x = m x) ∧
        (∀ x, ¬ InRange x base code.length → (memWrite e.wlim2 m' base orig).1 x = m' x) := by
      intro m' hm'
      have hmap : Mapped m' base orig.length := by
        intro k hk
        exact hm' _ (by simp only [InRange]; omega)
      obtain ⟨hh, -⟩ := memWrite_ok _ _ _ _ (memWrite_full (lim := e.wlim2) (by omega) hmap)
      constructor
      · intro x hx
        simp only [InRange] at hx
        have a1 := hh (x - base) (by omega)
        have a2 := oh (x - base) (by omega)
        rw [show base + (x - base) = x by omega] at a1 a2
        rw [a1, a2]
      · intro x hx
        exact memWrite_frame _ _ _ _ _ (by rw [ol]; exact hx)
    have hmap0 : ∀ x, InRange x base code.length → m x ≠ none := by
      intro x hx hc
      simp only [InRange] at hx
      have a2 := oh (x - base) (by omega)
      rw [show base + (x - base) = x by omega, hc] at a2
      simp at a2
    have hwm : ∀ x, InRange x base code.length → (memWrite e.wlim m base code).1 x ≠ none := by
      intro x hx hc
      exact hmap0 x hx ((memWrite_dom _ _ _ _ _).mp hc)
    have hwf := memWrite_frame e.wlim m base code
    generalize hw : memWrite e.wlim m base code = w at *
    obtain ⟨b1, b2⟩ := back w.1 hwm
    have hfm : ∀ x, InRange x base code.length → (e.func w.1 (prepare regs)).1 x ≠ none := by
      intro x hx hc
      exact hwm x hx ((hfunc _ _ x hx).mp hc)
    obtain ⟨c1, c2⟩ := back (e.func w.1 (prepare regs)).1 hfm
    have late : ∀ q : Mem × R × Option R × Bool, q.1 = (memWrite e.wlim2 (e.func w.1 (prepare regs)).1 base orig).1 →
        (q.2.2.2 = true → q.2.1 = regs) → (e.setRegs1 = false → q.2.1 = regs) →
        (∀ x, InRange x base code.length → q.1 x = m x) ∧
        ((∀ x, ¬ InRange x base code.length → q.1 x = m x) ∨
          ∃ m', (∀ x, ¬ InRange x base code.length → m' x = m x) ∧
            ∀ x, ¬ InRange x base code.length → q.1 x = (e.func m' (prepare regs)).1 x) ∧
        (q.2.2.2 = true → q.2.1 = regs) ∧ (e.setRegs1 = false → q.2.1 = regs) := by
      intro q hq g1 g2
      rw [hq]
      exact ⟨c1, Or.inr ⟨w.1, hwf, c2⟩, g1, g2⟩
    by_cases h2 : (!w.2) = true
    · have : r = ((memWrite e.wlim2 w.1 base orig).1, regs, none, false) := by
        simp only [r]; rw [if_neg h1, hr]; dsimp only; rw [hw, if_pos h2]
      rw [this]
      exact ⟨b1, Or.inl fun x hx => by rw [b2 x hx, hwf x hx], by simp, by simp⟩
    by_cases h3 : (!e.setRegs1) = true
    · have : r = ((memWrite e.wlim2 w.1 base orig).1, regs, none, false) := by
        simp only [r]; rw [if_neg h1, hr]; dsimp only; rw [hw, if_neg h2, if_pos h3]
      rw [this]
      exact ⟨b1, Or.inl fun x hx => by rw [b2 x hx, hwf x hx], by simp, by simp⟩
    have hs : e.setRegs1 = true := by simpa using h3
    have hr' : r = (if (!(e.func w.1 (prepare regs)).2.2) = true then
          ((memWrite e.wlim2 (e.func w.1 (prepare regs)).1 base orig).1, (e.func w.1 (prepare regs)).2.1, none, false)
        else if (!e.getRegs2) = true then
          ((memWrite e.wlim2 (e.func w.1 (prepare regs)).1 base orig).1, (e.func w.1 (prepare regs)).2.1, none, false)
        else if (!e.setRegs2) = true then
          ((memWrite e.wlim2 (e.func w.1 (prepare regs)).1 base orig).1, (e.func w.1 (prepare regs)).2.1, none, false)
        else ((memWrite e.wlim2 (e.func w.1 (prepare regs)).1 base orig).1, regs,
          some (e.func w.1 (prepare regs)).2.1, true)) := by
      simp only [r]; rw [if_neg h1, hr]; dsimp only; rw [hw, if_neg h2, if_neg h3]
    clear_value r
    split at hr'
    · subst r; exact late _ rfl (by simp) (by simp [hs])
    split at hr'
    · subst r; exact late _ rfl (by simp) (by simp [hs])
    split at hr'
    · subst r; exact late _ rfl (by simp) (by simp [hs])
    · subst r; exact late _ rfl (by simp) (by simp [hs])

/-- C21, register half on success: the thread continues with exactly the registers it had, and the caller
gets the registers the call produced. -/
theorem C21_success_restores_registers {R : Type} (e : RemoteEnv R) (base : Nat) (code : List Byte) (prepare : R → R)
    (m : Mem) (regs : R) (h : (executeRemote e base code prepare m regs).2.2.2 = true) :
    (executeRemote e base code prepare m regs).2.1 = regs ∧
    ∃ m', (executeRemote e base code prepare m regs).2.2.1 = some (e.func m' (prepare regs)).2.1 ∧
      Holds m' base code ∧ ∀ x, ¬ InRange x base code.length → m' x = m x := by
  unfold executeRemote at *
  split at h
  · simp at h
  rename_i h1
  rw [if_neg h1]
  cases hr : memRead e.rlim m base code.length with
  | none => rw [hr] at h; simp at h
  | some orig =>
    rw [hr] at h
    dsimp only at h ⊢
    split at h
    · simp at h
    split at h
    · simp at h
    split at h
    · simp at h
    split at h
    · simp at h
    split at h
    · simp at h
    rename_i h2 h3 h4 h5 h6
    rw [if_neg h2, if_neg h3, if_neg h4, if_neg h5, if_neg h6]
    refine ⟨rfl, _, rfl, ?_, memWrite_frame _ _ _ _⟩
    exact (memWrite_ok e.wlim m base code (by simpa using h2)).1

/-- C21 is false when waiting for the end of the call fails: the code is restored, but the thread keeps the
registers prepared for the call (registers are modelled by one number here). -/
theorem C21_violated_registers :
    let e : RemoteEnv Nat := ⟨true, 9, 9, true, fun m r => (m, r, false), true, true, 9⟩
    (executeRemote e 0x1000 [0x0f, 0x05, 0xcc] (fun _ => 0x1000) ExBreak.mem 42).2.1 = 0x1000 := by
  decide +kernel

/-- A successful remote call. -/
example :
    let e : RemoteEnv Nat := ⟨true, 9, 9, true, fun m r => (m, r + 2, true), true, true, 9⟩
    (executeRemote e 0x1000 [0x0f, 0x05, 0xcc] (fun _ => 0x1000) ExBreak.mem 42).2 = (42, some 0x1002, true) := by
  decide +kernel

end Verif
