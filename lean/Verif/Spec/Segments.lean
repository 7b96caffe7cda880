import Verif.Model.Phdr
/-
Specification: the segments of a loaded ELF object as the kernel and the dynamic linker map them.
-/
namespace Verif

/-- The part of the address space `[start, start + memsz)` (link-time addresses), backed by `filesz` bytes
of the file, with the given permissions.  A `PT_LOAD` is one segment; when a `PT_GNU_RELRO` starts at
the same address the dynamic linker makes that part read-only, and two segments result. -/
inductive Segment (phdrs : List Phdr) : BitVec 64 → BitVec 64 → BitVec 64 → Nat → Prop
  | load (p) : p ∈ phdrs → p.typ = .load → (∀ r ∈ phdrs, r.typ = .relro → r.vaddr ≠ p.vaddr) →
      Segment phdrs p.vaddr p.memsz p.filesz p.flags
  | relro (r) : r ∈ phdrs → r.typ = .relro →
      Segment phdrs r.vaddr r.memsz r.filesz (r.flags - (if r.flags / 2 % 2 = 1 then 2 else 0))
  | rest (p r) : p ∈ phdrs → p.typ = .load → r ∈ phdrs → r.typ = .relro → r.vaddr = p.vaddr →
      Segment phdrs (p.vaddr + r.memsz) (p.memsz - r.memsz) (p.filesz - r.filesz) p.flags

/-- A program header table as linkers write it: some `PT_LOAD`, no two at one address, at most one
`PT_GNU_RELRO`, which is a proper initial part of a `PT_LOAD`. -/
structure WellFormedPhdrs (phdrs : List Phdr) : Prop where
  some_load : ∃ p ∈ phdrs, p.typ = .load ∧ p.vaddr ≠ BitVec.allOnes 64
  distinct : phdrs.Pairwise fun a b => a.typ = .load → b.typ = .load → a.vaddr ≠ b.vaddr
  one_relro : phdrs.countP (fun p => decide (p.typ = .relro)) ≤ 1
  relro_inside : ∀ r ∈ phdrs, r.typ = .relro → ∃ p ∈ phdrs, p.typ = .load ∧ p.vaddr = r.vaddr ∧ r.memsz < p.memsz

/-- A mapping of the target is the memory of a segment: whole pages around its file-backed part, same
permissions. -/
def Maps (page load : BitVec 64) (o : OVma) (start filesz : BitVec 64) (flags : Nat) : Prop :=
  o.inmemStart = pageDown page (start + load) ∧ o.inmemEnd = pageUp page (start + load + filesz) ∧
  prot2flags o.prot = flags % 8

end Verif
