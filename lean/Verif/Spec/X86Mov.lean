import Verif.Model.Kpstr
/-
What the x86-64 assembler and processor do with the text of a few instructions: moves between registers, memory and
constants, push and pop.  AT&T syntax, one instruction per line.  Nothing here depends on the program under test; only
`Byte` and `lit` (the bytes of a string) are shared with the model.
-/
namespace Verif.X86

/-- Registers by hardware number (rax 0, rcx 1, rdx 2, rbx 3, rsp 4, ...) and memory. -/
structure State where
  reg : Nat → BitVec 64
  mem : BitVec 64 → Byte

/-- What the assembler, linker and loader decide: the addresses of symbols, the addresses of their slots in the global
offset table, the values of constants. -/
structure Link where
  addr : List Byte → BitVec 64
  slot : List Byte → BitVec 64
  const : List Byte → BitVec 64

/-- `n` bytes of memory as a little-endian number. -/
def load (m : BitVec 64 → Byte) (a : BitVec 64) : Nat → Nat
  | 0 => 0
  | n + 1 => (m a).toNat + 256 * load m (a + 1) n

/-- The `n` low bytes of a number stored at an address, little-endian. -/
def store (m : BitVec 64 → Byte) (a : BitVec 64) (n : Nat) (v : BitVec 64) : BitVec 64 → Byte :=
  fun x => if (x - a).toNat < n then (v >>> (8 * (x - a).toNat)).setWidth 8 else m x

def names64 : List (List Byte) :=
  [lit "%rax", lit "%rcx", lit "%rdx", lit "%rbx", lit "%rsp", lit "%rbp", lit "%rsi", lit "%rdi", lit "%r8", lit "%r9",
   lit "%r10", lit "%r11", lit "%r12", lit "%r13", lit "%r14", lit "%r15"]

def names32 : List (List Byte) :=
  [lit "%eax", lit "%ecx", lit "%edx", lit "%ebx", lit "%esp", lit "%ebp", lit "%esi", lit "%edi", lit "%r8d", lit "%r9d",
   lit "%r10d", lit "%r11d", lit "%r12d", lit "%r13d", lit "%r14d", lit "%r15d"]

def names16 : List (List Byte) :=
  [lit "%ax", lit "%cx", lit "%dx", lit "%bx", lit "%sp", lit "%bp", lit "%si", lit "%di", lit "%r8w", lit "%r9w",
   lit "%r10w", lit "%r11w", lit "%r12w", lit "%r13w", lit "%r14w", lit "%r15w"]

def names8 : List (List Byte) :=
  [lit "%al", lit "%cl", lit "%dl", lit "%bl", lit "%spl", lit "%bpl", lit "%sil", lit "%dil", lit "%r8b", lit "%r9b",
   lit "%r10b", lit "%r11b", lit "%r12b", lit "%r13b", lit "%r14b", lit "%r15b"]

/-- `%ah`, `%ch`, `%dh`, `%bh`: bits 8 to 15 of the first four registers. -/
def namesHigh : List (List Byte) := [lit "%ah", lit "%ch", lit "%dh", lit "%bh"]

/-- A part of a register: its number, the first bit and the number of bytes. -/
structure Part where
  num : Nat
  shift : Nat
  size : Nat
deriving DecidableEq

def partOf (t : List Byte) : Option Part :=
  match names64.idxOf? t, names32.idxOf? t, names16.idxOf? t, names8.idxOf? t, namesHigh.idxOf? t with
  | some i, _, _, _, _ => some ⟨i, 0, 8⟩
  | _, some i, _, _, _ => some ⟨i, 0, 4⟩
  | _, _, some i, _, _ => some ⟨i, 0, 2⟩
  | _, _, _, some i, _ => some ⟨i, 0, 1⟩
  | _, _, _, _, some i => some ⟨i, 8, 1⟩
  | _, _, _, _, _ => none

/-- An operand: a constant `$c`, a register, memory at a symbol plus offset, memory at the slot of a symbol plus offset,
memory at the address in a register. -/
inductive Operand where
  | const (c : List Byte)
  | reg (p : Part)
  | sym (name : List Byte) (off : Nat)
  | got (name : List Byte) (off : Nat)
  | ind (r : Nat)
deriving DecidableEq

/-- Everything before a suffix. -/
def before (suf t : List Byte) : Option (List Byte) :=
  if suf.isSuffixOf t then some (t.take (t.length - suf.length)) else none

/-- `name` or `name+number`, the name without `@`. -/
def nameOff (t : List Byte) : Option (List Byte × Nat) :=
  let n := t.takeWhile fun c => c ≠ 43#8
  if 64#8 ∈ n then none
  else match t.drop n.length with
  | [] => some (n, 0)
  | _ :: d =>
    if d ≠ [] ∧ d.all (fun c => 48 ≤ c.toNat && c.toNat ≤ 57) then
      some (n, d.foldl (fun a c => 10 * a + (c.toNat - 48)) 0)
    else none

def operand (t : List Byte) : Option Operand :=
  match t with
  | 36#8 :: c => some (.const c)
  | 37#8 :: _ => (partOf t).map .reg
  | 40#8 :: r => (before (lit ")") r).bind fun r => (names64.idxOf? r).map .ind
  | _ =>
    (before (lit "(%rip)") t).bind fun e =>
      match before (lit "@GOTPCREL") e with
      | some g => (nameOff g).map fun (n, o) => .got n o
      | none => (nameOff e).map fun (n, o) => .sym n o

/-- The address of an operand in memory. -/
def Operand.address (L : Link) (s : State) : Operand → Option (BitVec 64)
  | .sym n o => some (L.addr n + BitVec.ofNat 64 o)
  | .got n o => some (L.slot n + BitVec.ofNat 64 o)
  | .ind r => some (s.reg r)
  | _ => none

/-- The low `n` bytes of an operand. -/
def Operand.value (L : Link) (s : State) (n : Nat) (o : Operand) : Option Nat :=
  match o with
  | .const c => some ((L.const c).toNat % 256 ^ n)
  | .reg p => if p.size = n then some (((s.reg p.num).toNat >>> p.shift) % 256 ^ n) else none
  | o => (o.address L s).map fun a => load s.mem a n

/-- A part of a register gets a value.  Writing 32 bits clears the upper half, writing 8 or 16 bits keeps the rest. -/
def State.setPart (s : State) (p : Part) (v : BitVec 64) : State :=
  let old := s.reg p.num
  let new :=
    if p.size = 8 then v
    else if p.size = 4 then v &&& 0xffffffff#64
    else
      let mask := (BitVec.ofNat 64 (256 ^ p.size - 1)) <<< p.shift
      (old &&& ~~~mask) ||| ((v <<< p.shift) &&& mask)
  { s with reg := fun i => if i = p.num then new else s.reg i }

/-- What follows `mov`: sizes of source and destination, with sign extension or not.  Plain `mov` has the size of its
register and needs one. -/
def flavor (f : List Byte) (regSize : Nat) : Option (Nat × Nat × Bool) :=
  if f = [] then (if regSize = 0 then none else some (regSize, regSize, false))
  else if f = lit "b" then some (1, 1, false)
  else if f = lit "w" then some (2, 2, false)
  else if f = lit "l" then some (4, 4, false)
  else if f = lit "q" then some (8, 8, false)
  else if f = lit "zbw" then some (1, 2, false)
  else if f = lit "zbl" then some (1, 4, false)
  else if f = lit "zbq" then some (1, 8, false)
  else if f = lit "zwl" then some (2, 4, false)
  else if f = lit "zwq" then some (2, 8, false)
  else if f = lit "sbw" then some (1, 2, true)
  else if f = lit "sbl" then some (1, 4, true)
  else if f = lit "sbq" then some (1, 8, true)
  else if f = lit "swl" then some (2, 4, true)
  else if f = lit "swq" then some (2, 8, true)
  else if f = lit "slq" then some (4, 8, true)
  else none

/-- The moves known here. -/
def flavors : List (List Byte) :=
  [lit "", lit "b", lit "w", lit "l", lit "q", lit "zbw", lit "zbl", lit "zbq", lit "zwl", lit "zwq", lit "sbw", lit "sbl",
   lit "sbq", lit "swl", lit "swq", lit "slq"]

/-- `n` bytes as a 64-bit value, with sign extension or not. -/
def widen (n : Nat) (sign : Bool) (v : Nat) : BitVec 64 :=
  if sign && decide (256 ^ n / 2 ≤ v) then BitVec.ofNat 64 (v + (256 ^ 8 - 256 ^ n)) else BitVec.ofNat 64 v

def Operand.regSize : Operand → Nat
  | .reg p => p.size
  | _ => 0

/-- `movf src, dst`.  `none`: not an instruction. -/
def mov (L : Link) (f : List Byte) (src dst : Operand) (s : State) : Option State :=
  (flavor f (max src.regSize dst.regSize)).bind fun (n, m, sign) =>
    (src.value L s n).bind fun v =>
      match dst with
      | .reg p => if p.size = m then some (s.setPart p (widen n sign v)) else none
      | d =>
        if n = m then
          match src with
          | .const _ | .reg _ => (d.address L s).map fun a => { s with mem := store s.mem a n (BitVec.ofNat 64 v) }
          | _ => none
        else none

/-- `pushq` of a 64-bit register. -/
def push (o : Operand) (s : State) : Option State :=
  match o with
  | .reg ⟨r, 0, 8⟩ =>
    some { reg := fun i => if i = 4 then s.reg 4 - 8 else s.reg i, mem := store s.mem (s.reg 4 - 8) 8 (s.reg r) }
  | _ => none

/-- `popq` of a 64-bit register. -/
def pop (o : Operand) (s : State) : Option State :=
  match o with
  | .reg ⟨r, 0, 8⟩ =>
    some { s with reg := fun i => if i = r then BitVec.ofNat 64 (load s.mem (s.reg 4) 8)
                                  else if i = 4 then s.reg 4 + 8 else s.reg i }
  | _ => none

def isGap (c : Byte) : Bool := c = 32#8 || c = 9#8

/-- One line: blanks, mnemonic, blanks, operands separated by a comma. -/
def step (L : Link) (line : List Byte) (s : State) : Option State :=
  let t := line.dropWhile isGap
  let m := t.takeWhile fun c => !isGap c
  let o := (t.dropWhile fun c => !isGap c).dropWhile isGap
  let a := o.takeWhile fun c => c ≠ 44#8
  let b := ((o.dropWhile fun c => c ≠ 44#8).drop 1).dropWhile isGap
  if m = lit "pushq" then (operand o).bind (push · s)
  else if m = lit "popq" then (operand o).bind (pop · s)
  else if m.take 3 = lit "mov" then
    (operand a).bind fun src => (operand b).bind fun dst => mov L (m.drop 3) src dst s
  else none

/-- The lines of a text. -/
def lines (t : List Byte) : List (List Byte) :=
  t.foldr (fun c ls => if c = 10#8 then [] :: ls else
    match ls with
    | [] => [[c]]
    | l :: ls => (c :: l) :: ls) [[]]

/-- The instructions of a text, one after the other.  `none`: the assembler rejects the text. -/
def run (L : Link) (text : List Byte) (s : State) : Option State := (lines text).foldlM (fun s l => step L l s) s

/-- The name of a symbol: letters, digits, `_`, `.` and `$`-free, not a local label `.L...`. -/
def IsSymbol (n : List Byte) : Prop :=
  n ≠ [] ∧ (∀ c ∈ n, c = 95#8 ∨ c = 46#8 ∨ (48 ≤ c.toNat ∧ c.toNat ≤ 57) ∨ (65 ≤ c.toNat ∧ c.toNat ≤ 90) ∨
    (97 ≤ c.toNat ∧ c.toNat ≤ 122)) ∧ ¬ (lit ".L") <+: n

/-- The loader has put the address of the symbol into its slot. -/
def SlotFilled (L : Link) (s : State) (n : List Byte) : Prop := load s.mem (L.slot n) 8 = (L.addr n).toNat

/-- A source that is not in memory: a register or a constant `$...` without blanks, commas, quotes and parentheses. -/
def IsSource (t : List Byte) : Prop :=
  t ∈ names64 ++ names32 ++ names16 ++ names8 ++ namesHigh ∨
  ∃ c, t = 36#8 :: c ∧ ∀ b ∈ c, b ≠ 32#8 ∧ b ≠ 9#8 ∧ b ≠ 44#8 ∧ b ≠ 10#8 ∧ b ≠ 34#8 ∧ b ≠ 40#8

/-- `x` is one of the `n` bytes from `a` on. -/
def In (x a : BitVec 64) (n : Nat) : Prop := (x - a).toNat < n

/-- No byte belongs to both ranges. -/
def Apart (a : BitVec 64) (n : Nat) (b : BitVec 64) (m : Nat) : Prop := ∀ x, ¬ (In x a n ∧ In x b m)

/-- The text of a move from or to a variable. -/
def loadText (f n r : List Byte) : List Byte := lit "\tmov" ++ f ++ lit "\t" ++ n ++ lit "(%rip), " ++ r

def storeText (f a n : List Byte) : List Byte := lit "\tmov" ++ f ++ lit "\t" ++ a ++ lit ", " ++ n ++ lit "(%rip)"

end Verif.X86
