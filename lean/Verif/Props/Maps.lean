import Verif.Proof.Maps
import Verif.Props.Objects
/-
C82: the memory map of the target is read as the kernel prints it.
-/
namespace Verif

theorem mapping_recorded {v : KVma} : v.Recorded v.mapping where
  start := rfl
  stop := rfl
  prot := (perms_facts v).2.2.2
  inode := rfl
  dev := rfl
  name := by
    unfold KVma.Called KVma.mapping
    dsimp only
    by_cases h : v.name = []
    · left
      rw [if_pos h]
      exact ⟨h, by decide +kernel⟩
    · right
      rw [if_neg h]
      by_cases hs : v.name.head? = some 47#8
      · right
        rw [if_pos hs]
        exact ⟨hs, _, lastComponent_baseName (List.mem_of_head? hs), rfl⟩
      · left
        rw [if_neg hs]
        exact ⟨h, hs, rfl⟩

theorem mapsLines_ok {vs : List KVma} {lines : List (List Byte)} {text : List Byte} (h : MapsText vs lines text) :
    (∀ v ∈ vs, v.InRange ∧ v.PlainName) → (∀ l ∈ lines, l.length ≤ 1022) → ∀ n, text.length ≤ n →
    mapsLines n text = .ok (vs.map KVma.mapping) := by
  induction h with
  | nil => intro _ _ n _; cases n <;> simp [mapsLines]
  | @cons v vs line lines text hl _ ih =>
    intro hv hlen n hn
    cases n with
    | zero => simp at hn
    | succ n =>
      have hv0 := hv v (by simp)
      unfold mapsLines
      rw [if_neg (by simp)]
      dsimp only
      rw [mapsFgets_ok (fun hc => ((hl.chars hv0.2.1).1 _ hc).2 rfl) (hlen line (by simp))]
      dsimp only
      rw [mapsLine_ok hl hv0.1 hv0.2]
      dsimp only
      rw [ih (fun w hw => hv w (by simp [hw])) (fun l hl => hlen l (by simp [hl])) n (by simp at hn; omega)]
      rfl

/-- Executable memory of a file called `libc...`. -/
def KVma.LibcCode (v : KVma) : Prop := v.executable = true ∧ ∃ rest, v.Called ("libc" ++ rest)

theorem LastComponent.unique {p a b : List Byte} (ha : LastComponent p a) (hb : LastComponent p b) : a = b := by
  obtain ⟨h1, d1, e1⟩ := ha
  obtain ⟨h2, d2, e2⟩ := hb
  rw [e1] at e2
  have : (d1 ++ 47#8 :: a).reverse.takeWhile (fun c => decide (c ≠ 47#8)) = a.reverse := by
    rw [List.reverse_append, List.reverse_cons, List.append_assoc]
    exact (takeWhile_run (by intro c hc; simp; rintro rfl; exact h1 (List.mem_reverse.1 hc)) (by simp)).1
  have h' : (d2 ++ 47#8 :: b).reverse.takeWhile (fun c => decide (c ≠ 47#8)) = b.reverse := by
    rw [List.reverse_append, List.reverse_cons, List.append_assoc]
    exact (takeWhile_run (by intro c hc; simp; rintro rfl; exact h2 (List.mem_reverse.1 hc)) (by simp)).1
  rw [← e2, this] at h'
  exact List.reverse_inj.1 h'

theorem KVma.Called.unique {v : KVma} {a b : String} (ha : v.Called a) (hb : v.Called b) : a = b := by
  rcases ha with ⟨h1, rfl⟩ | ⟨h1, h2, rfl⟩ | ⟨h1, l1, h2, rfl⟩ <;> rcases hb with ⟨g1, rfl⟩ | ⟨g1, g2, rfl⟩ | ⟨g1, l2, g2, rfl⟩
  · rfl
  · exact absurd h1 g1
  · rw [h1] at g1; simp at g1
  · exact absurd g1 h1
  · rfl
  · exact absurd g1 h2
  · rw [g1] at h1; simp at h1
  · exact absurd h1 g2
  · rw [h2.unique g2]

theorem isLibcText_iff (v : KVma) : isLibcText v.mapping = true ↔ v.LibcCode := by
  have hr := mapping_recorded (v := v)
  have hp : (v.mapping.prot / 4 % 2 == 1) = v.executable := by
    rw [hr.prot]
    cases v.readable <;> cases v.writable <;> cases v.executable <;> rfl
  unfold isLibcText KVma.LibcCode
  rw [Bool.and_eq_true, hp, List.isPrefixOf_iff_prefix]
  constructor
  · rintro ⟨⟨t, ht⟩, he⟩
    refine ⟨he, String.ofList t, ?_⟩
    have : "libc" ++ String.ofList t = v.mapping.name := by
      rw [← String.toList_inj, ← ht]; simp
    rw [this]
    exact hr.name
  · rintro ⟨he, rest, hc⟩
    refine ⟨⟨rest.toList, ?_⟩, he⟩
    rw [← hc.unique hr.name]
    simp

/-- The lists correspond, line by line. -/
def RecordedAll (vs : List KVma) (maps : List Mapping) : Prop :=
  maps.length = vs.length ∧ ∀ (i : Nat) (v : KVma), vs[i]? = some v → ∃ w : Mapping, maps[i]? = some w ∧ v.Recorded w

/-- C82: from the text of the memory map, whatever the number of its lines, the tool records of every mapping its
bounds, permissions, device, inode and name.  It takes the objects and the gaps from these, and the place for
its remote calls is the first executable mapping of a file called `libc...`; without one it fails.

Partial: names without white space of at most 255 characters, inodes below 2^32, lines that fit the buffer. -/
theorem C82_map_read_partial (page : Nat) (type : Mapping → ObjType) (vs : List KVma) (lines : List (List Byte))
    (text : List Byte) (htext : MapsText vs lines text) (hv : ∀ v ∈ vs, v.InRange ∧ v.PlainName)
    (hlen : ∀ l ∈ lines, l.length ≤ 1022) :
    ∃ maps, RecordedAll vs maps ∧
      (∀ pre v post, vs = pre ++ v :: post → v.LibcCode → (∀ w ∈ pre, ¬ w.LibcCode) →
        parseProcMaps page type text =
          .ok ⟨parseMaps type maps, parseHoles page 0 0 (vs.map fun w => (w.start, w.stop)), v.start⟩) ∧
      ((∀ w ∈ vs, ¬ w.LibcCode) → parseProcMaps page type text = .error) := by
  have hl := mapsLines_ok htext hv hlen _ (Nat.le_refl _)
  refine ⟨vs.map KVma.mapping, ⟨by simp, ?_⟩, ?_, ?_⟩
  · intro i v hi
    exact ⟨v.mapping, by rw [List.getElem?_map, hi]; rfl, mapping_recorded⟩
  · intro pre v post hvs hlc hpre
    have hf : (vs.map KVma.mapping).find? isLibcText = some v.mapping := by
      rw [List.find?_eq_some_iff_append]
      refine ⟨(isLibcText_iff v).2 hlc, pre.map KVma.mapping, post.map KVma.mapping, by rw [hvs]; simp, ?_⟩
      intro a ha
      obtain ⟨w, hw, rfl⟩ := List.mem_map.1 ha
      have := hpre w hw
      rw [← isLibcText_iff] at this
      simpa using this
    unfold parseProcMaps
    rw [hl]
    dsimp only
    rw [hf, List.map_map]
    rfl
  · intro hno
    have hf : (vs.map KVma.mapping).find? isLibcText = none := by
      rw [List.find?_eq_none]
      intro a ha
      obtain ⟨w, hw, rfl⟩ := List.mem_map.1 ha
      rw [isLibcText_iff]
      exact hno w hw
    unfold parseProcMaps
    rw [hl]
    dsimp only
    rw [hf]

/-- C82, C56: two mappings of files belong to the same object exactly when they are of the same file: same device
numbers and inode. -/
theorem C82_same_file_partial (type : Mapping → ObjType) (vs : List KVma) (maps : List Mapping)
    (hrec : RecordedAll vs maps) (hv : ∀ v ∈ vs, v.InRange) (M : MapsOk type maps) (i j : Nat) (v w : KVma) (v' w' : Mapping)
    (hvi : vs[i]? = some v) (hwj : vs[j]? = some w) (hv' : maps[i]? = some v') (hw' : maps[j]? = some w')
    (hdv : ¬ (v.maj = 0 ∧ v.min = 0)) (hdw : ¬ (w.maj = 0 ∧ w.min = 0)) (hi : v.inode ≠ 0) :
    (∃ o ∈ parseMaps type maps, v' ∈ o.vmas ∧ w' ∈ o.vmas) ↔ v.maj = w.maj ∧ v.min = w.min ∧ v.inode = w.inode := by
  obtain ⟨x, hx, rv⟩ := hrec.2 i v hvi
  obtain ⟨y, hy, rw'⟩ := hrec.2 j w hwj
  rw [hv'] at hx
  cases hx
  rw [hw'] at hy
  cases hy
  have hvr := hv v (List.mem_of_getElem? hvi)
  have hwr := hv w (List.mem_of_getElem? hwj)
  have hdv' : v'.dev ≠ 0 := fun h => hdv (makedev_zero (by rw [← rv.dev]; exact h))
  have hdw' : w'.dev ≠ 0 := fun h => hdw (makedev_zero (by rw [← rw'.dev]; exact h))
  have hvm : v' ∈ maps := List.mem_of_getElem? hv'
  have hwm : w' ∈ maps := List.mem_of_getElem? hw'
  constructor
  · rintro ⟨o, ho, hvo, hwo⟩
    have G := parseMaps_grouped M
    cases hp : o.isPatch with
    | true =>
      obtain ⟨_, _, u, hu, hty⟩ := G.patch o ho hp
      rw [hu] at hvo
      simp only [List.mem_singleton] at hvo
      subst hvo
      exact absurd (M.anon _ hvm _ hty) hdv'
    | false =>
      have h1 := (G.plain o ho hp v' hvo).2 hdv'
      have h2 := (G.plain o ho hp w' hwo).2 hdw'
      have hd : makedev v.maj v.min = makedev w.maj w.min := by rw [← rv.dev, ← rw'.dev, ← h1.1, h2.1]
      obtain ⟨e1, e2⟩ := makedev_inj hvr.maj hvr.min hwr.maj hwr.min hd
      exact ⟨e1, e2, by rw [← rv.inode, ← rw'.inode, ← h1.2, h2.2]⟩
  · rintro ⟨e1, e2, e3⟩
    refine (C56_mappings_grouped type maps M).2.2.1 v' hvm w' hwm hdv' ?_ ?_ ?_
    · rw [rv.inode]; exact hi
    · rw [rv.dev, rw'.dev, e1, e2]
    · rw [rv.inode, rw'.inode, e3]

/-! ### A memory map -/
namespace ExMaps

def prog : KVma := ⟨0x555500000000, 0x555500001000, true, false, true, false, 0, 8, 1, 11, lit "/usr/bin/prog"⟩
def heap : KVma := ⟨0x555500100000, 0x555500121000, true, true, false, false, 0, 0, 0, 0, lit "[heap]"⟩
def libc : KVma := ⟨0x7f0000000000, 0x7f0000180000, true, false, true, false, 0x26000, 8, 1, 12, lit "/lib64/libc.so.6"⟩
def anon : KVma := ⟨0x7f0000200000, 0x7f0000203000, true, true, false, false, 0, 0, 0, 0, []⟩

def line1 : List Byte := lit "555500000000-555500001000 r-xp 00000000 08:01 11                         /usr/bin/prog"
def line2 : List Byte := lit "555500100000-555500121000 rw-p 00000000 00:00 0                          [heap]"
def line3 : List Byte := lit "7f0000000000-7f0000180000 r-xp 00026000 08:01 12                         /lib64/libc.so.6"
def line4 : List Byte := lit "7f0000200000-7f0000203000 rw-p 00000000 00:00 0 "
def text : List Byte := line1 ++ 10#8 :: (line2 ++ 10#8 :: (line3 ++ 10#8 :: (line4 ++ 10#8 :: [])))

/-- The digits of a number, most significant first. -/
def digits (ds : List Nat) : List Byte := ds.map fun d => lowerDigits.getD d 0#8

theorem numeral {base : Nat} (hb : base ≤ 16) : ∀ (ds : List Nat), ds ≠ [] → (∀ d ∈ ds, d < base) →
    Numeral base (digits ds) (ds.foldl (fun n d => base * n + d) 0) := by
  have hlen : lowerDigits.length = 16 := by decide +kernel
  have get : ∀ d, d < 16 → lowerDigits[d]? = some (lowerDigits.getD d 0#8) := by
    intro d hd
    rw [List.getD_eq_getElem?_getD, List.getElem?_eq_getElem (by omega)]
    rfl
  intro ds
  suffices H : ∀ (r : List Nat), r ≠ [] → (∀ d ∈ r, d < base) →
      Numeral base (digits r.reverse) (r.reverse.foldl (fun n d => base * n + d) 0) by
    intro hne h
    have := H ds.reverse (by simpa using hne) (by simpa using h)
    rwa [List.reverse_reverse] at this
  intro r
  induction r with
  | nil => intro h; exact absurd rfl h
  | cons d r ih =>
    intro _ h
    have hd := h d (by simp)
    rw [List.reverse_cons, List.foldl_append]
    unfold digits
    rw [List.map_append]
    by_cases hr : r = []
    · subst hr
      simp only [List.reverse_nil, List.map_nil, List.nil_append, List.foldl_nil, List.foldl_cons, Nat.mul_zero, Nat.zero_add,
        List.map_cons]
      exact Numeral.digit hd (get d (by omega))
    · exact Numeral.snoc (ih hr (fun x hx => h x (by simp [hx]))) hd (get d (by omega))

theorem num {base : Nat} {s : List Byte} {v : Nat} (ds : List Nat) (hb : base ≤ 16) (hne : ds ≠ []) (h : ∀ d ∈ ds, d < base)
    (hs : s = digits ds) (hv : v = ds.foldl (fun n d => base * n + d) 0) : Numeral base s v := by
  subst hs; subst hv; exact numeral hb ds hne h

/-- A line from its digits. -/
theorem line {v : KVma} {l : List Byte} (a b o mj mn ino : List Nat) (k : Nat)
    (ha : a ≠ [] ∧ (∀ d ∈ a, d < 16) ∧ v.start = a.foldl (fun n d => 16 * n + d) 0)
    (hb : b ≠ [] ∧ (∀ d ∈ b, d < 16) ∧ v.stop = b.foldl (fun n d => 16 * n + d) 0)
    (ho : o ≠ [] ∧ (∀ d ∈ o, d < 16) ∧ v.offset = o.foldl (fun n d => 16 * n + d) 0)
    (hmj : mj ≠ [] ∧ (∀ d ∈ mj, d < 16) ∧ v.maj = mj.foldl (fun n d => 16 * n + d) 0)
    (hmn : mn ≠ [] ∧ (∀ d ∈ mn, d < 16) ∧ v.min = mn.foldl (fun n d => 16 * n + d) 0)
    (hi : ino ≠ [] ∧ (∀ d ∈ ino, d < 10) ∧ v.inode = ino.foldl (fun n d => 10 * n + d) 0)
    (hl : l = digits a ++ 45#8 :: digits b ++ 32#8 :: v.perms ++ 32#8 :: digits o ++ 32#8 :: digits mj ++ 58#8 :: digits mn ++
      32#8 :: digits ino ++ 32#8 :: List.replicate k 32#8 ++ v.name) : v.Line l :=
  ⟨_, _, _, _, _, _, k, num a (by decide) ha.1 ha.2.1 rfl ha.2.2, num b (by decide) hb.1 hb.2.1 rfl hb.2.2,
    num o (by decide) ho.1 ho.2.1 rfl ho.2.2, num mj (by decide) hmj.1 hmj.2.1 rfl hmj.2.2,
    num mn (by decide) hmn.1 hmn.2.1 rfl hmn.2.2, num ino (by decide) hi.1 hi.2.1 rfl hi.2.2, hl⟩

theorem isText : MapsText [prog, heap, libc, anon] [line1, line2, line3, line4] text := by
  refine .cons (line [5,5,5,5,0,0,0,0,0,0,0,0] [5,5,5,5,0,0,0,0,1,0,0,0] [0,0,0,0,0,0,0,0] [0,8] [0,1] [1,1] 24 ?_ ?_ ?_ ?_ ?_ ?_ ?_) <|
    .cons (line [5,5,5,5,0,0,1,0,0,0,0,0] [5,5,5,5,0,0,1,2,1,0,0,0] [0,0,0,0,0,0,0,0] [0,0] [0,0] [0] 25 ?_ ?_ ?_ ?_ ?_ ?_ ?_) <|
    .cons (line [7,15,0,0,0,0,0,0,0,0,0,0] [7,15,0,0,0,0,1,8,0,0,0,0] [0,0,0,2,6,0,0,0] [0,8] [0,1] [1,2] 24 ?_ ?_ ?_ ?_ ?_ ?_ ?_) <|
    .cons (line [7,15,0,0,0,0,2,0,0,0,0,0] [7,15,0,0,0,0,2,0,3,0,0,0] [0,0,0,0,0,0,0,0] [0,0] [0,0] [0] 0 ?_ ?_ ?_ ?_ ?_ ?_ ?_) .nil
  all_goals decide +kernel

instance (v : KVma) : Decidable v.InRange :=
  decidable_of_iff (v.start < 2 ^ 64 ∧ v.stop < 2 ^ 64 ∧ v.maj < 2 ^ 32 ∧ v.min < 2 ^ 32 ∧ v.inode < 2 ^ 32)
    ⟨fun ⟨a, b, c, d, e⟩ => ⟨a, b, c, d, e⟩, fun ⟨a, b, c, d, e⟩ => ⟨a, b, c, d, e⟩⟩
instance (v : KVma) : Decidable v.PlainName := by unfold KVma.PlainName; infer_instance

theorem libcCode : libc.LibcCode := (isLibcText_iff libc).1 (by decide +kernel)
theorem notLibc : ∀ w ∈ [prog, heap], ¬ w.LibcCode := by
  intro w hw
  simp only [List.mem_cons, List.not_mem_nil, or_false] at hw
  rw [← isLibcText_iff]
  rcases hw with rfl | rfl <;> decide +kernel

/-- A line of a mapping of eight bytes of `libc`, for the witnesses. -/
def wl (ino : List Nat) (path : List Byte) : List Byte :=
  lit "1000-2000 r-xp 0 8:1 " ++ digits ino ++ 32#8 :: path
def wv (inode : Nat) (path : List Byte) : KVma := ⟨0x1000, 0x2000, true, false, true, false, 0, 8, 1, inode, path⟩

theorem wline (ino : List Nat) (path : List Byte) (hi : ino ≠ [] ∧ ∀ d ∈ ino, d < 10) :
    (wv (ino.foldl (fun n d => 10 * n + d) 0) path).Line (wl ino path) := by
  refine line [1, 0, 0, 0] [2, 0, 0, 0] [0] [8] [1] ino 0 ⟨by decide, by decide, rfl⟩ ⟨by decide, by decide, rfl⟩
    ⟨by decide, by decide, rfl⟩ ⟨by decide, by decide, rfl⟩ ⟨by decide, by decide, rfl⟩ ⟨hi.1, hi.2, rfl⟩ ?_
  unfold wl
  rw [show lit "1000-2000 r-xp 0 8:1 " = digits [1, 0, 0, 0] ++ 45#8 :: digits [2, 0, 0, 0] ++ 32#8 ::
    [114#8, 45#8, 120#8, 112#8] ++ 32#8 :: digits [0] ++ 32#8 :: digits [8] ++ 58#8 :: digits [1] ++ [32#8] by decide +kernel]
  simp [wv, KVma.perms, List.append_assoc]

end ExMaps

/-- The hypotheses of C82 are met by the map of a small process; the place for remote calls is the code of the
C library. -/
example : ∃ maps, RecordedAll [ExMaps.prog, ExMaps.heap, ExMaps.libc, ExMaps.anon] maps ∧
    parseProcMaps 0x1000 (fun _ => .unknown) ExMaps.text = .ok ⟨parseMaps (fun _ => .unknown) maps,
      [⟨0, 0x1000, 0x5554fffff000⟩, ⟨1, 0x555500002000, 0x5555000ff000⟩, ⟨2, 0x555500122000, 0x7efffffff000⟩,
       ⟨3, 0x7f0000181000, 0x7f00001ff000⟩], 0x7f0000000000⟩ := by
  obtain ⟨maps, hr, h, _⟩ := C82_map_read_partial 0x1000 (fun _ => .unknown) _ _ _ ExMaps.isText
    (by
      intro v hv
      simp only [List.mem_cons, List.not_mem_nil, or_false] at hv
      rcases hv with rfl | rfl | rfl | rfl <;> decide +kernel) (by decide +kernel)
  refine ⟨maps, hr, ?_⟩
  have hh : parseHoles 0x1000 0 0 ([ExMaps.prog, ExMaps.heap, ExMaps.libc, ExMaps.anon].map fun w => (w.start, w.stop)) =
      [⟨0, 0x1000, 0x5554fffff000⟩, ⟨1, 0x555500002000, 0x5555000ff000⟩, ⟨2, 0x555500122000, 0x7efffffff000⟩,
       ⟨3, 0x7f0000181000, 0x7f00001ff000⟩] := by decide +kernel
  rw [h [ExMaps.prog, ExMaps.heap] ExMaps.libc [ExMaps.anon] rfl ExMaps.libcCode ExMaps.notLibc, hh]
  rfl

/-- C82 is violated by names with blanks: a process whose C library is in a directory `my env` has the executable
mapping of `libc.so.6`, and the tool fails because it does not find it. -/
theorem C82_violated_blank :
    ∃ (v : KVma) (line : List Byte), v.Line line ∧ v.InRange ∧ v.name.length ≤ 255 ∧ line.length ≤ 1022 ∧ v.LibcCode ∧
      parseProcMaps 0x1000 (fun _ => .elf) (line ++ [10#8]) = .error :=
  ⟨_, _, ExMaps.wline [1, 2] (lit "/opt/my env/libc.so.6") (by decide), by decide +kernel, by decide +kernel, by decide +kernel,
    (isLibcText_iff _).1 (by decide +kernel), by decide +kernel⟩

/-- C82 is violated by names of more than 255 characters, which are cut, so that a directory is taken for the
file. -/
theorem C82_violated_long_name :
    ∃ (v : KVma) (line : List Byte), v.Line line ∧ v.InRange ∧ (∀ c ∈ v.name, isSpace c = false) ∧ line.length ≤ 1022 ∧
      v.LibcCode ∧ parseProcMaps 0x1000 (fun _ => .elf) (line ++ [10#8]) = .error :=
  ⟨_, _, ExMaps.wline [1, 2] (47#8 :: List.replicate 250 122#8 ++ lit "/libc.so.6") (by decide), by decide +kernel,
    by decide +kernel, by decide +kernel, (isLibcText_iff _).1 (by decide +kernel), by decide +kernel⟩

/-- C82 is violated by inodes that do not fit 32 bits: two files whose inodes differ by 2^32 are taken for one
object. -/
theorem C82_violated_inode :
    ∃ (v w : KVma) (l1 l2 : List Byte) (r : ProcMaps), v.Line l1 ∧ w.Line l2 ∧ v.PlainName ∧ w.PlainName ∧ v.inode ≠ w.inode ∧
      v.name ≠ w.name ∧ parseProcMaps 0x1000 (fun _ => .elf) (l1 ++ 10#8 :: (l2 ++ [10#8])) = .ok r ∧ r.objs.length = 1 := by
  refine ⟨_, _, _, _, ⟨[⟨makedev 8 1, 12, "libc.so.6", [⟨0x1000, 0x2000, 5, makedev 8 1, 12, "libc.so.6"⟩,
      ⟨0x3000, 0x4000, 5, makedev 8 1, 12, "libm.so.6"⟩], false, true, []⟩], [], 0x1000⟩,
    ExMaps.wline [1, 2] (lit "/lib64/libc.so.6") (by decide),
    ExMaps.line (v := ⟨0x3000, 0x4000, true, false, true, false, 0, 8, 1, 4294967308, lit "/lib64/libm.so.6"⟩)
      [3, 0, 0, 0] [4, 0, 0, 0] [0] [8] [1] [4, 2, 9, 4, 9, 6, 7, 3, 0, 8] 0 ⟨by decide, by decide, rfl⟩
      ⟨by decide, by decide, rfl⟩ ⟨by decide, by decide, rfl⟩ ⟨by decide, by decide, rfl⟩ ⟨by decide, by decide, rfl⟩
      ⟨by decide, by decide, rfl⟩ rfl, by decide +kernel, by decide +kernel, by decide +kernel, by decide +kernel, ?_, ?_⟩
  · decide +kernel
  · rfl

/-- C82 is violated by lines of more than 1023 characters: the rest of the line is read as a line of its own, and
variables that were not set are used. -/
theorem C82_violated_long_line :
    ∃ (v : KVma) (line : List Byte), v.Line line ∧ v.InRange ∧ (∀ c ∈ v.name, isSpace c = false) ∧ v.name.length < 4096 ∧
      v.LibcCode ∧ parseProcMaps 0x1000 (fun _ => .elf) (line ++ [10#8]) = .undefined :=
  ⟨_, _, ExMaps.wline [1, 2] (47#8 :: List.replicate 1000 122#8 ++ lit "/libc.so.6") (by decide), by decide +kernel,
    by decide +kernel, by decide +kernel, (isLibcText_iff _).1 (by decide +kernel), by decide +kernel⟩

end Verif
