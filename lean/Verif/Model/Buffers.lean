import Verif.Model.BuildId
import Verif.Model.Daemon
import Verif.Model.Gensrc
import Verif.Model.Gotpcrel
/-
The arrays of fixed size that names and texts are assembled in, byte by byte in memory: `src/kpatch_storage.c`, `src/kpatch_elf.c`,
`src/kpatch_gensrc.c`, `src/kpatch_cc.c`, `src/libcare-server.c` and `src/libcare-client.c`.  A C string is the list of its bytes
without the NUL.
-/
namespace Verif

/-- The memory of the tool itself: a byte at each address.  Writes to addresses that are not mapped are not told apart from
others.  No source of its own; used for example at `src/kpatch_storage.c:202`. -/
abbrev CMem := Nat → Byte

/-- Writing bytes from the address `a` on.  No source of its own; used for example at `src/kpatch_storage.c:202`. -/
def putAt (m : CMem) (a : Nat) (bs : List Byte) : CMem := fun x => if x < a then m x else (bs[x - a]?).getD (m x)

/-- `strcpy`, and `sprintf` of a text: the bytes and the NUL.  C library; used at `src/kpatch_storage.c:310`. -/
def strcpyAt (m : CMem) (a : Nat) (s : List Byte) : CMem := putAt m a (s ++ [0#8])

/-- `strncpy`: `n` bytes, those of the string and then NULs.  C library; used at `src/libcare-server.c:94`. -/
def strncpyAt (m : CMem) (a : Nat) (s : List Byte) (n : Nat) : CMem := putAt m a (s.take n ++ List.replicate (n - s.length) 0#8)

/-- `snprintf`: at most `n` bytes, the last one NUL; `n` is not 0.  C library; used at `src/kpatch_cc.c:1113`. -/
def snprintfAt (m : CMem) (a : Nat) (s : List Byte) (n : Nat) : CMem := putAt m a (s.take (n - 1) ++ [0#8])

/-- `sizeof(sockaddr.sun_path)` on Linux.  `src/libcare-server.c:220`, `src/libcare-client.c:43`. -/
def sunPathSize : Nat := 108

/-- `sprintf(fname, pathtemplates[i], buildid)`; `latest`: the first template.  `src/kpatch_storage.c:165-168`, `197-202`
(storage_open_patch), `236-243` (storage_stat_patch). -/
def storageNameAt (m : CMem) (fname : Nat) (latest : Bool) (buildid : List Byte) : CMem :=
  strcpyAt m fname (buildid ++ if latest then lit "/latest/kpatch.bin" else lit ".kpatch")

/-- `strcpy(patch->buildid, buildid)`.  `src/kpatch_storage.c:310` (storage_get_patch). -/
def cacheIdAt (m : CMem) (field : Nat) (buildid : List Byte) : CMem := strcpyAt m field buildid

/-- `strncpy(storage->patch.buildid, .., KPATCH_BUILDID_LEN)` and the NUL after it.  `src/kpatch_storage.c:117-120`
(kpatch_storage_init). -/
def singleIdAt (m : CMem) (field : Nat) (id : List Byte) : CMem := putAt (strncpyAt m field id 40) (field + 40) [0#8]

/-- `for (i = 0; i < KPATCH_BUILDID_LEN; i+=2, data++) sprintf(o->buildid + i, "%02hhx", *data)` from the index `i` on, for the
bytes that are left.  `src/kpatch_elf.c:148-149` (kpatch_get_buildid). -/
def hexIdAt (m : CMem) (field i : Nat) : List Byte → CMem
  | [] => m
  | b :: bs => hexIdAt (strcpyAt m (field + i) [hexDigit (b.toNat / 16), hexDigit (b.toNat % 16)]) field (i + 2) bs

/-- `sprintf(pathbuf, "%s/%s", storage->path, name)`.  `src/kpatch_storage.c:478-483` (storage_execute_script). -/
def scriptPathAt (m : CMem) (pathbuf : Nat) (path name : List Byte) : CMem := strcpyAt m pathbuf (path ++ [47#8] ++ name)

/-- `%d` of an int.  C library; used at `src/kpatch_storage.c:490`. -/
def intText (v : Int) : List Byte := if v < 0 then 45#8 :: decText v.natAbs else decText v.natAbs

/-- `sprintf(pidbuf, "%d", proc->pid)`.  `src/kpatch_storage.c:490` (storage_execute_script). -/
def pidTextAt (m : CMem) (pidbuf : Nat) (pid : Int) : CMem := strcpyAt m pidbuf (intText pid)

/-- `strncpy(storage_dir, argv[1], PATH_MAX - 1)`.  `src/libcare-server.c:94` (cmd_storage). -/
def storageCmdAt (m : CMem) (dir : Nat) (arg : List Byte) : CMem := strncpyAt m dir arg (pathMax - 1)

/-- `strcpy(storage_dir, argv[1])`.  `src/libcare-server.c:286-287` (cmd_server). -/
def serverDirAt (m : CMem) (dir : Nat) (arg : List Byte) : CMem := strcpyAt m dir arg

/-- The name of the socket in `sockaddr.sun_path`, which is NULs before; `none`: refused.  `src/libcare-server.c:217-227`
(server_bind_socket). -/
def serverSunAt (m : CMem) (sun : Nat) (path : List Byte) : Option CMem :=
  if path.length + 1 ≥ sunPathSize then none
  else
    let m1 := strncpyAt m sun path sunPathSize
    some (if path.head? = some 64#8 then putAt m1 sun [0#8] else m1)

/-- `strncpy(sockaddr.sun_path, sockpath, sizeof(sockaddr.sun_path) - 1)`.  `src/libcare-client.c:43` (main). -/
def clientSunAt (m : CMem) (sun : Nat) (path : List Byte) : CMem := strncpyAt m sun path (sunPathSize - 1)

/-- `origname`: `strncpy(origname, aspath, orignamelen)` and `strcpy` of the new ending over the old one, in an array of
`orignamelen` bytes.  `src/kpatch_cc.c:714-727` (do_generate_kpatch). -/
def orignameLen (aspath : List Byte) : Nat := aspath.length + 1 - 11 + 12

/-- `src/kpatch_cc.c:725-727` (do_generate_kpatch). -/
def orignameAt (m : CMem) (origname : Nat) (aspath : List Byte) : CMem :=
  strcpyAt (strncpyAt m origname aspath (orignameLen aspath)) (origname + (aspath.length + 1) - 11) (lit ".original.s")

/-- `strcpy(origname, "/dev/null")`.  `src/kpatch_cc.c:738` (do_generate_kpatch). -/
def devNullAt (m : CMem) (origname : Nat) : CMem := strcpyAt m origname (lit "/dev/null")

/-- `tmpnamelen`.  `src/kpatch_cc.c:715-716` (do_generate_kpatch). -/
def tmpnameLen (aspath : List Byte) : Nat := aspath.length + 1 - 11 + 7

/-- `tmpname`.  `src/kpatch_cc.c:753-755` (do_generate_kpatch). -/
def tmpnameAt (m : CMem) (tmpname : Nat) (aspath : List Byte) : CMem :=
  strcpyAt (strncpyAt m tmpname aspath (tmpnameLen aspath)) (tmpname + (aspath.length + 1) - 11) (lit ".s.tmp")

/-- `tmpname` of `do_dbgfilter`, an array of `strlen(aspath) + sizeof(".tmp")` bytes.  `src/kpatch_cc.c:677-678`, `697-698`. -/
def dbgTmpAt (m : CMem) (tmpname : Nat) (aspath : List Byte) : CMem :=
  strcpyAt (strcpyAt m tmpname aspath) (tmpname + (aspath.length + 5) - 5) (lit ".tmp")

/-- `gensrcpath`, an array of `strlen(kpatch_path) + sizeof("/kpatch_gensrc")` bytes.  `src/kpatch_cc.c:665-670` (run_gensrc). -/
def gensrcPathAt (m : CMem) (gensrcpath : Nat) (dir : List Byte) : CMem :=
  strcpyAt (strcpyAt m gensrcpath dir) (gensrcpath + (dir.length + 15) - 15) (lit "/kpatch_gensrc")

/-- `snprintf(aspath, PATH_MAX, ..)` of the name `full`; `none`: "buffer overflow".  `aspath` has `PATH_MAX + 14` bytes in
compile_single, `PATH_MAX` in build_multiple.  `src/kpatch_cc.c:1113-1117` (get_assembler_filename). -/
def aspathAt (m : CMem) (aspath : Nat) (full : List Byte) : Option CMem :=
  if full.length ≥ pathMax then none else some (snprintfAt m aspath full pathMax)

/-- `strncpy(flavor, mov.s + MOV_LENGTH, mov.l - MOV_LENGTH)` and the NUL; `none`: the line is copied as it is.
`src/kpatch_gensrc.c:340`, `354-359` (str_do_gotpcrel). -/
def flavorAt (m : CMem) (flavor : Nat) (mov : Kpstr) : Option CMem :=
  if mov.l < 3 ∨ mov.l - 3 ≥ 16 then none
  else some (putAt (strncpyAt m flavor (mov.s.drop 3) (mov.l - 3)) (flavor + (mov.l - 3)) [0#8])

/-- The five bytes that get_full_reg writes to `dstreg`; `none`: kpfatal.  `src/kpatch_gensrc.c:278-315` (get_full_reg), `381`. -/
def auxregAt (m : CMem) (dstreg : Nat) (t : Kpstr) : Option CMem :=
  if 2 < t.l ∧ t.at 0 = 37#8 then
    let m1 := putAt m dstreg [37#8, 114#8]
    let prev := t.at (t.l - 2)
    let last := t.at (t.l - 1)
    let pair (p l : Byte) : CMem := putAt (putAt m1 (dstreg + 2) [p, l]) (dstreg + 4) [0#8]
    let dflt (p l : Byte) : CMem := if t.l = 3 then putAt m1 (dstreg + 2) [t.at 2, 0#8] else pair p l
    some (
      if last = 104#8 ∨ last = 108#8 ∨ last = 120#8 then pair prev 120#8
      else if last = 100#8 then
        if t.l = 5 then dflt (t.at 2) (t.at 3) else dflt prev 0#8
      else dflt prev last)
  else none

/-- The size of `buf` and `buf2`, `2*BUFSIZE`.  `src/kpatch_gensrc.c:1320` (cblock_write_line), `src/include/kpatch_io.h:12`. -/
def lineBuf : Nat := 131072

/-- The line with its tokens renamed, in `buf`: each `strncat` appends, so that together they write the text and a NUL.
`src/kpatch_gensrc.c:231-249` (str_do_rename), `1324-1325` (cblock_write_line). -/
def renamedLineAt (m : CMem) (buf : Nat) (f : Renames) (line : List Byte) : CMem := strcpyAt m buf (strDoRename f (some line))

/-- The line with a move to or from a global variable rewritten, in `buf2`; `none`: kpfatal.  Simplified: in each case the text, a
newline and a NUL are written and then the newline replaced by a NUL, which the code does only for a move from a variable, and
writes fewer bytes otherwise.  `src/kpatch_gensrc.c:397-430` (str_do_gotpcrel), `1328-1329` (cblock_write_line). -/
def movedLineAt (m : CMem) (buf : Nat) (line : List Byte) : Option CMem :=
  (strDoGotpcrel line).map fun out => putAt (strcpyAt m buf (out ++ [10#8])) (buf + out.length) [0#8]

end Verif
