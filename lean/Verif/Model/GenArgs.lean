import Verif.Model.Gensrc
/-
Model of the lists of symbols among the options of the patch generator, src/kpatch_gensrc.c, and of reading its input
files, src/kpatch_io.c.
-/
namespace Verif

variable [AsmTarget]

/-- The tokens of `strtok(s, ",")`: separators are skipped, then everything up to the next one is a token.  `acc` is the
current token, reversed.  C library; used at src/kpatch_gensrc.c:1597-1611 (parse_sym_list). -/
def strtokAll (acc : List Byte) : List Byte → List (List Byte)
  | [] => if acc = [] then [] else [acc.reverse]
  | c :: r =>
    if c = 44#8 then (if acc = [] then strtokAll [] r else acc.reverse :: strtokAll [] r)
    else strtokAll (c :: acc) r

/-- One entry: the file name before the first colon, if there is one.  src/kpatch_gensrc.c:1600-1609 (parse_sym_list). -/
def symEntry (tok : List Byte) : SymDesc :=
  let p := tok.takeWhile fun c => c ≠ 58#8
  match tok.drop p.length with
  | [] => ⟨none, tok⟩
  | _ :: r => ⟨some p, r⟩

/-- The entries of an option, after those already there.  The arrays have 32 elements and the loop does not look at that:
with more entries it writes past the end of the array, `none`.  src/kpatch_gensrc.c:35-47, src/kpatch_gensrc.c:1592-1613
(parse_sym_list). -/
def parseSymList (syms : List SymDesc) (optarg : List Byte) : Option (List SymDesc) :=
  let l := syms ++ (strtokAll [] optarg).map symEntry
  if l.length ≤ 32 then some l else none

/-- An option given several times.  src/kpatch_gensrc.c:1734-1742 (main). -/
def parseSymLists (args : List (List Byte)) : Option (List SymDesc) := args.foldlM parseSymList []

/-- src/include/kpatch_str.h:78-91 (trim_crlf). -/
def trimCrlf (s : List Byte) : List Byte := (s.reverse.dropWhile fun c => c = 10#8 || c = 13#8).reverse

/-- The lines of a file, without the empty line 0.  BUFSIZE is 65536.  Opening the file and the names of its directory are
not modelled.  src/kpatch_io.c:43-85 (read_file), src/include/kpatch_io.h:12. -/
def readFile (content : List Byte) : List (List Byte) :=
  (fgetsAll 65535 [] content).map fun b => trimCrlf (cstr b)

end Verif
