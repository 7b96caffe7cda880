# Formal model of libcareplus in Lean 4

## Layout

* `lean/Verif/Model/*` – the model: total, computable functions, one per C function, each with a
  comment citing the file and lines of `/repo` it models and the simplifications made.
* `lean/Verif/Spec/*` – small specifications written without the helpers of the model
  (instruction decoders of each CPU, "frame is inside a function", "list of tokens", what an
  assembler does with sections, ...).
* `lean/Verif/Proof/*` – lemmas.
* `lean/Verif/Props/*` – the property theorems (`Cnn_...`) and, beside each, an `example` showing
  that a concrete, non-trivial case meets its hypotheses.
* `properties.jsonl` – the properties in English; `MANIFEST.json` – which theorems settle which
  property; `seeded/LOG.jsonl` – wrong programs tried against the theorems.

Conventions of the model:

* Addresses are `Nat` where the property is not about wrap-around, `BitVec 64/32` where it is
  (jump encodings, relocations, remote calls).
* Remote memory is a function from address to `Option` byte (`none` = not mapped).
* A C string is the list of its bytes without the terminator; a pointer into a string is a suffix
  of that list. A pointer to an object of a list or tree is its position or key.
* `kpfatal`, a crash by a null pointer and a failed assertion are `none`.
* The assembler tools (`Model/Parse`, `Cblock`, `Gensrc`, `Dbgfilter` and the proofs about them) have the architecture as an
  instance argument (`AsmTarget`, `Model/Isa`); theorems about them hold for all four.
* Everything outside of the program (ptrace, results of pread/pwrite/read/write/recv, the schedule
  of the target's threads, signals, directory listings, the unwinder, the file system, `qsort`) is
  a parameter: an arbitrary oracle over which the theorems quantify.

When the code violates a property the negation is proved with a concrete witness
(`Cnn_violated_...`) and the strongest true part is a theorem with the suffix `_partial`.

## Plan per property

No property of the list is inexpressible in the model. What a partial result does not cover is
said in the notes of MANIFEST.json.

| id | modelled | proof |
|----|----------|-------|
| C01 | `patch_apply_hunk` (4 archs), hunk loop, `object_unapply_patch`, mmap/munmap | memory equality after apply;unapply, induction over the hunk list |
| C02 | same with an arbitrary failure oracle and `PATCH_APPLIED` flags | induction over the hunk list up to the failure point; witness for the failing allocation |
| C03 | stacks of patches as lists of apply/unapply operations | LIFO removal by induction; witness for another order |
| C04–C07 | instruction encoders with `BitVec`; CPU decoders in Spec | bit-vector algebra, `omega` on `toNat`/`toInt` |
| C08 | layout arithmetic of `object_apply_patch` | `omega` with rounding lemmas |
| C09–C11 | `object_find_patch_region` (search over the hole list) | invariant of the search loop; witnesses |
| C12 | hole computation of `parse_proc_maps` | induction over the mapping list |
| C13 | `vm_hole_split`, sequence of allocations | invariant by induction over the allocations |
| C14–C17 | stack walk, verification of threads and coroutines, `ensure_safety` | induction over the stack; all oracles for waiting; witnesses |
| C18 | applied list, histories of commands | invariant by induction over histories |
| C19 | `kpatch_apply_patches` | induction over the objects; witness |
| C20 | `execute_until`: breakpoints installed and removed around an arbitrary wait | induction over the breakpoints; witnesses for overlaps and cut writes |
| C21 | `execute_remote_func` with a failure oracle | case analysis; witness for the failing path |
| C22 | `mem_write`, word pokes, `process_memcpy` | induction over words |
| C23 | `mem_iter_peek` with an arbitrary read oracle | invariant by induction over reads; witnesses |
| C24 | `process_attach` loop over arbitrary directory listings | invariant; witnesses |
| C25–C28 | relocation encoders; CPU decoders in Spec | bit-vector algebra; witnesses for wrong encoders |
| C29 | jump table | invariant over additions; decoders; witnesses |
| C30–C31 | dynsym sort/cut/bsearch; library walk | sortedness; induction of the binary search |
| C32 | `vaddr2addr`, matching of program headers | case analysis, induction; witness |
| C33–C35 | header serialisation, verification, make, dump | round trip over byte lists; witnesses |
| C36 | storage cache | invariant over query histories; witnesses |
| C37–C38 | red-black tree with a zipper for parent pointers | refinement to a sorted association list; red-black invariants |
| C39 | pointer-level list (next/prev maps) | representation invariant |
| C40 | client serialiser, server receive loop over arbitrary chunks, parser | round trip for every chunking; witnesses |
| C41–C43 | counted strings, tokenizer, renames | induction over strings and lines, refinement of the rename tree |
| C44, C64 | division of an assembler file into blocks, on all architectures (class `AsmTarget`) | invariant of the main loop over lines; witness for AArch64 |
| C45 | comparison and analysis of the patch generator on equal functions and equal files | invariants of the analysis; simulation of a file against itself; witness |
| C62, C67 | symbol lists, file of functions, reading of lines | induction over strings and argument lists; flags set by the passes over the functions (`Proof/GenLists`); witnesses |
| C63 | rewriting of moves to the global offset table | semantics of the instruction texts (`Spec/X86Mov`), execution of both texts from any state; witnesses |
| C68 | rewriting of the relocations of a linked patch (x86-64) | case analysis of one relocation, induction over the section, composition with applying the relocations (C25), decoding of the instructions; witnesses |
| C70 | `kpatch_arch_fixup_addr_bias` of RISC-V and LoongArch | induction over the symbols; witnesses |
| C71 | search of the notes of a mapped object | induction over notes and segments against the encoding of notes; witnesses |
| C72 | name of the process | list algebra; violations for every short name |
| C73 | auxiliary vector, following a program started through the dynamic linker | simulation of the stop handler over every history of system calls; witnesses |
| C74 | `fixup_rela` of AArch64, RISC-V and LoongArch with the slots of thread-local variables | one generic induction over the relocations; composition with the relocation theorems of RISC-V and AArch64; witnesses |
| C76–C78 | `build_multiple`, `compile_single`, `do_generate_kpatch`, `do_dbgfilter`, `run_cmd` of the compiler wrapper, with tools as arbitrary functions on files | invariants over the loop (commands run, files touched), frame lemma, split at an input; witnesses |
| C79 | the patch as bytes: section table, symbols and relocations read and changed in place (`Model/PatchElf`), joined to `objectApply` | parse lemmas against the ELF encoding (`Spec/PatchElf`), frame invariants of the three passes (sections, symbols, relocations), composition with C25–C27, C29, C04–C06; concrete object; witness |
| C80 | ELF and program headers, dynamic section and symbol table read from the memory of the target (`Model/ObjElf`), joined to C30–C32 | parse lemmas against the ELF encoding (`Spec/ObjElf`), induction over the objects; concrete process with program and library; witnesses |
| C81 | classification of objects by type, `PT_INTERP` and name (`Model/ObjElf`) | characterisation of the test by names, induction over the objects; witness |
| C82 | `fgets` and `sscanf` on the bytes of the map, permissions, device numbers, names, joined to the objects and gaps of C12 and C56 (`Model/Maps`) | scanning lemmas against the kernel's line format (`Spec/Maps`), induction over the lines; a concrete map; witnesses |
| C83 | `process_patch` joined from the models of C82 (map), C80/C81 (objects, symbols), C71/C36 (build id), C09 (gaps), C79 (preparation, relocation, loading) and C01 (jumps) (`Model/Target`) | composition: what each stage guarantees is what the next one assumes (`Proof/Target`, `Proof/TargetCase`, `Proof/Records`); a concrete process evaluated stage by stage; witness of the race |
| C84 | the permissions given by the remote `mmap` and `mprotect`, `kpatch_get_kpatch_data_offset` (`Model/Protect`); a permission per address, lengths rounded up to pages as the kernel does | the layout of C08 and the decoded object of C79; witnesses (`Props/ProtectEx*`) |
| C85 | `object_apply_patch` as for C01 and C79, `process_patch` as for C83 | step by step: every write meets mapped memory, induction over the jumps (`Proof/Runs`); for the whole command, the resolution of symbols and the relocation do not fail (`Proof/PrepRuns`, `Props/AppliedTarget`); witness |
| C86 | `process_unpatch` joined from C82 (map), C80/C81 (objects), C56/C35 (patches found in memory, ids), C49 (selection) and C01 (removal) (`Model/Untarget`) | composition with C83: what the patch command leaves in memory is what the unpatch command looks for; induction over the objects for the association by build id; the removal runs by induction over the records (`Proof/Runs`); a process patched and unpatched |
| C87 | the same functions as C22 | induction over words; witness |
| C88 | `change_section`, `__cblock_gen`, `cblock_gen`, `write_cblocks`; sections of statements as in C61 | the assembler's section state run over the pieces of the output; invariant over the statements of a block, lifted to the whole output; concrete file for the violation |
| C89 | `cblock_write_func`, `cblock_write_var`, `write_cblocks` | the pieces written for each original, with the pairing of blocks by name from C46 |
| C90 | `storage_execute_script`, the order of the steps of `process_patch` with arbitrary outcomes | case analysis; witness of a failing wait |
| C91 | `kill_and_wait`, `cmd_run`, `cmd_kill`, end of the server; process numbers of the system that may be used again | invariants over histories; witnesses with a stale number and a failing exec |
| C92 | dispatch of server commands, the storage buffer with `strncpy` | invariant of the buffer over histories |
| C93 | `make_dirs`, `mkdir` on a map from paths to what they name | induction over the path |
| C94 | `restore_origs`, the application of source patches with `patch -b`, killed runs | invariant over histories of runs; witnesses |
| C95 | the link `cc` over runs | induction over histories; the violation holds for every history with a failing tool |
| C97 | `.comm` in new code: parsing of the statement, what is written for it | tokens of a statement for all names and numbers; the output of a block as a list of pieces; witness |
| C98 | taking over a process from the `execve` wrapper, on four architectures | induction over the stops; witnesses |
| C99 | `main` of `kpatch_make` with `getopt` of the C library, its effect on files | `getopt` on rendered command lines by induction; invariant of the option loop; witnesses |
| C100 | `libcare-dump`: command line, output, effect on files | `getopt` on rendered command lines; composition with C99; witnesses |
| C101 | `main` of `kpatch_strip` with `getopt_long` of the C library | induction over the options of a rendered command line; witness |
| C102 | the writes to the arrays of fixed size, as writes to the bytes of the tool's own memory | which addresses a write changes, composed; induction over the digits of a build id and over the tokens of a line; witnesses |
| C103 | `getopt_long` with the options of `kpatch_gensrc`, the loop over them with the files it reads and empties, the choice of the work | command lines as lists of pieces; induction over the pieces and over the options; witnesses |
| C104 | `rb_destroy` on nodes in memory, where a node is gone once the callback has it | invariant: the nodes still to be freed are a list of nodes with their right subtrees; induction over their number |
| C105 | the blocks of memory of the lines, from `read_file` over `init_multilines` to `close_file`, and the end of `main` | the allocated blocks are a permutation of those in the table; induction over the lines; a pointer with an offset is never a block |
| C96 | `build_kpatches` over arbitrary tool outcomes | induction over the executables; witnesses |
| C75 | splitting into statements of all architectures | simulation of the tokenizer by a byte-level lexer of the assembler; witnesses |
| C46, C69 | comparison, analysis and output of the patch generator | invariants of the analysis (`Proof/GenInv`), decoration of the loaded files, induction over the output loops; witnesses |
| C47–C48 | `check_info_len`, info table append and read-back | induction over the table |
| C49 | unpatch selection | induction over objects |
| C50–C51 | conversions of `kpatch_undo_link`, section mapping | arithmetic, induction over sections; witnesses |
| C52–C53 | `init`, `modify_args`, `compile_single`, `copy_file` of the compiler wrapper | list filtering, invariant of the copy loop; witnesses |
| C54 | rotate/xor, jump buffers, search of the heap | bit-vector algebra, induction over the scanned words; witness |
| C55, C58 | `processes_do`, the commands of libcare-ctl | induction over the process ids; witnesses |
| C56 | grouping of mappings | induction over mappings |
| C57 | debug filter | induction over lines; witnesses |
| C59 | output layout of `kpatch_strip` | induction over sections; witness |
| C60 | `init_multilines` | induction over lines and bytes |
| C61 | section tracking of the parser against the assembler's section stack | simulation by induction over lines; witnesses |
| C65–C66 | remote system calls and calls of indirect function resolvers on four CPUs | symbolic execution of the injected code over an arbitrary signal schedule; witnesses |

## Trusted base

* The kernel of Lean 4.33.0. No axioms were added; no `sorry`, `native_decide` or `bv_decide` is
  used. The table at the end of this file lists the axioms of every theorem named in the manifest,
  as printed by `#print axioms`: at most `propext`, `Classical.choice` and `Quot.sound`.
* The reading of the C source into the model. Every definition of `Model` cites its lines; nothing
  checks mechanically that the definition and the lines agree, the code cannot be built here.
* The specifications in `Spec`, in particular the CPU decoders (x86-64 `jmp rel32`, the branch and
  address-forming instructions of AArch64, LoongArch and RISC-V), the small processor and kernel of
  C65 and C66, the assembler's lexer of C75, the x86-64 move instructions of C63, the assembler's section stack of C61.
* Oracles: ptrace, `/proc/pid/mem`, libunwind, libelf, libc and the kernel behave as some function
  of the model's oracle type. Nothing more is assumed unless a theorem has an explicit hypothesis.
* C data model: LP64, little-endian, 8-bit bytes, two's complement, which all four targets have.

## What is modelled and what is not

| source | modelled | not modelled |
|--------|----------|--------------|
| `src/kpatch_patch.c` | apply, unapply, safety check, waiting, info table, unpatch selection, apply to all objects | messages, `print_address_closest_func` |
| `src/kpatch_process.c` | the text of the memory map, objects, holes, allocation, attach/detach, thread listing, applied patches, process names | printing of the command line, the socket of the `execve` wrapper, regular expressions |
| `src/kpatch_ptrace.c`, `src/arch/*/arch_ptrace.c` | memory access, buffered reads, `execute_until`, remote code, remote system calls, indirect functions, entry point, `wait_for_mmap`, taking over from the `execve` wrapper | `prctl` call |
| `src/arch/*/arch_patch.c`, `src/arch/*/arch_process.c`, `src/arch/*/arch_elf.c` | all four architectures | – |
| `src/kpatch_elf.c` | program headers, address translation, dynamic symbols, resolution, relocation driver, jump table, search for the build id; the patch's own ELF image as bytes (section table, symbols, relocations); the headers, dynamic section and symbols of the target's objects as bytes, test for libraries | — |
| `src/kpatch_coro.c`, `src/arch/*/arch_coro.c` | listed and searched coroutines, pointer demangling, register access (all four architectures) | libunwind callbacks other than register access |
| `src/kpatch_storage.c`, `src/kpatch_common.c` | verification, lookup cache, load, have, scripts | descriptions (nothing calls `storage_get_description`) |
| `src/kpatch_make.c`, `src/libcare-dump.c` | file format, conversion to ELF, both command lines, the fields that are shown | layout of the output, messages |
| `src/kpatch_strip.c`, `src/arch/*/arch_strip.c` | strip, info length check, undo-link; rewriting of relocations (`fixup_rela`) for all architectures; address bias for RISC-V and LoongArch; command line | messages |
| `src/kpatch_user.c`, `src/libcare-server.c`, `src/libcare-client.c` | option handling, command loop over processes, wire protocol, dispatch, `run`/`kill` children, storage name | creation of sockets, signals during a command, process groups as arguments of `kill` |
| `src/rbtree.c`, `src/include/rbtree.h`, `src/include/list.h` | insert, erase, search, iteration, freeing of a tree in memory; all list operations used | post-order iteration, `rb_replace_node` |
| `src/include/kpatch_str.h`, `src/kpatch_parse.c`, `src/arch/*/arch_parse.c` | all of it, for the four architectures | – |
| `src/kpatch_dbgfilter.c` | all of it | – |
| `src/kpatch_gensrc.c` | renames, GOTPCREL rewriting, symbol lists, file of functions, comparison, matching, analysis, output, the command line | `-` for the standard streams; the fixed sizes of buffers are in C102 only |
| `src/kpatch_cc.c` | scan of arguments, argument changes, commands of single-file compilations and of builds from several files with their effect on files, names of the intermediate files, exit status, file copy, `make_dirs` | `fork`/`exec`/`wait` themselves (a tool is a function from arguments and files to a wait status and files); the length limits are in C102 only |
| `src/kpatch_io.c` | reading of lines, table of lines | file names |
| `src/kpatch_elf_objinfo.c` | own sections, dynamic relocations of thread-local storage | wrappers of libelf |
| `src/libcare-patch-make` | saving and restoring of the sources, the link `cc`, the loop that makes patches | options, `make` itself, QEMU_LDFLAGS, names with special characters |
| `src/kpatch_log.c` | – | logging |

## Violations found

Each is a theorem `Cnn_violated_...` with a concrete witness; the property holds for the code only
in the form of the partial theorems.

* C02: when the remote allocation fails, the rollback unmaps `[0, size)` of the target.
* C03: two patches of one function removed in the order of application leave the jump of the second.
* C09, C13: the search may return an address of a gap that ends less than the wanted size below the
  window, and the fixed mapping then overlays an existing one.
* C10: on LoongArch the window is 2 GiB although the jump reaches 128 MiB.
* C11: no region is found when there is no gap on one side of the object.
* C15: frames in new functions of the patch or in its jump table do not block removal.
* C17: the stop address of an earlier look is kept for a thread that is safe in the second.
* C19: objects patched before the failing one stay patched.
* C20: overlapping or cut 4-byte breakpoints on RISC-V are not removed.
* C21: registers are not restored when the remote call fails.
* C23: a failed or short read leaves stale bytes that later reads return.
* C24: a thread may be missed when another one exits while the tool attaches.
* C25–C28: 32-bit fields are cut silently, stores over the end of the section, TLS offsets, AArch64
  scaled loads and branch range, LoongArch high parts scaled by four, RISC-V `jal`, rounding of
  calls, compressed jumps, reuse of slots.
* C29: jump table slots for variables and untyped symbols.
* C32: a mapping that matches no program header in an ill-formed table counts as success.
* C33: the section table, a total size below the header and an image past the end are accepted.
* C35: patch ids longer than seven bytes are cut silently.
* C36: failed lookups open the file again, the build id inside of the file is not compared,
  existence queries spoil later loads.
* C40: empty arguments, more than 32 arguments, long messages and receive errors change commands; after a failing first
  receive the server executes what an earlier client left in the buffer.
* C45: with `foo` before its clone `foo.isra.0` and a call between them, comparing a file with
  itself replaces functions.
* C46: a function that reads another static variable after a shift of the numbering is taken for
  unchanged; a separate `.weak foo` of a replaced function declares the replacement instead.
* C47: on riscv64 functions shorter than the jump are accepted.
* C51: sections in another order or after a missing one are not matched.
* C52: the removal list is sorted by address and searched by text; `foo.cpp` is written to `foo.cpo`.
* C53: short writes repeat bytes.
* C88: the end label of a replaced original is always written to `.text`, also when the original is in another section.
* C90: a script that cannot be waited for counts as a success.
* C91: after a client has killed the server's program by its number, the server keeps the number and later signals whatever
  process has it; when the shell cannot be executed the child goes on as a second server.
* C94: `i` is never incremented in libcare-patch-make, so two patches of one file save it twice under the same name and the
  once-patched file is restored; a created file stays, empty.
* C95: when a tool fails, `cc` stays the wrapper, and later runs take the wrapper for the compiler.
* C97: `.align n` is written for an alignment to n bytes, which AArch64, RISC-V and LoongArch take as two to the power of n.
* C98: a stop between the breakpoint of the wrapper and `execve` is taken for the start of the program. The program counter stays at a breakpoint on AArch64, where the byte before it is looked at, so the breakpoint is not seen, and on RISC-V, where the thread stops at it again, which is taken for the start. On LoongArch `BREAK_INSN` is the one byte of x86, of which four bytes are read.
* C99: a build id of the wrong length is reported and used nevertheless, cut to forty bytes; an output that is the input destroys it; a failed write leaves a cut output.
* C100: `-H` accepts any file that is longer than a header, and strings that do not end in the header are read beyond it; an output that is the input destroys the patch.
* C101: the usage of `kpatch_strip` offers `--undo-link` with one file, which is refused.
* C102: `storage_execute_script` puts a path of up to `PATH_MAX` bytes and the name of the script into `PATH_MAX` bytes; `cmd_server` copies its argument into `PATH_MAX` bytes without a check; `cblock_write_line` has a fixed size for a line with new names.
* C103: `main` of `kpatch_gensrc` creates the output while it reads the options, before it knows that the command line is good.
* C105: `init_multilines` leaves a pointer into the middle of a line in the table for a statement with a comment behind a label or another statement; `close_file` frees it, before the output is closed.
* C96: the status of `--undo-link` is not looked at; with `-b` all patches go to one name.
* C54: on aarch64 the pointer guard is not removed. On RISC-V three words that the C library stores plainly are rotated, so s0, s5 and s6 are wrong. On LoongArch the registers are read from the wrong words.
* C55, C58: `info -p all` looks at process 0; `-p 4294967295` names all processes.
* C57: a `.Ltext` label swallows the line after it; an empty or comment line in a debug section
  leaves the rest of the section in place; an empty statement reads before the string. On LoongArch the tool does not know `.2byte` and on RISC-V not `.ascii` as data, so a debug section is removed only up to there and its rest becomes part of the section before it (`C57_violated_loongarch_2byte`, `C57_violated_riscv_ascii`).
* C59: alignment 0 puts the following sections at offset 0.
* C61: nested pushes, a section switch between push and pop, `.previous` after a pop.
* C62: file names of list entries and names in the file of functions are compared as prefixes, lists
  of more than 32 entries overrun a static table, whether a function is adapted is read from
  uninitialised memory.
* C63: moves of 8 and 16 bits, variables with an offset, stores of the stack pointer, the red zone
  below it, symbols of one character, string moves without operands.
* C65: a SIGSTOP before the system call is taken for its end.
* C66: on x86-64 the injected call writes into the red zone of the stopped function; resolvers do not get the arguments the dynamic linker passes.
* C87: with the `ptrace` fallback, the last bytes of a mapping cannot be written unless they fill a word.
* C67: lines of 65535 or more characters are cut in two.
* C68: the address of a variable of the patch's own sections, taken through the global offset table, becomes its
  contents (the `mov` is not changed to `lea`, but the relocation refers to the variable); the same for other
  instructions than `mov`, as `cmp` and `call *f@GOTPCREL(%rip)`; thread-local variables of libraries (`errno`) are read
  from a wrong address; with dynamic thread-local storage in the original the module slot is taken for the offset slot;
  sizes of thread-local segments are not compared.
* C70: of static functions with the same name all but the first are moved to the first; the section of the function in
  the original is not compared with its section in the patch.
* C71: notes whose name or description needs filling up hide a build id behind them, segments of more than 128 bytes are
  not searched, shorter build ids are extended by the bytes that follow.
* C72: the last character of the program's name is lost (unless it is cut anyway), the mark of deleted programs is never
  removed, programs whose name begins with `ld` are taken for the dynamic linker.
* C73: signals on x86-64 confuse entries and exits of system calls; aarch64 takes number and result from wrong registers;
  loongarch64 takes the program counter for the result of `mmap`.
* C74: local-exec offsets are never compared with the original's on RISC-V, and their upper parts are always refused on
  LoongArch; the slot of an initial-exec access is address 0 for every program on LoongArch, because types of relocatable
  objects are searched among the dynamic relocations; on RISC-V the load offset is not added for variables of libraries
  and the distance is not checked; on AArch64 the slot of the linked patch is used whatever the original has there, and
  the page of instructions beyond the first page of their section is wrong.
* C76: the array of input files is read past its end if arguments are appended; `-x c` stays in the last command, which
  compiles assembler; `-D X` loses its argument when sources are compiled; `/dev/null` is replaced by a missing file.
* C77: a compiler killed by a signal counts as success.
* C64: on AArch64 the `.type` of a cold part is not counted but its `.size` is; the block of a function with a cold part ends
  too early.
* C79: a patch with relocations without addends is accepted and these are ignored (the test looks at section 0).
* C80: bytes between the symbol table and the string table of a library are taken for symbols; a dynamic section that is not relocated at run time is read at the wrong addresses.
* C81: libraries with a program interpreter other than glibc's own are taken for programs and not searched.
* C82: names with blanks are cut at the blank, names of more than 255 characters at that length; inodes are kept in 32 bits, so two files may become one object; the rest of a line of more than 1023 bytes is read as another line.
* C83: the memory map is read before the threads of the process are stopped, and the memory for the patch is then taken with MAP_FIXED: what a thread maps in between at that place is replaced by zeros, and the command reports success.
* C84: only whole pages of the machine that applies the patch can be protected: data that is aligned to the 4 KiB pages of the build machine is made read-only and executable on a machine with pages of 64 KiB; everything behind `.kpatch.data` is taken for data, so code there cannot be executed and the first call of the patched function kills the process.
* C85: a LoongArch branch to the largest positive distance (2^27 - 4) is refused by the range test (`>=` instead of `>`).
* C75: what follows a `;` or `:` in a comment becomes a statement if the `#` (or `//`) has no blank after it; a `;` in a
  string that follows a word without a blank ends the statement.

Seen while reading, not turned into theorems: `storage_get_description` leaks a descriptor,
`handle_client` closes its descriptor twice, a failed read of the ELF
header of an object is not repeated (`vma_start` is already set),
`str_do_rename` may overflow its buffer,
`init_multilines` leaves an interior pointer that is freed later, the code breakpoint of AArch64
and LoongArch is the single byte 0xcc.

## Axioms of the theorems

| property | status | theorem | axioms |
|---|---|---|---|
| C01 | proved | `C01_unpatch_restores` | propext, Classical.choice, Quot.sound |
| C01 | proved | `C01_unpatch_restores_exactly` | propext, Classical.choice, Quot.sound |
| C02 | partial | `C02_failed_apply_rolled_back_partial` | propext, Classical.choice, Quot.sound |
| C02 | partial | `C02_failed_apply_rolled_back_exactly_partial` | propext, Classical.choice, Quot.sound |
| C02 | partial | `C02_failed_before_allocation` | propext, Quot.sound |
| C02 | partial | `C02_violated_when_allocation_fails` | propext, Quot.sound |
| C03 | partial | `C03_reverse_order_partial` | propext, Classical.choice, Quot.sound |
| C03 | partial | `C03_disjoint_any_order_partial` | propext, Classical.choice, Quot.sound |
| C03 | partial | `C03_violated_first_in_first_out` | propext, Quot.sound |
| C04 | proved | `C04_x86_entry_jumps_to_replacement` | propext, Classical.choice, Quot.sound |
| C05 | proved | `C05_aarch64_entry_jumps_to_replacement` | propext, Classical.choice, Quot.sound |
| C06 | proved | `C06_loongarch_entry_jumps_or_refused` | propext, Classical.choice, Quot.sound |
| C07 | proved | `C07_riscv_entry_jumps_to_replacement` | propext, Classical.choice, Quot.sound |
| C08 | proved | `C08_patch_parts_disjoint` | propext, Classical.choice, Quot.sound |
| C09 | partial | `C09_region_is_unmapped_partial` | propext, Classical.choice, Quot.sound |
| C09 | partial | `C09_violated_far_left_gap` | propext, Quot.sound |
| C10 | partial | `C10_region_within_reach_partial` | propext, Classical.choice, Quot.sound |
| C10 | partial | `C10_violated_loongarch` | propext |
| C11 | partial | `C11_adjacent_gap_found_partial` | propext, Classical.choice, Quot.sound |
| C11 | partial | `C11_next_gap_taken` | propext, Quot.sound |
| C11 | partial | `C11_failed_search_changes_nothing` | propext |
| C11 | partial | `C11_violated_no_right_gap` | propext |
| C12 | proved | `C12_gaps_exact` | propext, Classical.choice, Quot.sound |
| C13 | partial | `C13_allocations_disjoint_partial` | propext, Classical.choice, Quot.sound |
| C13 | partial | `C13_violated_far_left_gap` | propext |
| C14 | proved | `C14_no_frame_in_replaced_code` | propext, Classical.choice, Quot.sound |
| C14 | proved | `C14_clear_process_accepted` | propext, Classical.choice, Quot.sound |
| C15 | partial | `C15_no_frame_in_replacement_partial` | propext, Classical.choice, Quot.sound |
| C15 | partial | `C15_violated_new_function` | propext, Quot.sound |
| C15 | partial | `C15_violated_jump_table` | none |
| C16 | proved | `C16_unsafe_state_leaves_code` | propext, Classical.choice, Quot.sound |
| C17 | partial | `C17_stop_address_partial` | propext, Classical.choice, Quot.sound |
| C17 | partial | `C17_violated_stale_address` | none |
| C18 | proved | `C18_second_application_refused` | propext, Classical.choice, Quot.sound |
| C18 | proved | `C18_at_most_one_per_id` | propext, Classical.choice, Quot.sound |
| C19 | partial | `C19_failing_object_rolled_back_partial` | propext, Quot.sound |
| C19 | partial | `C19_single_object_partial` | propext, Classical.choice, Quot.sound |
| C19 | partial | `C19_violated_two_objects` | propext, Quot.sound |
| C20 | partial | `C20_breakpoints_removed` | propext, Classical.choice, Quot.sound |
| C20 | partial | `C20_breakpoints_removed_partial` | propext, Classical.choice, Quot.sound |
| C20 | partial | `C20_violated_riscv_overlap` | none |
| C20 | partial | `C20_violated_riscv_cut_write` | none |
| C21 | partial | `C21_remote_call_traceless_partial` | propext, Classical.choice, Quot.sound |
| C21 | partial | `C21_success_restores_registers` | propext, Classical.choice, Quot.sound |
| C21 | partial | `C21_violated_registers` | none |
| C22 | proved | `C22_write_exact` | propext, Classical.choice, Quot.sound |
| C22 | proved | `C22_copy_exact` | propext, Classical.choice, Quot.sound |
| C23 | partial | `C23_buffered_reads_partial` | propext, Classical.choice, Quot.sound |
| C23 | partial | `C23_violated_by_failed_pread` | none |
| C23 | partial | `C23_violated_after_short_read` | none |
| C24 | partial | `C24_all_threads_stopped_partial` | propext, Quot.sound |
| C24 | partial | `C24_gives_up_when_threads_keep_coming` | propext, Quot.sound |
| C24 | partial | `C24_violated_same_count` | none |
| C24 | partial | `C24_violated_shifted_list` | none |
| C25 | partial | `C25_fields_denote_partial` | propext, Classical.choice, Quot.sound |
| C25 | partial | `C25_unknown_refused` | propext, Quot.sound |
| C25 | partial | `C25_violated_truncated` | propext, Quot.sound |
| C25 | partial | `C25_violated_overrun` | propext |
| C25 | partial | `C25_violated_tpoff` | propext |
| C26 | partial | `C26_instructions_denote_partial` | propext, Classical.choice, Quot.sound |
| C26 | partial | `C26_violated_branch_truncated` | propext, Quot.sound |
| C26 | partial | `C26_violated_ldst` | propext, Classical.choice, Quot.sound |
| C26 | partial | `C26_violated_slot_page` | propext, Quot.sound |
| C26 | partial | `C26_violated_local_tls` | propext, Quot.sound |
| C27 | partial | `C27_instructions_denote_partial` | propext, Classical.choice, Quot.sound |
| C27 | partial | `C27_out_of_reach_refused` | propext, Classical.choice, Quot.sound |
| C27 | partial | `C27_label_difference` | propext, Classical.choice, Quot.sound |
| C27 | partial | `C27_same_page_partial` | propext, Classical.choice, Quot.sound |
| C27 | partial | `C27_violated_hi20` | propext, Quot.sound |
| C27 | partial | `C27_violated_abs_hi20` | propext, Quot.sound |
| C27 | partial | `C27_violated_b16` | propext, Classical.choice, Quot.sound |
| C27 | partial | `C27_violated_got` | propext, Quot.sound |
| C27 | partial | `C27_violated_tls` | propext, Quot.sound |
| C28 | partial | `C28_instructions_denote_partial` | propext, Classical.choice, Quot.sound |
| C28 | partial | `C28_pcrel_pair_partial` | propext, Classical.choice, Quot.sound |
| C28 | partial | `C28_out_of_reach_refused` | propext, Classical.choice, Quot.sound |
| C28 | partial | `C28_violated_jal` | propext, Quot.sound |
| C28 | partial | `C28_violated_call_rounding` | propext, Quot.sound |
| C28 | partial | `C28_violated_rvc_jump` | propext, Quot.sound |
| C28 | partial | `C28_violated_rvc_lui` | propext, Quot.sound |
| C28 | partial | `C28_violated_pcrel_addend` | propext, Quot.sound |
| C28 | partial | `C28_violated_slot_reuse` | propext, Quot.sound |
| C29 | partial | `C29_library_calls_partial` | propext, Classical.choice, Quot.sound |
| C29 | partial | `C29_table_large_enough` | propext, Classical.choice, Quot.sound |
| C29 | partial | `C29_violated_notype` | propext |
| C29 | partial | `C29_violated_slot_reuse` | propext, Classical.choice, Quot.sound |
| C30 | proved | `C30_found_is_definition` | propext, Quot.sound |
| C30 | proved | `C30_not_found_is_undefined` | propext, Quot.sound |
| C31 | proved | `C31_first_library` | propext, Quot.sound |
| C31 | proved | `C31_no_library` | propext, Quot.sound |
| C31 | proved | `C31_unresolved_fails` | propext, Classical.choice, Quot.sound |
| C32 | partial | `C32_translation` | propext, Quot.sound |
| C32 | partial | `C32_resolved_is_mapped` | propext, Classical.choice, Quot.sound |
| C32 | partial | `C32_success_means_matched_partial` | propext, Classical.choice, Quot.sound |
| C32 | partial | `C32_mapped_is_resolved_partial` | propext, Classical.choice, Quot.sound |
| C32 | partial | `C32_violated_error_is_success` | propext, Quot.sound |
| C33 | partial | `C33_accepted_fits_partial` | propext, Quot.sound |
| C33 | partial | `C33_copied_partial` | propext, Quot.sound |
| C33 | partial | `C33_violated_section_table` | none |
| C33 | partial | `C33_violated_total_size` | none |
| C33 | partial | `C33_violated_image` | none |
| C34 | proved | `C34_payload_preserved` | propext, Classical.choice, Quot.sound |
| C35 | partial | `C35_short_ids_partial` | propext, Classical.choice, Quot.sound |
| C35 | partial | `C35_violated_long_ids` | propext, Quot.sound |
| C36 | partial | `C36_found_stays_partial` | propext, Classical.choice, Quot.sound |
| C36 | partial | `C36_same_answer_partial` | propext, Classical.choice, Quot.sound |
| C36 | partial | `C36_stored_is_returned` | propext, Quot.sound |
| C36 | partial | `C36_have` | propext, Quot.sound |
| C36 | partial | `C36_violated_reopens` | propext |
| C36 | partial | `C36_violated_other_build_id` | propext |
| C36 | partial | `C36_violated_have_then_load` | propext |
| C37 | proved | `C37_finite_map` | propext, Classical.choice, Quot.sound |
| C38 | proved | `C38_balanced` | propext, Classical.choice, Quot.sound |
| C39 | proved | `C39_order` | propext, Classical.choice, Quot.sound |
| C39 | proved | `C39_safe_loop` | propext, Classical.choice, Quot.sound |
| C39 | proved | `C39_cut` | propext, Quot.sound |
| C40 | partial | `C40_same_arguments_partial` | propext, Classical.choice, Quot.sound |
| C40 | partial | `C40_violated_empty_argument` | propext, Quot.sound |
| C40 | partial | `C40_violated_many_arguments` | propext, Quot.sound |
| C40 | partial | `C40_violated_long_message` | propext, Quot.sound |
| C40 | partial | `C40_violated_recv_error` | propext |
| C41 | proved | `C41_dictionary_order` | propext, Classical.choice, Quot.sound |
| C41 | proved | `C41_total_order` | propext, Classical.choice, Quot.sound |
| C41 | proved | `C41_tree_order` | propext, Classical.choice, Quot.sound |
| C41 | proved | `C41_prefix` | propext, Quot.sound |
| C42 | proved | `C42_nothing_lost` | propext, Quot.sound |
| C42 | proved | `C42_token_in_line` | propext, Quot.sound |
| C43 | proved | `C43_rename_table` | propext, Classical.choice, Quot.sound |
| C43 | proved | `C43_line_rewritten` | propext, Classical.choice, Quot.sound |
| C43 | proved | `C43_unchanged` | propext, Classical.choice, Quot.sound |
| C43 | proved | `C43_history` | propext, Classical.choice, Quot.sound |
| C43 | proved | `C43_compare` | propext, Classical.choice, Quot.sound |
| C43 | proved | `C43_compare_plain` | propext, Classical.choice, Quot.sound |
| C44 | proved | `C44_blocks` | propext, Classical.choice, Quot.sound |
| C44 | proved | `C44_names` | propext, Classical.choice, Quot.sound |
| C45 | partial | `C45_identical_partial` | propext, Classical.choice, Quot.sound |
| C45 | partial | `C45_same_files_partial` | propext, Classical.choice, Quot.sound |
| C45 | partial | `C45_violated_clone` | propext, Quot.sound |
| C46 | partial | `C46_originals` | propext, Classical.choice, Quot.sound |
| C46 | partial | `C46_changed_partial` | propext, Classical.choice, Quot.sound |
| C46 | partial | `C46_changed_replaced_partial` | propext, Classical.choice, Quot.sound |
| C46 | partial | `C46_statement_partial` | propext, Classical.choice, Quot.sound |
| C46 | partial | `C46_token_partial` | propext, Classical.choice, Quot.sound |
| C46 | partial | `C46_nothing_lost_partial` | propext, Classical.choice, Quot.sound |
| C46 | partial | `C46_records` | propext, Classical.choice, Quot.sound |
| C46 | partial | `C46_violated_static` | propext, Quot.sound |
| C46 | partial | `C46_violated_weak` | propext, Quot.sound |
| C47 | partial | `C47_check` | propext, Quot.sound |
| C47 | partial | `C47_no_overrun_partial` | propext, Classical.choice, Quot.sound |
| C47 | partial | `C47_violated_riscv64` | propext, Quot.sound |
| C48 | proved | `C48_records_read_back` | propext, Classical.choice, Quot.sound |
| C49 | proved | `C49_only_selected_objects` | propext, Classical.choice, Quot.sound |
| C50 | proved | `C50_refuses_rel` | propext, Quot.sound |
| C50 | proved | `C50_relocations` | propext, Quot.sound |
| C50 | proved | `C50_symbols` | propext, Classical.choice, Quot.sound |
| C51 | partial | `C51_same_name` | propext, Classical.choice, Quot.sound |
| C51 | partial | `C51_address_partial` | propext, Classical.choice, Quot.sound |
| C51 | partial | `C51_violated_skip` | propext, Quot.sound |
| C51 | partial | `C51_violated_order` | propext, Quot.sound |
| C52 | partial | `C52_roles` | propext, Quot.sound |
| C52 | partial | `C52_commands_partial` | propext, Classical.choice, Quot.sound |
| C52 | partial | `C52_only_listed` | propext, Classical.choice, Quot.sound |
| C52 | partial | `C52_violated_unsorted` | propext, Quot.sound |
| C52 | partial | `C52_violated_output_name` | propext, Quot.sound |
| C53 | partial | `C53_exact_partial` | propext, Classical.choice, Quot.sound |
| C53 | partial | `C53_nothing_lost` | propext, Classical.choice, Quot.sound |
| C53 | partial | `C53_violated_short_write` | propext, Quot.sound |
| C54 | partial | `C54_demangle` | propext, Classical.choice, Quot.sound |
| C54 | partial | `C54_listed` | propext, Classical.choice, Quot.sound |
| C54 | partial | `C54_heap` | propext, Classical.choice, Quot.sound |
| C54 | partial | `C54_aarch64_reads` | propext, Classical.choice, Quot.sound |
| C54 | partial | `C54_riscv_partial` | propext, Classical.choice, Quot.sound |
| C54 | partial | `C54_violated_aarch64` | propext, Quot.sound |
| C54 | partial | `C54_violated_riscv` | propext, Classical.choice, Quot.sound |
| C54 | partial | `C54_violated_loongarch` | propext, Classical.choice, Quot.sound |
| C55 | partial | `C55_all_processes` | propext, Classical.choice, Quot.sound |
| C55 | partial | `C55_one_process` | propext |
| C55 | partial | `C55_no_proc` | propext |
| C55 | partial | `C55_violated_info_all` | propext |
| C56 | proved | `C56_mappings_grouped` | propext, Classical.choice, Quot.sound |
| C56 | proved | `C56_patches_recognised` | propext, Classical.choice, Quot.sound |
| C57 | partial | `C57_kept_partial` | propext, Classical.choice, Quot.sound |
| C57 | partial | `C57_unchanged` | propext, Classical.choice, Quot.sound |
| C57 | partial | `C57_identity` | propext, Classical.choice, Quot.sound |
| C57 | partial | `C57_newlines` | propext, Classical.choice, Quot.sound |
| C57 | partial | `C57_sections_partial` | propext, Classical.choice, Quot.sound |
| C57 | partial | `C57_data_commands_partial` | propext, Classical.choice, Quot.sound |
| C57 | partial | `C57_violated_loongarch_2byte` | propext, Quot.sound |
| C57 | partial | `C57_violated_riscv_ascii` | propext, Quot.sound |
| C57 | partial | `C57_violated_ltext` | propext, Quot.sound |
| C57 | partial | `C57_violated_section` | propext, Quot.sound |
| C57 | partial | `C57_violated_empty_statement` | propext, Quot.sound |
| C58 | partial | `C58_pid_selected_partial` | propext, Quot.sound |
| C58 | partial | `C58_only_named` | propext, Quot.sound |
| C58 | partial | `C58_help_and_too_few` | propext, Quot.sound |
| C58 | partial | `C58_violated_wrong_usage` | propext, Quot.sound |
| C58 | partial | `C58_violated_number_wraps` | propext |
| C59 | partial | `C59_layout_partial` | propext, Classical.choice, Quot.sound |
| C59 | partial | `C59_violated_align0` | propext, Quot.sound |
| C60 | proved | `C60_line` | propext, Quot.sound |
| C60 | proved | `C60_file` | propext, Classical.choice, Quot.sound |
| C60 | proved | `C60_small_lines` | propext, Classical.choice, Quot.sound |
| C61 | partial | `C61_sections_partial` | propext, Classical.choice, Quot.sound |
| C61 | partial | `C61_executable` | propext, Classical.choice, Quot.sound |
| C61 | partial | `C61_violated_nested` | propext |
| C61 | partial | `C61_violated_switch` | propext |
| C61 | partial | `C61_violated_previous` | propext |
| C62 | partial | `C62_list_partial` | propext, Classical.choice, Quot.sound |
| C62 | partial | `C62_list_accepted` | propext, Quot.sound |
| C62 | partial | `C62_excluded_partial` | propext, Classical.choice, Quot.sound |
| C62 | partial | `C62_not_replaced_partial` | propext, Classical.choice, Quot.sound |
| C62 | partial | `C62_replaced_partial` | propext, Classical.choice, Quot.sound |
| C62 | partial | `C62_unlinked_partial` | propext, Classical.choice, Quot.sound |
| C62 | partial | `C62_must_adapt_partial` | propext, Classical.choice, Quot.sound |
| C62 | partial | `C62_violated_file` | propext |
| C62 | partial | `C62_violated_many` | propext |
| C62 | partial | `C62_violated_prefix` | propext |
| C62 | partial | `C62_violated_adapted` | propext, Quot.sound |
| C63 | partial | `X86.C63_load_partial` | propext, Classical.choice, Quot.sound |
| C63 | partial | `X86.C63_store_partial` | propext, Classical.choice, Quot.sound |
| C63 | partial | `X86.C63_other` | propext, Quot.sound |
| C63 | partial | `X86.C63_local` | propext, Classical.choice, Quot.sound |
| C63 | partial | `X86.C63_got_partial` | propext, Classical.choice, Quot.sound |
| C63 | partial | `X86.C63_violated_byte` | propext, Quot.sound |
| C63 | partial | `X86.C63_violated_word` | propext, Quot.sound |
| C63 | partial | `X86.C63_violated_offset` | propext, Quot.sound |
| C63 | partial | `X86.C63_violated_rsp` | propext, Quot.sound |
| C63 | partial | `X86.C63_violated_redzone` | propext, Quot.sound |
| C63 | partial | `X86.C63_violated_short` | propext, Quot.sound |
| C63 | partial | `X86.C63_violated_string` | propext, Quot.sound |
| C64 | partial | `C64_function_extent_partial` | propext, Classical.choice, Quot.sound |
| C64 | partial | `C64_violated_cold_aarch64` | propext, Quot.sound |
| C65 | partial | `C65_syscall_partial` | propext, Classical.choice, Quot.sound |
| C65 | partial | `C65_performed` | propext, Classical.choice, Quot.sound |
| C65 | partial | `C65_errors` | propext, Classical.choice, Quot.sound |
| C65 | partial | `C65_failures` | propext, Quot.sound |
| C65 | partial | `C65_violated_sigstop` | propext, Quot.sound |
| C66 | partial | `C66_resolver_partial` | propext, Classical.choice, Quot.sound |
| C66 | partial | `C66_violated_red_zone` | propext, Quot.sound |
| C66 | partial | `C66_violated_arguments` | propext, Quot.sound |
| C67 | partial | `C67_lines_partial` | propext, Quot.sound |
| C67 | partial | `C67_violated_long` | propext, Quot.sound |
| C67 | partial | `C67_table` | propext, Quot.sound |
| C68 | partial | `C68_same_target` | propext, Classical.choice, Quot.sound |
| C68 | partial | `C68_code` | propext, Classical.choice, Quot.sound |
| C68 | partial | `C68_address_partial` | propext, Classical.choice, Quot.sound |
| C68 | partial | `C68_tls_offset_partial` | propext, Classical.choice, Quot.sound |
| C68 | partial | `C68_tls_slot_partial` | propext, Classical.choice, Quot.sound |
| C68 | partial | `C68_tls_read_partial` | propext, Classical.choice, Quot.sound |
| C68 | partial | `C68_tls_refused` | propext, Classical.choice, Quot.sound |
| C68 | partial | `C68_accepted` | propext, Classical.choice, Quot.sound |
| C68 | partial | `C68_violated_own` | propext, Quot.sound |
| C68 | partial | `C68_violated_compare` | propext, Quot.sound |
| C68 | partial | `C68_violated_call` | propext, Quot.sound |
| C68 | partial | `C68_violated_library_tls` | propext, Quot.sound |
| C68 | partial | `C68_violated_module_slot` | propext |
| C68 | partial | `C68_violated_tls_size` | propext |
| C69 | proved | `C69_data` | propext, Classical.choice, Quot.sound |
| C70 | partial | `C70_offsets_partial` | propext, Classical.choice, Quot.sound |
| C70 | partial | `C70_violated_static` | propext |
| C70 | partial | `C70_violated_section` | propext |
| C71 | partial | `C71_found_partial` | propext, Classical.choice, Quot.sound |
| C71 | partial | `C71_distinct` | propext, Quot.sound |
| C71 | partial | `C71_sound` | propext, Quot.sound |
| C71 | partial | `C71_violated_padding` | propext, Classical.choice, Quot.sound |
| C71 | partial | `C71_violated_long` | propext, Classical.choice, Quot.sound |
| C71 | partial | `C71_violated_length` | propext, Classical.choice, Quot.sound |
| C72 | partial | `C72_name_partial` | propext, Classical.choice, Quot.sound |
| C72 | partial | `C72_ld` | propext, Classical.choice, Quot.sound |
| C72 | partial | `C72_violated_name` | propext, Classical.choice, Quot.sound |
| C72 | partial | `C72_violated_deleted` | propext, Classical.choice, Quot.sound |
| C72 | partial | `C72_violated_ld` | propext |
| C72 | partial | `C72_violated_listed` | propext, Quot.sound |
| C73 | partial | `C73_auxv` | propext, Classical.choice, Quot.sound |
| C73 | partial | `C73_first_mmap_x86_partial` | propext, Classical.choice, Quot.sound |
| C73 | partial | `C73_first_mmap_riscv` | propext, Classical.choice, Quot.sound |
| C73 | partial | `C73_ld_entry_partial` | propext, Classical.choice, Quot.sound |
| C73 | partial | `C73_violated_signal` | propext |
| C73 | partial | `C73_stop_outside_call_x86` | propext, Classical.choice, Quot.sound |
| C73 | partial | `C73_violated_aarch64_number` | propext, Classical.choice, Quot.sound |
| C73 | partial | `C73_violated_aarch64` | propext |
| C73 | partial | `C73_violated_aarch64_result` | propext, Classical.choice, Quot.sound |
| C73 | partial | `C73_violated_loongarch` | propext, Classical.choice, Quot.sound |
| C74 | partial | `C74_same_target_riscv` | propext, Classical.choice, Quot.sound |
| C74 | partial | `C74_same_target_loongarch` | propext, Classical.choice, Quot.sound |
| C74 | partial | `C74_same_target_aarch64` | propext, Classical.choice, Quot.sound |
| C74 | partial | `C74_imported_riscv` | propext, Classical.choice, Quot.sound |
| C74 | partial | `C74_imported_loongarch` | propext, Classical.choice, Quot.sound |
| C74 | partial | `C74_slot_riscv` | propext, Classical.choice, Quot.sound |
| C74 | partial | `C74_refused_riscv` | propext, Classical.choice, Quot.sound |
| C74 | partial | `C74_read_riscv_partial` | propext, Classical.choice, Quot.sound |
| C74 | partial | `C74_offset_loongarch` | propext, Classical.choice, Quot.sound |
| C74 | partial | `C74_violated_local_exec_loongarch` | propext, Classical.choice, Quot.sound |
| C74 | partial | `C74_refused_loongarch` | propext, Classical.choice, Quot.sound |
| C74 | partial | `C74_refused_slot_loongarch` | propext, Classical.choice, Quot.sound |
| C74 | partial | `C74_violated_slot_loongarch` | propext, Classical.choice, Quot.sound |
| C74 | partial | `C74_refused_aarch64` | propext, Classical.choice, Quot.sound |
| C74 | partial | `C74_read_aarch64_partial` | propext, Classical.choice, Quot.sound |
| C74 | partial | `C74_violated_local_exec_riscv` | propext, Quot.sound |
| C74 | partial | `C74_violated_library_tls_riscv` | propext, Quot.sound |
| C74 | partial | `C74_violated_reach_riscv` | propext, Quot.sound |
| C74 | partial | `C74_violated_page_aarch64` | propext, Quot.sound |
| C74 | partial | `C74_violated_slot_aarch64` | propext, Quot.sound |
| C75 | partial | `C75_same_statements_partial` | propext, Classical.choice, Quot.sound |
| C75 | partial | `C75_violated_comment` | propext, Quot.sound |
| C75 | partial | `C75_violated_comment_aarch64` | propext, Quot.sound |
| C75 | partial | `C75_violated_string` | propext, Quot.sound |
| C76 | partial | `C76_commands_partial` | propext, Classical.choice, Quot.sound |
| C76 | partial | `C76_contents_partial` | propext, Classical.choice, Quot.sound |
| C76 | partial | `C76_files_kept_partial` | propext, Classical.choice, Quot.sound |
| C76 | partial | `C76_names` | propext, Quot.sound |
| C76 | partial | `C76_violated_append` | propext, Quot.sound |
| C76 | partial | `C76_violated_language` | propext, Quot.sound |
| C76 | partial | `C76_violated_separate` | propext, Quot.sound |
| C76 | partial | `C76_violated_devnull` | propext, Quot.sound |
| C77 | partial | `C77_failure_partial` | propext, Quot.sound |
| C77 | partial | `C77_success_partial` | propext, Quot.sound |
| C77 | partial | `C77_violated_killed` | propext, Quot.sound |
| C78 | partial | `C78_commands_partial` | propext, Classical.choice, Quot.sound |
| C78 | partial | `C78_contents_partial` | propext, Classical.choice, Quot.sound |
| C78 | partial | `C78_files_kept_partial` | propext, Classical.choice, Quot.sound |
| C78 | partial | `C78_passthrough` | propext, Quot.sound |
| C79 | partial | `C79_x86_partial` | propext, Classical.choice, Quot.sound |
| C79 | partial | `C79_aarch64_partial` | propext, Classical.choice, Quot.sound |
| C79 | partial | `C79_loongarch_partial` | propext, Classical.choice, Quot.sound |
| C79 | partial | `C79_riscv_partial` | propext, Classical.choice, Quot.sound |
| C79 | partial | `C79_violated_rel` | propext |
| C80 | partial | `C80_library_symbol_partial` | propext, Classical.choice, Quot.sound |
| C80 | partial | `C80_unknown_symbol_partial` | propext, Classical.choice, Quot.sound |
| C80 | partial | `C80_violated_unrelocated` | propext, Classical.choice, Quot.sound |
| C80 | partial | `C80_violated_table_layout` | propext, Classical.choice, Quot.sound |
| C81 | partial | `C81_program_not_searched_partial` | propext, Classical.choice, Quot.sound |
| C81 | partial | `C80_library_symbol_partial` | propext, Classical.choice, Quot.sound |
| C81 | partial | `C81_violated_interp_library` | propext, Classical.choice, Quot.sound |
| C82 | partial | `C82_map_read_partial` | propext, Classical.choice, Quot.sound |
| C82 | partial | `C82_same_file_partial` | propext, Classical.choice, Quot.sound |
| C82 | partial | `C82_violated_blank` | propext, Classical.choice, Quot.sound |
| C82 | partial | `C82_violated_long_name` | propext, Classical.choice, Quot.sound |
| C82 | partial | `C82_violated_inode` | propext, Classical.choice, Quot.sound |
| C82 | partial | `C82_violated_long_line` | propext, Classical.choice, Quot.sound |
| C83 | partial | `C83_x86_partial` | propext, Classical.choice, Quot.sound |
| C83 | partial | `C83_aarch64_partial` | propext, Classical.choice, Quot.sound |
| C83 | partial | `C83_loongarch_partial` | propext, Classical.choice, Quot.sound |
| C83 | partial | `C83_riscv_partial` | propext, Classical.choice, Quot.sound |
| C83 | partial | `C83_again_partial` | propext, Classical.choice, Quot.sound |
| C83 | partial | `C83_violated_race` | propext, Classical.choice, Quot.sound |
| C84 | partial | `C84_protection_partial` | propext, Classical.choice, Quot.sound |
| C84 | partial | `C84_violated_page_size` | propext, Classical.choice, Quot.sound |
| C84 | partial | `C84_violated_order` | propext, Classical.choice, Quot.sound |
| C85 | partial | `C85_applied_partial` | propext, Classical.choice, Quot.sound |
| C85 | partial | `C85_process_partial` | propext, Classical.choice, Quot.sound |
| C85 | partial | `C85_violated_loongarch_reach` | propext, Quot.sound |
| C86 | partial | `C86_unpatch_partial` | propext, Classical.choice, Quot.sound |
| C87 | partial | `C87_write_done_partial` | propext, Classical.choice, Quot.sound |
| C87 | partial | `C87_fallback` | propext, Quot.sound |
| C87 | partial | `C87_violated_tail` | propext, Quot.sound |
| C88 | partial | `C88_placed_partial` | propext, Classical.choice, Quot.sound |
| C88 | partial | `C88_aligned` | propext, Classical.choice, Quot.sound |
| C88 | partial | `C88_violated_end_label` | propext, Quot.sound |
| C89 | proved | `C89_global` | propext, Classical.choice, Quot.sound |
| C90 | partial | `C90_before_script_decides_partial` | propext, Quot.sound |
| C90 | partial | `C90_order` | propext, Quot.sound |
| C90 | partial | `C90_violated_wait` | none |
| C91 | partial | `C91_one_program` | propext, Classical.choice, Quot.sound |
| C91 | partial | `C91_own_signals_partial` | propext, Classical.choice, Quot.sound |
| C91 | partial | `C91_violated_stale_pid` | propext |
| C91 | partial | `C91_violated_exec` | propext |
| C92 | proved | `C92_storage_named_last` | propext, Quot.sound |
| C93 | proved | `C93_directories` | propext |
| C93 | proved | `C93_returns` | propext, Classical.choice, Quot.sound |
| C94 | partial | `C94_sources_restored_partial` | propext, Quot.sound |
| C94 | partial | `C94_violated_twice` | none |
| C94 | partial | `C94_violated_created` | none |
| C95 | partial | `C95_compiler_restored_partial` | propext |
| C95 | partial | `C95_violated_failure` | propext, Quot.sound |
| C96 | partial | `C96_published_is_due_partial` | propext, Quot.sound |
| C96 | partial | `C96_due_is_published` | propext, Quot.sound |
| C96 | partial | `C96_violated_undo` | propext |
| C96 | partial | `C96_violated_option` | propext, Classical.choice, Quot.sound |
| C97 | partial | `C97_common_partial` | propext, Classical.choice, Quot.sound |
| C97 | partial | `C97_refused_dollar` | propext |
| C97 | partial | `C97_violated_align` | propext, Quot.sound |
| C98 | partial | `C98_taken_at_exec_partial` | propext, Classical.choice, Quot.sound |
| C98 | partial | `C98_only_after_breakpoint` | propext, Quot.sound |
| C98 | partial | `C98_violated_stop` | propext, Classical.choice, Quot.sound |
| C98 | partial | `C98_violated_aarch64` | propext, Quot.sound |
| C98 | partial | `C98_violated_loongarch` | propext, Quot.sound |
| C98 | partial | `C98_violated_riscv` | propext, Classical.choice, Quot.sound |
| C99 | partial | `C99_made_partial` | propext, Classical.choice, Quot.sound |
| C99 | partial | `C99_stdout_partial` | propext, Classical.choice, Quot.sound |
| C99 | partial | `C99_refused` | propext, Classical.choice, Quot.sound |
| C99 | partial | `C99_unwritable` | propext, Classical.choice, Quot.sound |
| C99 | partial | `C99_violated_buildid` | propext, Quot.sound |
| C99 | partial | `C99_violated_same_file` | propext, Quot.sound |
| C99 | partial | `C99_violated_cut` | propext, Quot.sound |
| C100 | partial | `C100_roundtrip_partial` | propext, Classical.choice, Quot.sound |
| C100 | partial | `C100_converted_partial` | propext, Classical.choice, Quot.sound |
| C100 | partial | `C100_header` | propext, Classical.choice, Quot.sound |
| C100 | partial | `C100_refused` | propext, Classical.choice, Quot.sound |
| C100 | partial | `C100_violated_no_patch` | propext, Classical.choice, Quot.sound |
| C100 | partial | `C100_violated_string` | propext, Quot.sound |
| C100 | partial | `C100_violated_same_file` | propext, Classical.choice, Quot.sound |
| C101 | partial | `C101_one_action` | propext, Classical.choice, Quot.sound |
| C101 | partial | `C101_refused` | propext, Classical.choice, Quot.sound |
| C101 | partial | `C101_violated_usage` | propext, Classical.choice, Quot.sound |
| C102 | partial | `C102_storage_name` | propext, Quot.sound |
| C102 | partial | `C102_single_id` | propext, Quot.sound |
| C102 | partial | `C102_object_id` | propext, Quot.sound |
| C102 | partial | `C102_pid` | propext, Classical.choice, Quot.sound |
| C102 | partial | `C102_script_partial` | propext, Quot.sound |
| C102 | partial | `C102_violated_script` | propext, Classical.choice, Quot.sound |
| C102 | partial | `C102_storage_command` | propext, Quot.sound |
| C102 | partial | `C102_server_dir_partial` | propext, Quot.sound |
| C102 | partial | `C102_violated_server_dir` | propext, Quot.sound |
| C102 | partial | `C102_server_socket` | propext, Quot.sound |
| C102 | partial | `C102_client_socket` | propext, Quot.sound |
| C102 | partial | `C102_wrapper_names` | propext, Quot.sound |
| C102 | partial | `C102_wrapper_file` | propext, Quot.sound |
| C102 | partial | `C102_flavor` | propext, Quot.sound |
| C102 | partial | `C102_register` | propext, Quot.sound |
| C102 | partial | `C102_line_partial` | propext, Classical.choice, Quot.sound |
| C102 | partial | `C102_violated_line` | propext, Classical.choice, Quot.sound |
| C102 | partial | `C102_move` | propext, Classical.choice, Quot.sound |
| C103 | partial | `C103_runs_partial` | propext, Classical.choice, Quot.sound |
| C103 | partial | `C103_refused` | propext, Classical.choice, Quot.sound |
| C103 | partial | `C103_violated_refused` | propext, Classical.choice, Quot.sound |
| C103 | partial | `C103_violated_same_file` | propext, Classical.choice, Quot.sound |
| C104 | proved | `C104_destroy` | propext, Classical.choice, Quot.sound |
| C105 | partial | `C105_lines_partial` | propext, Classical.choice, Quot.sound |
| C105 | partial | `C105_sections` | propext, Quot.sound |
| C105 | partial | `C105_violated_comment` | propext, Quot.sound |
| C105 | partial | `C105_violated_witness` | propext, Quot.sound |
