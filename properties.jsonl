{"id": "C01", "title": "Unpatching restores the process exactly", "statement": "When `libcare-ctl patch` succeeds on an object and `libcare-ctl unpatch` of that patch later succeeds, with nothing else writing the process in between, every byte of the target's address space has the value it had before patching, and the memory allocated for the patch is no longer mapped.", "quantifier": "every initial memory content, every list of patched functions (any number, each at least as long as the jump and pairwise disjoint), every patch image, every supported architecture", "why_tests_cant": "A test compares a handful of functions of one process; the claim is about every byte of memory for any number of hunks and any contents.", "anchors": ["src/kpatch_patch.c:object_apply_patch", "src/kpatch_patch.c:object_unapply_patch", "src/arch/x86/arch_patch.c:patch_apply_hunk", "src/arch/aarch64/arch_patch.c:patch_apply_hunk", "src/arch/loongarch64/arch_patch.c:patch_apply_hunk", "src/arch/riscv64/arch_patch.c:patch_apply_hunk"]}
{"id": "C02", "title": "A patch that fails half way is rolled back", "statement": "If applying a patch to an object fails at any point while the entry jumps are being installed, and the rollback itself succeeds, the code of every function of that object is byte for byte what it was before the attempt.", "quantifier": "every hunk list, every memory content and every failure point (which remote copy or write fails)", "why_tests_cant": "Failure points are remote ptrace/pwrite failures that tests cannot inject one by one for all hunk counts.", "anchors": ["src/kpatch_patch.c:kpatch_apply_patches", "src/kpatch_patch.c:object_unapply_patch", "src/arch/x86/arch_patch.c:patch_apply_hunk"]}
{"id": "C03", "title": "Stacked patches can be removed", "statement": "When several patches with different ids are applied to the same object one after another and then all removed, the original code is back, whatever the order of removal.", "quantifier": "every number of stacked patches, every set of functions each one touches, every removal order", "why_tests_cant": "The number of stacks and removal orders is unbounded and the damage only shows when the process later calls the function.", "anchors": ["src/kpatch_patch.c:object_unapply_patch", "src/kpatch_process.c:kpatch_process_associate_patches"]}
{"id": "C04", "title": "x86-64: calling a patched function runs the replacement", "statement": "On x86-64, after a hunk is installed the instruction at the entry of the old function is a jump whose target is exactly the replacement function, and no byte outside the first five is modified.", "quantifier": "all old and new addresses within the reach of a 32-bit displacement, all memory contents", "why_tests_cant": "Tests use a few addresses chosen by the loader; wrong sign extension or off-by-one shows only at particular distances.", "anchors": ["src/arch/x86/arch_patch.c:patch_apply_hunk"]}
{"id": "C05", "title": "AArch64: calling a patched function runs the replacement", "statement": "On AArch64, after a hunk is installed the instruction at the entry of the old function is an unconditional branch whose target is exactly the replacement function, for every pair of word-aligned addresses less than 128 MiB apart.", "quantifier": "all word-aligned address pairs within +-128 MiB, all memory contents", "why_tests_cant": "Negative displacements and the extreme distances depend on where the kernel maps the patch, which tests do not control.", "anchors": ["src/arch/aarch64/arch_patch.c:patch_apply_hunk"]}
{"id": "C06", "title": "LoongArch: calling a patched function runs the replacement or the patch is refused", "statement": "On LoongArch, installing a hunk either fails without touching the function, or leaves a branch whose target is exactly the replacement function.", "quantifier": "all address pairs, all memory contents", "why_tests_cant": "The encoding splits the offset into two swapped fields; only particular distances reveal a mistake.", "anchors": ["src/arch/loongarch64/arch_patch.c:patch_apply_hunk"]}
{"id": "C07", "title": "RISC-V: calling a patched function runs the replacement", "statement": "On RISC-V, after a hunk is installed the two instructions at the entry of the old function transfer control exactly to the replacement function.", "quantifier": "all address pairs within the reach of auipc+jalr, all memory contents", "why_tests_cant": "The sign carry between the two immediates matters only for half of the displacements and at the extreme distances.", "anchors": ["src/arch/riscv64/arch_patch.c:patch_apply_hunk", "src/arch/riscv64/riscv64_imm.h:set_utype_imm", "src/arch/riscv64/riscv64_imm.h:set_itype_imm"]}
{"id": "C08", "title": "The parts of a loaded patch never overlap", "statement": "Inside the memory allocated for a patch in the target, the header, the jump table, the patch ELF image and the saved original code occupy pairwise disjoint ranges, all inside the allocated size, with the image page aligned and the total a whole number of pages.", "quantifier": "every image size, every number of undefined symbols, every number of hunks, every hunk size", "why_tests_cant": "Overlap depends on arithmetic with roundings over unbounded sizes.", "anchors": ["src/kpatch_patch.c:object_apply_patch", "src/kpatch_elf.c:kpatch_new_jmp_table"]}
{"id": "C09", "title": "Patch memory is never placed over an existing mapping", "statement": "The address range chosen for a patch in the target lies entirely in memory that was unmapped, so mapping it with MAP_FIXED destroys nothing.", "quantifier": "every layout of the target's address space and every patch size", "why_tests_cant": "The failing layouts need gaps of particular sizes at particular distances from the object; no test process has them.", "anchors": ["src/arch/x86/arch_process.c:object_find_patch_region", "src/arch/aarch64/arch_process.c:object_find_patch_region", "src/kpatch_process.c:kpatch_object_allocate_patch", "src/kpatch_process.c:process_add_vm_hole"]}
{"id": "C10", "title": "Patch memory is always within branch reach of the object", "statement": "Every address of the range chosen for a patch is close enough to every address of the object being patched that the architecture's jump instruction can reach it.", "quantifier": "every layout of the target's address space and every patch size", "why_tests_cant": "Reach depends on distances that depend on the whole address space layout.", "anchors": ["src/arch/x86/arch_process.c:object_find_patch_region", "src/arch/aarch64/arch_process.c:object_find_patch_region", "src/arch/loongarch64/arch_process.c:object_find_patch_region"]}
{"id": "C11", "title": "A usable gap is found whenever one is adjacent", "statement": "If one of the two gaps next to the object is within distance and large enough, the search for patch memory succeeds, and a failed search changes nothing; the search always terminates.", "quantifier": "every layout of the target's address space and every patch size", "why_tests_cant": "It quantifies over all address space layouts.", "anchors": ["src/arch/x86/arch_process.c:object_find_patch_region", "src/kpatch_process.c:next_hole", "src/kpatch_process.c:prev_hole"]}
{"id": "C12", "title": "Unmapped gaps are computed exactly from the memory map", "statement": "Reading the target's memory map yields gaps that are sorted, pairwise disjoint, inside unmapped memory and at least one page away from every mapping.", "quantifier": "every sorted list of mappings", "why_tests_cant": "Quantifies over every memory map.", "anchors": ["src/kpatch_process.c:kpatch_process_parse_proc_maps", "src/kpatch_process.c:process_add_vm_hole"]}
{"id": "C13", "title": "Several patches in one run get disjoint memory", "statement": "After any sequence of patch allocations in one run, the recorded gaps are still sorted, disjoint from every mapping and from every region allocated so far, with a guard page on both sides, so no two patches share memory.", "quantifier": "every sequence of allocations, every size", "why_tests_cant": "Sequences of splits are unbounded; a stale gap shows only when a later patch lands in it.", "anchors": ["src/kpatch_process.c:vm_hole_split", "src/kpatch_process.c:kpatch_object_allocate_patch"]}
{"id": "C14", "title": "Code is replaced only when nothing is executing it", "statement": "When entry jumps are installed, no stack frame of any thread or coroutine that the unwinder reports lies inside a function that is being replaced.", "quantifier": "every set of threads and coroutines, every call stack of any depth, every set of functions", "why_tests_cant": "It ranges over all call stacks and all thread states at the moment of patching.", "anchors": ["src/kpatch_patch.c:object_patch_verify_safety_single", "src/kpatch_patch.c:patch_verify_safety", "src/kpatch_patch.c:patch_ensure_safety"]}
{"id": "C15", "title": "Patch memory is unmapped only when nothing is executing in it", "statement": "When unpatching unmaps the patch memory, no stack frame of any thread or coroutine points into that memory.", "quantifier": "every set of threads and coroutines, every call stack, every patch including ones that add new functions", "why_tests_cant": "Needs a thread parked at a particular place in patch code at the moment of unpatching.", "anchors": ["src/kpatch_patch.c:object_patch_verify_safety_single", "src/kpatch_patch.c:object_unapply_patch"]}
{"id": "C16", "title": "Unsafe state leaves the code untouched", "statement": "If a thread does not leave the functions being replaced (timeout, failure while waiting, a coroutine inside), applying fails and not one byte of the original code has been changed.", "quantifier": "every outcome of waiting: all schedules, timeouts, errors and newly created threads", "why_tests_cant": "Depends on the schedule of the target's threads during the wait.", "anchors": ["src/kpatch_patch.c:patch_ensure_safety", "src/kpatch_patch.c:object_apply_patch"]}
{"id": "C17", "title": "Waiting stops each thread just outside the replaced functions", "statement": "For a thread found inside a replaced function, the address at which it is to be stopped is the first frame above that run of replaced functions, which is not inside any replaced function; the thread is never given an address belonging to another thread.", "quantifier": "every call stack, every set of functions, every list of threads", "why_tests_cant": "Stacks that end inside a replaced function (entry functions of threads) are rare in tests.", "anchors": ["src/kpatch_patch.c:object_patch_verify_safety_single", "src/kpatch_patch.c:patch_verify_safety"]}
{"id": "C18", "title": "A patch id is applied at most once", "statement": "Applying a patch whose id is already applied to the object fails and leaves the process unchanged; after any history of patch and unpatch commands an object has at most one applied patch per id.", "quantifier": "every history of patch/unpatch commands with any ids", "why_tests_cant": "Ranges over histories of commands.", "anchors": ["src/kpatch_patch.c:object_apply_patch", "src/kpatch_process.c:kpatch_object_get_applied_patch_by_id", "src/kpatch_process.c:kpatch_object_add_applied_patch"]}
{"id": "C19", "title": "Patching a process is all or nothing", "statement": "If a process has several objects to patch and one of them fails, the process ends in the state it had before the command.", "quantifier": "every list of objects and every position of the failing one", "why_tests_cant": "Needs a failure at each possible object after others succeeded.", "anchors": ["src/kpatch_patch.c:kpatch_apply_patches"]}
{"id": "C20", "title": "Temporary breakpoints are always removed", "statement": "Whatever the threads do while the tool waits for them to leave the replaced functions (finish, time out, get signals, exit), after the wait every byte of the target's code equals its value before the wait.", "quantifier": "every set of stop addresses, every schedule, timeout and error during the wait, every breakpoint length", "why_tests_cant": "Depends on schedules and on stop addresses that are close to each other.", "anchors": ["src/kpatch_ptrace.c:kpatch_ptrace_execute_until"]}
{"id": "C21", "title": "Remote calls leave no trace", "statement": "Running a system call or an ifunc resolver inside the target (mmap, mprotect, munmap, symbol resolution) leaves the target's code and the thread's registers as they were, except for the intended effect of the call.", "quantifier": "every failure point inside the remote call and every register and code content", "why_tests_cant": "Failure points between register and code updates cannot be injected by tests.", "anchors": ["src/arch/x86/arch_ptrace.c:kpatch_arch_execute_remote_func", "src/kpatch_ptrace.c:kpatch_mmap_remote"]}
{"id": "C22", "title": "Writing target memory changes exactly the requested bytes", "statement": "A successful write of n bytes to the target changes exactly those n bytes to the given values and no other byte, also when it falls back to word-sized ptrace pokes.", "quantifier": "every length, every address, every memory content, every source", "why_tests_cant": "The fallback path for lengths not divisible by the word size is rarely taken.", "anchors": ["src/kpatch_ptrace.c:kpatch_process_mem_write", "src/kpatch_ptrace.c:kpatch_process_mem_write_ptrace", "src/kpatch_ptrace.c:kpatch_process_memcpy"]}
{"id": "C23", "title": "Buffered remote reads return the target's bytes", "statement": "A successful read through the buffered remote-memory iterator returns exactly the bytes at the requested address of the target, after any sequence of earlier reads, including ones that failed.", "quantifier": "every sequence of reads with any addresses and sizes and any pattern of short or failed reads", "why_tests_cant": "The wrong result needs a failed or short read at the right place in the sequence.", "anchors": ["src/kpatch_ptrace.c:process_mem_iter_peek", "src/kpatch_ptrace.c:kpatch_process_mem_iter_init"]}
{"id": "C24", "title": "All threads are stopped before patching", "statement": "When attaching to a process succeeds, every thread that the process has at that moment is stopped by the tool.", "quantifier": "every schedule of thread creation and exit during attaching", "why_tests_cant": "Requires threads being created and dying between two directory scans.", "anchors": ["src/kpatch_process.c:kpatch_process_attach", "src/kpatch_process.c:process_list_threads", "src/kpatch_process.c:process_has_thread_pid"]}
{"id": "C25", "title": "x86-64 relocations denote the intended address", "statement": "Every x86-64 relocation that is applied successfully stores a field that, read back by the processor's rule for that relocation, denotes symbol + addend (relative to the field where applicable) and modifies only the bytes of that field inside its section.", "quantifier": "every relocation type supported, every symbol value, addend, place, and section content", "why_tests_cant": "Truncation and overrun show only for particular distances and offsets.", "anchors": ["src/arch/x86/arch_elf.c:kpatch_arch_apply_relocate_add"]}
{"id": "C26", "title": "AArch64 relocations denote the intended address", "statement": "Every AArch64 relocation that is applied successfully makes the instruction compute symbol + addend when executed at its final address, leaving the opcode and registers of the instruction unchanged.", "quantifier": "every supported relocation type, every symbol value, addend and place in range, every instruction word", "why_tests_cant": "Immediate fields are split and scaled; a wrong scale shows only for some addresses.", "anchors": ["src/arch/aarch64/arch_elf.c:kpatch_arch_apply_relocate", "src/arch/aarch64/arch_elf.c:kpatch_arch_apply_relocate_add"]}
{"id": "C27", "title": "LoongArch relocations denote the intended address", "statement": "Every LoongArch relocation that is applied successfully makes the instruction compute symbol + addend when executed at its final address, leaving the opcode and registers of the instruction unchanged.", "quantifier": "every supported relocation type, every symbol value, addend and place in range, every instruction word", "why_tests_cant": "Immediate fields are split and scaled; a wrong scale shows only for some addresses.", "anchors": ["src/arch/loongarch64/arch_elf.c:kpatch_arch_apply_relocate_add", "src/arch/loongarch64/loongarch64_imm.h"]}
{"id": "C28", "title": "RISC-V relocations denote the intended address", "statement": "Every RISC-V relocation that is applied successfully makes the instruction (or the pair of instructions) compute symbol + addend when executed at its final address, leaving the opcode and registers unchanged; an offset that does not fit is refused.", "quantifier": "every supported relocation type, every symbol value, addend and place, every instruction word", "why_tests_cant": "Immediate fields are scattered over the word and the range tests have boundaries tests do not visit.", "anchors": ["src/arch/riscv64/arch_elf.c:kpatch_arch_apply_relocate_add", "src/arch/riscv64/riscv64_imm.h"]}
{"id": "C29", "title": "Calls to library functions go through the jump table to the right function", "statement": "Each undefined symbol of a patch gets its own jump table entry; executing the entry transfers control to the symbol's address; the table is large enough for all undefined symbols and no entry is overwritten by a later one.", "quantifier": "every number of undefined symbols, all addresses, all architectures", "why_tests_cant": "Ranges over all numbers of symbols and all addresses.", "anchors": ["src/kpatch_elf.c:kpatch_new_jmp_table", "src/kpatch_elf.c:kpatch_count_undefined", "src/kpatch_elf.c:symbol_resolve", "src/arch/x86/arch_elf.c:kpatch_arch_add_jmp_entry"]}
{"id": "C30", "title": "Symbol lookup in a library finds exactly its defined symbols", "statement": "Looking up a name in a shared library of the target succeeds exactly when the library's dynamic symbol table defines a symbol with that name, and returns the address of such a definition, never that of an undefined reference.", "quantifier": "every symbol table, every name", "why_tests_cant": "The lookup sorts, cuts and binary-searches the table; correctness is over all tables.", "anchors": ["src/kpatch_elf.c:elf_object_load_dynsym", "src/kpatch_elf.c:sym_name_cmp", "src/kpatch_elf.c:kpatch_resolve_undefined_single_dynamic"]}
{"id": "C31", "title": "Undefined symbols resolve to the first library that defines them", "statement": "An undefined symbol of a patch is bound to the definition in the first shared library, in memory map order, that defines the unversioned name; applying fails when no library does.", "quantifier": "every list of objects and every symbol name, with or without version suffix", "why_tests_cant": "Ranges over all sets of loaded libraries.", "anchors": ["src/kpatch_elf.c:kpatch_resolve_undefined", "src/kpatch_elf.c:vaddr2addr"]}
{"id": "C32", "title": "Link-time addresses map to the right run-time addresses", "statement": "A link-time address of an object translates to that address plus the object's load offset when it lies in a mapped segment, and is reported as unresolved otherwise; loading the segment table succeeds only if every mapping of the object was matched to a segment.", "quantifier": "every program header table, every list of mappings, every address", "why_tests_cant": "The translation depends on matching, sorting and splitting of segments over all ELF files.", "anchors": ["src/kpatch_elf.c:kpatch_elf_parse_program_header", "src/kpatch_elf.c:vaddr2addr", "src/kpatch_elf.c:match_program_header_vm_area"]}
{"id": "C33", "title": "Only well-formed patch files are accepted", "statement": "A file accepted as a patch is large enough for everything its header declares: the header, the declared total size, the ELF header and the section table it refers to.", "quantifier": "every file content", "why_tests_cant": "All malformed files cannot be enumerated.", "anchors": ["src/kpatch_storage.c:patch_file_verify", "src/kpatch_common.c:kpatch_open_fd", "src/kpatch_make.c:kpatch_make_file"]}
{"id": "C34", "title": "Making, loading and dumping a patch file preserves the payload", "statement": "A patch file produced from an ELF relocatable payload is accepted by the loader, carries the given build id and patch id, and stripping its header gives back the payload (padded with zeros to a multiple of 16 bytes); an incomplete write is reported.", "quantifier": "every relocatable payload below 2 GiB, every build id and patch id within its field size, every outcome of the writes", "why_tests_cant": "Quantifies over all payloads and strings.", "anchors": ["src/kpatch_make.c:kpatch_make_file", "src/libcare-dump.c", "src/kpatch_storage.c:patch_file_verify"]}
{"id": "C35", "title": "Patch ids identify patches", "statement": "Two patches made with different ids have different ids when loaded, and a patch can be cancelled by the id it was made with.", "quantifier": "every pair of id strings", "why_tests_cant": "Tests use short ids only.", "anchors": ["src/kpatch_make.c:kpatch_make_file", "src/kpatch_process.c:kpatch_object_get_applied_patch_by_id"]}
{"id": "C36", "title": "Storage lookups are consistent", "statement": "Asking the patch storage for a build id returns the same answer every time within a run, opens the patch file at most once per build id, and never returns a patch of another build id, whatever the sequence of queries.", "quantifier": "every sequence of queries over any build ids, every file system content", "why_tests_cant": "Histories of mixed queries are unbounded.", "anchors": ["src/kpatch_storage.c:storage_get_patch", "src/kpatch_storage.c:storage_load_patch", "src/kpatch_storage.c:storage_have_patch"]}
{"id": "C37", "title": "The ordered tree behaves as a finite map", "statement": "After any sequence of insertions and removals, searching the red-black tree for a key finds the node inserted first for that key and not removed since, and in-order iteration visits exactly the stored keys in increasing order.", "quantifier": "every sequence of operations and all keys", "why_tests_cant": "Rebalancing cases are reached only by particular long histories.", "anchors": ["src/rbtree.c:rb_insert_color", "src/rbtree.c:____rb_erase_color", "src/include/rbtree.h:rb_insert_node", "src/include/rbtree.h:rb_search_node"]}
{"id": "C38", "title": "The ordered tree stays balanced", "statement": "After any sequence of insertions and removals the red-black tree has no red node with a red child and the same number of black nodes on every path, so its height is at most 2*log2(n+1).", "quantifier": "every sequence of operations", "why_tests_cant": "Balance must hold after all histories.", "anchors": ["src/rbtree.c:__rb_insert", "src/rbtree.c:____rb_erase_color", "src/include/rbtree.h:__rb_erase"]}
{"id": "C39", "title": "Linked lists keep all elements in order", "statement": "After any sequence of additions and deletions the intrusive list iterates, forwards and backwards, exactly over the elements added and not deleted, each once, in insertion order.", "quantifier": "every sequence of operations over any nodes", "why_tests_cant": "Pointer surgery over all histories.", "anchors": ["src/include/list.h:__list_add", "src/include/list.h:list_del"]}
{"id": "C40", "title": "Client commands reach the server unchanged", "statement": "Whatever way the socket splits the byte stream, the argument vector the server executes equals the one given to the client.", "quantifier": "every argument vector, every way of splitting the stream into reads", "why_tests_cant": "All chunkings and argument vectors cannot be tried.", "anchors": ["src/libcare-server.c:handle_client", "src/libcare-client.c:main"]}
{"id": "C41", "title": "Comparing names is a total order", "statement": "The string comparison used for block and rename lookup is antisymmetric, transitive and gives equality exactly for equal strings, so lookups by name are well defined.", "quantifier": "all strings", "why_tests_cant": "All pairs and triples of strings.", "anchors": ["src/include/kpatch_str.h:kpstrcmp", "src/include/kpatch_str.h:kpstrncmp"]}
{"id": "C42", "title": "Tokenising loses nothing", "statement": "Splitting an assembler line into tokens always terminates, and the concatenation of the tokens and of the skipped blanks is the line itself.", "quantifier": "every line", "why_tests_cant": "All lines.", "anchors": ["src/kpatch_parse.c:__get_token", "src/kpatch_parse.c:get_token"]}
{"id": "C43", "title": "Renaming touches only renamed symbols", "statement": "Rewriting a line of assembler with the rename table replaces exactly the tokens that are in the table and copies everything else; with no renames the line is unchanged.", "quantifier": "every line, every rename table", "why_tests_cant": "All lines and tables.", "anchors": ["src/kpatch_gensrc.c:str_do_rename", "src/kpatch_gensrc.c:rename_add", "src/kpatch_gensrc.c:rename_find"]}
{"id": "C44", "title": "Every source line belongs to exactly one block", "statement": "After an assembler file is divided into functions, variables and other blocks, the blocks are in file order and do not overlap, and every line with text belongs to exactly one block, except a declaration (.globl, .weak, ...) that repeats an earlier one; no two blocks have the same name, except the unnamed blocks of other lines.", "quantifier": "every assembler file: any statements, in any order, with any symbol names, on each of the four architectures", "why_tests_cant": "The division depends on every combination of directives; a lost or doubled line changes the patched program silently.", "anchors": ["src/kpatch_parse.c:cblock_split", "src/kpatch_parse.c:cblocks_init", "src/kpatch_parse.c:cblock_add"]}
{"id": "C45", "title": "Identical functions produce no patch", "statement": "When the original and patched assembler text of a function are identical, the generator pairs the two and emits no replacement for it.", "quantifier": "every function body, on each of the four architectures", "why_tests_cant": "All function bodies.", "anchors": ["src/kpatch_gensrc.c:cblock_cmp", "src/kpatch_gensrc.c:analyze_func_cblocks", "src/kpatch_gensrc.c:cblock_write_func"]}
{"id": "C46", "title": "Changed functions are never dropped", "statement": "When the text of a function differs in a way the comparison does not deliberately ignore, the generated file contains both the original function and its replacement with an info record; no block of either file is lost.", "quantifier": "every pair of assembler files, on each of the four architectures", "why_tests_cant": "All pairs of files.", "anchors": ["src/kpatch_gensrc.c:cblock_cmp", "src/kpatch_gensrc.c:write_cblocks", "src/kpatch_gensrc.c:write_new_function"]}
{"id": "C47", "title": "Functions too short for the jump are refused", "statement": "A patch whose old function is shorter than the jump the architecture installs is rejected when the patch is built, so installing a patch never overwrites the next function.", "quantifier": "every info table, every architecture", "why_tests_cant": "Needs functions of each short length on each architecture.", "anchors": ["src/kpatch_strip.c:check_info_len", "src/kpatch_strip.c:process_kpatch_info", "src/arch/riscv64/arch_patch.c:HUNK_SIZE"]}
{"id": "C48", "title": "Unpatch finds exactly the functions that were patched", "statement": "Reading the info records of an applied patch back from the target's memory yields exactly the records that were written when it was applied.", "quantifier": "every info table", "why_tests_cant": "The end of the table is found by content, so it depends on all records and on what follows the table.", "anchors": ["src/kpatch_patch.c:object_find_applied_patch_info", "src/kpatch_elf.c:kpatch_elf_load_kpatch_info", "src/kpatch_strip.c:process_kpatch_info", "src/include/kpatch_file.h:is_end_info"]}
{"id": "C49", "title": "Unpatch touches only the selected objects", "statement": "Cancelling patches by id (and optionally by build id or object name) modifies only objects on which a patch with that id is applied and that match the selection, and reports how many were cancelled.", "quantifier": "every process, every id, every selection list", "why_tests_cant": "All combinations of objects, ids and selections.", "anchors": ["src/kpatch_patch.c:kpatch_unapply_patches", "src/kpatch_patch.c:kpatch_should_unapply_patch", "src/kpatch_process.c:kpatch_process_associate_patches"]}
{"id": "C50", "title": "Relocation targets survive link undoing", "statement": "After the linked patch is converted back to relocatable form, relocation offsets and symbol values relative to their section denote the same absolute places and addresses as before.", "quantifier": "every section, every relocation and symbol", "why_tests_cant": "All offsets.", "anchors": ["src/kpatch_strip.c:kpatch_rel_offset_to_relative", "src/kpatch_strip.c:kpatch_symbols_to_relative"]}
{"id": "C51", "title": "Patch sections are mapped to the original sections of the same name", "statement": "When sections of the patch are matched with sections of the original binary, each allocated section of the patch that exists in the original binary gets the original's address.", "quantifier": "every pair of section lists", "why_tests_cant": "All section layouts.", "anchors": ["src/kpatch_strip.c:kpatch_map_patch_to_orig_sections", "src/kpatch_strip.c:copy_sections_addr"]}
{"id": "C52", "title": "Compiler arguments are rewritten faithfully", "statement": "The compiler wrapper passes to the real compiler exactly the user's arguments, in order, without those it is told to remove and with the extra ones appended.", "quantifier": "every argument list, every removal list", "why_tests_cant": "All argument lists.", "anchors": ["src/kpatch_cc.c:kpatch_cc_modify_args", "src/kpatch_cc.c:split_args"]}
{"id": "C53", "title": "Copying files in the compiler wrapper is exact", "statement": "When the wrapper's file copy reports success, the destination has exactly the bytes of the source, however the kernel splits the writes.", "quantifier": "every file content, every pattern of short writes", "why_tests_cant": "Short writes cannot be provoked on demand.", "anchors": ["src/kpatch_cc.c:copy_file"]}
{"id": "C54", "title": "Coroutine contexts are decoded correctly", "statement": "The saved registers recovered from a coroutine's jump buffer are the ones the C library stored there.", "quantifier": "every register value and every pointer guard", "why_tests_cant": "All 2^64 values and guards.", "anchors": ["src/include/kpatch_coro.h:PTR_DEMANGLE", "src/kpatch_coro.c", "src/arch/riscv64/arch_coro.c", "src/arch/loongarch64/arch_coro.c"]}
{"id": "C55", "title": "Commands over all processes report failures", "statement": "A command applied to all processes visits every eligible process, never init or itself, and reports failure if it failed on any of them.", "quantifier": "every list of processes and every result of each", "why_tests_cant": "All sets of processes and results.", "anchors": ["src/kpatch_user.c:processes_do"]}
{"id": "C56", "title": "Mappings are grouped into objects correctly", "statement": "Each mapping of the target is recorded once in exactly one object, mappings of the same file go to the same object in address order, and each applied patch is an object of its own.", "quantifier": "every memory map", "why_tests_cant": "All memory maps.", "anchors": ["src/kpatch_process.c:process_add_object_vma", "src/kpatch_process.c:object_add_vm_area", "src/kpatch_process.c:process_get_object_type"]}
{"id": "C57", "title": "Debug filtering keeps the code", "statement": "Filtering debug information out of an assembler file without debug directives leaves it unchanged, and in general every line kept appears in the output in the original order.", "quantifier": "every assembler file, on each of the four architectures", "why_tests_cant": "All files.", "anchors": ["src/kpatch_dbgfilter.c:debug_filter", "src/kpatch_dbgfilter.c:is_debug_section"]}
{"id": "C58", "title": "Commands act on the named process and wrong invocations fail", "statement": "A patch or unpatch command with a process number acts on exactly this process, with `all` on all of them; an invocation with missing or unknown options does nothing and reports failure.", "quantifier": "every process number, every list of parsed options", "why_tests_cant": "All option lists and numbers.", "anchors": ["src/kpatch_user.c:cmd_patch_user", "src/kpatch_user.c:cmd_unpatch_user", "src/kpatch_user.c:usage_patch"]}
{"id": "C59", "title": "Stripping a patch keeps the sections it needs intact", "statement": "After a patch object has been stripped, every section the patcher needs keeps its contents and size, lies at an offset that satisfies its alignment, overlaps no other section, and the section headers lie after all of them.", "quantifier": "every list of sections with any sizes, alignments and names", "why_tests_cant": "All sizes and alignments, including the ones that wrap around or are zero.", "anchors": ["src/kpatch_strip.c:kpatch_strip", "src/kpatch_strip.c:need_section"]}
{"id": "C60", "title": "Splitting assembler lines into statements loses nothing", "statement": "When the lines of an assembler file are split into single statements, the tokens of the statements are, in order, the tokens of the lines with only the `;` separators removed; each statement carries the number of its line and holds one statement or label; a line without `;` and `:` is kept as it is; a file with reasonable lines is never refused.", "quantifier": "every list of lines of any bytes, on each of the four architectures", "why_tests_cant": "All combinations of quotes, escapes, comments, labels and separators.", "anchors": ["src/arch/x86/arch_parse.c:init_multilines", "src/kpatch_parse.c:get_token"]}
{"id": "C61", "title": "The section recorded for every assembler line is the one the assembler uses", "statement": "After the sections of an assembler file are read, each line is recorded with the section in which the assembler would put it, under .text, .data, .section, .pushsection, .popsection and .previous, and the record says whether that section holds code.", "quantifier": "every sequence of lines and section directives, on each of the four architectures", "why_tests_cant": "The section stack has unbounded history.", "anchors": ["src/kpatch_parse.c:parse_section", "src/kpatch_parse.c:init_sections", "src/kpatch_parse.c:__find_section"]}
{"id": "C62", "title": "Symbol lists and the file of functions select exactly the functions they name", "statement": "A function of a file is left out of the patch exactly if the user's list of ignored symbols names it, as symbol or file:symbol, or, when a file of functions to patch is in use, if that file does not name it; a function named in the unlink list is written as a new function that replaces nothing; a changed function that must be adapted and is not makes the generator fail.", "quantifier": "every number and content of list options, every file of functions, every pair of assembler files, on each of the four architectures", "why_tests_cant": "All strings of separators and names, all pairs of files.", "anchors": ["src/kpatch_gensrc.c:parse_sym_list", "src/kpatch_gensrc.c:in_syms_list", "src/kpatch_gensrc.c:is_func_in_patch_func_file", "src/kpatch_gensrc.c:analyze_func_cblocks"]}
{"id": "C63", "title": "Rewriting to the global offset table keeps the meaning of an instruction", "statement": "With --force-gotpcrel every move between a register or constant and a global variable is replaced by instructions that access the variable through the global offset table and leave registers and memory as the original instruction does; every other line is left as it is.", "quantifier": "every instruction text, register, symbol, machine state and placement of symbols and slots", "why_tests_cant": "All machine states and all operand combinations.", "anchors": ["src/kpatch_gensrc.c:str_do_gotpcrel", "src/kpatch_gensrc.c:get_full_reg"]}
{"id": "C64", "title": "A function's block runs from its header to its last .size", "statement": "The block of a function contains the line that declares it a function and extends exactly to the first line at which every .type of the function and of its split-off parts (cold, part, constprop...) has been closed by a .size, or to the end of the file, followed at most by a constructor table entry that names the function.", "quantifier": "every assembler file and every function in it, on each of the four architectures", "why_tests_cant": "Function bodies, split-off parts and interleavings are unbounded.", "anchors": ["src/kpatch_parse.c:init_func_block", "src/kpatch_parse.c:is_function_start", "src/kpatch_parse.c:recog_func_attr", "src/kpatch_parse.c:is_function_end"]}
{"id": "C65", "title": "A remote system call is the call that was asked for", "statement": "mmap, mprotect and munmap in the target perform exactly one system call with the given number and arguments, on every architecture, and report the kernel's result: failure exactly when the kernel reports an error, and otherwise the kernel's value; the target's memory changes only by the effect of the call.", "quantifier": "every architecture, register content, argument, kernel behaviour and schedule of signals that reach the thread meanwhile", "why_tests_cant": "Schedules of signals and kernel results cannot be enumerated.", "anchors": ["src/kpatch_ptrace.c:wait_for_stop", "src/kpatch_ptrace.c:kpatch_mmap_remote", "src/kpatch_ptrace.c:kpatch_mprotect_remote", "src/kpatch_ptrace.c:kpatch_munmap_remote", "src/arch/x86/arch_ptrace.c:kpatch_arch_syscall_remote"]}
{"id": "C66", "title": "Resolving an indirect function calls its resolver and leaves no trace", "statement": "Resolving an ifunc symbol runs the resolver exactly once in the target, with the arguments the dynamic linker would pass, yields the address the resolver returned, and leaves registers, code and all other memory of the thread as they were apart from what the resolver itself does.", "quantifier": "every architecture, resolver, register content and stopping point of the thread", "why_tests_cant": "Every stopping point of the thread and every stack content.", "anchors": ["src/arch/x86/arch_ptrace.c:kpatch_arch_ptrace_resolve_ifunc", "src/arch/x86/arch_ptrace.c:copy_regs", "src/arch/x86/arch_ptrace.c:kpatch_arch_execute_remote_func"]}
{"id": "C67", "title": "Assembler files are read line by line", "statement": "The generator sees exactly the lines of its input files, in order, without the characters that end them, also when the last line is not ended.", "quantifier": "every text file", "why_tests_cant": "All contents and lengths of lines around the size of the buffer.", "anchors": ["src/kpatch_io.c:read_file", "src/include/kpatch_str.h:trim_crlf"]}
{"id": "C68", "title": "Rewriting relocations keeps what they refer to", "statement": "Before a linked patch is applied its relocations are rewritten. Afterwards every relocation still refers to the same function, variable or string, wherever sections end up; an instruction that took the address of a variable from the global offset table still gets that address; an access to a thread-local variable uses the offset the variable has in the running program; no other byte of the code changes, and whatever cannot be kept is refused.", "quantifier": "every linked object, every original program, every list of relocations and every placement of sections in the target", "why_tests_cant": "All kinds of symbols and relocations, all instruction encodings around a field, all layouts of the original's dynamic relocations.", "anchors": ["src/kpatch_strip.c:kpatch_fixup_rela_one", "src/kpatch_strip.c:kpatch_fixup_rela", "src/arch/x86/arch_strip.c:kpatch_arch_fixup_rela_update_tls", "src/arch/x86/arch_strip.c:objinfo_find_tls_got_by_offset", "src/kpatch_elf_objinfo.c:kpatch_objinfo_load_tls_reladyn", "src/arch/x86/arch_elf.c:kpatch_arch_apply_relocate_add"]}
{"id": "C69", "title": "A patch never changes data", "statement": "If the generator succeeds, every variable of the original file still has the same contents in the patched file, unless the user asked to ignore it or its name is one the compiler makes for a string constant or a one-time warning; a patch that would change the contents of existing data is refused.", "quantifier": "every pair of assembler files and every set of options, on each of the four architectures", "why_tests_cant": "All pairs of files; all correspondences of compiler-made names.", "anchors": ["src/kpatch_gensrc.c:analyze_var_cblocks", "src/kpatch_gensrc.c:cblock_var_check_content", "src/kpatch_gensrc.c:analyze_var_cblocks_matches"]}
{"id": "C70", "title": "Undoing the link puts functions where the original has them", "statement": "On RISC-V and LoongArch the linker can lay out the functions of the original program differently when it links the patch. When the link is undone, every reference of the patch to a function of the program is to the place this function has in the original, and nothing else changes.", "quantifier": "every linked patch and every original program", "why_tests_cant": "All symbol tables, all sections, names that occur more than once.", "anchors": ["src/arch/riscv64/arch_strip.c:kpatch_arch_fixup_addr_bias", "src/arch/loongarch64/arch_strip.c:kpatch_arch_fixup_addr_bias", "src/kpatch_strip.c:kpatch_undo_link"]}
{"id": "C71", "title": "The build id that selects a patch is that of the mapped file", "statement": "For every object mapped into the process the build id that is used to look up a patch is the build id note of the object's file, in lower-case hexadecimal; an object without a build id gets no patch, and objects with different build ids never get the same patch.", "quantifier": "every file and every layout of its notes, every memory", "why_tests_cant": "All layouts of notes and segments.", "anchors": ["src/kpatch_elf.c:elf_object_look_for_buildid", "src/kpatch_elf.c:kpatch_get_buildid"]}
{"id": "C72", "title": "The tool knows the name of the program", "statement": "For every process the name the tool uses for it (to decide how its coroutines are found) is the name of its program, also when the program's file was replaced and when the program was started through the dynamic linker.", "quantifier": "every path of a program and every command line", "why_tests_cant": "All paths and command lines.", "anchors": ["src/kpatch_process.c:process_get_comm", "src/kpatch_process.c:process_get_comm_ld_linux", "src/kpatch_coro.c:is_test_target"]}
{"id": "C73", "title": "A process that was just started is run to the entry of its program", "statement": "Before it is patched, a process that was just started is run until its libraries are loaded: until the address of the entry of its program, as the kernel passed it to the process or, if the program was started through the dynamic linker, as the program that the linker mapped says.", "quantifier": "every auxiliary vector, every history of system calls and signals, every program", "why_tests_cant": "All histories of stops the kernel may report, all interruptions.", "anchors": ["src/kpatch_ptrace.c:kpatch_ptrace_get_entry_point", "src/kpatch_ptrace.c:kpatch_ptrace_handle_ld_linux", "src/arch/x86/arch_ptrace.c:wait_for_mmap", "src/arch/aarch64/arch_ptrace.c:wait_for_mmap", "src/arch/loongarch64/arch_ptrace.c:wait_for_mmap", "src/arch/riscv64/arch_ptrace.c:wait_for_mmap", "src/kpatch_process.c:kpatch_process_load_libraries"]}
{"id": "C74", "title": "On the other architectures too, thread-local variables and everything else a patch refers to stay the same", "statement": "On AArch64, RISC-V and LoongArch, when the relocations of a linked patch are rewritten for the original program, every relocation against anything but a thread-local variable still refers to the same thing; variables of libraries that the linker copied into the patch become references to the library again; every access to a thread-local variable reaches the variable of the original (an offset in the code is the variable's offset in the original, an offset read from memory is read from the slot in which the loader put it); whatever cannot be rewritten so is refused.", "quantifier": "every original, every linked patch, every list of relocations, every load address", "why_tests_cant": "All layouts of slots and thread-local segments, all distances between program and patch.", "anchors": ["src/arch/aarch64/arch_strip.c:kpatch_arch_fixup_rela_update_tls", "src/arch/riscv64/arch_strip.c:kpatch_arch_fixup_rela_update_tls", "src/arch/loongarch64/arch_strip.c:kpatch_arch_fixup_rela_update_tls", "src/kpatch_strip.c:kpatch_fixup_rela", "src/arch/riscv64/arch_elf.c:kpatch_arch_apply_relocate_add"]}
{"id": "C75", "title": "Splitting a file into statements does not change what the assembler reads", "statement": "The assembler finds the same statements, in the same order, in an assembler file after it was split into single statements as before: nothing of a comment or a string becomes a statement and no statement disappears, on all architectures.", "quantifier": "every assembler file, on each of the four architectures", "why_tests_cant": "All combinations of strings, escapes, comments, labels and separators.", "anchors": ["src/arch/x86/arch_parse.c:init_multilines", "src/arch/aarch64/arch_parse.c:init_multilines", "src/arch/riscv64/arch_parse.c:init_multilines", "src/arch/loongarch64/arch_parse.c:init_multilines", "src/kpatch_parse.c:get_token"]}
{"id": "C76", "title": "A build from several files runs the right commands and links the right code", "statement": "When the compiler wrapper is asked to build a program from several files, it compiles every source with all options of the user, and then gives the compiler the user's command line with every source replaced by the assembler file made from it, and with everything else unchanged and in order; the assembler file holds what the compiler made of that source (in the second stage: the patch between the original and the new assembler file); files the wrapper did not make are left alone.", "quantifier": "every command line, every environment, every behaviour of the compiler that writes only its output", "why_tests_cant": "All command lines and all combinations of inputs whose names may collide.", "anchors": ["src/kpatch_cc.c:build_multiple", "src/kpatch_cc.c:get_assembler_filename", "src/kpatch_cc.c:do_generate_kpatch", "src/kpatch_cc.c:do_dbgfilter"]}
{"id": "C77", "title": "The exit status of the wrapper tells whether the build succeeded", "statement": "The compiler wrapper ends with status 0 only if every command it ran succeeded, it stops at the first command that fails, and its status is then the status of that command.", "quantifier": "every command line, every environment, every behaviour of the tools run", "why_tests_cant": "All points at which a command of a build can fail, and all ways in which it can end.", "anchors": ["src/kpatch_cc.c:run_cmd", "src/kpatch_cc.c:build_multiple", "src/kpatch_cc.c:compile_single", "src/kpatch_cc.c:main"]}
{"id": "C78", "title": "Compiling one file assembles the right code", "statement": "When the compiler wrapper is asked to compile one file, the output is made from the assembler text the compiler produces for it (in the second stage: from the patch between that text and the one of the first stage), with the options of the user; files the wrapper did not make are left alone. A command the wrapper does not handle is run exactly as the user gave it.", "quantifier": "every command line, every environment, every behaviour of the tools that write only their output", "why_tests_cant": "All command lines, and all behaviours of the tools run.", "anchors": ["src/kpatch_cc.c:compile_single", "src/kpatch_cc.c:main", "src/kpatch_cc.c:do_generate_kpatch", "src/kpatch_cc.c:copy_file"]}
{"id": "C79", "title": "A patch file is loaded as its object says", "statement": "If applying a patch file succeeds, the target's memory contains what the ELF object in the file describes: every byte of code and data that is not relocated is the byte of the file, every relocated field denotes the address its symbol and addend stand for at run time (of the patch, of the patched program, or of the library), calls of library functions arrive there, and the old function of every record in .kpatch.info starts with a jump to the new one.", "quantifier": "every patch file that is a well-formed relocatable object of any size, with any sections, symbols and relocations; every load address, every target memory", "why_tests_cant": "All objects, layouts of sections and addresses; tests use a few compiled patches.", "anchors": ["src/kpatch_elf.c:kpatch_resolve", "src/kpatch_elf.c:kpatch_relocate", "src/kpatch_elf.c:kpatch_elf_load_kpatch_info", "src/kpatch_elf.c:kpatch_count_undefined", "src/arch/x86/arch_elf.c:kpatch_arch_apply_relocate_add", "src/arch/aarch64/arch_elf.c:kpatch_arch_apply_relocate_add", "src/arch/loongarch64/arch_elf.c:kpatch_arch_apply_relocate_add", "src/kpatch_patch.c:object_apply_patch"]}
{"id": "C80", "title": "A library symbol of a patch gets the address the library has it at in the memory of the process", "statement": "When a patch refers to a function or variable of a library, with or without a version, the address it is given is the run-time address of a definition of that name in the first library of the process that defines it, read from the memory of the process: link-time address plus load offset; a name that no library defines is reported as not found.", "quantifier": "every process memory, every list of programs and libraries loaded at any addresses with any program headers, dynamic sections and symbol tables in the standard encoding, every symbol name and version", "why_tests_cant": "All layouts of libraries, load addresses and symbol tables; a test sees the libraries of one machine.", "anchors": ["src/kpatch_elf.c:kpatch_elf_object_set_ehdr", "src/kpatch_elf.c:elf_object_peek_phdr", "src/kpatch_elf.c:kpatch_elf_parse_program_header", "src/kpatch_elf.c:elf_object_load_dynsym", "src/kpatch_elf.c:kpatch_resolve_undefined", "src/kpatch_process.c:object_map_elf_segments"]}
{"id": "C81", "title": "Symbols are looked for in libraries and not in the program", "statement": "Every shared library in the process is searched for the undefined symbols of a patch, and the program itself never is: what the program defines makes no difference to the address any symbol gets.", "quantifier": "every process memory and list of objects, every program at a fixed or a variable address, every library, every symbol name", "why_tests_cant": "The decision depends on headers and on the name of the file; tests see a few libraries.", "anchors": ["src/kpatch_elf.c:elf_object_is_interp_exception", "src/kpatch_elf.c:kpatch_elf_object_is_shared_lib", "src/kpatch_elf.c:kpatch_resolve_undefined"]}
{"id": "C82", "title": "The memory map of the target is read as the kernel prints it", "statement": "From the text of /proc/<pid>/maps the tool learns of every mapping its bounds, its permissions, the file it is of and the name of that file; two mappings of files belong to the same object exactly when they are of the same file; its remote calls use executable memory of the C library, and without one the command fails instead of writing elsewhere.", "quantifier": "every memory map of any number of lines, with any addresses, permissions, offsets, device numbers, inodes and names that the kernel can print", "why_tests_cant": "All maps and names; a test sees the maps of a few processes with short paths.", "anchors": ["src/kpatch_process.c:kpatch_process_parse_proc_maps", "src/kpatch_process.c:perms2prot", "src/kpatch_process.c:process_add_object_vma"]}
{"id": "C83", "title": "The patch command from the map of the process to its memory", "statement": "If the patch command is given one process and one patch file and reports success, then exactly the one library (or program) with the build id the patch was made for has been patched: the patch's object lies, relocated with the addresses symbols have in that process, in memory that was not in use, within reach of the code; every replaced function begins with a jump to its replacement; and apart from these jumps no byte of the memory that was mapped is changed by the command. Memory the process maps while the command runs is not touched.", "quantifier": "every process: any map text, any objects with any headers and tables in its memory, any patch file of any number of sections, symbols, relocations and functions, any behaviour of the threads until they are at a safe place; every architecture", "why_tests_cant": "All layouts of processes and patch files and every moment at which a thread may map memory; a test sees a few processes at rest.", "anchors": ["src/kpatch_patch.c:process_patch", "src/kpatch_patch.c:kpatch_apply_patches", "src/kpatch_patch.c:object_apply_patch", "src/kpatch_process.c:kpatch_process_map_object_files", "src/kpatch_process.c:kpatch_object_allocate_patch", "src/kpatch_storage.c:storage_lookup_patches"]}
{"id": "C84", "title": "The memory of an applied patch is never writable and executable", "statement": "After a patch has been applied with success, the memory that was mapped for it can be executed and not written up to the data of the patch, and written and not executed from there on; in particular the code of every replacement can be executed and the variables of the patch can be written. What may be done with any other memory of the process is as before.", "quantifier": "every patch file of any number of sections, symbols and relocations, every process, every page size, every place the patch is put at, every architecture", "why_tests_cant": "All section layouts and page sizes; a test runs on one machine with a few patches.", "anchors": ["src/kpatch_patch.c:object_apply_patch", "src/kpatch_elf.c:kpatch_get_kpatch_data_offset", "src/kpatch_process.c:kpatch_object_allocate_patch", "src/kpatch_ptrace.c:kpatch_mprotect_remote", "src/kpatch_gensrc.c:change_section"]}
{"id": "C85", "title": "A patch that can be applied is applied", "statement": "If a patch is not applied to the object yet, its symbols are found and its relocations fit, and no allocation, system call, read or write of the target fails and the threads leave the functions that are replaced, then applying the patch succeeds.", "quantifier": "every patch file of any number of sections, symbols, relocations and functions, every process and every place for the patch that a jump can reach, every architecture", "why_tests_cant": "A refusal that has no reason may show for one distance between the old and the new function only.", "anchors": ["src/kpatch_patch.c:object_apply_patch", "src/arch/x86/arch_patch.c:patch_apply_hunk", "src/arch/loongarch64/arch_patch.c:patch_apply_hunk", "src/kpatch_process.c:kpatch_process_mem_write"]}
{"id": "C86", "title": "Removing a patch from a process undoes the patch command", "statement": "After the patch command has applied a patch to a process, and as long as the process changes neither the memory of the patch nor the entries of the replaced functions, the unpatch command with the id of the patch, when it reports success, reports one removed patch, and then the entries of all replaced functions are what they were before the patch, the memory that the patch command had mapped is unmapped again, and nothing else in the process has been changed. It does report success when nothing it asks the kernel for fails.", "quantifier": "every process, memory map, patch file and id, everything the process does elsewhere in between, every further run of the tool", "why_tests_cant": "It relates two separate runs of the tool over all processes and patches; the second run knows only what it finds in the memory of the process.", "anchors": ["src/kpatch_patch.c:process_unpatch", "src/kpatch_patch.c:kpatch_process_unapply_patches", "src/kpatch_patch.c:object_unapply_patch", "src/kpatch_process.c:kpatch_process_associate_patches", "src/kpatch_process.c:kpatch_process_map_object_files"]}
{"id": "C87", "title": "Mapped target memory can be written", "statement": "A write of bytes that are all mapped in the target and that the kernel does not refuse succeeds, by pwrite or, on kernels where pwrite of another process's memory is refused with EINVAL, by word-sized ptrace pokes; once refused, pwrite is not tried again.", "quantifier": "every address, every length, every memory layout", "why_tests_cant": "Every alignment of the end of the range with respect to the end of a mapping.", "anchors": ["src/kpatch_ptrace.c:kpatch_process_mem_write", "src/kpatch_ptrace.c:kpatch_process_mem_write_ptrace"]}
{"id": "C88", "title": "New code and data go to sections of the right kind", "statement": "In the generated file every statement of a new or changed function or variable is assembled into the section of the patch that belongs to the section the statement is in: code into the section for code, data into the section for data, special sections into their counterparts. After such a part the section is the one before, the section for data is aligned to a page exactly once, where it begins, and the label that marks the end of a replaced original is in the section of the original.", "quantifier": "every pair of assembler files that is processed without a fatal error, on each of the four architectures", "why_tests_cant": "All sequences of section directives inside functions and variables.", "anchors": ["src/kpatch_gensrc.c:change_section", "src/kpatch_gensrc.c:__cblock_gen", "src/kpatch_gensrc.c:cblock_gen", "src/kpatch_gensrc.c:cblock_write_func"]}
{"id": "C89", "title": "Symbols that become global are declared global", "statement": "A function or variable that is local in the old file and global in the new one, under a name that was not made by the compiler, is declared global in the generated file directly before its original, so that the patched code of other files can refer to it.", "quantifier": "every pair of assembler files that is processed without a fatal error, on each of the four architectures", "why_tests_cant": "All pairs of files and all positions of the declarations.", "anchors": ["src/kpatch_gensrc.c:cblock_write_func", "src/kpatch_gensrc.c:cblock_write_var"]}
{"id": "C90", "title": "The scripts of a patch storage surround the patching", "statement": "With a storage directory, the target is patched only after the directory's script \"before\" was found not to exist or ended with status 0. When it fails the target is left as it was and the command fails. The script \"after\" runs exactly when patching was attempted, after it, and its result does not change the result of the command.", "quantifier": "every outcome of every step of the patch command and of both scripts, every target", "why_tests_cant": "Scripts end in many ways and every earlier step may fail; a test tries a few combinations.", "anchors": ["src/kpatch_patch.c:process_patch", "src/kpatch_storage.c:storage_execute_script"]}
{"id": "C91", "title": "The server looks after the one program it started", "statement": "At any time the server has at most one program that it started and has not waited for, and none when it ends. The signals it sends on its own account, to replace the program or at its end, go only to a program that it started and that still exists.", "quantifier": "every history of client commands, process creations and ends, and reuses of process numbers", "why_tests_cant": "Reuse of a process number needs a history of other processes that a test does not control.", "anchors": ["src/libcare-server.c:cmd_run", "src/libcare-server.c:cmd_kill", "src/libcare-server.c:kill_and_wait", "src/libcare-server.c:cmd_server"]}
{"id": "C92", "title": "The server patches from the storage named last", "statement": "After any sequence of commands, \"update\" patches all processes, and a start-up notification the named process, from the storage directory named last, or the one given at the start when none was named.", "quantifier": "every history of commands, every directory name that fits the buffer", "why_tests_cant": "Names of different lengths are written over each other in one buffer; histories are unbounded.", "anchors": ["src/libcare-server.c:cmd_storage", "src/libcare-server.c:cmd_update", "src/libcare-server.c:cmd_execve_startup"]}
{"id": "C93", "title": "Directories for intermediate files are created", "statement": "When the compiler wrapper prepares the path of an intermediate assembler file it returns only with every directory on the way existing; it creates nothing but directories on the way, leaves what exists as it is, and returns whenever nothing on the way is a file and no creation is denied.", "quantifier": "every path, every state of the file system, every choice of denied creations", "why_tests_cant": "Paths and file systems are unbounded.", "anchors": ["src/kpatch_cc.c:make_dirs", "src/kpatch_cc.c:get_assembler_filename"]}
{"id": "C94", "title": "Building a patch leaves the sources as they were", "statement": "Whatever runs of libcare-patch-make came before, also killed ones, the next run builds the original program from the sources as they were before the first run, and when it ends the sources are so again.", "quantifier": "every source tree, every sequence of runs with any source patches, every point at which a run is killed", "why_tests_cant": "Histories of killed runs and combinations of patches are unbounded.", "anchors": ["src/libcare-patch-make:restore_origs", "src/libcare-patch-make:build_objects"]}
{"id": "C95", "title": "Building a patch leaves the system's compiler as it was", "statement": "After any sequence of runs of libcare-patch-make the name cc leads to the compiler it led to before.", "quantifier": "every sequence of runs, each with or without a failing tool", "why_tests_cant": "The damage of a failing run shows only in the runs after it.", "anchors": ["src/libcare-patch-make:replace_cc_symbolink", "src/libcare-patch-make:recover_cc_symbolink", "src/libcare-patch-make:main"]}
{"id": "C96", "title": "Exactly the patches that were made are published", "statement": "A file appears under a build id only when it is the patch of a changed executable with this build id for which every tool succeeded; when the script reaches its end, every such patch is there.", "quantifier": "every list of executables, every outcome of every tool, every content of the directory before", "why_tests_cant": "Combinations of executables and tool outcomes are unbounded.", "anchors": ["src/libcare-patch-make:build_kpatches"]}
{"id": "C97", "title": "New common variables keep their size and alignment", "statement": "A variable that the patched file declares with .comm and the original file does not have becomes zero bytes in the patch: as many as declared, with the declared alignment, in the section for the data of the patch, under its own name or the new name made from it.", "quantifier": "every pair of assembler files, every set of options, every size, every alignment and every name without separators", "why_tests_cant": "Sizes, alignments, names and the files around the declaration are unbounded; an alignment that is read as another unit is only seen on some architectures.", "anchors": ["src/kpatch_gensrc.c:get_comm_args", "src/kpatch_gensrc.c:add_comm_cmd", "src/kpatch_gensrc.c:__cblock_gen"]}
{"id": "C98", "title": "A program started through the execve wrapper is handed over at its start", "statement": "When the execve wrapper announces a thread, the function that takes the process over returns exactly when the new program has been started and not before: it waits through other stops, sees the breakpoint of the wrapper, then the stop of execve; afterwards the target is the process and not the announced thread, the process stays attached and all its other threads have been released.", "quantifier": "every list of attached threads, every announced thread, every sequence of stops before and after the breakpoint, on each supported architecture", "why_tests_cant": "The stops of a thread come from the scheduler and from signals of other processes: their number and place are unbounded, and a stop between the breakpoint and execve needs a signal at the right moment.", "anchors": ["src/arch/x86/arch_ptrace.c:kpatch_arch_ptrace_kickstart_execve_wrapper", "src/arch/aarch64/arch_ptrace.c:kpatch_arch_ptrace_kickstart_execve_wrapper", "src/arch/riscv64/arch_ptrace.c:kpatch_arch_ptrace_kickstart_execve_wrapper", "src/arch/loongarch64/arch_ptrace.c:kpatch_arch_ptrace_kickstart_execve_wrapper", "src/include/kpatch_ptrace.h:BREAK_INSN"]}
{"id": "C99", "title": "The command that makes a patch file does what its command line says, or nothing", "statement": "In whatever order and form the options are written: with one build id of forty characters, one patch id of at most seven characters, one output and an ELF input, kpatch_make changes no file but the output and, if its exit status is 0, has made a patch file that the tool accepts, for this build id and with this id, that holds the input. With an unknown option, an option given twice, a missing build id, patch id or input, a build id of another length, or an input that cannot be read, the exit status is not 0 and nothing is written.", "quantifier": "every command line made of separate, glued and clustered options, other words and --, every content of the files, every result of the calls of write", "why_tests_cant": "Command lines, file contents and the failures of write are unbounded.", "anchors": ["src/kpatch_make.c:main", "src/kpatch_make.c:make_file", "src/kpatch_make.c:usage"]}
{"id": "C100", "title": "The dump command shows what a patch was made with and gives back what it was made from", "statement": "For every patch file that kpatch_make made with exit status 0, libcare-dump -H shows its patch id and its build id and changes no file, and libcare-dump -c writes the object the patch was made from, with at most fifteen zero bytes more, and changes no other file. With an unknown option, a missing input, or without anything to do, with an input that cannot be read or that is no patch, the exit status is not 0 and no file is changed.", "quantifier": "every command line of both commands, every object, every build id and patch id, every result of the calls of write", "why_tests_cant": "Objects, ids, command lines and failures of write are unbounded; two programs have to agree for all of them.", "anchors": ["src/libcare-dump.c:main", "src/libcare-dump.c:kpatch_dump_kpatch_header", "src/libcare-dump.c:kpatch_convert_to_elf", "src/kpatch_make.c:main"]}
{"id": "C101", "title": "The strip command does the one action it is asked for on the two files it is given, or nothing", "statement": "However its actions are named, by letters in one or several arguments or by long names or their first parts, with or without --: if the command line of kpatch_strip names one action and two files, exactly this action runs on exactly these files in this order, the second file is created only when stripping, and the exit status is that of the action. With an unknown option, no action, two actions or another number of files the exit status is not 0 and no file is opened. The forms that the usage message offers are accepted.", "quantifier": "every command line, every outcome of opening the files", "why_tests_cant": "Command lines are unbounded, and so are the ways to name an action.", "anchors": ["src/kpatch_strip.c:main", "src/kpatch_strip.c:SET_MODE", "src/kpatch_strip.c:long_opts", "src/kpatch_strip.c:usage"]}
{"id": "C102", "title": "Names and texts are put together within the space set aside for them", "statement": "When a tool puts together the name of a patch file, build id, process number, script, socket, storage directory, assembler file or generated line, it changes no byte outside the space it set aside for it, and what is there afterwards is the name or text in full, or the input is refused.", "quantifier": "every build id, process number, path, argument, instruction, line and table of new names, every content of memory", "why_tests_cant": "An overrun shows only for inputs at or past a boundary and only if what lies beyond is used; lengths are unbounded.", "anchors": ["src/kpatch_storage.c:storage_open_patch", "src/kpatch_storage.c:storage_stat_patch", "src/kpatch_storage.c:storage_get_patch", "src/kpatch_storage.c:storage_execute_script", "src/kpatch_elf.c:kpatch_get_buildid", "src/libcare-server.c:cmd_storage", "src/libcare-server.c:cmd_server", "src/libcare-server.c:server_bind_socket", "src/libcare-client.c:main", "src/kpatch_cc.c:do_generate_kpatch", "src/kpatch_cc.c:do_dbgfilter", "src/kpatch_cc.c:run_gensrc", "src/kpatch_cc.c:get_assembler_filename", "src/kpatch_gensrc.c:str_do_gotpcrel", "src/kpatch_gensrc.c:get_full_reg", "src/kpatch_gensrc.c:str_do_rename", "src/kpatch_gensrc.c:cblock_write_line"]}
{"id": "C103", "title": "kpatch_gensrc does what its command line asks for or refuses it untouched", "statement": "Options may come in any order and spelling. With --dbg-filter the first input is filtered into the last output, without it the patch is generated from the two inputs in the order given, with exactly the settings that were given. A command line with other words, unknown options, missing values, no output, or the wrong number of inputs, or with files that cannot be opened, is refused with an error and no file is changed.", "quantifier": "every sequence of arguments and every content of the files", "why_tests_cant": "Orders, spellings, abbreviations and repetitions of sixteen options combine without bound.", "anchors": ["src/kpatch_gensrc.c:main", "src/kpatch_gensrc.c:long_opts", "src/kpatch_io.c:read_file", "src/kpatch_io.c:create_file"]}
{"id": "C104", "title": "Closing a storage or a source file frees every entry once", "statement": "When a tree of entries (opened patches, new names, blocks of a file) is freed, the callback is given every entry exactly once, in order, no entry is read or written after it was given away, and nothing else in memory is changed.", "quantifier": "every tree of every shape and size, wherever its nodes lie in memory", "why_tests_cant": "A second free or a use after free depends on the shape of the tree and may go unnoticed when the memory is not reused.", "anchors": ["src/include/rbtree.h:rb_destroy", "src/rbtree.c:rb_first", "src/kpatch_storage.c:storage_free", "src/kpatch_gensrc.c:main"]}
{"id": "C105", "title": "kpatch_gensrc ends properly after its work, with the output written", "statement": "After the lines of its inputs were read and split into statements, kpatch_gensrc frees the memory of every line exactly once and hands to free only what was allocated, so that it reaches its end, where the output is closed and what was written to it is in the file.", "quantifier": "every pair of input files, on all four architectures", "why_tests_cant": "Who owns a line depends on how it was split, on labels, separators and comments in any combination; a wrong free need not be noticed.", "anchors": ["src/kpatch_io.c:read_file", "src/kpatch_io.c:close_file", "src/arch/x86/arch_parse.c:init_multilines", "src/arch/aarch64/arch_parse.c:init_multilines", "src/arch/riscv64/arch_parse.c:init_multilines", "src/arch/loongarch64/arch_parse.c:init_multilines", "src/kpatch_gensrc.c:main"]}
