{
 "claims": [
  {
   "property": "C01",
   "status": "proved",
   "theorems": [
    "Verif.C01_unpatch_restores",
    "Verif.C01_unpatch_restores_exactly"
   ],
   "note": "assumes the patch memory was free (C09), the target does not write patched entries or the patch region, and reads are not cut"
  },
  {
   "property": "C02",
   "status": "partial",
   "theorems": [
    "Verif.C02_failed_apply_rolled_back_partial",
    "Verif.C02_failed_apply_rolled_back_exactly_partial",
    "Verif.C02_failed_before_allocation",
    "Verif.C02_violated_when_allocation_fails"
   ],
   "note": "proved for every failure after the patch memory was allocated; when the allocation itself fails the rollback unmaps [0,size), proved as a violation"
  },
  {
   "property": "C03",
   "status": "partial",
   "theorems": [
    "Verif.C03_reverse_order_partial",
    "Verif.C03_disjoint_any_order_partial",
    "Verif.C03_violated_first_in_first_out"
   ],
   "note": "Removal in reverse order (any functions) and in any order (patches of different functions) restore memory exactly. Other orders on a shared function do not: proved as a violation."
  },
  {
   "property": "C04",
   "status": "proved",
   "theorems": [
    "Verif.C04_x86_entry_jumps_to_replacement"
   ],
   "note": ""
  },
  {
   "property": "C05",
   "status": "proved",
   "theorems": [
    "Verif.C05_aarch64_entry_jumps_to_replacement"
   ],
   "note": ""
  },
  {
   "property": "C06",
   "status": "proved",
   "theorems": [
    "Verif.C06_loongarch_entry_jumps_or_refused"
   ],
   "note": "replacement address word aligned, as every LoongArch code address is"
  },
  {
   "property": "C07",
   "status": "proved",
   "theorems": [
    "Verif.C07_riscv_entry_jumps_to_replacement"
   ],
   "note": ""
  },
  {
   "property": "C08",
   "status": "proved",
   "theorems": [
    "Verif.C08_patch_parts_disjoint"
   ],
   "note": ""
  },
  {
   "property": "C09",
   "status": "partial",
   "theorems": [
    "Verif.C09_region_is_unmapped_partial",
    "Verif.C09_violated_far_left_gap"
   ],
   "note": "proved when no gap ends in the last memsize bytes of the search window below the object; otherwise false of the code, proved by witness"
  },
  {
   "property": "C10",
   "status": "partial",
   "theorems": [
    "Verif.C10_region_within_reach_partial",
    "Verif.C10_violated_loongarch"
   ],
   "note": "proved for x86-64, AArch64 and RISC-V when object and patch fit the window; false on LoongArch (window 2 GiB, branch reach 128 MiB), proved by witness"
  },
  {
   "property": "C11",
   "status": "partial",
   "theorems": [
    "Verif.C11_adjacent_gap_found_partial",
    "Verif.C11_next_gap_taken",
    "Verif.C11_failed_search_changes_nothing",
    "Verif.C11_violated_no_right_gap"
   ],
   "note": "proved when the gaps next to the object exist on both sides; the search gives up when one side has none, proved by witness"
  },
  {
   "property": "C12",
   "status": "proved",
   "theorems": [
    "Verif.C12_gaps_exact"
   ],
   "note": ""
  },
  {
   "property": "C13",
   "status": "partial",
   "theorems": [
    "Verif.C13_allocations_disjoint_partial",
    "Verif.C13_violated_far_left_gap"
   ],
   "note": "same boundary condition as C09 at each allocation; without it two patches can overlap: proved violation"
  },
  {
   "property": "C14",
   "status": "proved",
   "theorems": [
    "Verif.C14_no_frame_in_replaced_code",
    "Verif.C14_clear_process_accepted"
   ],
   "note": "For every process and every history of looks; the unwinder is a parameter (the frames it reports)."
  },
  {
   "property": "C15",
   "status": "partial",
   "theorems": [
    "Verif.C15_no_frame_in_replacement_partial",
    "Verif.C15_violated_new_function",
    "Verif.C15_violated_jump_table"
   ],
   "note": "Frames in replacements of existing functions block removal. Frames in functions that are new in the patch, or in the jump table, do not: proved as violations."
  },
  {
   "property": "C16",
   "status": "proved",
   "theorems": [
    "Verif.C16_unsafe_state_leaves_code"
   ],
   "note": "For architectures with a 1-byte breakpoint write (x86, aarch64, loongarch); memory outside the area allocated for the patch is unchanged."
  },
  {
   "property": "C17",
   "status": "partial",
   "theorems": [
    "Verif.C17_stop_address_partial",
    "Verif.C17_violated_stale_address"
   ],
   "note": "The stop address is where the innermost unsafe frame returns; false after a second look at the same thread, where the stale address is kept."
  },
  {
   "property": "C18",
   "status": "proved",
   "theorems": [
    "Verif.C18_second_application_refused",
    "Verif.C18_at_most_one_per_id"
   ],
   "note": "History theorem: the patch is applied to the object its build id is attributed to (build ids of the objects of a process are distinct)."
  },
  {
   "property": "C19",
   "status": "partial",
   "theorems": [
    "Verif.C19_failing_object_rolled_back_partial",
    "Verif.C19_single_object_partial",
    "Verif.C19_violated_two_objects"
   ],
   "note": "Only the failing object is rolled back; objects patched before it stay patched (violation)."
  },
  {
   "property": "C20",
   "status": "partial",
   "theorems": [
    "Verif.C20_breakpoints_removed",
    "Verif.C20_breakpoints_removed_partial",
    "Verif.C20_violated_riscv_overlap",
    "Verif.C20_violated_riscv_cut_write"
   ],
   "note": "Full for 1-byte breakpoints; multi-byte breakpoints need distinct non-overlapping addresses and uncut writes."
  },
  {
   "property": "C21",
   "status": "partial",
   "theorems": [
    "Verif.C21_remote_call_traceless_partial",
    "Verif.C21_success_restores_registers",
    "Verif.C21_violated_registers"
   ],
   "note": "Code is restored; registers are not restored on the error paths."
  },
  {
   "property": "C22",
   "status": "proved",
   "theorems": [
    "Verif.C22_write_exact",
    "Verif.C22_copy_exact"
   ],
   "note": ""
  },
  {
   "property": "C23",
   "status": "partial",
   "theorems": [
    "Verif.C23_buffered_reads_partial",
    "Verif.C23_violated_by_failed_pread",
    "Verif.C23_violated_after_short_read"
   ],
   "note": "Holds as long as no refill failed or came back short."
  },
  {
   "property": "C24",
   "status": "partial",
   "theorems": [
    "Verif.C24_all_threads_stopped_partial",
    "Verif.C24_gives_up_when_threads_keep_coming",
    "Verif.C24_violated_same_count",
    "Verif.C24_violated_shifted_list"
   ],
   "note": "Holds when no thread exits while the tool attaches; otherwise violated."
  },
  {
   "property": "C25",
   "status": "partial",
   "theorems": [
    "Verif.C25_fields_denote_partial",
    "Verif.C25_unknown_refused",
    "Verif.C25_violated_truncated",
    "Verif.C25_violated_overrun",
    "Verif.C25_violated_tpoff"
   ],
   "note": "Fields that can hold the value denote it and nothing else changes; proved violations: 32-bit truncation, overrun of the section, thread-local offsets."
  },
  {
   "property": "C26",
   "status": "partial",
   "theorems": [
    "Verif.C26_instructions_denote_partial",
    "Verif.C26_violated_branch_truncated",
    "Verif.C26_violated_ldst",
    "Verif.C26_violated_slot_page",
    "Verif.C26_violated_local_tls"
   ],
   "note": "Every instruction in reach denotes the address, same opcode and registers; proved violations: branch range unchecked, scaled loads, slot page, local TLS."
  },
  {
   "property": "C27",
   "status": "partial",
   "theorems": [
    "Verif.C27_instructions_denote_partial",
    "Verif.C27_out_of_reach_refused",
    "Verif.C27_label_difference",
    "Verif.C27_same_page_partial",
    "Verif.C27_violated_hi20",
    "Verif.C27_violated_abs_hi20",
    "Verif.C27_violated_b16",
    "Verif.C27_violated_got",
    "Verif.C27_violated_tls"
   ],
   "note": "b26, b21, pcaddi, low parts and label differences proved; the high part is right for the page of the instruction; proved violations: other high parts (scaled by four), b16, GOT and TLS."
  },
  {
   "property": "C28",
   "status": "partial",
   "theorems": [
    "Verif.C28_instructions_denote_partial",
    "Verif.C28_pcrel_pair_partial",
    "Verif.C28_out_of_reach_refused",
    "Verif.C28_violated_jal",
    "Verif.C28_violated_call_rounding",
    "Verif.C28_violated_rvc_jump",
    "Verif.C28_violated_rvc_lui",
    "Verif.C28_violated_pcrel_addend",
    "Verif.C28_violated_slot_reuse"
   ],
   "note": "All full-width types proved inside their reach, pairs with addend 0; the rest is proved violated."
  },
  {
   "property": "C29",
   "status": "partial",
   "theorems": [
    "Verif.C29_library_calls_partial",
    "Verif.C29_table_large_enough",
    "Verif.C29_violated_notype",
    "Verif.C29_violated_slot_reuse"
   ],
   "note": "Proved for all four architectures from the table as resolution leaves it; violated on RISC-V when a library variable is used twice and for untyped symbols."
  },
  {
   "property": "C30",
   "status": "proved",
   "theorems": [
    "Verif.C30_found_is_definition",
    "Verif.C30_not_found_is_undefined"
   ],
   "note": ""
  },
  {
   "property": "C31",
   "status": "proved",
   "theorems": [
    "Verif.C31_first_library",
    "Verif.C31_no_library",
    "Verif.C31_unresolved_fails"
   ],
   "note": ""
  },
  {
   "property": "C32",
   "status": "partial",
   "theorems": [
    "Verif.C32_translation",
    "Verif.C32_resolved_is_mapped",
    "Verif.C32_success_means_matched_partial",
    "Verif.C32_mapped_is_resolved_partial",
    "Verif.C32_violated_error_is_success"
   ],
   "note": "Translation proved for every table; success implies matching only for well-formed tables, violated otherwise."
  },
  {
   "property": "C33",
   "status": "partial",
   "theorems": [
    "Verif.C33_accepted_fits_partial",
    "Verif.C33_copied_partial",
    "Verif.C33_violated_section_table",
    "Verif.C33_violated_total_size",
    "Verif.C33_violated_image"
   ],
   "note": "Header, declared size and ELF header are checked; proved violations: section table, total size below the header size, image part past the end."
  },
  {
   "property": "C34",
   "status": "proved",
   "theorems": [
    "Verif.C34_payload_preserved"
   ],
   "note": ""
  },
  {
   "property": "C35",
   "status": "partial",
   "theorems": [
    "Verif.C35_short_ids_partial",
    "Verif.C35_violated_long_ids"
   ],
   "note": "Ids of at most 7 bytes; longer ids are silently cut, which is proved to break both halves of the claim."
  },
  {
   "property": "C36",
   "status": "partial",
   "theorems": [
    "Verif.C36_found_stays_partial",
    "Verif.C36_same_answer_partial",
    "Verif.C36_stored_is_returned",
    "Verif.C36_have",
    "Verif.C36_violated_reopens",
    "Verif.C36_violated_other_build_id",
    "Verif.C36_violated_have_then_load"
   ],
   "note": "Answers of loads are stable and named after the build id; proved violations: failed lookups reopen the file, the build id in the file is not compared, existence queries spoil loads."
  },
  {
   "property": "C37",
   "status": "proved",
   "theorems": [
    "Verif.C37_finite_map"
   ],
   "note": "The tree is modelled with a zipper: the parent pointers are the path to the root, a null dereference is `none`. Every legal history from the empty tree: no null dereference, search is the specification lookup, rb_first/rb_next iterate over the stored nodes in key order."
  },
  {
   "property": "C38",
   "status": "proved",
   "theorems": [
    "Verif.C38_balanced"
   ],
   "note": "Red-black invariants and height <= 2*log2(n+1) after every legal history."
  },
  {
   "property": "C39",
   "status": "proved",
   "theorems": [
    "Verif.C39_order",
    "Verif.C39_safe_loop",
    "Verif.C39_cut"
   ],
   "note": "Pointer-level model of list.h (next/prev maps). Every legal history over several lists; forward and backward loops, the deleting loop with freed entries, the predicates."
  },
  {
   "property": "C40",
   "status": "partial",
   "theorems": [
    "Verif.C40_same_arguments_partial",
    "Verif.C40_violated_empty_argument",
    "Verif.C40_violated_many_arguments",
    "Verif.C40_violated_long_message",
    "Verif.C40_violated_recv_error"
   ],
   "note": "Proved for at most 32 non-empty arguments and messages below 4096 bytes, every chunking; outside of this the code violates the property (four theorems)."
  },
  {
   "property": "C41",
   "status": "proved",
   "theorems": [
    "Verif.C41_dictionary_order",
    "Verif.C41_total_order",
    "Verif.C41_tree_order",
    "Verif.C41_prefix"
   ],
   "note": "kpstrcmp is the dictionary order of the texts; it satisfies the hypothesis of C37, so the trees keyed by names give exact lookups."
  },
  {
   "property": "C42",
   "status": "proved",
   "theorems": [
    "Verif.C42_nothing_lost",
    "Verif.C42_token_in_line"
   ],
   "note": "For every line without any hypothesis; the text after a newline outside of quotes is not looked at (lines never contain one)."
  },
  {
   "property": "C43",
   "status": "proved",
   "theorems": [
    "Verif.C43_rename_table",
    "Verif.C43_line_rewritten",
    "Verif.C43_unchanged",
    "Verif.C43_history",
    "Verif.C43_compare",
    "Verif.C43_compare_plain"
   ],
   "note": "For every history of rename_add and rename_del on the red-black tree model. The fixed size of the output buffer is not modelled."
  },
  {
   "property": "C44",
   "status": "proved",
   "theorems": [
    "Verif.C44_blocks",
    "Verif.C44_names"
   ],
   "note": "Order, disjointness and coverage of the blocks of any file. Lines without text and declarations that repeat an earlier one belong to no block, as the statement says."
  },
  {
   "property": "C45",
   "status": "partial",
   "theorems": [
    "Verif.C45_identical_partial",
    "Verif.C45_same_files_partial",
    "Verif.C45_violated_clone"
   ],
   "note": "A function with the same statements in two otherwise different files is not replaced, when its tokens mean the same in both; for twice the same file no function is replaced, also with names made by the compiler. Missing: function clones that share their base name with another symbol, where the property is violated (proved), and files with debug descriptors."
  },
  {
   "property": "C46",
   "status": "partial",
   "theorems": [
    "Verif.C46_originals",
    "Verif.C46_changed_partial",
    "Verif.C46_changed_replaced_partial",
    "Verif.C46_statement_partial",
    "Verif.C46_token_partial",
    "Verif.C46_nothing_lost_partial",
    "Verif.C46_records",
    "Verif.C46_violated_static",
    "Verif.C46_violated_weak"
   ],
   "note": "For every pair of files on which the generator succeeds: all functions and variables of the old file are written unchanged, every function with a normal name that differs is replaced with a record, and every block of the new file is the same, listed, replaced or added. Two proved violations: with shifted numbers of static variables a function that reads another variable counts as the same; a separate .weak declaration of a replaced function is renamed."
  },
  {
   "property": "C47",
   "status": "partial",
   "theorems": [
    "Verif.C47_check",
    "Verif.C47_no_overrun_partial",
    "Verif.C47_violated_riscv64"
   ],
   "note": "The tool accepts exactly the tables whose old lengths reach the jump length it is compiled with; on every architecture but riscv64 this is at least the length of the jump written when patching. On riscv64 it is shorter: proved violation."
  },
  {
   "property": "C48",
   "status": "proved",
   "theorems": [
    "Verif.C48_records_read_back"
   ],
   "note": ""
  },
  {
   "property": "C49",
   "status": "proved",
   "theorems": [
    "Verif.C49_only_selected_objects"
   ],
   "note": ""
  },
  {
   "property": "C50",
   "status": "proved",
   "theorems": [
    "Verif.C50_refuses_rel",
    "Verif.C50_relocations",
    "Verif.C50_symbols"
   ],
   "note": "For the whole of undoLink: relocation places and symbol values plus the section address are unchanged. The conversion of relocations against other sections (fixup_rela) is not part of it."
  },
  {
   "property": "C51",
   "status": "partial",
   "theorems": [
    "Verif.C51_same_name",
    "Verif.C51_address_partial",
    "Verif.C51_violated_skip",
    "Verif.C51_violated_order"
   ],
   "note": "A matched section always has the same name and gets the address; every section of the patch is matched if the names in the original, in order, contain those of the patch with none of the patch before. Proved violations otherwise."
  },
  {
   "property": "C52",
   "status": "partial",
   "theorems": [
    "Verif.C52_roles",
    "Verif.C52_commands_partial",
    "Verif.C52_only_listed",
    "Verif.C52_violated_unsorted",
    "Verif.C52_violated_output_name"
   ],
   "note": "Single-file compilations with -c, removal list in strcmp order. Proved violations: the removal list is sorted by address, the default output name of foo.cpp is foo.cpo. Builds from several files are C76."
  },
  {
   "property": "C53",
   "status": "partial",
   "theorems": [
    "Verif.C53_exact_partial",
    "Verif.C53_nothing_lost",
    "Verif.C53_violated_short_write"
   ],
   "note": "Exact when every write is full; with short writes bytes are repeated (proved violation)."
  },
  {
   "property": "C54",
   "status": "partial",
   "theorems": [
    "Verif.C54_demangle",
    "Verif.C54_listed",
    "Verif.C54_heap",
    "Verif.C54_aarch64_reads",
    "Verif.C54_riscv_partial",
    "Verif.C54_violated_aarch64",
    "Verif.C54_violated_riscv",
    "Verif.C54_violated_loongarch"
   ],
   "note": "x86-64: the registers recovered are those stored, for every guard and value, both for the listed and the searched coroutines. On aarch64 the guard is not removed: proved violation. On RISC-V the words 1, 6 and 7 of the buffer are rotated although the C library stores them plainly, so s0, s5 and s6 are wrong; the other registers are right (partial). On LoongArch the registers are taken from the wrong words. Both are proved violations."
  },
  {
   "property": "C55",
   "status": "partial",
   "theorems": [
    "Verif.C55_all_processes",
    "Verif.C55_one_process",
    "Verif.C55_no_proc",
    "Verif.C55_violated_info_all"
   ],
   "note": "Proved for patch and unpatch; the info command does not visit all processes."
  },
  {
   "property": "C56",
   "status": "proved",
   "theorems": [
    "Verif.C56_mappings_grouped",
    "Verif.C56_patches_recognised"
   ],
   "note": ""
  },
  {
   "property": "C57",
   "status": "partial",
   "theorems": [
    "Verif.C57_kept_partial",
    "Verif.C57_unchanged",
    "Verif.C57_identity",
    "Verif.C57_newlines",
    "Verif.C57_sections_partial",
    "Verif.C57_data_commands_partial",
    "Verif.C57_violated_loongarch_2byte",
    "Verif.C57_violated_riscv_ascii",
    "Verif.C57_violated_ltext",
    "Verif.C57_violated_section",
    "Verif.C57_violated_empty_statement"
   ],
   "note": "Exact for files without the three shapes for which a violation is proved: a .Ltext label line followed by code, an empty or comment line inside a debug section, an empty statement. The data commands gcc writes are known except .2byte on LoongArch and .ascii on RISC-V, where the rest of a debug section ends up in the section before."
  },
  {
   "property": "C58",
   "status": "partial",
   "theorems": [
    "Verif.C58_pid_selected_partial",
    "Verif.C58_only_named",
    "Verif.C58_help_and_too_few",
    "Verif.C58_violated_wrong_usage",
    "Verif.C58_violated_number_wraps"
   ],
   "note": "getopt is a parameter: the options are given parsed."
  },
  {
   "property": "C59",
   "status": "partial",
   "theorems": [
    "Verif.C59_layout_partial",
    "Verif.C59_violated_align0"
   ],
   "note": "For section alignments that are powers of two; an alignment of 0, which ELF allows, puts every following section at offset 0 (proved violation)."
  },
  {
   "property": "C60",
   "status": "proved",
   "theorems": [
    "Verif.C60_line",
    "Verif.C60_file",
    "Verif.C60_small_lines"
   ],
   "note": "Statements keep all tokens of the lines except separators, in order, with the right line numbers; files whose lines have at most 100 statements are accepted."
  },
  {
   "property": "C61",
   "status": "partial",
   "theorems": [
    "Verif.C61_sections_partial",
    "Verif.C61_executable",
    "Verif.C61_violated_nested",
    "Verif.C61_violated_switch",
    "Verif.C61_violated_previous"
   ],
   "note": "Exact for histories in which pushes are not nested, no section is switched between push and pop and .previous does not follow a pop; each of the three exceptions is a proved violation."
  },
  {
   "property": "C62",
   "status": "partial",
   "theorems": [
    "Verif.C62_list_partial",
    "Verif.C62_list_accepted",
    "Verif.C62_excluded_partial",
    "Verif.C62_not_replaced_partial",
    "Verif.C62_replaced_partial",
    "Verif.C62_unlinked_partial",
    "Verif.C62_must_adapt_partial",
    "Verif.C62_violated_file",
    "Verif.C62_violated_many",
    "Verif.C62_violated_prefix",
    "Verif.C62_violated_adapted"
   ],
   "note": "Exact selection for every list of at most 32 entries and every file with lines below 1023 characters, with the comparison of prefixes the code does; proved violations: prefixes of file names and of lines, more than 32 entries, uninitialised memory. Functions with compiler-made names are not covered."
  },
  {
   "property": "C63",
   "status": "partial",
   "theorems": [
    "Verif.X86.C63_load_partial",
    "Verif.X86.C63_store_partial",
    "Verif.X86.C63_other",
    "Verif.X86.C63_local",
    "Verif.X86.C63_got_partial",
    "Verif.X86.C63_violated_byte",
    "Verif.X86.C63_violated_word",
    "Verif.X86.C63_violated_offset",
    "Verif.X86.C63_violated_rsp",
    "Verif.X86.C63_violated_redzone",
    "Verif.X86.C63_violated_short",
    "Verif.X86.C63_violated_string"
   ],
   "note": "Loads into 64- and 32-bit registers are exact for every state; stores are exact except for the eight bytes below the stack pointer; lines without %rip, local labels and accesses that already use the table are left as they are. Seven proved violations for the other shapes."
  },
  {
   "property": "C64",
   "status": "partial",
   "theorems": [
    "Verif.C64_function_extent_partial",
    "Verif.C64_violated_cold_aarch64"
   ],
   "note": "Every function block of every file that is divided without a fatal error, on all four architectures; on AArch64 only functions without a cold part, because there the .type of a cold part is not counted but its .size is (proved witness)."
  },
  {
   "property": "C65",
   "status": "partial",
   "theorems": [
    "Verif.C65_syscall_partial",
    "Verif.C65_performed",
    "Verif.C65_errors",
    "Verif.C65_failures",
    "Verif.C65_violated_sigstop"
   ],
   "note": "All four architectures against a small processor and kernel model, every schedule of signals without SIGSTOP and SIGTRAP. A SIGSTOP that arrives before the system call is taken for its end and the call number is returned as the result: proved violation."
  },
  {
   "property": "C66",
   "status": "partial",
   "theorems": [
    "Verif.C66_resolver_partial",
    "Verif.C66_violated_red_zone",
    "Verif.C66_violated_arguments"
   ],
   "note": "The resolver does not get the arguments the dynamic linker passes: proved violation. Resolver called once, result and registers exact on all four architectures. On x86-64 the call pushes its return address into the red zone of the stopped function and does not restore it: proved violation."
  },
  {
   "property": "C67",
   "status": "partial",
   "theorems": [
    "Verif.C67_lines_partial",
    "Verif.C67_violated_long",
    "Verif.C67_table"
   ],
   "note": "For lines below 65535 characters that do not end in a carriage return; longer lines are split (proved violation)."
  },
  {
   "property": "C68",
   "status": "partial",
   "theorems": [
    "Verif.C68_same_target",
    "Verif.C68_code",
    "Verif.C68_address_partial",
    "Verif.C68_tls_offset_partial",
    "Verif.C68_tls_slot_partial",
    "Verif.C68_tls_read_partial",
    "Verif.C68_tls_refused",
    "Verif.C68_accepted",
    "Verif.C68_violated_own",
    "Verif.C68_violated_compare",
    "Verif.C68_violated_call",
    "Verif.C68_violated_library_tls",
    "Verif.C68_violated_module_slot",
    "Verif.C68_violated_tls_size"
   ],
   "note": "x86-64. Targets and code exact for all inputs; instructions proved end to end (rewriting, then applying) for mov from the global offset table and for thread-local variables of the program. Proved violations: addresses of the variables of the patch itself, other instructions with a slot operand, thread-local variables of libraries, module slots, differing sizes of the thread-local segments."
  },
  {
   "property": "C69",
   "status": "proved",
   "theorems": [
    "Verif.C69_data"
   ],
   "note": "For every pair of files and all options; the sense of the same contents is the specification SameBlocks."
  },
  {
   "property": "C70",
   "status": "partial",
   "theorems": [
    "Verif.C70_offsets_partial",
    "Verif.C70_violated_static",
    "Verif.C70_violated_section"
   ],
   "note": "Exact when one symbol of the original has the name, type and binding of the function, and its section is the one of the patch. Proved violations: static functions of the same name, functions in another section."
  },
  {
   "property": "C71",
   "status": "partial",
   "theorems": [
    "Verif.C71_found_partial",
    "Verif.C71_distinct",
    "Verif.C71_sound",
    "Verif.C71_violated_padding",
    "Verif.C71_violated_long",
    "Verif.C71_violated_length"
   ],
   "note": "Exact for notes that need no filling up, build ids of twenty bytes and segments of at most 128 bytes; soundness for every file. Proved violations: notes that need filling up, long segments, build ids of other lengths."
  },
  {
   "property": "C72",
   "status": "partial",
   "theorems": [
    "Verif.C72_name_partial",
    "Verif.C72_ld",
    "Verif.C72_violated_name",
    "Verif.C72_violated_deleted",
    "Verif.C72_violated_ld",
    "Verif.C72_violated_listed"
   ],
   "note": "Exact for names of at least sixteen bytes and for the dynamic linker with the program as its first argument. Proved violations: every shorter name loses its last byte, the mark of deleted programs is never removed, every program whose name begins with ld is taken for the dynamic linker."
  },
  {
   "property": "C73",
   "status": "partial",
   "theorems": [
    "Verif.C73_auxv",
    "Verif.C73_first_mmap_x86_partial",
    "Verif.C73_first_mmap_riscv",
    "Verif.C73_ld_entry_partial",
    "Verif.C73_violated_signal",
    "Verif.C73_stop_outside_call_x86",
    "Verif.C73_violated_aarch64_number",
    "Verif.C73_violated_aarch64",
    "Verif.C73_violated_aarch64_result",
    "Verif.C73_violated_loongarch"
   ],
   "note": "Exact for the auxiliary vector (read in whole pairs), for the dynamic linker on riscv64 with any signals and on x86-64 without signals, if the first mmap maps the program. Proved violations: signals on x86-64, wrong registers on aarch64 and loongarch64."
  },
  {
   "property": "C74",
   "status": "partial",
   "theorems": [
    "Verif.C74_same_target_riscv",
    "Verif.C74_same_target_loongarch",
    "Verif.C74_same_target_aarch64",
    "Verif.C74_imported_riscv",
    "Verif.C74_imported_loongarch",
    "Verif.C74_slot_riscv",
    "Verif.C74_refused_riscv",
    "Verif.C74_read_riscv_partial",
    "Verif.C74_offset_loongarch",
    "Verif.C74_violated_local_exec_loongarch",
    "Verif.C74_refused_loongarch",
    "Verif.C74_refused_slot_loongarch",
    "Verif.C74_violated_slot_loongarch",
    "Verif.C74_refused_aarch64",
    "Verif.C74_read_aarch64_partial",
    "Verif.C74_violated_local_exec_riscv",
    "Verif.C74_violated_library_tls_riscv",
    "Verif.C74_violated_reach_riscv",
    "Verif.C74_violated_page_aarch64",
    "Verif.C74_violated_slot_aarch64"
   ],
   "note": "Exact for everything that is not thread-local, for copied variables, for the slots of the original on RISC-V and for the lower part of local-exec offsets on LoongArch; the reads are followed through to the patched process on RISC-V and AArch64. Proved violations: local-exec offsets are not checked on RISC-V and always refused on LoongArch, initial-exec slots on LoongArch are address 0, variables of libraries on RISC-V lack the load offset, the slot may be out of reach on RISC-V, AArch64 uses the slots of the linked patch and miscounts pages beyond the first."
  },
  {
   "property": "C75",
   "status": "partial",
   "theorems": [
    "Verif.C75_same_statements_partial",
    "Verif.C75_violated_comment",
    "Verif.C75_violated_comment_aarch64",
    "Verif.C75_violated_string"
   ],
   "note": "Against a byte-level lexer of the assembler of each of the four architectures, for lines in the usual style: strings start words, comment signs stand alone if a separator follows in the comment, labels are symbols, no character constants and no /* comments. Proved violations: comments without a blank after # or //, strings directly after a word."
  },
  {
   "property": "C76",
   "status": "partial",
   "theorems": [
    "Verif.C76_commands_partial",
    "Verif.C76_contents_partial",
    "Verif.C76_files_kept_partial",
    "Verif.C76_names",
    "Verif.C76_violated_append",
    "Verif.C76_violated_language",
    "Verif.C76_violated_separate",
    "Verif.C76_violated_devnull"
   ],
   "note": "Exact for builds in which no more arguments are appended than removed (the file array is as long as the command line); the language argument of -x, if any, is itself passed on. The inputs are those the wrapper takes for inputs. Proved violations: the array of inputs is read past its end, -x is not changed for assembler files, option arguments in words of their own are taken for inputs, /dev/null is replaced by a file nobody writes."
  },
  {
   "property": "C77",
   "status": "partial",
   "theorems": [
    "Verif.C77_failure_partial",
    "Verif.C77_success_partial",
    "Verif.C77_violated_killed"
   ],
   "note": "Exact for tools that exit; a tool killed by a signal counts as success (proved violation)."
  },
  {
   "property": "C78",
   "status": "partial",
   "theorems": [
    "Verif.C78_commands_partial",
    "Verif.C78_contents_partial",
    "Verif.C78_files_kept_partial",
    "Verif.C78_passthrough"
   ],
   "note": "Exact for command lines with an input whose action and language are passed on, with the removal list in strcmp order (the violations of C52 apply). The inputs are those the wrapper takes for inputs."
  },
  {
   "property": "C79",
   "status": "partial",
   "theorems": [
    "Verif.C79_x86_partial",
    "Verif.C79_aarch64_partial",
    "Verif.C79_loongarch_partial",
    "Verif.C79_riscv_partial",
    "Verif.C79_violated_rel"
   ],
   "note": "From the bytes of the file for all four architectures, under the range and type restrictions of C25-C28; on RISC-V without the relocations that use a slot of the jump table for a variable of a library (those are covered, and violated, per section in C28). Violated for relocations without addends."
  },
  {
   "property": "C80",
   "status": "partial",
   "theorems": [
    "Verif.C80_library_symbol_partial",
    "Verif.C80_unknown_symbol_partial",
    "Verif.C80_violated_unrelocated",
    "Verif.C80_violated_table_layout"
   ],
   "note": "From the bytes in the memory of the process, for objects whose string table directly follows the symbol table and whose dynamic section is as glibc leaves it. Violated where there is something between the two tables, and where the dynamic linker does not relocate the dynamic section (musl)."
  },
  {
   "property": "C81",
   "status": "partial",
   "theorems": [
    "Verif.C81_program_not_searched_partial",
    "Verif.C80_library_symbol_partial",
    "Verif.C81_violated_interp_library"
   ],
   "note": "The program is never searched; libraries without PT_INTERP and glibc's own are. Violated for other libraries that can be started as programs."
  },
  {
   "property": "C82",
   "status": "partial",
   "theorems": [
    "Verif.C82_map_read_partial",
    "Verif.C82_same_file_partial",
    "Verif.C82_violated_blank",
    "Verif.C82_violated_long_name",
    "Verif.C82_violated_inode",
    "Verif.C82_violated_long_line"
   ],
   "note": "For names without white space of at most 255 characters, inodes below 2^32 and lines of at most 1023 bytes; violated for each of the four."
  },
  {
   "property": "C83",
   "status": "partial",
   "theorems": [
    "Verif.C83_x86_partial",
    "Verif.C83_aarch64_partial",
    "Verif.C83_loongarch_partial",
    "Verif.C83_riscv_partial",
    "Verif.C83_again_partial",
    "Verif.C83_violated_race"
   ],
   "note": "The whole command joined up: the text of the map, the objects in memory, the choice by build id, the gap, the preparation and relocation of the object and the jumps, for one patch file and an object that gets it alone. Partial: objects, map and patch file as in C80, C82 and C79; no gap on the boundary of C09; nothing mapped between the reading of the map and the stopping of the threads, which is violated when something is. A process that has the patch already is left as it is. RISC-V without library variables, as in C79."
  },
  {
   "property": "C84",
   "status": "partial",
   "theorems": [
    "Verif.C84_protection_partial",
    "Verif.C84_violated_page_size",
    "Verif.C84_violated_order"
   ],
   "note": "For every patch whose data section starts on a page of the machine, for the sections before it. Violated where pages are larger than on the machine the patch was made on (the data is not writable) and for code behind the data (it is not executable)."
  },
  {
   "property": "C85",
   "status": "partial",
   "theorems": [
    "Verif.C85_applied_partial",
    "Verif.C85_process_partial",
    "Verif.C85_violated_loongarch_reach"
   ],
   "note": "C85_applied_partial: all four architectures, from the bytes of the patch file; that the symbols are found and the relocations fit is a hypothesis about the result of the preparation. C85_process_partial: the whole command on all four architectures (RISC-V as in C79), with conditions on the patch and the process only: every library symbol is defined by a library, the relocations are of known types and (LoongArch and RISC-V) in reach, a recorded gap beside the object is large and near enough. Partial: processes and patch files as in C83, gaps as in C11. Violated on LoongArch for the largest distance a branch can span."
  },
  {
   "property": "C86",
   "status": "partial",
   "theorems": [
    "Verif.C86_unpatch_partial"
   ],
   "note": "Two whole runs of the tool, from the text of the memory map each time, on all four architectures (RISC-V as in C79). Partial: objects, maps and patch file as in C80, C82 and C79; ids of less than 8 bytes (C35); the memory of the patch is a mapping of its own and no other patch has its id; the threads the tool lets run meanwhile leave the memory of the patch alone."
  },
  {
   "property": "C87",
   "status": "partial",
   "theorems": [
    "Verif.C87_write_done_partial",
    "Verif.C87_fallback",
    "Verif.C87_violated_tail"
   ],
   "note": "With pwrite every mapped range; with the fallback every range whose words are mapped. Proved violation: the last bytes of a mapping that do not fill a word."
  },
  {
   "property": "C88",
   "status": "partial",
   "theorems": [
    "Verif.C88_placed_partial",
    "Verif.C88_aligned",
    "Verif.C88_violated_end_label"
   ],
   "note": "For every pair of files: placement, restoring of the section and alignment are proved, where the section of a statement is the one of C61. The end label of a replaced original is always put into .text: for an original in another section, as main with optimisation, it is in the wrong section (proved violation)."
  },
  {
   "property": "C89",
   "status": "proved",
   "theorems": [
    "Verif.C89_global"
   ],
   "note": "For every pair of files and every function or variable whose name is not made by the compiler."
  },
  {
   "property": "C90",
   "status": "partial",
   "theorems": [
    "Verif.C90_before_script_decides_partial",
    "Verif.C90_order",
    "Verif.C90_violated_wait"
   ],
   "note": "The code violates the property when waitpid or fork fails: the result 1 is taken for a success."
  },
  {
   "property": "C91",
   "status": "partial",
   "theorems": [
    "Verif.C91_one_program",
    "Verif.C91_own_signals_partial",
    "Verif.C91_violated_stale_pid",
    "Verif.C91_violated_exec"
   ],
   "note": "At most one program, none at the end: proved for every history. Own signals: proved for histories in which no client kills the program by its number; in these the code violates the property."
  },
  {
   "property": "C92",
   "status": "proved",
   "theorems": [
    "Verif.C92_storage_named_last"
   ],
   "note": "For names that fit the 4096-byte buffer, as all names in a message that the server accepts do."
  },
  {
   "property": "C93",
   "status": "proved",
   "theorems": [
    "Verif.C93_directories",
    "Verif.C93_returns"
   ],
   "note": "Paths are compared as strings, so that a path with two slashes in a row is not identified with the one without."
  },
  {
   "property": "C94",
   "status": "partial",
   "theorems": [
    "Verif.C94_sources_restored_partial",
    "Verif.C94_violated_twice",
    "Verif.C94_violated_created"
   ],
   "note": "The code violates the property when a file is changed by two patches, because the number in the name of the saved file never changes, or created by one."
  },
  {
   "property": "C95",
   "status": "partial",
   "theorems": [
    "Verif.C95_compiler_restored_partial",
    "Verif.C95_violated_failure"
   ],
   "note": "The code violates the property in every history with a failing tool."
  },
  {
   "property": "C96",
   "status": "partial",
   "theorems": [
    "Verif.C96_published_is_due_partial",
    "Verif.C96_due_is_published",
    "Verif.C96_violated_undo",
    "Verif.C96_violated_option"
   ],
   "note": "The code violates the property when kpatch_strip --undo-link fails, whose status is not looked at, and with the option -b and several changed executables."
  },
  {
   "property": "C97",
   "status": "partial",
   "theorems": [
    "Verif.C97_common_partial",
    "Verif.C97_refused_dollar",
    "Verif.C97_violated_align"
   ],
   "note": "Size, alignment number, name and place are proved for all files, sizes, alignments and names that are one word. Except on x86 the assembler reads the number after .align as a power of two, so the declared alignment is not the one asked for: a proved violation for AArch64."
  },
  {
   "property": "C98",
   "status": "partial",
   "theorems": [
    "Verif.C98_taken_at_exec_partial",
    "Verif.C98_only_after_breakpoint",
    "Verif.C98_violated_stop",
    "Verif.C98_violated_aarch64",
    "Verif.C98_violated_loongarch",
    "Verif.C98_violated_riscv"
   ],
   "note": "On x86 proved for all threads and all stops before the breakpoint. Proved violations: a stop between the breakpoint and execve is taken for the start of the program; on AArch64 and LoongArch the breakpoint is never recognised; on RISC-V the second stop at the same breakpoint is taken for the start."
  },
  {
   "property": "C99",
   "status": "partial",
   "theorems": [
    "Verif.C99_made_partial",
    "Verif.C99_stdout_partial",
    "Verif.C99_refused",
    "Verif.C99_unwritable",
    "Verif.C99_violated_buildid",
    "Verif.C99_violated_same_file",
    "Verif.C99_violated_cut"
   ],
   "note": "Proved for all command lines, files and results of write. Proved violations: a build id of the wrong length is reported but used; an output that is the input destroys the input; a failed write leaves a cut output."
  },
  {
   "property": "C100",
   "status": "partial",
   "theorems": [
    "Verif.C100_roundtrip_partial",
    "Verif.C100_converted_partial",
    "Verif.C100_header",
    "Verif.C100_refused",
    "Verif.C100_violated_no_patch",
    "Verif.C100_violated_string",
    "Verif.C100_violated_same_file"
   ],
   "note": "Proved for all command lines, objects and ids. Proved violations: -H accepts any file that is long enough and may read behind the header; an output that is the input destroys the patch."
  },
  {
   "property": "C101",
   "status": "partial",
   "theorems": [
    "Verif.C101_one_action",
    "Verif.C101_refused",
    "Verif.C101_violated_usage"
   ],
   "note": "Proved for all command lines. Proved violation: the usage offers undo-link with one file, which is refused."
  },
  {
   "property": "C102",
   "status": "partial",
   "theorems": [
    "Verif.C102_storage_name",
    "Verif.C102_single_id",
    "Verif.C102_object_id",
    "Verif.C102_pid",
    "Verif.C102_script_partial",
    "Verif.C102_violated_script",
    "Verif.C102_storage_command",
    "Verif.C102_server_dir_partial",
    "Verif.C102_violated_server_dir",
    "Verif.C102_server_socket",
    "Verif.C102_client_socket",
    "Verif.C102_wrapper_names",
    "Verif.C102_wrapper_file",
    "Verif.C102_flavor",
    "Verif.C102_register",
    "Verif.C102_line_partial",
    "Verif.C102_violated_line",
    "Verif.C102_move"
   ],
   "note": "Proved for all inputs but three. Proved violations: the path of a script of the storage, the storage directory given to the server at its start, and a generated line whose new names are long are written past the end of their arrays."
  },
  {
   "property": "C103",
   "status": "partial",
   "theorems": [
    "Verif.C103_runs_partial",
    "Verif.C103_refused",
    "Verif.C103_violated_refused",
    "Verif.C103_violated_same_file"
   ],
   "note": "Proved for all command lines: what is run, and that the listed ones are refused and do no work. Proved violations: a refused command line may already have emptied the file behind -o, and an input given as output before is read as empty. The long name of the output is ouput in the code; the standard streams (-) are not modelled."
  },
  {
   "property": "C104",
   "status": "proved",
   "theorems": [
    "Verif.C104_destroy"
   ],
   "note": "On the nodes as they lie in memory, with links that are overwritten and nodes that are gone after the callback. The colour bits are left out."
  },
  {
   "property": "C105",
   "status": "partial",
   "theorems": [
    "Verif.C105_lines_partial",
    "Verif.C105_sections",
    "Verif.C105_violated_comment",
    "Verif.C105_violated_witness"
   ],
   "note": "Proved for files whose lines are single statements or have no # and no / in them. Proved violation, for every file with such a line: behind a label or another statement, a statement with a comment keeps a pointer into the middle of the line, which is freed at the end; the C library ends the program before the output is closed."
  }
 ]
}