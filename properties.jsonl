{"id": "C01", "title": "x86_64: a patched function runs the replacement", "statement": "After a patch has been applied to an x86_64 process, a thread that calls the patched function (starts executing at the function's first byte) executes exactly one instruction of the overwritten area and then continues at the first byte of the replacement function, with every register other than the instruction pointer and all memory unchanged.", "quantifier": "every function address, every replacement address in the 64-bit space, every prior memory content and every register content", "why_tests_cant": "2^64 x 2^64 address pairs; a test samples a handful, and position/sign/endianness mistakes in the 16-byte entry show only for some of them", "anchors": ["src/patch/patch.c: arch_jmp_table_jmp, kick_target_process", "src/patch/patch.h: struct jmp_table_entry"]}
{"id": "C02", "title": "aarch64: a patched function runs the replacement", "statement": "After a patch has been applied to an aarch64 process, a thread that calls the patched function executes two instructions and continues at the first byte of the replacement function; apart from the intra-procedure scratch register x17 no general register and no memory changes.", "quantifier": "every word-aligned function address, every replacement address, every prior memory and register content", "why_tests_cant": "same address space argument; the literal-load offset and register numbers must be right for all addresses", "anchors": ["src/patch/patch.c: arch_jmp_table_jmp, kick_target_process", "src/arch/aarch64/instruments.h: JMP_TABLE_JUMP_AARCH64"]}
{"id": "C03", "title": "Unpatching restores the original bytes exactly", "statement": "If a patch is applied successfully and the next operation on the process is a successful unpatch, every byte of the process outside the patch's own mapping equals its value before the patch.", "quantifier": "every process memory, target function address and patch object", "why_tests_cant": "the claim is about all 2^64 addresses and every memory content", "anchors": ["src/patch/patch.c: kick_target_process, delete_patch"]}
{"id": "C04", "title": "Stacked patches unwind in LIFO order over any history", "statement": "For every history of patch and unpatch commands (each in its own tool invocation, any of them failing at any system call), the program text equals the original text overlaid with the still-live patches in the order they were applied - also when several patches hit the same function or overlapping bytes; when as many patches have been removed as were applied, the text is the original text.", "quantifier": "all finite histories of patch/unpatch commands, all failure patterns of ptrace/open/mmap/munmap/read/write, all overlaps of target functions", "why_tests_cant": "unbounded histories times failure points; tests run one patch and one unpatch", "anchors": ["src/patch/patch.c: init_patch, delete_patch, solve_patch_symbols", "src/task/patch.c: vma_load_ulp, alloc_ulp"]}
{"id": "C05", "title": "A failed patch command leaves the program text unchanged", "statement": "If applying a patch reports an error, no byte of the target program's code or data has been changed by the redirect: either the full 16-byte entry was installed (and success reported) or none of it.", "quantifier": "every failure point of the command, including short writes to the process memory", "why_tests_cant": "crash/failure points inside system calls cannot be enumerated by running the tool", "anchors": ["src/patch/patch.c: init_patch, load_patch, kick_target_process"]}
{"id": "C06", "title": "A patch or unpatch command never leaves the target stopped", "statement": "On return from the patch and unpatch commands, whatever the outcome, the target process is not left attached/stopped by the tool.", "quantifier": "every outcome of every system call made by the command", "why_tests_cant": "needs a fault injected in each remote system call", "anchors": ["src/patch/patch.c: create_mmap_vma_file, delete_mmap_vma_file, kick_target_process, delete_patch", "src/task/core.c: task_attach, task_detach"]}
{"id": "C07", "title": "Live patch numbers are unique and unpatch removes the newest", "statement": "Over any history, the live patches of a process carry pairwise different numbers that increase in the order of application, and the unpatch command removes the live patch that was applied last.", "quantifier": "all histories of patch/unpatch commands", "why_tests_cant": "unbounded histories", "anchors": ["src/patch/patch.c: solve_patch_symbols, delete_patch", "src/task/patch.c: vma_load_ulp"]}
{"id": "C08", "title": "The same patch (Build ID) is never live twice", "statement": "Over any history, no two live patches of a process have the same Build ID; a second attempt to apply a live Build ID reports 'already' and changes neither text nor set of live patches.", "quantifier": "all histories of patch/unpatch commands and all objects", "why_tests_cant": "unbounded histories", "anchors": ["src/patch/patch.c: load_patch", "src/elf/note.c: elf_strbuildid"]}
{"id": "C09", "title": "A tracing session removes exactly the patch it installed", "statement": "A tool that applies a patch and later removes 'the last patch' using the same open session removes the patch it installed, and if applying failed it removes nothing.", "quantifier": "all prior patch states of the process and all outcomes of the apply step", "why_tests_cant": "depends on in-process bookkeeping versus what is mapped; needs all prior states", "anchors": ["src/ulftrace.c: main", "src/patch/patch.c: init_patch, delete_patch", "src/task/vma.c: read_task_vmas"]}
{"id": "C10", "title": "x86_64 relocation computes the ABI value", "statement": "When applying the relocations of a patch object succeeds on x86_64, every relocated field holds the psABI value for its type (S+A for 64/32/32S, S+A-P for PC32/PLT32/PC64 with P the field's address in the target process) in little-endian order, and every other byte of the image is unchanged.", "quantifier": "every list of relocations with pairwise disjoint fields, every symbol value, addend, section address, and every host/target address difference", "why_tests_cant": "relocation tables are arbitrary and values range over 64 bits", "anchors": ["src/arch/x86_64/patch.c: arch_apply_relocate_add"]}
{"id": "C11", "title": "x86_64 relocation never overwrites a relocated or non-empty field", "statement": "A relocation whose field is not zero is refused, so applying the same relocations twice fails instead of corrupting the image (for every field whose value is non-zero).", "quantifier": "every image, relocation list and symbol table", "why_tests_cant": "arbitrary images", "anchors": ["src/arch/x86_64/patch.c: arch_apply_relocate_add"]}
{"id": "C12", "title": "x86_64 relocation reports values that do not fit", "statement": "A relocation whose value does not fit its 4-byte field (zero-extended for 32, sign-extended for 32S and PC-relative types) makes the patch fail; one that fits does not.", "quantifier": "every 64-bit value for every 4-byte relocation type", "why_tests_cant": "boundary values in a 64-bit space", "anchors": ["src/arch/x86_64/patch.c: arch_apply_relocate_add"]}
{"id": "C13", "title": "Only loadable sections are relocated and bad entries stop the patch", "statement": "Relocation is applied exactly to the sections that are loadable and whose index is valid, in section order; REL-style sections and unsupported types make the patch fail; the patch's own bookkeeping section is never relocated.", "quantifier": "every section table", "why_tests_cant": "arbitrary section tables", "anchors": ["src/patch/patch.c: apply_relocations, rewrite_section_headers"]}
{"id": "C14", "title": "aarch64 immediate fields encode and decode faithfully", "statement": "For each of the aarch64 immediate kinds, writing an immediate into an instruction and reading it back yields the immediate modulo the field width, leaves all other instruction bits unchanged, and overwriting is idempotent; the reserved fault instruction is left alone.", "quantifier": "all 12 kinds, every 32-bit instruction word, every 64-bit immediate", "why_tests_cant": "2^32 x 2^64 combinations", "anchors": ["src/arch/aarch64/insn.c: aarch64_insn_encode_immediate, aarch64_insn_decode_immediate, aarch64_get_imm_shift_mask"]}
{"id": "C15", "title": "aarch64 relocated instructions compute the right address", "statement": "After relocation, BL/B reaches S+A, ADRP+ADD computes S+A, the MOVZ/MOVK/MOVN sequence builds S+A and data words hold S+A (or S+A-P), whenever the value is in range.", "quantifier": "every place, symbol value, addend and instruction word", "why_tests_cant": "64-bit arithmetic with fields split over the instruction word", "anchors": ["src/arch/aarch64/patch.c: do_reloc, reloc_data, reloc_insn_movw, reloc_insn_imm, arch_apply_relocate_add"]}
{"id": "C16", "title": "aarch64 relocation reports values that do not fit", "statement": "A checked relocation whose value is out of range for its field makes the patch fail and an in-range one does not.", "quantifier": "every 64-bit value for every relocation type and every preceding relocation in the same table", "why_tests_cant": "64-bit boundary values; verdict depends on the history of earlier relocations", "anchors": ["src/arch/aarch64/patch.c: reloc_insn_imm, reloc_insn_movw, reloc_data, arch_apply_relocate_add"]}
{"id": "C17", "title": "x86_64 generated call/jump instructions reach their destination", "statement": "The generated 5-byte call/jmp at address A for destination D transfers to D exactly when D-(A+5) fits a signed 32-bit displacement; the 2-byte jump exactly when it fits a signed byte; instruction sizes match the encoding.", "quantifier": "all address pairs and opcodes", "why_tests_cant": "2^128 address pairs", "anchors": ["src/arch/x86_64/insn.c: text_opcode_size, text_gen_insn", "src/arch/x86_64/patch.c: ulpatch_jmpq_replace", "src/arch/x86_64/ftrace.c: ftrace_call_replace"]}
{"id": "C18", "title": "aarch64 generated branch instructions reach their destination", "statement": "The generated B/BL at address A for destination D transfers to D whenever both are word aligned and D-A is within +-128MB, and the fault instruction is produced otherwise.", "quantifier": "all address pairs", "why_tests_cant": "2^128 address pairs", "anchors": ["src/arch/aarch64/insn.c: branch_imm_common, aarch64_insn_gen_branch_imm"]}
{"id": "C19", "title": "A patch file is accepted only if its metadata is complete", "statement": "Parsing a patch image succeeds exactly when it has the info section with the supported version, the string, author and license sections, a Build-ID note section, the magic string and a symbol table; the error code tells the first missing piece.", "quantifier": "every section table and section contents", "why_tests_cant": "arbitrary files", "anchors": ["src/patch/patch.c: setup_load_info, find_sec, parse_ulpatch_strtab"]}
{"id": "C20", "title": "Patch metadata strings round-trip", "statement": "The function names read from a patch image are exactly the names written by the ULPATCH_INFO macro, and the metadata record read back from the process equals the one written, field by field.", "quantifier": "every pair of C identifiers and every metadata record", "why_tests_cant": "arbitrary strings and 64-bit fields", "anchors": ["src/patch/patch.c: parse_ulpatch_strtab", "src/patch/meta.h: ULPATCH_INFO, struct ulpatch_info"]}
{"id": "C21", "title": "Truncated or malformed patch files are rejected before use", "statement": "A patch file shorter than an ELF header, without ELF magic, or whose section header table or any section's contents extend past the end of the file is rejected; loading never reads outside the image.", "quantifier": "every file content and every 64-bit header field", "why_tests_cant": "64-bit header fields including wrap-around values", "anchors": ["src/patch/patch.c: alloc_patch_file, __chk_load_info_len, rewrite_section_headers"]}
{"id": "C22", "title": "A patch with an unresolved symbol is refused", "statement": "If any non-weak undefined symbol of the patch cannot be resolved in the target process, or the patch has a common symbol, the patch command fails; defined symbols get the target address of their section plus offset, resolved ones the target's address, absolute ones are untouched.", "quantifier": "every symbol table and every target symbol set", "why_tests_cant": "arbitrary symbol tables; order of symbols matters", "anchors": ["src/patch/patch.c: simplify_symbols, resolve_symbol"]}
{"id": "C23", "title": "Build-ID text identifies the Build-ID bytes", "statement": "Two Build-ID notes get the same text exactly when their bytes are equal; the text has two lower-case hex digits per byte, and too small a buffer is refused.", "quantifier": "all byte strings", "why_tests_cant": "unbounded byte strings", "anchors": ["src/elf/note.c: elf_strbuildid"]}
{"id": "C24", "title": "Ordered-tree lookup finds exactly the stored key", "statement": "After any sequence of insertions, removals and replacements of a node by another, searching for a key returns the node holding it if one was inserted and not removed, and nothing otherwise; inserting an existing key returns the existing node and changes nothing; putting a node in the place of another moves the key of that one to it and no other key.", "quantifier": "all operation sequences and all total-order comparators", "why_tests_cant": "unbounded operation sequences", "anchors": ["src/utils/rbtree.h: rb_search_node, rb_insert_node", "src/utils/rbtree.c: __rb_insert, rb_erase, rb_replace_node"]}
{"id": "C25", "title": "Ordered-tree stays balanced", "statement": "After any sequence of insertions, removals and replacements the tree satisfies the red-black rules, parent links are consistent, and its height is at most 2*log2(n+1), so every lookup takes logarithmically many comparisons.", "quantifier": "all operation sequences", "why_tests_cant": "unbounded operation sequences and tree shapes", "anchors": ["src/utils/rbtree.c: __rb_insert, ____rb_erase_color", "src/utils/rbtree.h: __rb_erase"]}
{"id": "C26", "title": "Ordered-tree traversal visits every element once in order", "statement": "Starting from the first element and repeatedly taking the next one visits every stored element exactly once in comparator order and then ends; last/previous visit them in reverse; the post-order walk visits children before parents.", "quantifier": "every tree", "why_tests_cant": "arbitrary shapes", "anchors": ["src/utils/rbtree.c: rb_first, rb_next, rb_last, rb_prev, rb_first_postorder, rb_next_postorder"]}
{"id": "C27", "title": "Ordered-tree destruction frees each element exactly once", "statement": "Destroying a tree invokes the free callback exactly once per element, never touches an element after it was freed, and terminates.", "quantifier": "every tree", "why_tests_cant": "use-after-free and double free depend on the tree shape", "anchors": ["src/utils/rbtree.h: rb_destroy"]}
{"id": "C28", "title": "Linked lists behave as sequences", "statement": "Initialising, adding at either end, deleting, replacing, moving, rotating, splitting and joining lists have exactly the effect of the corresponding sequence operation, and keep forward and backward links mutually consistent.", "quantifier": "all lists and operation sequences, including aliasing of neighbours in short lists", "why_tests_cant": "unbounded sequences; pointer aliasing", "anchors": ["src/utils/list.h: list_init, __list_add, list_add, list_add_head, list_del, list_replace, list_move, list_rotate_left, list_splice, list_splice_tail, __list_cut_position"]}
{"id": "C29", "title": "list_sort sorts stably", "statement": "Sorting a list yields a permutation of it that is ordered by the comparison function, keeps the relative order of elements that compare equal, never dereferences a null pointer, and terminates.", "quantifier": "all lists of any length and all total-preorder comparison functions", "why_tests_cant": "all lengths and orders", "anchors": ["src/utils/list.c: merge, merge_final, list_sort"]}
{"id": "C30", "title": "Address lookup returns the mapping that contains the address", "statement": "Looking up an address in the process's memory map returns the mapping with start <= address < end if there is one and nothing otherwise.", "quantifier": "all sets of disjoint mappings in any insertion order and all addresses", "why_tests_cant": "unbounded maps, boundary addresses", "anchors": ["src/task/vma.c: find_vma, insert_vma, __vma_rb_cmp, __find_vma_cmp"]}
{"id": "C31", "title": "The address chosen for a patch is free memory", "statement": "The address chosen for mapping a patch of a given size is not inside any mapping and the whole range [addr, addr+size) lies in a gap, at or above the minimum address; when there is no gap the result says so.", "quantifier": "all memory maps and sizes", "why_tests_cant": "unbounded maps", "anchors": ["src/task/vma.c: find_vma_span_area", "src/patch/patch.c: create_mmap_vma_file"]}
{"id": "C32", "title": "Symbol lookup by name is complete", "statement": "Looking up a name returns the first symbol registered with that name; the 'extras' are exactly the other registered symbols of that name with distinct addresses, in registration order.", "quantifier": "all registration sequences", "why_tests_cant": "unbounded registration sequences", "anchors": ["src/task/symbol.c: link_task_sym, __link_task_sym_name, find_task_sym"]}
{"id": "C33", "title": "Symbol lookup by address is exact", "statement": "Looking up an address returns a symbol with exactly that address if one was registered and nothing otherwise.", "quantifier": "all registration sequences and all 64-bit addresses", "why_tests_cant": "comparator arithmetic wraps for particular 64-bit differences", "anchors": ["src/task/symbol.c: __cmp_task_addr, __link_task_sym_addr, find_task_addr"]}
{"id": "C34", "title": "Symbols are freed exactly once", "statement": "Closing the symbol table frees every registered symbol exactly once and never uses one after it was freed, whichever of the two indexes hold it.", "quantifier": "all registration sequences with arbitrary duplicate names and addresses", "why_tests_cant": "reference-count bookkeeping over unbounded sequences", "anchors": ["src/task/symbol.c: free_task_syms, free_task_sym, __rb_free_task_sym_name, __rb_free_task_sym_addr"]}
{"id": "C35", "title": "Byte-string text conversion round-trips", "statement": "Converting a byte string to '0x..,0x..' text and back yields the same bytes, for every separator that is not itself part of the number syntax; malformed text is rejected.", "quantifier": "all non-empty byte strings and separators", "why_tests_cant": "unbounded strings", "anchors": ["src/utils/string.c: mem2strbytes, strbytes2mem, strbytes2mem_check"]}
{"id": "C36", "title": "Byte-string parsing never writes past the caller's buffer", "statement": "Parsing byte-string text never writes outside the buffer given by the caller, however long the text is.", "quantifier": "all texts and buffer sizes", "why_tests_cant": "off-by-one needs text exactly one element too long", "anchors": ["src/utils/string.c: strbytes2mem"]}
{"id": "C37", "title": "Comma lists split into their non-empty pieces", "statement": "Splitting 'a,b,,c' yields exactly the non-empty comma-free pieces in order, and joining them gives back the text without redundant commas.", "quantifier": "all strings", "why_tests_cant": "unbounded strings", "anchors": ["src/utils/string.c: parse_strstr, free_strstr_list"]}
{"id": "C38", "title": "Sizes and addresses typed by the user are parsed as written", "statement": "A decimal, 0x-hexadecimal or 0-octal address and a size with optional KB/MB/GB suffix denote the number written (modulo 2^64 for the scaling).", "quantifier": "all numerals", "why_tests_cant": "unbounded numerals", "anchors": ["src/utils/string.c: str2size, str2addr, str2verbose"]}
{"id": "C39", "title": "A remote system call leaves code and registers as found", "statement": "Running a system call inside the target leaves the overwritten instructions and all registers of the target exactly as before, returns the kernel's result, and passes all six arguments and the number in the right registers.", "quantifier": "every register file, memory, syscall number, argument tuple and failure point of ptrace", "why_tests_cant": "failure points between ptrace steps", "anchors": ["src/task/syscall.c: task_syscall, copy_regs, wait_for_stop", "src/arch/x86_64/regs.h: SYSCALL_REGS_PREPARE", "src/arch/aarch64/regs.h: SYSCALL_REGS_PREPARE"]}
{"id": "C40", "title": "Attaching waits for the stop and re-delivers other signals", "statement": "Attaching returns success only when the target is stopped by the tool's own stop signal; every other signal that arrives meanwhile is re-delivered to the target, except traps.", "quantifier": "all sequences of wait statuses", "why_tests_cant": "unbounded interleavings of signals", "anchors": ["src/task/core.c: task_attach", "src/task/syscall.c: wait_for_stop"]}
{"id": "C41", "title": "Standard descriptors of the target are never closed", "statement": "The remote close and truncate operations never act on descriptors 0, 1 and 2 of the target.", "quantifier": "all descriptor numbers and target states", "why_tests_cant": "decision must hold for all states", "anchors": ["src/task/syscall.c: __should_skip_remote_fd, task_close, task_ftruncate"]}
{"id": "C42", "title": "Alignment helpers round correctly", "statement": "Rounding down/up to a power of two gives the largest multiple not above / the smallest multiple not below the value (when representable); page start, page offset and page align agree with them.", "quantifier": "all 64-bit values and all powers of two", "why_tests_cant": "2^64 values; wrap-around at the top", "anchors": ["src/utils/macros.h: ROUND_DOWN, ROUND_UP, ALIGN, ALIGN_DOWN, ELF_PAGESTART, ELF_PAGEOFFSET, ELF_PAGEALIGN"]}
{"id": "C43", "title": "Callbacks run once each in registration order", "statement": "Launching a callback chain calls every registered callback exactly once with its argument, in registration order; destroying it frees each entry once and leaves it empty.", "quantifier": "all registration sequences", "why_tests_cant": "unbounded sequences", "anchors": ["src/utils/callback.c: insert_callback, callback_launch_chain, destroy_callback_chain"]}
{"id": "C44", "title": "Memory-map permission strings map to the right protection", "statement": "The protection computed from a maps line's permission string has exactly the bits r, w, x that the string shows, and converting it to ELF flags preserves each of the three.", "quantifier": "all permission strings and protection values", "why_tests_cant": "all combinations including junk characters", "anchors": ["src/task/vma.c: vma_perms2prot, vma_prot2flags"]}
{"id": "C45", "title": "Every mapping is classified by one rule", "statement": "The type assigned to a mapping depends only on its name, the executable path and the pid, by a fixed priority of rules; a patch mapping made by this tool for this pid is recognised as such.", "quantifier": "all names, executables and pids", "why_tests_cant": "arbitrary strings", "anchors": ["src/task/vma.c: get_vma_type, vma_type_name", "src/patch/patch.c: __make_pid_ulpname"]}
{"id": "C46", "title": "Re-reading the memory map adds exactly the new mappings", "statement": "Re-reading the map of a process after something was mapped adds exactly the mappings not yet known and duplicates none; grouping of same-named neighbours gives each mapping a leader that is the first of its group.", "quantifier": "all previous and current maps", "why_tests_cant": "unbounded maps", "anchors": ["src/task/vma.c: read_task_vmas, insert_vma"]}
{"id": "C47", "title": "Symbols of a loaded file are reported at their load address", "statement": "The load address computed for a mapped ELF file is the mapping start minus the lowest loadable address, so a symbol's reported address is its file address shifted by the load bias for position independent and fixed executables alike.", "quantifier": "all program header tables and mapping addresses", "why_tests_cant": "arbitrary header tables", "anchors": ["src/task/core.c: vma_peek_elf_hdrs, match_vma_phdr, _relro_dl_mprotect", "src/task/symbol.c: task_load_vma_elf_syms"]}
{"id": "C48", "title": "Log gating", "statement": "A message is printed exactly when its level is at most the configured level; level names given by the user (any letter case) select that level and unknown names are refused.", "quantifier": "all levels and name strings", "why_tests_cant": "all strings", "anchors": ["src/utils/log.c: ulp_log, str2loglevel, set_log_level"]}
{"id": "C49", "title": "The patch record names the functions the patch file names", "statement": "After a patch is loaded its record holds the address the target process has for the function to be replaced, the address of the patch's own function of the given name (the last one if several), and the next unused id; if either function is missing the patch fails and no id is used up.", "quantifier": "every symbol table, every pair of names, every id counter", "why_tests_cant": "arbitrary symbol tables with duplicates", "anchors": ["src/patch/patch.c: solve_patch_symbols"]}
{"id": "C50", "title": "Giving up the known mappings frees each exactly once", "statement": "After any history of insertions and removals of mappings, including overlapping ones that the ordered index refused, giving up the mappings of a process runs without touching freed memory, frees each known mapping exactly once and nothing else, and leaves no mapping known.", "quantifier": "every history of insertions and removals", "why_tests_cant": "arbitrary histories with mappings that are listed but not indexed", "anchors": ["src/task/vma.c: free_task_vmas, unlink_vma, free_vma"]}
{"id": "C51", "title": "Symbols of mapped files are found at their run-time address", "statement": "After the symbols of a process's mapped files are loaded one file after another, a name is found exactly if one of the files defines it, and its address is that of the first definition in its file plus that file's load address; mappings that are not opened ELF files and mappings of patches add nothing.", "quantifier": "all sequences of mappings with arbitrary symbol lists", "why_tests_cant": "arbitrary numbers of files with clashing names", "anchors": ["src/task/symbol.c: task_load_vma_elf_syms, link_task_sym, find_task_sym", "src/task/core.c: open_task"]}
{"id": "C52", "title": "A failed remote allocation is never taken for an address", "statement": "Allocating memory in the target returns an address only if the kernel mapped memory there; any failure is reported as failure.", "quantifier": "every kernel result and failure point", "why_tests_cant": "out-of-memory answers of the kernel cannot be produced at will", "anchors": ["src/task/syscall.c: task_malloc, task_mmap"]}
{"id": "C53", "title": "A remote call that could not be made is reported", "statement": "Every operation built on a remote system call reports a failure when the call could not be made in the target.", "quantifier": "every operation and every failure of ptrace", "why_tests_cant": "ptrace failures depend on the kernel and on timing", "anchors": ["src/task/syscall.c: task_mmap, task_munmap, task_mprotect, task_msync, task_close, task_ftruncate, task_prctl"]}
{"id": "C54", "title": "The headers kept for a mapping are freed exactly once", "statement": "Whatever a mapping of the target contains and however the reads of its headers go, opening a task never uses headers that were not read, and closing it frees the headers kept for each mapping exactly once.", "quantifier": "all mappings, memory contents and read results", "why_tests_cant": "read failures and short reads of another process's memory depend on timing", "anchors": ["src/task/core.c: vma_peek_elf_hdrs, vma_free_elf"]}
{"id": "C55", "title": "Every mapping of the target is recorded as the kernel lists it", "statement": "Reading /proc/PID/maps records one mapping for each line, with the addresses, permissions, offset, device, inode and name the kernel printed, so that looking up an address finds the mapping that has it.", "quantifier": "all lists of mappings a process can have", "why_tests_cant": "file names, numbers of mappings and addresses are unbounded", "anchors": ["src/task/vma.c: read_task_vmas"]}
{"id": "C56", "title": "System calls are run in the first executable mapping of the C library", "statement": "The mapping chosen to run system calls in is the first one listed that is of the C library and executable, the stack is the first mapping that is one, and neither changes when the mappings are read again.", "quantifier": "all lists of mappings", "why_tests_cant": "unbounded lists", "anchors": ["src/task/vma.c: read_task_vmas"]}
{"id": "C57", "title": "A patch file is linked at its address in the target", "statement": "Loading a patch file either fails with an error or makes an image that is the file with every relocation field, symbol value and section address set to what the psABI gives for the address the image has in the target, with the record filled in for the function to be replaced and its replacement, and with every other byte as it was in the file. A complete file is accepted, and a file whose Build ID is already live is refused.", "quantifier": "all patch files as linkers lay them out, all addresses of the image, all symbol tables of the target", "why_tests_cant": "sections, symbols, relocations, names and addresses are unbounded; the fields depend on 64-bit arithmetic on all of them", "anchors": ["src/patch/patch.c: load_patch, setup_load_info, rewrite_section_headers, simplify_symbols, apply_relocations, solve_patch_symbols", "src/arch/x86_64/patch.c: arch_apply_relocate_add", "src/arch/aarch64/patch.c: arch_apply_relocate_add"]}
{"id": "C58", "title": "The patch command puts the linked file into the target and redirects the function", "statement": "A patch command that succeeds leaves the file, linked at the address of its mapping, in the memory of the target together with the 16 bytes of code it replaces, changes nothing else but these 16 bytes, and makes a processor that reaches the replaced function go on in the new one. A file that cannot be loaded changes nothing; a complete file is applied if every system call succeeds; unpatching afterwards restores memory and live patches.", "quantifier": "all patch files as linkers lay them out, all processes, live patches, addresses and symbol tables", "why_tests_cant": "files, memories and lists of live patches are unbounded", "anchors": ["src/patch/patch.c: init_patch, load_patch, kick_target_process, delete_patch", "src/ulpatch.c"]}
{"id": "C59", "title": "The tracing stubs leave the traced function as it was", "statement": "The code that is called at the start of every traced function and in place of its return calls the user hook with the arguments its declaration promises (where the return address is, who was called, the integer arguments; the return values), on an aligned stack, and afterwards goes on at the caller (at the address the hook gave) with the registers, stack pointer and memory of the traced function unchanged, whatever a hook that keeps the calling convention does.", "quantifier": "all processor states (registers, stack pointers aligned or not, memories) and all hooks that keep the calling convention of the platform", "why_tests_cant": "there are infinitely many states and hooks", "anchors": ["src/arch/x86_64/mcount.S: _ftrace_mcount, _ftrace_mcount_return", "src/arch/aarch64/mcount.S: _ftrace_mcount, _ftrace_mcount_return"]}
{"id": "C60", "title": "The auxiliary vector of the process is read correctly", "statement": "Opening a process reads from /proc/PID/auxv the address, entry size and count of the program headers, the load address of the interpreter and the entry point; a vector in which one of them is missing is refused with ENOENT, and a file that cannot be opened or read is reported.", "quantifier": "all auxiliary vectors (entries in any order, types repeated or unknown, any length, a truncated last entry)", "why_tests_cant": "the vector has any length and any entries in any order", "anchors": ["src/task/auxv.c: load_task_auxv"]}
{"id": "C61", "title": "The identity of the process is read correctly", "statement": "Opening a process reads its four user and four group identifiers from /proc/PID/status, whatever other lines the file has, and its name from /proc/PID/comm; a file without one of the two lines is refused; a process that ends meanwhile is reported.", "quantifier": "all status files (lines before, between and after of any number and length) and all names", "why_tests_cant": "the files have any number of lines of any length, the name is any text", "anchors": ["src/task/proc.c: proc_get_pid_status, proc_pid_comm"]}
{"id": "C62", "title": "The working files of a patched process are kept, and no others", "statement": "Whatever sessions of the tools are opened, closed, patch and unpatch, in any interleaving and with failures at any point: the file behind every patch that is mapped in the process stays in place with its contents, no other file is left, and a session on a process without patches leaves nothing behind.", "quantifier": "all histories of any number of sessions on a process (opens that succeed or fail at each stage, patches, failed patches, unpatches, closes), all names and contents", "why_tests_cant": "there are infinitely many interleavings of sessions", "anchors": ["src/task/core.c: open_task, close_task, __clean_task_proc, __check_and_free_task_proc", "src/patch/patch.c: __make_pid_ulpname, init_patch, delete_patch", "src/utils/file.c: fmktempname"]}
{"id": "C63", "title": "Opening a process is all or nothing", "statement": "Opening a process gives a session exactly when every step its flags ask for succeeds; otherwise no descriptor stays open, no memory stays allocated and the reason is reported; closing a session gives back all it took.", "quantifier": "all flags and all combinations of answers of the system", "why_tests_cant": "there are more combinations of failures than can be provoked, and several cannot be provoked at all", "anchors": ["src/task/core.c: open_task, close_task"]}
{"id": "C64", "title": "Changing the protection of a region changes that region only", "statement": "ultask --mprotect: if success is reported, every page of the region has the protection asked for and nothing else of the process is changed; if the region is refused nothing is asked of the process; the process goes on running in either case.", "quantifier": "all processes, all regions, protections and answers of the kernel", "why_tests_cant": "the kernel can fail at each request and part-way, and the set of layouts of an address space is unbounded", "anchors": ["src/ultask.c: mprotect_a_region", "src/task/ptrace.c: task_mprotect, task_attach, task_detach"]}
{"id": "C65", "title": "Mapping a file gives the process that file at that address", "statement": "ultask --map: if success is reported the whole file is mapped at the address asked for with the protection asked for, every other mapping is as before, the file is unchanged, no descriptor stays open in the process and it goes on running.", "quantifier": "all processes, files, addresses and answers of the kernel", "why_tests_cant": "the kernel can fail at each request, and the set of layouts and sizes is unbounded", "anchors": ["src/ultask.c: mmap_a_file", "src/utils/file.c: fsize", "src/task/ptrace.c: task_syscall"]}
{"id": "C66", "title": "Unmapping removes exactly that mapping", "statement": "ultask --unmap: if success is reported the mapping that contains the address is gone, and every other page is as before.", "quantifier": "all processes, addresses, file sizes and answers of the kernel", "why_tests_cant": "the set of layouts, of file sizes and of failures is unbounded", "anchors": ["src/ultask.c: munmap_an_vma"]}
{"id": "C67", "title": "A jump written into a process leads where it was asked to", "statement": "ultask --jmp: if success is reported, a thread that comes to the first address goes on at the second with its registers intact and no other byte has changed; if an error is reported nothing has changed.", "quantifier": "all processes, all pairs of addresses, all partial transfers", "why_tests_cant": "addresses are 64-bit and transfers can stop at any byte", "anchors": ["src/ultask.c: run_jmp", "src/task/memcpy.c: memcpy_from_task, memcpy_to_task"]}
{"id": "C68", "title": "A dump holds exactly the memory of the range", "statement": "ultask --dump: if success is reported the file holds the bytes of the range in order and nothing else; the dump of a mapping is the dump of its range.", "quantifier": "all processes, ranges below 2 GiB, previous contents of the file and partial transfers", "why_tests_cant": "ranges, contents and the points at which a transfer stops are unbounded", "anchors": ["src/task/memcpy.c: dump_task_addr_to_file, dump_task_vma_to_file"]}
{"id": "C69", "title": "ultask does to the process exactly what its command line asks for", "statement": "For every command line that ultask accepts: a jump, a change of rights, a mapping, an unmapping or a dump is done exactly if an option asks for it, with exactly the addresses, sizes, rights and files written there, in whatever order the sub-options are; the process is opened for writing only if a change is asked for; no existing file is overwritten without -F.", "quantifier": "all lists of options and all texts of their arguments, all addresses and sizes", "why_tests_cant": "the set of command lines is unbounded", "anchors": ["src/ultask.c: parse_config, ultask", "src/utils/string.c: str2addr, str2size", "src/args-common.c: COMMON_GETOPT_CASES"]}
{"id": "C70", "title": "--dry-run changes nothing", "statement": "With --dry-run none of the tools changes the process.", "quantifier": "all command lines with --dry-run", "why_tests_cant": "the set of command lines is unbounded", "anchors": ["src/args-common.c: COMMON_GETOPT_CASES", "src/init.c: enable_dry_run, is_dry_run"]}
{"id": "C71", "title": "The exit status of ultask tells whether everything worked", "statement": "The exit status is zero exactly if everything the command line asks for succeeded.", "quantifier": "all command lines and all results of the actions", "why_tests_cant": "the combinations of actions and failures are unbounded", "anchors": ["src/ultask.c: ultask, run_jmp, run_disasm"]}
{"id": "C72", "title": "ulpatch loads the file it is given into the process it is given", "statement": "A file is loaded into a process exactly if the command line asks for that, the process is there and the file is a patch; a patch is taken out exactly if that is asked for; contradicting commands are refused.", "quantifier": "all command lines, all files and processes", "why_tests_cant": "the set of command lines is unbounded", "anchors": ["src/ulpatch.c: parse_config, check_patch_file, ulpatch"]}
{"id": "C73", "title": "ulftrace uses the object it is given and leaves the patches of the process as they were", "statement": "The object given with -j (or the default one) is loaded; afterwards the process has the patches it had before.", "quantifier": "all command lines, all histories of patches", "why_tests_cant": "the histories of patches and the command lines are unbounded", "anchors": ["src/ulftrace.c: parse_config, ulftrace"]}
{"id": "C74", "title": "Looking up a name in an ELF file gives the address of the symbol of that name", "statement": "For every ELF file and every name: bfd_elf_text_sym_addr, bfd_elf_plt_sym_addr and bfd_elf_data_sym_addr give the address of the symbol of code, of the PLT or of data that has this name, and 0 exactly if there is none; opening a file never crashes.", "quantifier": "all symbol tables, dynamic symbol tables and synthetic symbols, all names", "why_tests_cant": "the symbol tables and names are unbounded", "anchors": ["src/elf/symbol-bfd.c: file_load, remove_useless_symbols, asymbol_pure_name, link_bfd_sym, find_bfd_sym", "src/elf/symbol-bfd.c: bfd_elf_open, bfd_elf_text_sym_addr, bfd_elf_plt_sym_addr, bfd_elf_data_sym_addr"]}
{"id": "C75", "title": "Going through the symbols of a file meets each exactly once", "statement": "For every ELF file: following bfd_next_text_sym, bfd_next_plt_sym or bfd_next_data_sym from NULL ends and meets every name that a symbol of the kind has exactly once, in the order of the names, with the address a lookup gives.", "quantifier": "all symbol tables", "why_tests_cant": "the symbol tables are unbounded", "anchors": ["src/elf/symbol-bfd.c: file_load, remove_useless_symbols, asymbol_pure_name, link_bfd_sym, find_bfd_sym", "src/elf/symbol-bfd.c: next_bfd_sym, bfd_next_text_sym, bfd_next_plt_sym, bfd_next_data_sym"]}
{"id": "C76", "title": "Closing a file frees everything opening it allocated, once", "statement": "For every ELF file: bfd_elf_close frees the structure of every symbol exactly once and touches no freed memory.", "quantifier": "all symbol tables", "why_tests_cant": "the symbol tables are unbounded", "anchors": ["src/elf/symbol-bfd.c: file_load, remove_useless_symbols, asymbol_pure_name, link_bfd_sym, find_bfd_sym", "src/elf/symbol-bfd.c: bfd_elf_close, __rb_free_bfd_sym"]}
{"id": "C77", "title": "A function is found in a process at the address where it is", "statement": "For every process and all symbol tables of the files mapped in it: after opening the process, find_task_sym of the name of a function gives the address in the file of this function plus the load address of the file.", "quantifier": "all mappings, all symbol tables of their files, all names", "why_tests_cant": "the mappings, symbol tables and names are unbounded", "anchors": ["src/task/symbol.c: task_load_vma_elf_syms, find_task_sym, link_task_sym", "src/elf/symbol-bfd.c: file_load, next_bfd_sym"]}
{"id": "C78", "title": "A build id is printed completely or not at all", "statement": "For every build id and every buffer: bfd_strbid writes two hexadecimal digits for each byte and a NUL if this fits into the length given, and returns NULL otherwise; it never writes behind the buffer.", "quantifier": "all build ids, all buffer lengths", "why_tests_cant": "the build ids and lengths are unbounded", "anchors": ["src/elf/symbol-bfd.c: bfd_strbid"]}
{"id": "C79", "title": "Looking at a patch file changes no file", "statement": "For every file system, every file named and every failure of a system call on the way: ulpinfo --patch FILE leaves every file as it was.", "quantifier": "all contents of the file and of the file system, all failures of system calls", "why_tests_cant": "the contents and the combinations of failures are unbounded", "anchors": ["src/ulpinfo.c: show_file_patch_info", "src/patch/patch.c: alloc_patch_file, release_load_info, setup_load_info", "src/utils/file.c: fsize, fmemcpy, fmmap_shmem_create, fmunmap, fremove"]}
{"id": "C80", "title": "What is taken to read or load a patch file is given back exactly once", "statement": "For every patch file and every failure on the way: ulpinfo --patch and init_patch give back each descriptor, mapping and block of memory they took, exactly once, whether they succeed or fail, and write nothing outside of them.", "quantifier": "all contents of patch files, all failures of system calls", "why_tests_cant": "the contents and the combinations of failures are unbounded", "anchors": ["src/ulpinfo.c: show_file_patch_info", "src/patch/patch.c: init_patch, load_patch, create_mmap_vma_file, alloc_patch_file, release_load_info", "src/utils/file.c: fsize, fmemcpy, fmmap_shmem_create, fmunmap, fremove"]}
{"id": "C81", "title": "A patch that fails leaves no file behind and touches no other", "statement": "For every patch file, every name of the copy made for the mapping and every failure on the way: if init_patch fails, all files are as before, and if it succeeds only the copy has been added, and it holds the linked patch.", "quantifier": "all contents of patch files and of the file system, all failures of system calls", "why_tests_cant": "the contents and the combinations of failures are unbounded", "anchors": ["src/patch/patch.c: init_patch, load_patch, alloc_patch_file, __make_pid_ulpname", "src/utils/file.c: fmktempname, fremove, fmmap_shmem_create"]}
{"id": "C82", "title": "ulpinfo --patch prints exactly what the patch file says", "statement": "For every well-formed patch file: ulpinfo --patch succeeds and prints the source function, the destination function, the author, the license, the numbers of the information record and the build id that are in the file.", "quantifier": "all well-formed patch files", "why_tests_cant": "the contents of patch files are unbounded", "anchors": ["src/ulpinfo.c: show_file_patch_info", "src/patch/patch.c: print_ulp_strtab, print_ulp_author, print_ulp_license, print_ulp_info, setup_load_info"]}
{"id": "C83", "title": "ulpinfo --pid shows of every live patch what was loaded", "statement": "For every process and every list of patches in its memory: ulpinfo --pid prints one line per patch, in the order of the mappings, with the number, the time, the address of the mapping, the functions, the author and license, the addresses, the replaced code and the Build ID that the patch was loaded with; and every later command knows the symbols the patch defines at their addresses and gives the next patch a larger number.", "quantifier": "all patch files, all addresses, all contents of the process, all numbers of patches", "why_tests_cant": "the contents of patch files and the number of patches are unbounded", "anchors": ["src/task/patch.c: vma_load_ulp, alloc_ulp, free_ulp", "src/patch/patch.c: load_ulp_info_from_vma, setup_load_info", "src/ulpinfo.c: show_task_patch_info"]}
{"id": "C84", "title": "A mapping that is not a usable patch is left out", "statement": "For every process: a mapping named like a patch that cannot be read, is no ELF file or is not a complete patch is left out of the list of patches, and the others are listed.", "quantifier": "all contents of mappings, all failures of reads", "why_tests_cant": "the contents of mappings and the points of failure are unbounded", "anchors": ["src/task/patch.c: vma_load_ulp, alloc_ulp, free_ulp", "src/patch/patch.c: load_ulp_info_from_vma, setup_load_info", "src/ulpinfo.c: show_task_patch_info"]}
{"id": "C85", "title": "Looking up a symbol of an open ELF file gives the one asked for", "statement": "For every sequence of opening and closing files, every file that is then open, every class (defined, undefined, reference to another file), name and type: find_symbol, find_undef_symbol and find_extern_symbol give the first symbol of the symbol tables with this class, name and type, with its value, size and the program headers that cover its section, and NULL if there is none.", "quantifier": "all files that are not damaged, all histories of open and close, all names", "why_tests_cant": "the number of symbols and files and the histories are unbounded", "anchors": ["src/elf/open.c: elf_file_open, elf_file_close, elf_file_find", "src/elf/symbol.c: find_symbol, find_extern_symbol, find_undef_symbol, for_each_symbol, handle_symtab, elf_support_ftrace, elf_mcount_name", "src/elf/section.c: handle_sections", "src/elf/note.c: handle_notes, elf_object_note"]}
{"id": "C86", "title": "Going through the symbols of an open ELF file gives each of them once", "statement": "For every sequence of opening and closing files and every file that is then open: for_each_symbol ends and gives every symbol of the file exactly once.", "quantifier": "all files that are not damaged, all histories of open and close", "why_tests_cant": "the number of symbols is unbounded", "anchors": ["src/elf/open.c: elf_file_open, elf_file_close, elf_file_find", "src/elf/symbol.c: find_symbol, find_extern_symbol, find_undef_symbol, for_each_symbol, handle_symtab, elf_support_ftrace, elf_mcount_name", "src/elf/section.c: handle_sections", "src/elf/note.c: handle_notes, elf_object_note"]}
{"id": "C87", "title": "Opening and closing ELF files keeps the books", "statement": "For every sequence of elf_file_open and elf_file_close: no call uses freed memory, frees something twice or crashes; a path that is open gives the same file again; a file is refused exactly if it cannot be read or has neither a Build ID nor is relocatable; closing succeeds exactly for open files; a handle works until it is closed by the one who opened it; and when all files are closed, all memory, descriptors and libelf handles are given back.", "quantifier": "all sequences of calls, all files", "why_tests_cant": "histories and files are unbounded", "anchors": ["src/elf/open.c: elf_file_open, elf_file_close, elf_file_find", "src/elf/symbol.c: find_symbol, find_extern_symbol, find_undef_symbol, for_each_symbol, handle_symtab, elf_support_ftrace, elf_mcount_name", "src/elf/section.c: handle_sections", "src/elf/note.c: handle_notes, elf_object_note"]}
{"id": "C88", "title": "An open ELF file has the Build ID and the tracing function that are in it", "statement": "For every sequence of opening and closing files and every file that is then open: the Build ID is the hexadecimal text of the last Build ID note, or \"No Build ID\" for a relocatable file without one; and ftrace is supported exactly if a function of one of the five known names can be found in the file, and the name given is that of such a function.", "quantifier": "all files that are not damaged, all histories of open and close", "why_tests_cant": "the number of notes and symbols is unbounded", "anchors": ["src/elf/open.c: elf_file_open, elf_file_close, elf_file_find", "src/elf/symbol.c: find_symbol, find_extern_symbol, find_undef_symbol, for_each_symbol, handle_symtab, elf_support_ftrace, elf_mcount_name", "src/elf/section.c: handle_sections", "src/elf/note.c: handle_notes, elf_object_note"]}
{"id": "C89", "title": "Copying a file gives the same bytes and overwrites nothing", "statement": "For every file system, source and destination: fcopy reports success exactly if the destination is afterwards a regular file with the bytes of the source; it refuses a destination that exists and a source that does not; and nothing that existed is ever changed.", "quantifier": "all file systems, all paths, all points at which reading or writing fails", "why_tests_cant": "file systems, contents and failure points are unbounded", "anchors": ["src/utils/file.c: fcopy, _file_copy, fexist"]}
{"id": "C90", "title": "Removing a tree removes the tree and nothing else", "statement": "For every file system and path: fremove_recursive removes everything at and below the path, leaves everything else as it is, and reports an error if something could not be removed.", "quantifier": "all file systems, all paths", "why_tests_cant": "trees of any depth and with any kinds of files", "anchors": ["src/utils/file.c: fremove_recursive, __remove_recursive"]}
{"id": "C91", "title": "Creating, testing and removing one file", "statement": "For every file system and path: ftouch creates a file of the size asked if there is none and changes nothing that exists; fexist and fregular tell what is there; fremove removes a file or an empty directory, and only that; each reports an error if it could not do so.", "quantifier": "all file systems, paths and sizes", "why_tests_cant": "file systems are unbounded", "anchors": ["src/utils/file.c: ftouch, fexist, fregular, fremove"]}
{"id": "C92", "title": "Every thread of a process is listed once", "statement": "For every process and every list of threads that the kernel gives: the list printed has one line for each thread, with its number, and nothing else.", "quantifier": "all processes, all lists of threads", "why_tests_cant": "the number of threads is unbounded", "anchors": ["src/task/thread.c: task_load_threads, dump_task_threads", "src/utils/file.c: dir_iter"]}
{"id": "C93", "title": "Every file descriptor of a process is listed once", "statement": "For every process and every list of descriptors that the kernel gives: the list printed has one line for each descriptor that is open, with what it refers to, and nothing else.", "quantifier": "all processes, all lists of descriptors, also if they are closed meanwhile", "why_tests_cant": "the number of descriptors and the schedule of the other process are unbounded", "anchors": ["src/task/fd.c: task_load_fds, dump_task_fds", "src/utils/file.c: dir_iter"]}
{"id": "C94", "title": "The hexadecimal dump shows the memory", "statement": "For every memory and length: memshow writes lines of 16 bytes with their offset, the two digits and the character of each byte at its place, reads only the memory given, and returns the number of characters written.", "quantifier": "all memories of all lengths", "why_tests_cant": "contents and length are unbounded", "anchors": ["src/utils/string.c: memshow"]}
{"id": "C95", "title": "A string survives being written to and read from a process", "statement": "For every process, every string and every mapped place: writing the string and reading it back gives the same string, ended by NUL; only the bytes of the string change; a place that cannot be read or written is reported.", "quantifier": "all processes, strings, places and buffers", "why_tests_cant": "lengths, contents and mappings are unbounded", "anchors": ["src/task/memcpy.c: strcpy_from_task, strcpy_to_task"]}
{"id": "C96", "title": "Replacing an instruction in a process", "statement": "For every process and address: replacing an instruction changes exactly the four bytes at the address, only if the instruction expected is there (if the check is asked for), and reports an error, with nothing changed, if it could not do so.", "quantifier": "all processes, addresses, instructions", "why_tests_cant": "processes, addresses and instructions are unbounded", "anchors": ["src/arch/aarch64/ftrace.c: ftrace_modify_code", "src/arch/aarch64/insn.c: aarch64_insn_read, aarch64_insn_write"]}
{"id": "C97", "title": "The first call instruction of a function is found", "statement": "For every function body: the offset given is that of the first BL instruction in the body, and an error is given if there is none.", "quantifier": "all function bodies of all lengths", "why_tests_cant": "bodies are unbounded", "anchors": ["src/arch/aarch64/insn.c: aarch64_func_bl_offset"]}
{"id": "C98", "title": "The table of symbols shows every symbol", "statement": "For every set of symbols of a process: the table has, with -v, one line for each name and address, otherwise one line for each name, in the order of names; each line has the file, the name and the address, in columns that are in line.", "quantifier": "all sets of symbols, in every order of registration, all files", "why_tests_cant": "sets of symbols are unbounded", "anchors": ["src/ultask.c: list_all_symbols", "src/task/symbol.c: next_task_sym"]}
{"id": "C99", "title": "The table of mappings shows the mappings", "statement": "For every process: the table shows every mapping that /proc/PID/maps has, once and in that order, with the same start, end, permissions, offset and name, its kind and its letters, in columns that are in line.", "quantifier": "all lists of mappings", "why_tests_cant": "lists of mappings are unbounded", "anchors": ["src/task/vma.c: print_vma, print_vma_root, read_task_vmas"]}
{"id": "C100", "title": "ulpinfo shows what the command line names", "statement": "For every command line of ulpinfo: the file of the last -i is shown if there is one; otherwise the patches of the process of the last -p; without both, or with an option that is not known, nothing is shown and the status is an error.", "quantifier": "all command lines and file systems", "why_tests_cant": "command lines are unbounded", "anchors": ["src/ulpinfo.c: parse_config, ulpinfo, show_file_patch_info"]}
{"id": "C101", "title": "The check of a patch file lets only patches through", "statement": "For every file: ulpatch --check succeeds exactly for files with complete patch metadata; everything else is refused with an error; nothing is written but the copy that is inspected, and nothing is leaked.", "quantifier": "all files and file systems, all failures of the system", "why_tests_cant": "contents of files are unbounded and failures can come at every call", "anchors": ["src/ulpatch.c: check_patch_file", "src/patch/patch.c: alloc_patch_file, setup_load_info, release_load_info"]}
{"id": "C102", "title": "The current task is never a closed one", "statement": "After every history of opening tasks, with and without success, and closing them: the current task is the empty task or one that is open; a task just opened is the current one.", "quantifier": "all histories of opening and closing", "why_tests_cant": "histories are unbounded", "anchors": ["src/task/current.c: set_current_task, get_current_task, reset_current_task", "src/task/core.c: open_task, close_task", "src/init.c: ulpatch_init"]}
{"id": "C103", "title": "The directory for processes is usable by all users", "statement": "After the start of a program, whatever was there before and whoever runs it with whatever umask: the directory for the patched processes is there and every user may use it, or the program exits and nothing has changed.", "quantifier": "all states of the directory, users and umasks, all sequences of starts", "why_tests_cant": "users, permissions and histories are unbounded", "anchors": ["src/init.c: __env_init, ulpatch_init"]}
{"id": "C104", "title": "The size of a page is reported consistently", "statement": "For every system whose page size is a power of two, every call for the size or the shift, in every order, gives the size of a page and its logarithm.", "quantifier": "all page sizes 2^k, all sequences of calls", "why_tests_cant": "sequences of calls are unbounded", "anchors": ["src/init.c: ulp_page_size, ulp_page_shift"]}
{"id": "C105", "title": "A file opened in the process is the file asked for", "statement": "For every path, flags and mode and every stopped process: the process opens exactly this path, the descriptor is returned, and registers and memory of the process are as before; failures are reported.", "quantifier": "all paths, flags, modes, memories and registers, results of the system", "why_tests_cant": "paths and memories are unbounded", "anchors": ["src/task/syscall.c: task_open, task_open2, task_malloc, task_free"]}
{"id": "C106", "title": "The attributes of a file of the process are those the kernel gives", "statement": "For every descriptor: the attributes returned are those that the kernel has written in the process, registers and memory of the process are as before, and a refusal is reported.", "quantifier": "all descriptors, attributes, memories and registers", "why_tests_cant": "memories and registers are unbounded", "anchors": ["src/task/syscall.c: task_fstat"]}
{"id": "C107", "title": "The files and links of a process are those of this process", "statement": "For every process: its map and its memory are opened under the name of this process and a failure is a negative number; its executable and its current directory are given as a string in the array of the caller, which is never overrun, or not at all.", "quantifier": "all process numbers, flags, link targets, array contents and sizes", "why_tests_cant": "targets and sizes are unbounded", "anchors": ["src/task/proc.c: open_pid_maps, open_pid_mem_flags, proc_pid_exist, proc_pid_exe, proc_pid_cwd"]}
{"id": "C108", "title": "What replaces an instruction by nothing does nothing", "statement": "For every length from 1 to 8: the bytes that are offered as a filling are of exactly this length, and wherever they are written the processor goes from the first byte to the byte behind and changes no register, flag or memory; the filling of a traced call is a single instruction.", "quantifier": "all lengths, addresses, registers and memories", "why_tests_cant": "places, registers and memories are unbounded", "anchors": ["src/arch/x86_64/nops.h", "src/arch/x86_64/alternative.c: ideal_nops", "src/arch/x86_64/ftrace.c: ftrace_nop_replace"]}
{"id": "C109", "title": "A disassembly shows the code that is in the process", "statement": "For every address and size: each instruction that is there is shown once and in order, with its address in the process, its bytes and its text; memory that cannot be read is an error.", "quantifier": "all addresses, sizes, contents, and all results of the disassembler", "why_tests_cant": "contents and listings are unbounded", "anchors": ["src/utils/disasm.c: fdisasm_arch", "src/utils/string.c: fprint_bytes, fmembytes", "src/ultask.c: disasm_task_memory"]}
{"id": "C110", "title": "The headers of an ELF file are shown as they are", "statement": "For every header of a file and every list of program headers: each field is shown with its value or its name, headers of segments that are loaded are shown once and in order, and what is not ELF is refused.", "quantifier": "all headers, all lists of program headers", "why_tests_cant": "fields and lists are unbounded", "anchors": ["src/elf/ehdr.c: print_ehdr", "src/elf/phdr.c: print_phdr", "src/task/vma.c: print_vma"]}
{"id": "C111", "title": "A symbol is shown as it is", "statement": "For every symbol, name and version: its value, size, type, binding, visibility, section and name are shown.", "quantifier": "all symbols, names and versions", "why_tests_cant": "symbols and names are unbounded", "anchors": ["src/elf/symbol.c: fprint_sym, st_visibility_string"]}
{"id": "C112", "title": "Threads never see a half-patched function", "statement": "For every program with any number of threads, every schedule and every sequence of patch and unpatch commands for a function: each thread behaves at every moment as if it had the old or the new function; a thread that comes to the function after it was patched goes on in the replacement, with its registers, and one that comes to it after the patch was taken out goes on in the function.", "quantifier": "all processors, processes, numbers of threads, interleavings of instructions with the stores of ulpatch, and command sequences", "why_tests_cant": "a schedule is unbounded and a test sees only the one that happens", "anchors": ["src/patch/patch.c: kick_target_process, delete_patch", "src/task/core.c: task_attach, task_detach", "src/task/memcpy.c: memcpy_to_task"]}
{"id": "C113", "title": "Taking out a patch kills no thread", "statement": "For every program, every schedule and every moment: after the code of a patch has been removed from a process no thread needs it any more.", "quantifier": "all processors, processes, threads and schedules", "why_tests_cant": "a schedule is unbounded and a test sees only the one that happens", "anchors": ["src/patch/patch.c: delete_patch", "src/task/syscall.c: task_munmap"]}
{"id": "C114", "title": "A system call made in the process is a single step for its other threads", "statement": "For every program, every schedule and every sequence of system calls that ulpatch makes the process execute: the other threads see nothing but what the system calls do, and afterwards all memory and the registers of all threads are what they would be.", "quantifier": "all processors, processes, numbers of threads, system calls and interleavings", "why_tests_cant": "a schedule is unbounded and a test sees only the one that happens", "anchors": ["src/task/syscall.c: task_syscall, wait_for_stop", "src/task/memcpy.c: memcpy_to_task"]}
{"id": "C115", "title": "Killing ulpatch leaves a working process", "statement": "For every moment at which ulpatch is killed: the process goes on, and the function that was being patched has either its own code or jumps to the replacement.", "quantifier": "all processors, processes, schedules, commands and moments", "why_tests_cant": "there are too many moments, and a test cannot choose one between two stores", "anchors": ["src/patch/patch.c: kick_target_process, delete_patch", "src/task/syscall.c: task_syscall"]}
{"id": "C116", "title": "Commands at the same time do as well as one after the other", "statement": "For every number of ulpatch commands that work on the same process at the same time and every interleaving: all commands that succeed have done what they should, patches have different numbers, the same patch is not applied twice, and taking patches back leaves the original code.", "quantifier": "all numbers of commands, patches, processes and interleavings", "why_tests_cant": "interleavings of several programs cannot be chosen in a test", "anchors": ["src/patch/patch.c: init_patch, load_patch, kick_target_process, delete_patch", "src/task/patch.c: vma_load_ulp"]}
{"id": "C117", "title": "Files and headers kept for the mappings of a process are released once", "statement": "For every process, list of mappings and choice of what to read: opening succeeds, a file is open for exactly the mappings that are ELF files which can be opened (if asked for), the executable and the C library are known by the right file, and closing releases every file and every header exactly once.", "quantifier": "all flags, memories, lists of mappings and answers about files", "why_tests_cant": "a leak or double release depends on the mappings, their contents and the order in which things fail", "anchors": ["src/task/core.c: vma_peek_elf_hdrs, vma_load_elf_file, vma_free_elf, open_task, close_task", "src/task/flags.h"]}
{"id": "C118", "title": "The general information about a process is right", "statement": "For every process: the name, number, users and groups shown are those of the process, it is shown as position independent exactly if its executable is, and the number of patches shown is the number of patches it has, after every history of commands.", "quantifier": "all processes, headers, identities and histories of commands", "why_tests_cant": "there are unboundedly many histories, identities and layouts of mappings", "anchors": ["src/task/core.c: print_task, vma_peek_elf_hdrs", "src/task/proc.c: print_task_status, proc_get_pid_status", "src/task/patch.c: vma_load_ulp"]}
{"id": "C119", "title": "Any history of patch files leaves whole patches and the code they call for", "statement": "For every sequence of patch and unpatch commands on patch files and runs of ulftrace: no command crashes; the live patches are those that the results of the commands tell; each of them is whole in the memory of the process, correctly linked at its address, whatever came before or after; a processor that reaches a replaced function goes on in the new function of the newest live patch for it; all other code is as it was; and the next command reads exactly these patches back from the memory.", "quantifier": "all sequences of commands, contents of well-made patch files, processes and outcomes of system calls that are all or nothing", "why_tests_cant": "sequences and files are unbounded; an image damaged by a later command shows only in the state between commands", "anchors": ["src/ulpatch.c: ulpatch, command_patch, command_unpatch", "src/ulftrace.c: ulftrace", "src/patch/patch.c: init_patch, delete_patch, load_patch, kick_target_process, load_ulp_info_from_vma", "src/task/patch.c: vma_load_ulp"]}
{"id": "C120", "title": "The tracing object that comes with the program takes the place of the profiling function", "statement": "ulftrace loads the tracing object that comes with the program into every process that has the profiling function (mcount), and from then on a processor that comes to the profiling function goes on in the tracing function of the object (_ftrace_mcount).", "quantifier": "all processes, histories of commands and contents of an object with this metadata", "why_tests_cant": "whether the object is loaded depends on all symbols of the process and of the object", "anchors": ["src/objects/ftrace/mcount.c: ULPATCH_INFO", "src/patch/meta.h: ULPATCH_INFO", "src/ulftrace.c: ulftrace", "src/patch/patch.c: solve_patch_symbols"]}
{"id": "C121", "title": "The log level changes only what is printed", "statement": "For every patch file, process and log level: loading the patch has the same result as without debug messages, and with debug messages what is shown of the file as its string table is its string table.", "quantifier": "all contents of well-made patch files, processes and log levels", "why_tests_cant": "whether memory behind the mapping of the file is read depends on the sizes of two sections and their place in the file", "anchors": ["src/patch/patch.c: setup_load_info", "src/utils/log.c: memshowinlog", "src/utils/string.c: memshow"]}
{"id": "C122", "title": "Each mapping of a file is shown with the header and the address of the segment it is from", "statement": "For every process and every file in it with ELF headers: `ultask --vmas` marks each mapping of the file that is the memory of a loadable segment with P and shows that segment as its header, and shows the address of the segment as its Voffset.", "quantifier": "all ELF and program headers, all mappings of the file, all page sizes", "why_tests_cant": "which header wins depends on the order, addresses, sizes and protections of all segments and on how the dynamic linker split the mappings", "anchors": ["src/task/core.c: match_vma_phdr", "src/task/core.c: _relro_dl_mprotect", "src/task/core.c: vma_peek_elf_hdrs", "src/task/vma.c: print_vma"]}
{"id": "C123", "title": "The mark for shared libraries is right", "statement": "For every process and every file in it with ELF headers: the first mapping of the file is marked with S exactly if the file is a shared library, and the marks of the other mappings are left alone.", "quantifier": "all ELF and program headers, names and types of mappings", "why_tests_cant": "the mark depends on the kind of the file, on all its program headers and on its name", "anchors": ["src/task/core.c: vma_peek_elf_hdrs", "src/task/vma.c: elf_vma_is_interp_exception", "src/task/vma.c: print_vma"]}
{"id": "C124", "title": "A walk over mappings or symbols visits each once, in order, and ends", "statement": "For every process: going from one known mapping to the next visits each known mapping once, in the order of addresses, and then ends; going from one symbol to the next visits each registered name, or each registered address, once and in order, and then ends.", "quantifier": "all histories of mappings made known and forgotten, all sequences of registered symbols", "why_tests_cant": "the next element is found through the links of a balanced tree whose shape depends on the whole history of insertions and removals", "anchors": ["src/task/vma.c: next_vma", "src/task/symbol.c: next_task_sym", "src/task/symbol.c: next_task_addr"]}
{"id": "C125", "title": "The digest of a file is that of all its bytes", "statement": "For every file: computing its digest succeeds only if the file could be read to its end, and then gives the digest of all its bytes. Otherwise an error is returned and no result is given. What is taken to read the file is given back exactly once.", "quantifier": "all files, all failures of the file system and of the library", "why_tests_cant": "files are read in pieces of any number, and every call can fail at any of them", "anchors": ["src/utils/md5_evp.c: fmd5sum"]}
{"id": "C126", "title": "A tool called again in one program does what it would do in a new one", "statement": "For every sequence of calls of ulpatch(), ultask(), ulftrace() and ulpinfo() in one program, with any command lines: each call returns what it would return as the first call of a new program, or does the same things with the same process, with the same level and form of messages.", "quantifier": "all sequences of calls, command lines and states of the system", "why_tests_cant": "what a call leaves in static variables depends on all command lines before it", "anchors": ["src/cmds.h: ulpatch, ultask, ulftrace, ulpinfo", "src/args-common.c: COMMON_RESET_BEFORE_PARSE_ARGS, args_common_reset", "src/ultask.c: ultask_args_reset", "src/ulpatch.c: ulpatch_args_reset", "src/ulftrace.c: ulftrace_args_reset", "src/ulpinfo.c: ulpinfo_args_reset"]}
{"id": "C127", "title": "The tools start where there is a C library, and --info names it", "statement": "For every system and command line that is in order: the work begins exactly if the directory for the patched processes can be used and a C library is at one of the known places; the first of them is used; --info shows this library and the verbosity asked for.", "quantifier": "all command lines and file systems", "why_tests_cant": "which library is known depends on the file system and on the order of initialisation and options", "anchors": ["src/init.c: ulpatch_init", "src/elf/core.c: elf_core_init, libc_object", "src/version.c: ulpatch_info"]}
{"id": "C128", "title": "The tools keep processes apart, from the command line to the memory of every process", "statement": "For any sequence of runs of ulpatch and ulftrace with any command lines, while processes begin and end (and process numbers are used again): a run changes no process but the one its last -p names, and no file but temp.ulp; what becomes of a process, and how the commands on it end, is as if no other process had ever been worked on; and at the end each process has exactly the live patches that the ends of the commands on it since it began tell, each whole and linked, with its code redirected by them and otherwise as it was.", "quantifier": "all command lines, all contents of files, all numbers of processes, all sequences of runs, beginnings and ends of processes, all answers of the system to the check of the file", "why_tests_cant": "a test runs a few commands on one process that it has started itself; that commands on one process never matter for another holds only for all interleavings", "anchors": ["src/ulpatch.c: ulpatch, parse_config, check_patch_file, command_patch, command_unpatch", "src/ulftrace.c: ulftrace, parse_config", "src/patch/patch.c: init_patch, delete_patch, alloc_patch_file"]}
{"id": "C129", "title": "Nothing but the mapped files and the first 16 bytes of the named functions is ever changed", "statement": "Whatever commands (ulpatch --patch, --unpatch, ulftrace) are run on a process, whatever the files contain, well made or not, and whichever system calls fail, are cut short or cannot clean up: a byte of the process that is not what it was before lies where one of the commands mapped its file, or is one of the first 16 bytes of a function whose name is in one of the files.", "quantifier": "all files (any bytes), all sequences of commands, all results of all system calls (partial writes, failed attach, failed munmap), both machines, every address", "why_tests_cant": "a test injects a few failures and compares a few bytes; that no combination of failures and malformed files ever makes a tool write elsewhere holds only for all of them", "anchors": ["src/patch/patch.c: init_patch, load_patch, kick_target_process, delete_patch, create_mmap_vma_file, delete_mmap_vma_file", "src/ulftrace.c: ulftrace", "src/task/memcpy.c: memcpy_to_task"]}
{"id": "C130", "title": "A run of ultask changes what its command line names and nothing else", "statement": "Whatever command line ultask is given, whatever the process, the files and the kernel's answers are: after the run, a page that --unmap was not asked to take is still mapped, shows the same, and has its old protection or the one --mprotect asked for; a page that was not mapped is mapped only if --map was given, with the rights asked for; a byte is as before unless it is one of the 16 that --jmp names; no system call is made in the process that the options do not ask for; the process is not left stopped; a run without the four changing options changes nothing; a run of status 0 has done its --mprotect; every run comes to an end. The same holds for any number of runs one after the other.", "quantifier": "all command lines, all processes and memory maps, all files, all lawful answers of the kernel (errors included), partial reads and writes, both machines, all histories of runs", "why_tests_cant": "a test runs a few option combinations on one kernel; that no combination of options and failures touches another page holds only for all of them", "anchors": ["src/ultask.c: main/ultask, parse_config, mmap_a_file, mprotect_a_region, munmap_an_vma, run_jmp_asm, dump_task_vma_to_file", "src/task/patch.c: update_task_vmas_ulp", "src/task/vma.c: read_task_vmas"]}
{"id": "C131", "title": "What ultask is asked to do to a process is done when nothing fails", "statement": "For every process, memory map and command line: if the kernel does what it can and transfers are complete, then after the run of ultask the file that --map names is mapped with the rights asked for, at the address asked for if there is room, the mapping that --unmap names is gone, a thread that comes to the first address of --jmp goes on at the second, and the new file of --dump holds exactly the bytes that the process had before the run at the region, the mapping or the [vdso] that the option names, whatever other options are on the command line.", "quantifier": "all command lines, all processes and memory maps, all lawful kernels that grant what they can, both machines", "why_tests_cant": "a test runs single options on one process; that options do not get in each other's way and that the right mapping is found in every memory map holds only for all of them", "anchors": ["src/ultask.c: ultask, munmap_an_vma, run_jmp, mmap_a_file", "src/task/memcpy.c: dump_task_addr_to_file, dump_task_vma_to_file, memcpy_to_task", "src/task/vma.c: find_vma, read_task_vmas"]}
{"id": "C132", "title": "Options mean what the help texts say, however they are written", "statement": "Whatever options are written on a command line of ulpatch, ultask, ulftrace or ulpinfo, in any order and in any of the usual ways (-p X, -pX, --pid X, --pid=X, a long name cut short as long as it stays unique, letters one behind the other), with other words anywhere between them and anything behind --: the tool acts on exactly these options, in this order, with these arguments byte for byte. A command line that is not of this form is refused with status 1 and nothing is done. No command line makes a tool read an argument that is not there.", "quantifier": "all command lines (lists of words of any length) of the four tools, with and without POSIXLY_CORRECT", "why_tests_cant": "the number of command lines is not bounded; a table of options that misses a colon, gives two options one value or takes an argument it should not take shows up only for some way of writing some option", "anchors": ["src/args-common.c: COMMON_OPTIONS, COMMON_GETOPT_OPTSTRING, COMMON_GETOPT_CASES, print_usage_common", "src/ultask.c: parse_config, print_help", "src/ulpatch.c: parse_config, print_help", "src/ulftrace.c: parse_config, print_help", "src/ulpinfo.c: parse_config, print_help"]}
{"id": "C133", "title": "Killing ultask at any moment leaves nothing half done", "statement": "If ultask is killed at any moment of a run, the process goes on running; some of the changes that the options ask for, from the first one on, have been made completely and the others not at all; no page and no byte that no option names has been touched. This holds for any number of runs, each of them killed or not.", "quantifier": "all command lines, all processes, all kernels that answer as Linux does, all moments between two requests and all lengths of a write that is cut off, all sequences of such runs", "why_tests_cant": "a test kills the tool at a few moments; the moments and the ways in which requests may fail before them are not bounded", "anchors": ["src/ultask.c: ultask, mmap_a_file, mprotect_a_region, munmap_an_vma, run_jmp", "src/task/memcpy.c: memcpy_to_task"]}
{"id": "C134", "title": "Patches and jumps in one process do not disturb each other", "statement": "After any sequence of runs of ulpatch, ulftrace and ultask --jmp on a process, the code is the original code with the jumps that were reported as written, and over them the redirects of the live patches. Removing a patch takes no jump away, and a jump that was reported as written leads to its destination until another one or a patch is put over it.", "quantifier": "all processes, all sequences of patch, unpatch, trace and jump commands of any length, all well-made patch files, all addresses of jumps, all results of the system calls", "why_tests_cant": "a test can mix a few commands in a few orders; which ones overlap, and what they save and restore, depends on the whole history", "anchors": ["src/ultask.c: run_jmp", "src/patch/patch.c: init_patch, delete_patch, apply_patch", "src/ulpatch.c: main", "src/ulftrace.c: main"]}
{"id": "C135", "title": "A thread that comes to a jump goes the old way or the new way", "statement": "While ultask --jmp writes a jump into a running process, every thread that comes to the place executes either the code that was there or the complete jump; all other threads are not affected. The same holds when patches are applied and removed at that place before and after.", "quantifier": "all processes with any number of threads, all interleavings of their instructions with the actions of the tools, all sequences of jumps, patches and unpatches at a place, all moments at which the tool is killed, both processors", "why_tests_cant": "the interleavings of threads with the single bytes of a write cannot be enumerated or forced by a test", "anchors": ["src/ultask.c: run_jmp", "src/task/memcpy.c: memcpy_to_task", "src/patch/patch.c: kick_target_process, delete_patch"]}
{"id": "C136", "title": "Other uses of ultask leave live patches whole", "statement": "On a process with live patches, any runs of ultask (changing protections, mapping and unmapping files, writing jumps, dumping), killed or not, leave every live patch whole and in effect, do not change what later patch and unpatch commands do, and removing the patches brings back the code that was there. A function that is patched never jumps to memory that is not mapped.", "quantifier": "all histories of patch, unpatch and trace commands and runs of ultask with all command lines, killed anywhere or not, all patch files, all kernels that answer as Linux does, both processors", "why_tests_cant": "the histories and command lines are unbounded, and a test cannot kill a run at every request", "anchors": ["src/ultask.c: main", "src/patch/patch.c: init_patch, delete_patch", "src/task/vma.c: free_ulp, alloc_ulp", "src/ultask.c: munmap_an_vma, run_jmp"]}
{"id": "C137", "title": "A failed patch command never leaves the process half patched", "statement": "When a patch command reports an error, the functions of the process run as before. If it also could not remove its mapping, what stays is a whole patch that is not in effect: it is listed, later commands work as before, the next unpatch removes it without changing code, and until then the same patch is refused.", "quantifier": "all histories of commands in which any patch command may fail at its last step and fail again when cleaning up, all patch files, both processors", "why_tests_cant": "the histories are unbounded, and a test cannot make every pair of system calls fail at every point", "anchors": ["src/patch/patch.c: init_patch, load_patch, kick_target_process, delete_mmap_vma_file"]}
{"id": "C138", "title": "Running threads see whole patches during any history of commands", "statement": "While any number of patches of several functions are applied on top of each other and removed again, the threads of the process do what they should: a thread that comes to a patched function goes on in the replacement of the newest patch for it, all others run as if nothing had happened, and when all patches are out the process is what it is without them.", "quantifier": "all numbers of threads, all histories of patch and unpatch commands for any functions whose first 16 bytes do not overlap, all schedules of the stores of the tool and of the instructions of the threads, all points at which the tool is killed, both processors", "why_tests_cant": "schedules and histories are unbounded, and a race shows in few of them", "anchors": ["src/patch/patch.c: init_patch, delete_patch, kick_target_process", "src/task/memcpy.c: memcpy_to_task", "src/task/core.c: task_attach, task_detach"]}
{"id": "C139", "title": "What is typed at the shell is what happens to the processes", "statement": "In any session of command lines of ulpatch and ulftrace, on any processes: what happens to every process depends only on the options that the words write by the help texts, not on how they are written. A command line touches a process only if its words ask for it. When a command line with --patch FILE ends with status 0, the named process has the whole contents of FILE as a linked patch and its threads go from the replaced function to the new one; a command line with --unpatch that ends with status 0 behind it puts the code back.", "quantifier": "all words of all command lines, all ways to write options, all numbers of processes, all sessions, both processors", "why_tests_cant": "command lines, sessions and the contents of processes and files are unbounded", "anchors": ["src/ulpatch.c: parse_config, ulpatch", "src/ulftrace.c: parse_config, ulftrace", "src/args-common.c: COMMON_GETOPT_CASES", "src/patch/patch.c: init_patch, delete_patch"]}
{"id": "C140", "title": "What is typed at ultask is what happens to the process", "statement": "Whatever words are typed behind ultask, in whatever spelling: a page of the process goes away, appears or gets other rights, a byte of it changes, or the process is stopped for a request, only if the words write an option that asks for that. A command line with -p PID and one of --jmp, --mprotect, --map, --unmap or --dump, however it is spelled and wherever the -p is, does to that process what the help text says of the option, at the addresses and with the lengths that are written, and leaves everything else as it was.", "quantifier": "all words of all command lines, all ways to write options and numbers, all processes and answers of the kernel, both processors", "why_tests_cant": "command lines, address spaces and answers of the kernel are unbounded", "anchors": ["src/ultask.c: parse_config, ultask, mprotect_region, munmap_a_vma, mmap_a_file", "src/args-common.c: COMMON_GETOPT_CASES", "src/task/memcpy.c: dump_task_addr_to_file"]}
{"id": "C141", "title": "What ulpinfo says after what was typed", "statement": "Whatever command lines of ulpatch and ulftrace have been typed, in whatever spelling: a command line of ulpinfo with -p PID prints one line for each patch that the process then has, in the order of the mappings, with its number, time, address and function, and with the author, the license, the addresses, the replaced code and the Build ID if there is a -v; or that there is none. One with -i FILE prints what is in that file. No command line of ulpinfo whatsoever changes a process, or a file other than temp.ulp, and only what the words name is shown.", "quantifier": "all sessions of command lines, all words of all command lines, all processes and patch files, both processors", "why_tests_cant": "sessions, command lines and the memory of processes are unbounded", "anchors": ["src/ulpinfo.c: ulpinfo, parse_config, show_file_patch_info, show_task_patch_info", "src/args-common.c: COMMON_GETOPT_CASES", "src/task/patch.c: vma_load_ulp"]}
{"id": "C142", "title": "Sessions with all four tools", "statement": "Whatever command lines of ulpatch, ulftrace, ultask and ulpinfo are typed, in whatever spelling and order, with runs of ultask killed anywhere, on any processes that begin and end meanwhile: at the end every process has exactly the live patches that the results of the commands on it tell, each whole and linked; its code is its code from the beginning with their redirects, except the bytes that the runs of ultask on it name; ulpinfo prints exactly those patches; and nothing that is typed for one process has an effect on another.", "quantifier": "all sessions of command lines of the four tools, all words, all processes, all points where ultask is killed, both processors", "why_tests_cant": "sessions, command lines and the memory of processes are unbounded", "anchors": ["src/ulpatch.c: main", "src/ulftrace.c: main", "src/ultask.c: main, parse_config", "src/ulpinfo.c: main", "src/patch/patch.c: init_patch, delete_patch"]}
{"id": "C143", "title": "A process that is not there", "statement": "Whenever ulpatch, ulftrace, ultask or ulpinfo is typed with the options of its help text, in whatever spelling and order, and the last -p names a process that does not exist, no process and no file is changed and the exit code is not 0, whatever else is asked for; except if the help, the version or --info is asked for, and for ulpinfo with -i, which shows the file.", "quantifier": "all command lines of the four tools, all systems, all circumstances (results of the kernel and of the libraries)", "why_tests_cant": "command lines are unbounded, and each of the many checks of the options can end the program with a status of its own", "anchors": ["src/ulpatch.c: parse_config, main", "src/ulftrace.c: parse_config, main", "src/ultask.c: parse_config, main", "src/ulpinfo.c: main, show_task_patch_info"]}
{"id": "C144", "title": "Mistyped command lines", "statement": "Whatever words are typed behind the name of one of the four tools: if they do not write options of its help text (an unknown option, a beginning that fits several, an argument too many or too few), no process and no file is changed, and the exit code is not 0, except if the help, the version or --info is among the options.", "quantifier": "all words, all systems, all circumstances (results of the kernel and of the libraries)", "why_tests_cant": "the words are unbounded, and options before the mistyped one have been taken already", "anchors": ["src/ulpatch.c: parse_config, main", "src/ulftrace.c: parse_config, main", "src/ultask.c: parse_config, main", "src/ulpinfo.c: parse_config, main"]}
{"id": "C145", "title": "The order across processes does not matter", "statement": "Take two sessions of command lines of the four tools on the same system in which the same is done for a process, one after the other: runs of ulpatch, ulftrace and ultask with -p naming it, its begin and its end. Whatever is done for other processes before, between and behind in the one and in the other, the process is the same at the end of both, and the commands on it end in the same way.", "quantifier": "all pairs of sessions, all processes, both processors", "why_tests_cant": "there are unboundedly many interleavings, and the tools share files and a table of numbers", "anchors": ["src/ulpatch.c: main", "src/ulftrace.c: main", "src/ultask.c: main", "src/ulpinfo.c: main", "src/patch/patch.c: init_patch, delete_patch"]}
{"id": "C146", "title": "A process no command line names is left alone", "statement": "Type any command lines of ulpatch, ulftrace, ultask and ulpinfo, well or badly typed, in any order, while processes begin and end: as long as no command has undefined behaviour, a process that none of the lines names with its last -p, and that neither begins nor ends, is at the end byte for byte as it was, and so is every file but temp.ulp.", "quantifier": "all sessions, all processes, all files, both processors, whether the commands succeed or fail", "why_tests_cant": "every byte of every other process must be unchanged after every session, including those that fail half-way", "anchors": ["src/ulpatch.c: main", "src/ulftrace.c: main", "src/ultask.c: main", "src/ulpinfo.c: main, show_file_patch_info", "src/task/core.c: open_task", "src/task/memcpy.c: memcpy_to_task"]}
{"id": "C147", "title": "Looking disturbs nothing", "statement": "Take any session of command lines of the four tools in which no command has undefined behaviour, and leave out every ulpinfo, whatever it looked at and however it ended: every other command ends as it did, every process is as it was, and so is every file but temp.ulp.", "quantifier": "all sessions, all processes, all files, both processors, whether the commands succeed or fail", "why_tests_cant": "there are unboundedly many places where a look can come in between, and ulpinfo writes a file that later commands can read", "anchors": ["src/ulpinfo.c: main, show_file_patch_info", "src/ulpatch.c: main, check_patch_file", "src/ulftrace.c: main", "src/ultask.c: main"]}
{"id": "C148", "title": "What is done for other processes makes no difference", "statement": "Take any session of command lines of the four tools in which no command has undefined behaviour, and a process. Leave out everything that is not for it, that is, every line whose last -p does not name it, every mistyped line, every ulpinfo, and the beginning and end of other processes. The lines that stay end as they did, and the process is byte for byte as it was. Nothing is asked of the patch files and of the processes.", "quantifier": "all sessions, all processes, both processors, whether the commands succeed or fail", "why_tests_cant": "there are unboundedly many sessions around the commands for one process, and the tools share a directory of files", "anchors": ["src/ulpatch.c: main, check_patch_file", "src/ulftrace.c: main", "src/ultask.c: main", "src/ulpinfo.c: main"]}
