{"claims": [
 {"property": "C01", "status": "proved", "theorems": ["Ulp.C01_x86_redirect", "Ulp.C01_x86_frame"], "note": ""},
 {"property": "C02", "status": "proved", "theorems": ["Ulp.C02_a64_redirect"], "note": ""},
 {"property": "C03", "status": "proved", "theorems": ["Ulp.Patch.C03_unpatch_restores"], "note": "Live patches readable, numbers below 2^32-1, mapping placed by mmap away from program text."},
 {"property": "C04", "status": "partial", "theorems": ["Ulp.Patch.C04_histories_partial", "Ulp.Patch.C04_all_removed_partial", "Ulp.Patch.C04_short_unpatch", "Ulp.Patch.C04_residual_zero_text", "Ulp.Patch.C04_residual_crash"], "note": "The code violates the full claim: short transfers, failed clean-up. Proved for all histories whose 16-byte writes are all-or-nothing and whose clean-up works; the three last theorems are witnesses of the violations."},
 {"property": "C05", "status": "partial", "theorems": ["Ulp.Patch.C05_failed_patch_partial", "Ulp.Patch.C05_success_installs", "Ulp.Patch.C05_short_write", "Ulp.Patch.C05_reasons", "Ulp.Patch.C05_map_reasons", "Ulp.Patch.C05_duplicate_file", "Ulp.Patch.C05_file_reasons"], "note": "Violated for short writes (witness C05_short_write); proved otherwise."},
 {"property": "C06", "status": "partial", "theorems": ["Ulp.Patch.C06_patch_not_stopped_partial", "Ulp.Patch.C06_unpatch_not_stopped_partial", "Ulp.Patch.C06_open_failure_leaves_stopped", "Ulp.Patch.C06_wait_failure_leaves_stopped"], "note": "Violated when the remote open fails or attach fails while waiting (witnesses); proved otherwise."},
 {"property": "C07", "status": "partial", "theorems": ["Ulp.Patch.C07_ids_distinct_partial", "Ulp.Patch.C07_new_is_greatest_partial", "Ulp.Patch.C07_unpatch_removes_newest_partial", "Ulp.Patch.C07_unreadable_duplicates", "Ulp.Patch.C07_unpatch_reasons", "Ulp.Patch.C07_numbers_partial"], "note": "Violated when a live patch header cannot be read (witness); proved for histories in which live patches are readable."},
 {"property": "C08", "status": "partial", "theorems": ["Ulp.Patch.C08_build_ids_distinct_partial", "Ulp.Patch.C08_duplicate_refused_partial", "Ulp.Patch.C07_unreadable_duplicates"], "note": "Same exception as C07."},
 {"property": "C09", "status": "partial", "theorems": ["Ulp.Patch.C09_trace_session_leaves_patch", "Ulp.Patch.C09_trace_session_removes_foreign", "Ulp.Patch.C09_trace_session_partial"], "note": "The code violates C09 in every successful session (first theorem, universally quantified) and can remove a foreign patch (second). The partial theorem covers processes without live patches and a failing apply."},
 {"property": "C10", "status": "proved", "theorems": ["Ulp.X86Reloc.C10_x86_values", "Ulp.X86Reloc.C10_x86_got_values", "Ulp.X86Reloc.C10_tls_uses_first_addend", "Ulp.X86Reloc.C10_tpoff_ignored"], "note": "All psABI types named in the statement. The GOT types and two findings (TLS addend, TPOFF) are separate theorems."},
 {"property": "C100", "status": "proved", "theorems": ["Ulp.Cli.C100_shows", "Ulp.Cli.C100_nothing"], "note": ""},
 {"property": "C101", "status": "partial", "theorems": ["Ulp.PFile.C101_only_patches", "Ulp.PFile.C101_check_partial", "Ulp.PFile.C101_safe", "Ulp.PFile.C101_leaves", "Ulp.PFile.C101_destroys", "Ulp.PFile.C101_crash"], "note": "Proved for all files that are described by a section table; the copy temp.ulp is left behind (C101_leaves), a patch called temp.ulp is destroyed (C101_destroys) and a cut section table crashes (C101_crash)."},
 {"property": "C102", "status": "partial", "theorems": ["Ulp.Init.C102_never_dangling", "Ulp.Init.C102_opened_partial", "Ulp.Init.C102_close", "Ulp.Init.C102_set", "Ulp.Init.C102_forgets"], "note": "No history leaves a closed task as the current one; a failed open or an unrelated close makes the program forget the current task (C102_forgets)."},
 {"property": "C103", "status": "partial", "theorems": ["Ulp.Init.C103_usable_partial", "Ulp.Init.C103_exit", "Ulp.Init.C103_stays", "Ulp.Init.C103_umask", "Ulp.Init.C103_file", "Ulp.Init.C103_second_user"], "note": "The umask of the first start is not overridden (C103_umask); a plain file is accepted (C103_file); a second user cannot start (C103_second_user)."},
 {"property": "C104", "status": "proved", "theorems": ["Ulp.Init.C104_page"], "note": ""},
 {"property": "C105", "status": "partial", "theorems": ["Ulp.Ptrace.C105_open_partial", "Ulp.Ptrace.C105_open2", "Ulp.Ptrace.C105_short", "Ulp.Ptrace.C105_undefined"], "note": "Proved when the calls go well and all bytes are copied; a short copy opens a file of a shorter name (C105_short) and a call that could not be made returns a result that was never set (C105_undefined)."},
 {"property": "C106", "status": "partial", "theorems": ["Ulp.Ptrace.C106_fstat_partial", "Ulp.Ptrace.C106_error_ignored"], "note": "Proved when the kernel gives the attributes; a refusal is returned as success with zeros (C106_error_ignored)."},
 {"property": "C107", "status": "partial", "theorems": ["Ulp.ProcLinks.C107_open_partial", "Ulp.ProcLinks.C107_exist", "Ulp.ProcLinks.C107_links_partial", "Ulp.ProcLinks.C107_unterminated", "Ulp.ProcLinks.C107_deleted", "Ulp.ProcLinks.C107_fd_zero", "Ulp.ProcLinks.C107_overflow", "Ulp.ProcLinks.C107_modes"], "note": "Proved for descriptors other than 0 and names that fit. A name as long as the array is not ended by a NUL (C107_unterminated), a descriptor 0 is taken for a failure (C107_fd_zero), a link of 4096 bytes overruns an array (C107_overflow; Linux gives none), a file named like the link of a deleted one is reported (C107_deleted)."},
 {"property": "C108", "status": "proved", "theorems": ["Ulp.Nops.C108_ideal", "Ulp.Nops.C108_ftrace", "Ulp.Nops.C108_k8", "Ulp.Nops.C108_none"], "note": "For the x86_64 instructions of Spec/X86Nop.lean."},
 {"property": "C109", "status": "partial", "theorems": ["Ulp.Disasm.C109_listing", "Ulp.Disasm.C109_run_partial", "Ulp.Disasm.C109_error", "Ulp.Disasm.C109_bytes", "Ulp.Disasm.C109_host_addresses", "Ulp.Disasm.C109_unread", "Ulp.Disasm.C109_nothing"], "note": "Instructions, bytes and order are right for every result of the disassembler; the addresses are those of a buffer of ultask, not of the process (C109_host_addresses), and after a short read old contents of the buffer are shown (C109_unread)."},
 {"property": "C11", "status": "proved", "theorems": ["Ulp.X86Reloc.C11_x86_nonzero_refused", "Ulp.X86Reloc.C11_x86_twice_refused", "Ulp.X86Reloc.C11_x86_refusal_keeps_field"], "note": ""},
 {"property": "C110", "status": "partial", "theorems": ["Ulp.ElfShow.C110_ehdr", "Ulp.ElfShow.C110_ehdr_reads", "Ulp.ElfShow.C110_phdr", "Ulp.ElfShow.C110_detail", "Ulp.ElfShow.C110_version"], "note": "Every field but one: the version in the identification is shown as 1 whatever it is (C110_version)."},
 {"property": "C111", "status": "partial", "theorems": ["Ulp.ElfShow.C111_symbol_partial", "Ulp.ElfShow.C111_lucky_partial", "Ulp.ElfShow.C111_visibility"], "note": "Every field but the visibility, which is taken from the wrong byte (C111_visibility)."},
 {"property": "C112", "status": "partial", "theorems": ["Ulp.Threads.C112_threads_partial", "Ulp.Threads.C112_single_partial", "Ulp.Threads.C112_enters_x86", "Ulp.Threads.C112_enters_a64", "Ulp.Threads.C112_same_write", "Ulp.Threads.C112_inside", "Ulp.Threads.C112_torn"], "note": "For every processor and schedule the threads refine the specification as long as none is in the first 16 bytes of the function while they are exchanged or comes to them other than at the beginning. ulpatch does not see to that: a thread in those bytes executes pieces of the new entry (C112_inside), a thread that was not stopped sees half an entry (C112_torn)."},
 {"property": "C113", "status": "partial", "theorems": ["Ulp.Threads.C113_unmap_partial", "Ulp.Threads.C113_dies"], "note": "Threads that do not touch the image are not affected; one that is in the image when it is removed kills the process with its next instruction, on every processor and in every schedule (C113_dies)."},
 {"property": "C114", "status": "partial", "theorems": ["Ulp.Threads.C114_call_partial", "Ulp.Threads.C114_meets"], "note": "For every processor, schedule and sequence of system calls, as long as no other thread is in the bytes at the beginning of the C library that hold the system call. Nothing keeps threads out of them (C114_meets)."},
 {"property": "C115", "status": "partial", "theorems": ["Ulp.Threads.C115_killed_partial", "Ulp.Threads.C115_half", "Ulp.Threads.C115_in_call"], "note": "For every moment and schedule the threads do what they should; with a half-written entry only those that do not come to it (C115_half). Killed in the middle of a system call the process is left at a breakpoint (C115_in_call)."},
 {"property": "C116", "status": "partial", "theorems": ["Ulp.Patch.C116_alone", "Ulp.Patch.C116_turns", "Ulp.Patch.C116_patches_partial", "Ulp.Patch.C116_same_number", "Ulp.Patch.C116_twice", "Ulp.Patch.C116_dangling", "Ulp.Patch.C116_crash"], "note": "Any number of patches of different functions at the same time, in every interleaving, do what they should. No lock is taken: numbers are given twice, the same patch is applied twice, two patches of one function leave a jump to memory that is gone, and a command that opens the process too early follows wild pointers."},
 {"property": "C117", "status": "partial", "theorems": ["Ulp.SessionFiles.C117_books_partial", "Ulp.SessionFiles.C117_handles", "Ulp.SessionFiles.C117_flag", "Ulp.SessionFiles.C117_no_memory"], "note": "For every process whose memory can be read, with enough memory. Asking for headers also opens files and loads symbols (C117_flag); if memory runs out, closing uses freed memory (C117_no_memory)."},
 {"property": "C118", "status": "partial", "theorems": ["Ulp.SessionFiles.C118_ids_partial", "Ulp.SessionFiles.C118_ids_negative", "Ulp.SessionFiles.C118_patched_partial", "Ulp.SessionFiles.C118_details", "Ulp.SessionFiles.C118_pie_partial", "Ulp.SessionFiles.C118_etc", "Ulp.SessionFiles.C118_last_wins"], "note": "Identities from 2^31 on are shown as negative numbers; an executable below /etc or /sys, or one with a second mapping that looks like an ELF header, is shown with the wrong kind. Otherwise all the information is right, the number of patches after every history that C04 allows."},
 {"property": "C119", "status": "partial", "theorems": ["Ulp.LoadBytes.C119_x86_partial", "Ulp.LoadBytes.C119_a64_partial", "Ulp.LoadBytes.C119_x86_runs", "Ulp.LoadBytes.C119_a64_runs", "Ulp.LoadBytes.C119_untouched", "Ulp.LoadBytes.C119_listed", "Ulp.LoadBytes.C119_session"], "note": "For files laid out as linkers do it, mappings placed apart from each other and from code, transfers of 16 bytes that are all or nothing, and clean-up that works; without these the program violates it (see C04, C05, C07, C13, C57). On aarch64 the values of instruction fields are those of C57_a64_linked_partial. The history may also have runs of ulftrace."},
 {"property": "C12", "status": "partial", "theorems": ["Ulp.X86Reloc.C12_x86_overflow_refused_partial", "Ulp.X86Reloc.C12_x86_fitting_accepted", "Ulp.X86Reloc.C12_pc32_truncated"], "note": "Code violates the property for PC32/PLT32 (no overflow check): C12_pc32_truncated proves the negation."},
 {"property": "C120", "status": "partial", "theorems": ["Ulp.LoadBytes.C120_refused_x86", "Ulp.LoadBytes.C120_refused_a64", "Ulp.LoadBytes.C120_takes_out_x86", "Ulp.LoadBytes.C120_x86_partial", "Ulp.LoadBytes.C120_a64_partial"], "note": "The names in the metadata of the object are the wrong way round, so that it is refused by every process without a function _ftrace_mcount, and as the object has no function mcount, by every process (C120_refused); ulftrace then takes out the newest patch of somebody else (C120_takes_out_x86). With the names the right way round the claim holds (C120_x86_partial, C120_a64_partial)."},
 {"property": "C121", "status": "partial", "theorems": ["Ulp.LoadLog.C121_quiet", "Ulp.LoadLog.C121_partial", "Ulp.LoadLog.C121_overread", "Ulp.LoadLog.C121_other_length", "Ulp.LoadLog.C121_violated"], "note": "The string table is dumped with the size of the symbol table, so that with debug messages something else than the string table is shown (C121_other_length) and memory behind the mapping is read if the symbol table is too large (C121_overread, C121_violated). What holds: without debug messages nothing changes, and with them if the symbol table is not larger than the rest of the file from the string table on."},
 {"property": "C122", "status": "partial", "theorems": ["Ulp.Peek.C122_header", "Ulp.Peek.C122_gnu", "Ulp.Peek.C122_voffset", "Ulp.Peek.C122_voffset_partial", "Ulp.Peek.C122_voffset_violated", "Ulp.Peek.C122_split", "Ulp.Peek.C122_violated"], "note": "C122_header and C122_voffset say exactly which header and which Voffset is shown. For files as the GNU linker makes them the header is right (C122_gnu). It is wrong for a file whose protected part has a segment of its own, before it is protected (C122_violated), and missing if a mapping was split (C122_split). Voffset compares an address with an offset in the file (C122_voffset_violated); it is right if both agree (C122_voffset_partial)."},
 {"property": "C123", "status": "partial", "theorems": ["Ulp.Peek.C123_library", "Ulp.Peek.C123_library_any", "Ulp.Peek.C123_violated", "Ulp.Peek.C123_exception"], "note": "C123_library says exactly when S is shown: for names of libraries always, else for files of the dynamic kind that are not the program and ask for no interpreter. A program with the name of a library is shown as one (C123_violated), and the list of libraries that may ask for an interpreter is compared with the whole path, so it never applies (C123_exception)."},
 {"property": "C124", "status": "partial", "theorems": ["Ulp.Walk.C124_mappings", "Ulp.Walk.C124_names", "Ulp.Walk.C124_addresses_partial", "Ulp.Walk.C124_skipped"], "note": "C124_mappings and C124_names are in full. For addresses it holds if all are within 2 GiB of each other (C124_addresses_partial); a symbol 4 GiB away from another is skipped (C124_skipped)."},
 {"property": "C125", "status": "proved", "theorems": ["Ulp.Md5.C125_digest", "Ulp.Md5.C125_succeeds", "Ulp.Md5.C125_released"], "note": "The digest is any function the library computes from the bytes fed to it, however they are cut."},
 {"property": "C126", "status": "partial", "theorems": ["Ulp.Cli.C126_task_partial", "Ulp.Cli.C126_trace_partial", "Ulp.Cli.C126_info_partial", "Ulp.Cli.C126_patch_partial", "Ulp.Cli.C126_same_partial", "Ulp.Cli.C126_prefix", "Ulp.Cli.C126_patch_again", "Ulp.Cli.C126_patch_violated", "Ulp.Cli.C126_prefix_violated", "Ulp.Cli.C126_fresh_task", "Ulp.Cli.C126_fresh_patch"], "note": "Proved for ultask, ulftrace and ulpinfo and for ulpatch with a command on its command line, up to the prefix of messages. Violated: the command of ulpatch is not reset, so that a call with only a process number after one with --unpatch takes out another patch (C126_patch_again, C126_patch_violated); the prefix of messages stays on after -v (C126_prefix_violated). Assumed: a C library is at one of the known places in the later call."},
 {"property": "C127", "status": "partial", "theorems": ["Ulp.Cli.C127_start", "Ulp.Cli.C127_libc", "Ulp.Cli.C127_verbose", "Ulp.Cli.C127_info_violated"], "note": "The library shown by --info is always the null pointer in a new program, because it is looked for only after the options (C127_info_violated). The rest is proved for all tools."},
 {"property": "C128", "status": "partial", "theorems": ["Ulp.Sys.C128_others", "Ulp.Sys.C128_alone", "Ulp.Sys.C128_processes", "Ulp.Sys.C128_x86_partial", "Ulp.Sys.C128_a64_partial", "Ulp.Sys.C128_temp"], "note": "C128_others, C128_alone and C128_processes hold for all runs, but C128_alone and C128_processes leave out commands that are given temp.ulp itself as their file or object: what the check of another command leaves in temp.ulp decides how they end (C128_temp). C128_x86_partial and C128_a64_partial have the limits of C119: partial transfers, failing clean-up and unreadable live patches, where the program violates it."},
 {"property": "C129", "status": "partial", "theorems": ["Ulp.LoadBytes.C129_x86_partial", "Ulp.LoadBytes.C129_a64_partial", "Ulp.LoadBytes.C129_record"], "note": "For all files and all results of system calls. Missing, because the program violates it (C129_record): a command that fails after the headers were rewritten and cannot unmap its file leaves the record of the file in the process, and a later --unpatch trusts the address in it."},
 {"property": "C13", "status": "proved", "theorems": ["Ulp.Load.C13_success", "Ulp.Load.C13_rel_refused", "Ulp.Load.C13_failure", "Ulp.Load.C13_bookkeeping_never_relocated", "Ulp.Load.C13_x86_unsupported_refused", "Ulp.Load.C13_prepared"], "note": "unsupported types on aarch64: Ulp.A64Reloc.C16_a64_unknown_refused"},
 {"property": "C130", "status": "partial", "theorems": ["Ulp.TaskRun.C130_run_partial", "Ulp.TaskRun.C130_look", "Ulp.TaskRun.C130_ends", "Ulp.TaskRun.C130_protected", "Ulp.TaskRun.C130_history_partial", "Ulp.TaskRun.C130_neighbour", "Ulp.TaskRun.C130_novdso"], "note": "For every lawful kernel, command line, process and history. Missing, because the program violates it: --unmap of a mapping of a file takes as many bytes as the file is long now, and so pages of other mappings (C130_neighbour); --dump vdso in a process without [vdso] uses a null pointer (C130_novdso)."},
 {"property": "C131", "status": "partial", "theorems": ["Ulp.TaskRun.C131_mapped_partial", "Ulp.TaskRun.C131_unmapped_partial", "Ulp.TaskRun.C131_jump", "Ulp.TaskRun.C131_dump_partial", "Ulp.TaskRun.C131_dump_new", "Ulp.TaskRun.C131_traced"], "note": "For every memory map whose lines are apart, whatever other options there are. Missing: the file of --map cannot be opened in the process, the tool does not detach, and so cannot attach for --unmap (C131_traced, a violation); --map at an address just below a mapping is refused (C65_refused); dumps that are cut short or go to a file that exists (C68)."},
 {"property": "C132", "status": "partial", "theorems": ["Ulp.Getopt.C132_read", "Ulp.Getopt.C132_one", "Ulp.Getopt.C132_only_partial", "Ulp.Getopt.C132_refused_partial", "Ulp.Getopt.C132_known", "Ulp.Getopt.C132_behind_v", "Ulp.Getopt.C132_violated", "Ulp.Getopt.C132_files_ignored", "Ulp.Getopt.C132_next_word"], "note": "Missing: the refusal of command lines with something else than v behind the letter v. There the claim is violated: the letter takes all that follows it (C132_behind_v, C132_violated)."},
 {"property": "C133", "status": "partial", "theorems": ["Ulp.TaskRun.C133_killed_partial", "Ulp.TaskRun.C133_whole_partial", "Ulp.TaskRun.C133_history_partial", "Ulp.TaskRun.C133_violated", "Ulp.TaskRun.C133_open_file", "Ulp.TaskRun.C133_ends"], "note": "Missing: the 16 bytes of a jump may be half written (C133_violated), a file opened in the process stays open (C133_open_file), and what is missing from C130. Moments within a remote system call are those of C115_in_call."},
 {"property": "C134", "status": "partial", "theorems": ["Ulp.LoadBytes.C134_x86_partial", "Ulp.LoadBytes.C134_a64_partial", "Ulp.LoadBytes.C134_x86_goes", "Ulp.LoadBytes.C134_a64_goes", "Ulp.LoadBytes.C134_removed", "Ulp.LoadBytes.C134_lost", "Ulp.LoadBytes.C134_half", "Ulp.LoadBytes.C134_lost_example"], "note": "Missing: jumps that overlap the 16 bytes at a function with a live patch, where the program violates the claim (C134_lost, C134_half, C134_lost_example), and what is missing from C119."},
 {"property": "C135", "status": "partial", "theorems": ["Ulp.Threads.C135_threads_partial", "Ulp.Threads.C135_killed_partial", "Ulp.Threads.C135_same_write", "Ulp.Threads.C135_torn", "Ulp.Threads.C135_inside"], "note": "Missing: threads that come to the 16 bytes while they are written, or are in them, where the program violates the claim (C135_torn, C135_inside): no thread is stopped, not even the only one."},
 {"property": "C136", "status": "partial", "theorems": ["Ulp.Mixed.C136_x86_partial", "Ulp.Mixed.C136_a64_partial", "Ulp.Mixed.C136_removed", "Ulp.Mixed.C136_dangling", "Ulp.Mixed.C136_dangling_example", "Ulp.Mixed.C136_no_way_back"], "note": "Missing: runs of ultask that name memory of a live patch or the replaced code, where the program violates the claim (C136_dangling, C136_no_way_back: ultask --unmap takes the mapping of a live patch, the function still jumps there, and --unpatch finds nothing; C134_lost for --jmp)."},
 {"property": "C137", "status": "partial", "theorems": ["Ulp.LoadBytes.C137_x86_partial", "Ulp.LoadBytes.C137_a64_partial", "Ulp.LoadBytes.C137_x86_left", "Ulp.LoadBytes.C137_a64_left", "Ulp.LoadBytes.C137_blocks"], "note": "Missing: commands that fail before their image is written and whose clean-up fails too, where the program violates the claim (C04_residual_zero_text: the next unpatch writes zeros over the function; C04_residual_crash: every later command crashes), and an entry that is written in part (C05)."},
 {"property": "C138", "status": "partial", "theorems": ["Ulp.ThreadsHist.C138_threads_partial", "Ulp.ThreadsHist.C138_functions_partial", "Ulp.ThreadsHist.C138_all_out_partial", "Ulp.ThreadsHist.C138_killed_partial", "Ulp.ThreadsHist.C138_whole_partial", "Ulp.ThreadsHist.C138_same_patch", "Ulp.ThreadsHist.C138_same_unpatch"], "note": "Missing: threads that are at or in the middle of the 16 bytes while they are exchanged, where the program violates the claim (C112_inside, C112_torn); commands whose calls fail (see C137). C138_same_patch and C138_same_unpatch tie the actions to the model of whole commands."},
 {"property": "C139", "status": "partial", "theorems": ["Ulp.Shell.C139_means", "Ulp.Shell.C139_spelling", "Ulp.Shell.C139_ulpatch_asked", "Ulp.Shell.C139_ulftrace_asked", "Ulp.Shell.C139_ulpatch_info", "Ulp.Shell.C139_ulftrace_info", "Ulp.Shell.C139_processes", "Ulp.Shell.C139_x86_patched_partial", "Ulp.Shell.C139_a64_patched_partial", "Ulp.Shell.C139_x86_back_partial", "Ulp.Shell.C139_a64_back_partial", "Ulp.Shell.C139_x86_partial", "Ulp.Shell.C139_a64_partial"], "note": "Missing: what is missing from C119 and C128 (partial transfers, clean-up that fails, patches that cannot be read, temp.ulp as the file), where the program violates it, and from C132 (words with something behind the letter v). On aarch64 the values of instructions are those of C57_a64_linked_partial."},
 {"property": "C14", "status": "proved", "theorems": ["Ulp.A64Insn.C14_encode", "Ulp.A64Insn.C14_decode", "Ulp.A64Insn.C14_roundtrip", "Ulp.A64Insn.C14_overwrite", "Ulp.A64Insn.C14_fault"], "note": ""},
 {"property": "C140", "status": "partial", "theorems": ["Ulp.TaskShell.C140_means", "Ulp.TaskShell.C140_asked", "Ulp.TaskShell.C140_info", "Ulp.TaskShell.C140_ends", "Ulp.TaskShell.C140_jump", "Ulp.TaskShell.C140_mprotect", "Ulp.TaskShell.C140_unmap_partial", "Ulp.TaskShell.C140_map_partial", "Ulp.TaskShell.C140_dump_partial"], "note": "Missing: what is missing from C130, C131 and C68, where the program violates it (--unmap can take pages of a neighbour: C130_neighbour; transfers that are cut short; a dump into a file that exists; --map just below a mapping), and from C132 (words with something behind the letter v)."},
 {"property": "C141", "status": "partial", "theorems": ["Ulp.InfoShell.C141_harmless", "Ulp.InfoShell.C141_asked", "Ulp.InfoShell.C141_x86_partial", "Ulp.InfoShell.C141_a64_partial", "Ulp.InfoShell.C141_file_partial"], "note": "Missing: what is missing from C139 (sessions with transfers that are cut short, failing clean-up), mappings that cannot be read, where the program crashes (C84_short), the file temp.ulp itself (C79_destroys), and words with something behind the letter v (C132_behind_v)."},
 {"property": "C142", "status": "partial", "theorems": ["Ulp.Session.C142_ultask_asked", "Ulp.Session.C142_ultask", "Ulp.Session.C142_x86_partial", "Ulp.Session.C142_a64_partial", "Ulp.Session.C142_none"], "note": "Missing: runs of ultask that do not spare the live patches, where the program violates it (C136_dangling); killed runs of ulpatch and ulftrace in a session (C138 has them for one process); what is missing from C119 (transfers that are cut short, failing clean-up) and words with something behind the letter v (C132_behind_v)."},
 {"property": "C143", "status": "proved", "theorems": ["Ulp.Session.C143_absent", "Ulp.Session.C143_ulpatch_absent", "Ulp.Session.C143_ulftrace_absent", "Ulp.Session.C143_ulpinfo_absent"], "note": "In the model of sessions (C142). The exit code is the status modulo 256."},
 {"property": "C144", "status": "partial", "theorems": ["Ulp.Session.C144_mistyped_partial"], "note": "Missing: anything behind the letter v, which the program takes (C132_behind_v, C132_violated)."},
 {"property": "C145", "status": "partial", "theorems": ["Ulp.Session.C145_x86_partial", "Ulp.Session.C145_a64_partial"], "note": "Missing: what is missing from C142, on which it rests; sessions are one command after the other, not two at a time (C116)."},
 {"property": "C146", "status": "partial", "theorems": ["Ulp.Session.C146_process", "Ulp.Session.C146_files_partial", "Ulp.Session.C146_temp"], "note": "Unlike C142 nothing is asked of the processes or of the patch files. Missing: temp.ulp when a patch file is loaded or shown (C79_removes, C79_destroys; C146_temp has it otherwise), the file ultask writes with -o (the user names it; C142 models it apart from the others), and sessions in which a command has undefined behaviour."},
 {"property": "C147", "status": "partial", "theorems": ["Ulp.Session.C147_looking_partial", "Ulp.Session.C147_violated"], "note": "Missing: commands that are given temp.ulp as their file, where it does not hold (C147_violated: a look removes the file of the user, and ulftrace -j temp.ulp then ends with 1 instead of going to work)."},
 {"property": "C148", "status": "partial", "theorems": ["Ulp.Session.C148_apart_partial", "Ulp.Session.C148_without"], "note": "Missing: commands that are given temp.ulp as their file, where it does not hold (C128_temp, C147_violated)."},
 {"property": "C15", "status": "partial", "theorems": ["Ulp.A64Reloc.C15_a64_branch_destination", "Ulp.A64Reloc.C15_a64_branch_partial", "Ulp.A64Reloc.C15_a64_branch_wrong", "Ulp.A64Reloc.C15_a64_adr_partial", "Ulp.A64Reloc.C15_a64_ldr_literal_partial", "Ulp.A64Reloc.C15_a64_adrp_partial", "Ulp.A64Reloc.C15_a64_add_lo12", "Ulp.A64Reloc.C15_a64_adrp_add_partial", "Ulp.A64Reloc.C15_a64_cond_branch_partial", "Ulp.A64Reloc.C15_a64_ldst_lo12", "Ulp.A64Reloc.C15_a64_movzk", "Ulp.A64Reloc.C15_a64_movw_sequence", "Ulp.A64Reloc.C15_a64_movw_signed", "Ulp.A64Reloc.C15_a64_data_abs", "Ulp.A64Reloc.C15_a64_data_rel_host", "Ulp.A64Reloc.C15_a64_data_rel_partial", "Ulp.A64Reloc.C15_a64_data_rel_wrong", "Ulp.A64Reloc.C15_a64_frame"], "note": "Absolute types hold unconditionally. Place-relative types are computed against the host mapping, so they hold only when host and target map the image at the same address; the negation otherwise is proved."},
 {"property": "C16", "status": "partial", "theorems": ["Ulp.A64Reloc.C16_a64_overflow_refused_partial", "Ulp.A64Reloc.C16_a64_in_range_accepted", "Ulp.A64Reloc.C16_a64_never_refused", "Ulp.A64Reloc.C16_a64_unchecked_forever", "Ulp.A64Reloc.C16_a64_unknown_refused"], "note": "overflow_check is never initialised and never reset: refusal only holds while it is true; negations proved."},
 {"property": "C17", "status": "proved", "theorems": ["Ulp.X86Insn.C17_x86_jmp32", "Ulp.X86Insn.C17_x86_call", "Ulp.X86Insn.C17_x86_jmp8", "Ulp.X86Insn.C17_x86_sizes", "Ulp.X86Insn.C17_x86_jmpq", "Ulp.X86Insn.C17_x86_ftrace_call"], "note": ""},
 {"property": "C18", "status": "partial", "theorems": ["Ulp.A64Insn.C18_a64_branch_partial", "Ulp.A64Insn.C18_a64_fault", "Ulp.A64Insn.C18_high_address_refused", "Ulp.A64Insn.C18_high_address_wrong"], "note": "Holds for call sites below 4 GiB; above, the code truncates the address (negation proved)."},
 {"property": "C19", "status": "proved", "theorems": ["Ulp.Load.C19_verdict", "Ulp.Load.C19_accepts_iff", "Ulp.Load.C19_code_unique"], "note": "for files whose section table and metadata can be read inside the file; other files are C21"},
 {"property": "C20", "status": "proved", "theorems": ["Ulp.Load.C20_names_roundtrip", "Ulp.Load.C20_record_roundtrip", "Ulp.Load.C20_macro_record"], "note": ""},
 {"property": "C21", "status": "partial", "theorems": ["Ulp.Load.C21_short_refused", "Ulp.Load.C21_magic_refused", "Ulp.Load.C21_table_inside", "Ulp.Load.C21_sections_inside_partial", "Ulp.Load.C21_table_past_end_not_refused", "Ulp.Load.C21_wrapping_section_accepted", "Ulp.Load.C21_reads_outside"], "note": "the code violates the rest: alloc_patch_file returns 0 with an unmapped image for a section table past the end, sh_offset+sh_size may wrap, and setup_load_info can read outside the image"},
 {"property": "C22", "status": "partial", "theorems": ["Ulp.Load.C22_values", "Ulp.Load.C22_good_accepted", "Ulp.Load.C22_bad_symbol_refused_partial", "Ulp.Load.C22_bad_symbol_accepted"], "note": "values proved; refusal fails when a resolved symbol follows the unresolved one because ret is overwritten"},
 {"property": "C23", "status": "proved", "theorems": ["Ulp.Load.C23_text_injective", "Ulp.Load.C23_text_digits", "Ulp.Load.C23_small_buffer"], "note": ""},
 {"property": "C24", "status": "proved", "theorems": ["Ulp.Rb.C24_dictionary", "Ulp.Rb.C24_insert_existing"], "note": "Histories of allocation, freeing, insertion, removal and lookup over any key type with an ordering comparison; the node memory is a map from pointers to nodes."},
 {"property": "C25", "status": "proved", "theorems": ["Ulp.Rb.C25_balanced", "Ulp.Rb.C25_packed_word"], "note": "The model keeps parent and colour in two fields; C25_packed_word shows the packed word carries the same for nodes at multiples of 4."},
 {"property": "C26", "status": "proved", "theorems": ["Ulp.Rb.C26_walk", "Ulp.Rb.C26_postorder"], "note": ""},
 {"property": "C27", "status": "proved", "theorems": ["Ulp.Rb.C27_destroy", "Ulp.Rb.C27_root_dangles"], "note": "The root pointer is left pointing at a freed node (C27_root_dangles)."},
 {"property": "C28", "status": "proved", "theorems": ["Ulp.CList.C28_init", "Ulp.CList.C28_add", "Ulp.CList.C28_add_head", "Ulp.CList.C28_del", "Ulp.CList.C28_replace", "Ulp.CList.C28_replace_head", "Ulp.CList.C28_move_same", "Ulp.CList.C28_move_other", "Ulp.CList.C28_rotate", "Ulp.CList.C28_cut", "Ulp.CList.C28_splice", "Ulp.CList.C28_splice_tail", "Ulp.CList.C28_tests", "Ulp.CList.C28_step", "Ulp.CList.C28_history", "Ulp.CList.C28_move_is_not_head"], "note": "Each operation and every sequence of operations refines the operation on sequences, at pointer level. list_move appends although its comment says it adds at the head."},
 {"property": "C29", "status": "proved", "theorems": ["Ulp.CList.C29_sort", "Ulp.CList.C29_any_comparison"], "note": "list_sort at pointer level returns the stable sort of the elements for a total order, and a permutation for any comparison function."},
 {"property": "C30", "status": "proved", "theorems": ["Ulp.Vma.C30_find", "Ulp.Vma.C30_disjoint_maps"], "note": "Any history of insertions and removals of mappings; C30_disjoint_maps is the case of a map as the kernel prints it."},
 {"property": "C31", "status": "partial", "theorems": ["Ulp.Vma.C31_span", "Ulp.Vma.C31_minimum_partial", "Ulp.Vma.C31_no_mapping", "Ulp.Vma.C31_below_minimum"], "note": "The range found is in a gap. The minimum address is respected only if some mapping known lies at or above it in the stated way; C31_below_minimum is a map for which the result is below it, C31_no_mapping the undefined behaviour on an empty map."},
 {"property": "C32", "status": "proved", "theorems": ["Ulp.Sym.C32_by_name"], "note": "Any registration sequence with distinct structures."},
 {"property": "C33", "status": "partial", "theorems": ["Ulp.Sym.C33_exact_partial", "Ulp.Sym.C33_wrong_symbol", "Ulp.Sym.C33_missed_symbol"], "note": "Proved when all addresses lie within 2 GiB. Beyond that the property is false of the code: the comparison truncates the difference to int, so an address with the same low 32 bits gives a wrong symbol, and registered symbols spread over 3 GiB can be missed."},
 {"property": "C34", "status": "partial", "theorems": ["Ulp.Sym.C34_freed_once_partial", "Ulp.Sym.C34_leak"], "note": "No use after free, no double free, for every registration sequence and any addresses. A symbol that repeats the name and address of an earlier one is in no index and is not freed (C34_leak)."},
 {"property": "C35", "status": "partial", "theorems": ["Ulp.Str.C35_reads_bytes", "Ulp.Str.C35_writes_text", "Ulp.Str.C35_refused", "Ulp.Str.C35_round_trip", "Ulp.Str.C35_rejects_partial", "Ulp.Str.C35_malformed_accepted"], "note": "Round trip for every separator that is not a hexadecimal digit, x or NUL, and up to 429496730 bytes (int index arithmetic). Which texts are accepted is characterised exactly; C35_malformed_accepted shows that pieces with no digit, more than two digits or an inner x are accepted, so \"malformed text is rejected\" does not hold in full."},
 {"property": "C36", "status": "partial", "theorems": ["Ulp.Str.C36_stores_partial", "Ulp.Str.C36_writes_past_buffer"], "note": "The property is false: a text with more elements than the buffer holds writes one byte past it (C36_writes_past_buffer, for every buffer size). Proved: never more than that one byte, and accepted texts stay inside."},
 {"property": "C37", "status": "proved", "theorems": ["Ulp.Str.C37_split", "Ulp.Str.C37_pieces_unique", "Ulp.Str.C37_pieces_nonempty", "Ulp.Str.C37_join", "Ulp.Str.C37_join_text"], "note": "Allocation failure in the list building is not modelled."},
 {"property": "C38", "status": "proved", "theorems": ["Ulp.Str.C38_addr_decimal", "Ulp.Str.C38_addr_hex", "Ulp.Str.C38_addr_octal", "Ulp.Str.C38_size_decimal", "Ulp.Str.C38_size_hex", "Ulp.Str.C38_verbose", "Ulp.Str.C38_addr_minus", "Ulp.Str.C38_no_number"], "note": "libc strtoull and strstr are modelled, not verified."},
 {"property": "C39", "status": "partial", "theorems": ["Ulp.Ptrace.C39_as_found_partial", "Ulp.Ptrace.C39_x86_partial", "Ulp.Ptrace.C39_a64_partial", "Ulp.Ptrace.C39_regs_lost", "Ulp.Ptrace.C39_code_lost", "Ulp.Ptrace.C39_spurious_stop"], "note": "Both machines, any process behaviour, with interrupting signals. Violated when a step after the registers were set fails (C39_regs_lost), when reading the code fails (C39_code_lost) and when a foreign SIGSTOP arrives first (C39_spurious_stop)."},
 {"property": "C40", "status": "proved", "theorems": ["Ulp.Ptrace.C40_attach", "Ulp.Ptrace.C40_attach_ends", "Ulp.Ptrace.C40_wait", "Ulp.Ptrace.C40_reports", "Ulp.Ptrace.C40_wait_reports", "Ulp.Ptrace.C40_exit_as_signal"], "note": "All sequences of wait statuses; the stop is recognised by SIGSTOP. C40_reports and C40_wait_reports say what the process is continued with after each kind of report; after its end with a code that is no signal (C40_exit_as_signal), which has no effect on a process that is gone."},
 {"property": "C41", "status": "proved", "theorems": ["Ulp.Ptrace.C41_close", "Ulp.Ptrace.C41_ftruncate"], "note": "All descriptors, states and environments."},
 {"property": "C42", "status": "proved", "theorems": ["Ulp.Align.C42_round_down", "Ulp.Align.C42_round_up", "Ulp.Align.C42_align", "Ulp.Align.C42_pages"], "note": ""},
 {"property": "C43", "status": "proved", "theorems": ["Ulp.Callback.C43_callbacks", "Ulp.Callback.C43_register_result"], "note": "Callbacks are assumed not to change the chain while it is being launched."},
 {"property": "C44", "status": "proved", "theorems": ["Ulp.Align.C44_perms", "Ulp.Align.C44_flags"], "note": ""},
 {"property": "C45", "status": "proved", "theorems": ["Ulp.VmaType.C45_rules", "Ulp.VmaType.C45_made", "Ulp.VmaType.C45_patch", "Ulp.VmaType.C45_type_names", "Ulp.VmaType.C45_not_ours"], "note": "All names (without a slash at the end), executables and pids. C45_not_ours: foreign files can be taken for patches."},
 {"property": "C46", "status": "partial", "theorems": ["Ulp.Vma.C46_first_read", "Ulp.Vma.C46_first_read_found", "Ulp.Vma.C46_reread_partial", "Ulp.Vma.C46_changed_mapping", "Ulp.Vma.C46_group_of_new_mapping"], "note": "The first reading is proved in full. Reading again is proved when known mappings are unchanged or gone; a mapping whose bounds changed is appended again at each reading and never becomes known (C46_changed_mapping), and a mapping that is new at a second reading is not grouped with a known neighbour (C46_group_of_new_mapping)."},
 {"property": "C47", "status": "partial", "theorems": ["Ulp.Peek.C47_load_addr", "Ulp.Peek.C47_bias_partial", "Ulp.Peek.C47_symbols_partial", "Ulp.Peek.C47_unaligned", "Ulp.Peek.C47_again"], "note": "Load address for all header tables; equals the bias when the lowest loadable address is page aligned. Violated otherwise (C47_unaligned) and for a second mapping showing the header (C47_again)."},
 {"property": "C48", "status": "partial", "theorems": ["Ulp.Log.C48_names", "Ulp.Log.C48_gate", "Ulp.Log.C48_line", "Ulp.Log.C48_set", "Ulp.Log.C48_option_partial", "Ulp.Log.C48_option_zero", "Ulp.Log.C48_option_tail"], "note": "Gating and names for all inputs; the command line option refuses the documented 0 and accepts texts that begin with a number."},
 {"property": "C49", "status": "proved", "theorems": ["Ulp.Load.C49_record", "Ulp.Load.C49_last_wins", "Ulp.Load.C49_missing"], "note": ""},
 {"property": "C50", "status": "proved", "theorems": ["Ulp.Vma.C50_free_mappings"], "note": "Any history; covers mappings that are on the list but were refused by the tree."},
 {"property": "C51", "status": "proved", "theorems": ["Ulp.Sym.C51_load_symbols"], "note": "Follows from C32 through task_load_vma_elf_syms."},
 {"property": "C52", "status": "partial", "theorems": ["Ulp.Ptrace.C52_malloc_partial", "Ulp.Ptrace.C52_error_as_address"], "note": "The code compares with MAP_FAILED, but the kernel returns -errno: C52_error_as_address."},
 {"property": "C53", "status": "partial", "theorems": ["Ulp.Ptrace.C53_reported_partial", "Ulp.Ptrace.C53_silent", "Ulp.Ptrace.C53_close_undefined", "Ulp.Ptrace.C53_requests"], "note": "Truncation and prctl report success when the call could not be made; close reads an unset result."},
 {"property": "C54", "status": "partial", "theorems": ["Ulp.Peek.C54_freed_once_partial", "Ulp.Peek.C54_unread", "Ulp.Peek.C54_short", "Ulp.Peek.C54_no_memory"], "note": "Holds when reads are complete; violated for failed and short reads and failed allocations."},
 {"property": "C55", "status": "partial", "theorems": ["Ulp.MapsFile.C55_fields", "Ulp.MapsFile.C55_names_partial", "Ulp.MapsFile.C55_lookup", "Ulp.MapsFile.C55_prot", "Ulp.MapsFile.C55_blank", "Ulp.MapsFile.C55_long_line", "Ulp.MapsFile.C55_rest"], "note": "All fields for every list of mappings whose lines have at most 1023 bytes; names exactly when they have no blank and at most 255 bytes. Violated otherwise: names are cut at the first blank (C55_blank), and the rest of a longer line is read as a line of its own (C55_long_line), which can overflow a buffer or make up a mapping (C55_rest)."},
 {"property": "C56", "status": "proved", "theorems": ["Ulp.MapsFile.C56_first", "Ulp.MapsFile.C56_kept"], "note": "All lists of mappings."},
 {"property": "C57", "status": "partial", "theorems": ["Ulp.LoadBytes.C57_x86_linked", "Ulp.LoadBytes.C57_x86_accepted", "Ulp.LoadBytes.C57_a64_linked_partial", "Ulp.LoadBytes.C57_a64_insns_partial", "Ulp.LoadBytes.C57_a64_same_partial", "Ulp.LoadBytes.C57_a64_accepted", "Ulp.LoadBytes.C57_a64_prel_wrong", "Ulp.LoadBytes.C57_live_refused"], "note": "x86_64: for every file laid out as in Spec/PatchFile the result is `Linked`. aarch64: every kind of relocation has the value of its calculation in its field (C57_a64_insns_partial), but for the place of the field in the tool instead of the target: right if both have the image at the same address (C57_a64_same_partial), wrong otherwise (C57_a64_prel_wrong). Everything outside the fields, symbols, sections and the record as for x86_64."},
 {"property": "C58", "status": "partial", "theorems": ["Ulp.LoadBytes.C58_x86_patched", "Ulp.LoadBytes.C58_a64_patched_partial", "Ulp.LoadBytes.C58_a64_branch_destination", "Ulp.LoadBytes.C58_a64_call_partial", "Ulp.LoadBytes.C58_a64_call_wrong", "Ulp.LoadBytes.C58_refused", "Ulp.LoadBytes.C58_applied", "Ulp.LoadBytes.C58_unpatched"], "note": "x86_64 in full for files laid out as in Spec/PatchFile. aarch64: the function is redirected, but calls of the new code go astray by the distance of the two mappings of the image (C58_a64_branch_destination), so they are right only if that is zero (C58_a64_call_partial, C58_a64_call_wrong)."},
 {"property": "C59", "status": "partial", "theorems": ["Ulp.Mcount.X86.C59_x86_entry_partial", "Ulp.Mcount.X86.C59_x86_return_partial", "Ulp.Mcount.X86.C59_x86_entry_vector_lost", "Ulp.Mcount.X86.C59_x86_return_vector_lost", "Ulp.Mcount.A64.C59_a64_entry_partial", "Ulp.Mcount.A64.C59_a64_return_partial", "Ulp.Mcount.A64.C59_a64_entry_vector_lost", "Ulp.Mcount.A64.C59_a64_return_vector_lost", "Ulp.Mcount.X86.C59_x86_shipped_entry", "Ulp.Mcount.X86.C59_x86_shipped_return", "Ulp.Mcount.A64.C59_a64_shipped_entry", "Ulp.Mcount.A64.C59_a64_shipped_return"], "note": "Integer registers, stack and memory in full (x86_64 r10 excepted). The stubs do not save vector registers: the *_lost theorems show a conforming hook that changes a floating-point argument or the second half of a returned vector pair. With the hooks that are shipped, entering a traced function keeps the vector registers as well (C59_x86_shipped_entry, C59_a64_shipped_entry), but a return through the stub goes to address 0 (C59_x86_shipped_return, C59_a64_shipped_return)."},
 {"property": "C60", "status": "partial", "theorems": ["Ulp.Proc.C60_values", "Ulp.Proc.C60_missing", "Ulp.Proc.C60_open_error", "Ulp.Proc.C60_static", "Ulp.Proc.C60_read_error_hangs"], "note": "Every vector is decoded, and a missing entry is refused. The last clause fails: a read error is never noticed and the loop does not end (C60_read_error_hangs). C60_static shows that statically linked programs, whose AT_BASE is zero, count as missing an entry."},
 {"property": "C61", "status": "partial", "theorems": ["Ulp.Proc.C61_status", "Ulp.Proc.C61_status_missing", "Ulp.Proc.C61_comm_partial", "Ulp.Proc.C61_comm_blank", "Ulp.Proc.C61_comm_empty", "Ulp.Proc.C61_gone"], "note": "Identifiers in full; names without white space. A name with a blank in it is cut at the blank (C61_comm_blank), and a process that ends before its files are opened leads to the use of a null pointer (C61_gone)."},
 {"property": "C62", "status": "partial", "theorems": ["Ulp.WorkDir.C62_files_kept_partial", "Ulp.WorkDir.C62_no_litter", "Ulp.WorkDir.C62_open_close", "Ulp.WorkDir.C62_name_taken", "Ulp.WorkDir.C62_failed_open", "Ulp.WorkDir.C62_unpatch_leaves", "Ulp.WorkDir.C62_taken_away"], "note": "Holds when no temporary name comes twice; the name is not checked in the directory it is used in (C62_name_taken). comm is removed by a failed open (C62_failed_open), the session that removes the last patch leaves the directories (C62_unpatch_leaves; the next session removes them by C62_open_close), and a closing session takes the directories of another one (C62_taken_away)."},
 {"property": "C63", "status": "partial", "theorems": ["Ulp.OpenTask.C63_opens_iff", "Ulp.OpenTask.C63_session", "Ulp.OpenTask.C63_failed_clean", "Ulp.OpenTask.C63_closed_clean", "Ulp.OpenTask.C63_errno_partial", "Ulp.OpenTask.C63_errno_zero", "Ulp.OpenTask.C63_is_step"], "note": "All but the report: five of the steps that can fail leave errno zero (C63_errno_zero). The resources assume descriptors 0 to 2 are in use. C63_is_step ties every outcome to a step of the histories of C62."},
 {"property": "C64", "status": "partial", "theorems": ["Ulp.Ultask.C64_refused", "Ulp.Ultask.C64_protect_partial", "Ulp.Ultask.C64_end_refused", "Ulp.Ultask.C64_hole"], "note": "For every lawful kernel (Spec/Requests). A region that ends with the last mapping is refused (C64_end_refused); a region with a hole passes the check, and the part in front of the hole is changed although an error is reported (C64_hole)."},
 {"property": "C65", "status": "partial", "theorems": ["Ulp.Ultask.C65_refused", "Ulp.Ultask.C65_map_partial", "Ulp.Ultask.C65_silent", "Ulp.Ultask.C65_elsewhere", "Ulp.Ultask.C65_stuck", "Ulp.Ultask.C65_truncates"], "note": "If the range is free, the file is below 2 GiB and every request succeeds, the file is mapped as asked. A failed mmap is reported as success (C65_silent); an address that is not free is silently replaced (C65_elsewhere); a process whose open fails stays stopped (C65_stuck); a file of 4 GiB or more is cut off (C65_truncates)."},
 {"property": "C66", "status": "partial", "theorems": ["Ulp.Ultask.C66_refused", "Ulp.Ultask.C66_unmap_partial", "Ulp.Ultask.C66_neighbour", "Ulp.Ultask.C66_silent"], "note": "The length unmapped is that of the file, not of the mapping: with a longer file the pages behind are removed as well (C66_neighbour); a failed munmap is reported as success (C66_silent)."},
 {"property": "C67", "status": "partial", "theorems": ["Ulp.Ultask.C67_jump_partial", "Ulp.Ultask.C67_torn"], "note": "Success and every failure in which no byte was taken. A write that stops part-way is reported but stays in the process (C67_torn)."},
 {"property": "C68", "status": "partial", "theorems": ["Ulp.Ultask.C68_dump_partial", "Ulp.Ultask.C68_reports", "Ulp.Ultask.C68_mapping", "Ulp.Ultask.C68_unread", "Ulp.Ultask.C68_tail", "Ulp.Ultask.C68_short"], "note": "If the process could be read and the file was not longer than the range. A failed read is not noticed (C68_unread), a longer file keeps its end (C68_tail), a short write can be reported as success (C68_short)."},
 {"property": "C69", "status": "partial", "theorems": ["Ulp.Cli.C69_subopts", "Ulp.Cli.C69_asked", "Ulp.Cli.C69_jmp", "Ulp.Cli.C69_unmap", "Ulp.Cli.C69_mprotect", "Ulp.Cli.C69_map", "Ulp.Cli.C69_dump", "Ulp.Cli.C69_output", "Ulp.Cli.C69_no_overwrite", "Ulp.Cli.C69_pid", "Ulp.Cli.C69_jmp_accepted", "Ulp.Cli.C69_mprotect_accepted", "Ulp.Cli.C69_dump_accepted", "Ulp.Cli.C69_len_unit", "Ulp.Cli.C69_dump_twice", "Ulp.Cli.C69_pid_cut", "Ulp.Cli.C69_base16"], "note": "Proved for one --dump and one --map on the command line, any number of the others, and lengths of --mprotect without a unit. A length with a unit is misread (C69_len_unit), a second --dump is mixed with the first (C69_dump_twice), a process identifier is cut to 32 bits (C69_pid_cut), an address without 0x is not read in base 16 as the help says (C69_base16)."},
 {"property": "C70", "status": "partial", "theorems": ["Ulp.Cli.C70_ignored", "Ulp.Cli.C70_violated", "Ulp.Cli.C70_look_partial", "Ulp.Cli.C70_patch_ignored", "Ulp.Cli.C70_trace_ignored"], "note": "--dry-run has no effect at all, in ultask, ulpatch and ulftrace (C70_ignored, C70_violated, C70_patch_ignored, C70_trace_ignored); only command lines that ask for no change change nothing (C70_look_partial)."},
 {"property": "C71", "status": "partial", "theorems": ["Ulp.Cli.C71_status_partial", "Ulp.Cli.C71_violated"], "note": "The status counts --mprotect, --map and --unmap only; a failed jump or dump leaves it zero (C71_violated)."},
 {"property": "C72", "status": "partial", "theorems": ["Ulp.Cli.C72_patch_partial", "Ulp.Cli.C72_unpatch_partial", "Ulp.Cli.C72_no_pid", "Ulp.Cli.C72_violated"], "note": "Exact characterisation of what is accepted; of --patch and --unpatch together the last one is taken instead of refusing (C72_violated)."},
 {"property": "C73", "status": "partial", "theorems": ["Ulp.Cli.C73_default_partial", "Ulp.Cli.C73_violated", "Ulp.LoadBytes.C73_no_function_partial", "Ulp.LoadBytes.C73_stays_x86", "Ulp.LoadBytes.C73_stays_a64", "Ulp.LoadBytes.C73_takes_out_x86", "Ulp.LoadBytes.C73_takes_out_a64"], "note": "The object given with -j is never loaded (C73_violated). After any history of commands: an object that can be loaded stays in the process and the status is -ENOENT (C73_stays); if the object is refused, the newest patch of somebody else is taken out (C73_takes_out). What holds: a process without patches, or without the function, is left as it was."},
 {"property": "C74", "status": "partial", "theorems": ["Ulp.Bfd.C74_lookup_partial", "Ulp.Bfd.C74_unique_partial", "Ulp.Bfd.C74_overflow", "Ulp.Bfd.C74_null_name", "Ulp.Bfd.C74_refused", "Ulp.Bfd.C74_violated"], "note": "Proved for names with fewer than 256 bytes before an @, and tables libbfd can read; of several symbols of a name the first is given. Longer names overflow a buffer by one (C74_overflow) or crash (C74_null_name); the versions of a symbol are mixed up and PLT entries count as code (C74_violated)."},
 {"property": "C75", "status": "partial", "theorems": ["Ulp.Bfd.C75_iterate_partial"], "note": "Under the same conditions as C74, and with the first symbol of each name."},
 {"property": "C76", "status": "partial", "theorems": ["Ulp.Bfd.C76_close_partial", "Ulp.Bfd.C76_leak"], "note": "No freed memory is touched and nothing is freed twice; every symbol that is not the first of its name is never freed (C76_leak)."},
 {"property": "C77", "status": "partial", "theorems": ["Ulp.Bfd.C77_find_partial", "Ulp.Bfd.C77_violated"], "note": "Exact characterisation of what is found, from the symbol tables on. A function of a library that the program calls is found as the PLT entry of the program (C77_violated)."},
 {"property": "C78", "status": "proved", "theorems": ["Ulp.Bfd.C78_build_id", "Ulp.Bfd.C78_null", "Ulp.Bfd.hex2_digits"], "note": ""},
 {"property": "C79", "status": "partial", "theorems": ["Ulp.PFile.C79_other_files_partial", "Ulp.InfoShell.C79_any_size_partial", "Ulp.PFile.C79_success_partial", "Ulp.PFile.C79_removes", "Ulp.PFile.C79_destroys", "Ulp.PFile.C79_left", "Ulp.PFile.C79_crash"], "note": "No file but temp.ulp in the working directory is changed, and none if there was no temp.ulp and the command succeeds. A temp.ulp of the user is removed (C79_removes), ulpinfo -i temp.ulp destroys it (C79_destroys), and the copy is left behind after a failure or a crash (C79_left, C79_crash)."},
 {"property": "C80", "status": "partial", "theorems": ["Ulp.PFile.C80_once", "Ulp.PFile.C80_keeps", "Ulp.PFile.C80_success_partial", "Ulp.PFile.C80_leak"], "note": "Nothing is given back twice or taken from the caller, nothing is written outside of the mapping, and a success keeps nothing but a descriptor whose fstat failed. Failures keep memory, descriptors and mappings (C80_leak)."},
 {"property": "C81", "status": "partial", "theorems": ["Ulp.PFile.C81_other_files", "Ulp.PFile.C81_failed_partial", "Ulp.PFile.C81_success", "Ulp.PFile.C81_removes", "Ulp.PFile.C81_crash", "Ulp.PFile.C81_taken"], "note": "Proved for a name that is not yet taken, if the program does not crash. A patch file with a cut table of sections crashes it and leaves the copy (C81_crash); a file already under the name is overwritten and removed (C81_removes); a complete patch file is taken if nothing fails (C81_taken)."},
 {"property": "C82", "status": "proved", "theorems": ["Ulp.PFile.C82_prints", "Ulp.PFile.C82_accepts"], "note": "For files of less than 2^31 bytes to accept, 2^32 bytes to print."},
 {"property": "C83", "status": "proved", "theorems": ["Ulp.Live.C83_shows", "Ulp.Live.C83_x86_patched", "Ulp.Live.C83_a64_patched"], "note": "For patch files laid out as linkers do it, with the metadata inside their sections and without relocations, and mappings that can be read. C83_shows is about any list of live patches; the other two continue C58: what the patch command loaded is what the next command shows."},
 {"property": "C84", "status": "partial", "theorems": ["Ulp.Live.C84_skipped_partial", "Ulp.Live.C84_others_partial", "Ulp.Live.C84_short", "Ulp.Live.C84_no_record", "Ulp.Live.C84_incomplete", "Ulp.Live.C84_not_listed", "Ulp.Live.C84_no_build_id"], "note": "Mappings whose header cannot be read or is not ELF are left out, and the others are listed as without them. A read that ends early, a file without record, of another version, without some section or without Build ID is not: the program uses memory that was never set, or a null pointer."},
 {"property": "C85", "status": "partial", "theorems": ["Ulp.ElfFile.C85_lookup_partial", "Ulp.ElfFile.C85_type_ignored"], "note": "Proved without the type, which the code does not look at (C85_type_ignored). For files that are not damaged (Sane), fewer than 65536 calls, and no closing of a file without Build ID (C87)."},
 {"property": "C86", "status": "partial", "theorems": ["Ulp.ElfFile.C86_iterate_partial", "Ulp.ElfFile.C86_dropped"], "note": "Each symbol that a lookup can give is given once, sorted. A second symbol of the same class and name, such as a static function of another source file, is never given (C86_dropped)."},
 {"property": "C87", "status": "partial", "theorems": ["Ulp.ElfFile.C87_history_partial", "Ulp.ElfFile.C87_close_constant", "Ulp.ElfFile.C87_other_user", "Ulp.ElfFile.C87_leak_refused", "Ulp.ElfFile.C87_leak_build_id", "Ulp.ElfFile.C87_wrap", "Ulp.ElfFile.C87_no_header", "Ulp.ElfFile.C87_no_name", "Ulp.ElfFile.C87_no_section"], "note": "Proved for all sequences of fewer than 65536 calls with files that are not damaged, if no file without Build ID is closed; memory is given back if the files are tidy. Each of these conditions is needed: see the witnesses."},
 {"property": "C88", "status": "proved", "theorems": ["Ulp.ElfFile.C88_identity"], "note": "For files that are not damaged, fewer than 65536 calls and no closing of a file without Build ID (else see C87)."},
 {"property": "C89", "status": "partial", "theorems": ["Ulp.Files.C89_copy_partial", "Ulp.Files.C89_never_overwrites", "Ulp.Files.C89_refused", "Ulp.Files.C89_disk_full", "Ulp.Files.C89_read_error", "Ulp.Files.C89_directory", "Ulp.Files.C89_success", "Ulp.Files.C89_denied", "Ulp.Files.C89_big"], "note": "The copy is right if the disk has room and reading does not fail; nothing existing is ever changed. Short copies are reported as success, and the counter overflows for files of 2 GiB or more, see the witnesses."},
 {"property": "C90", "status": "partial", "theorems": ["Ulp.Files.C90_remove_partial", "Ulp.Files.C90_only_removes", "Ulp.Files.C90_nothing", "Ulp.Files.C90_link", "Ulp.Files.C90_dangling", "Ulp.Files.C90_special", "Ulp.Files.C90_unreadable", "Ulp.Files.C90_long"], "note": "Proved for trees of regular files and directories that can be removed. Links are followed out of the tree, special files are left, and errors are not reported, see the witnesses."},
 {"property": "C91", "status": "partial", "theorems": ["Ulp.Files.C91_touch_partial", "Ulp.Files.C91_existing", "Ulp.Files.C91_keeps", "Ulp.Files.C91_disk_full", "Ulp.Files.C91_regular", "Ulp.Files.C91_exists", "Ulp.Files.C91_remove", "Ulp.Files.C91_dangling", "Ulp.Files.C91_success", "Ulp.Files.C91_loop", "Ulp.Files.C91_big"], "note": "Proved except for a full disk (C91_disk_full), sizes of 2 GiB or more (C91_big) and links that lead nowhere (C91_dangling)."},
 {"property": "C92", "status": "proved", "theorems": ["Ulp.TaskList.C92_threads", "Ulp.TaskList.C92_gone"], "note": ""},
 {"property": "C93", "status": "partial", "theorems": ["Ulp.TaskList.C93_fds_partial", "Ulp.TaskList.C93_vanished"], "note": "Proved if no descriptor is closed while the directory is read; otherwise a null pointer is linked into the list (C93_vanished)."},
 {"property": "C94", "status": "partial", "theorems": ["Ulp.Dump.C94_dump_partial", "Ulp.Dump.C94_count", "Ulp.Dump.C94_overread", "Ulp.Dump.C94_nothing"], "note": "The text is right if up to 15 bytes behind the memory can be read; the number returned is wrong (C94_count)."},
 {"property": "C95", "status": "partial", "theorems": ["Ulp.TaskMem.C95_read_partial", "Ulp.TaskMem.C95_write_partial", "Ulp.TaskMem.C95_round_trip_partial", "Ulp.TaskMem.C95_long", "Ulp.TaskMem.C95_overflow", "Ulp.TaskMem.C95_stale", "Ulp.TaskMem.C95_cut"], "note": "Proved for strings of at most 1024 characters at mapped places. Longer strings lose their NUL and failed transfers are not reported, see the witnesses."},
 {"property": "C96", "status": "partial", "theorems": ["Ulp.TaskMem.C96_modify_partial", "Ulp.TaskMem.C96_safe", "Ulp.TaskMem.C96_refused", "Ulp.TaskMem.C96_unmapped", "Ulp.TaskMem.C96_garbage", "Ulp.TaskMem.C96_errors"], "note": "Proved at mapped addresses; that nothing else changes is proved for all. At an address that is not mapped success is reported (C96_unmapped, C96_garbage)."},
 {"property": "C97", "status": "partial", "theorems": ["Ulp.TaskMem.C97_first_bl_partial", "Ulp.TaskMem.C97_none"], "note": "Proved for functions that have a BL. Without one the search reads on behind the end of the function (C97_none)."},
 {"property": "C98", "status": "partial", "theorems": ["Ulp.Listing.C98_table_partial", "Ulp.Listing.C98_each_once", "Ulp.Listing.C98_ragged"], "note": "The text of the table is proved for all symbols; with -v the first column may be too narrow (C98_ragged)."},
 {"property": "C99", "status": "partial", "theorems": ["Ulp.Listing.C99_table_partial", "Ulp.Listing.C99_columns", "Ulp.Listing.C99_vclock"], "note": "The text is proved from the file of the kernel on, for names without blanks (see C55); the line of a vvar_vclock mapping is shifted (C99_vclock)."}
]}
