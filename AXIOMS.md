# Axioms of each theorem

Printed by `#print axioms` for every theorem named in `MANIFEST.json`.
`propext`, `Classical.choice` and `Quot.sound` are the axioms of Lean itself.

| property | theorem | axioms |
|---|---|---|
| C01 | `Ulp.C01_x86_redirect` | propext, Quot.sound |
| C01 | `Ulp.C01_x86_frame` | propext |
| C02 | `Ulp.C02_a64_redirect` | propext, Quot.sound |
| C03 | `Ulp.Patch.C03_unpatch_restores` | propext, Quot.sound |
| C04 | `Ulp.Patch.C04_histories_partial` | propext, Classical.choice, Quot.sound |
| C04 | `Ulp.Patch.C04_all_removed_partial` | propext, Classical.choice, Quot.sound |
| C04 | `Ulp.Patch.C04_short_unpatch` | propext |
| C04 | `Ulp.Patch.C04_residual_zero_text` | propext |
| C04 | `Ulp.Patch.C04_residual_crash` | propext, Quot.sound |
| C05 | `Ulp.Patch.C05_failed_patch_partial` | propext, Quot.sound |
| C05 | `Ulp.Patch.C05_success_installs` | propext, Quot.sound |
| C05 | `Ulp.Patch.C05_short_write` | propext |
| C05 | `Ulp.Patch.C05_reasons` | propext, Quot.sound |
| C05 | `Ulp.Patch.C05_map_reasons` | propext, Quot.sound |
| C05 | `Ulp.Patch.C05_duplicate_file` | propext, Classical.choice, Quot.sound |
| C05 | `Ulp.Patch.C05_file_reasons` | propext, Quot.sound |
| C06 | `Ulp.Patch.C06_patch_not_stopped_partial` | propext, Quot.sound |
| C06 | `Ulp.Patch.C06_unpatch_not_stopped_partial` | propext |
| C06 | `Ulp.Patch.C06_open_failure_leaves_stopped` | propext |
| C06 | `Ulp.Patch.C06_wait_failure_leaves_stopped` | propext |
| C07 | `Ulp.Patch.C07_ids_distinct_partial` | propext, Classical.choice, Quot.sound |
| C07 | `Ulp.Patch.C07_new_is_greatest_partial` | propext, Classical.choice, Quot.sound |
| C07 | `Ulp.Patch.C07_unpatch_removes_newest_partial` | propext, Classical.choice, Quot.sound |
| C07 | `Ulp.Patch.C07_unreadable_duplicates` | propext |
| C07 | `Ulp.Patch.C07_unpatch_reasons` | propext, Quot.sound |
| C07 | `Ulp.Patch.C07_numbers_partial` | propext, Classical.choice, Quot.sound |
| C08 | `Ulp.Patch.C08_build_ids_distinct_partial` | propext, Classical.choice, Quot.sound |
| C08 | `Ulp.Patch.C08_duplicate_refused_partial` | propext, Quot.sound |
| C08 | `Ulp.Patch.C07_unreadable_duplicates` | propext |
| C09 | `Ulp.Patch.C09_trace_session_leaves_patch` | propext, Quot.sound |
| C09 | `Ulp.Patch.C09_trace_session_removes_foreign` | propext |
| C09 | `Ulp.Patch.C09_trace_session_partial` | propext, Quot.sound |
| C10 | `Ulp.X86Reloc.C10_x86_values` | propext, Classical.choice, Quot.sound |
| C10 | `Ulp.X86Reloc.C10_x86_got_values` | propext, Classical.choice, Quot.sound |
| C10 | `Ulp.X86Reloc.C10_tls_uses_first_addend` | propext, Classical.choice, Quot.sound |
| C10 | `Ulp.X86Reloc.C10_tpoff_ignored` | propext |
| C100 | `Ulp.Cli.C100_shows` | propext, Classical.choice, Quot.sound |
| C100 | `Ulp.Cli.C100_nothing` | propext |
| C101 | `Ulp.PFile.C101_only_patches` | propext, Classical.choice, Quot.sound |
| C101 | `Ulp.PFile.C101_check_partial` | propext, Classical.choice, Quot.sound |
| C101 | `Ulp.PFile.C101_safe` | propext, Classical.choice, Quot.sound |
| C101 | `Ulp.PFile.C101_leaves` | propext, Classical.choice, Quot.sound |
| C101 | `Ulp.PFile.C101_destroys` | propext, Classical.choice, Quot.sound |
| C101 | `Ulp.PFile.C101_crash` | propext, Classical.choice, Quot.sound |
| C102 | `Ulp.Init.C102_never_dangling` | propext, Quot.sound |
| C102 | `Ulp.Init.C102_opened_partial` | propext, Quot.sound |
| C102 | `Ulp.Init.C102_close` | propext, Classical.choice, Quot.sound |
| C102 | `Ulp.Init.C102_set` | propext |
| C102 | `Ulp.Init.C102_forgets` | propext, Quot.sound |
| C103 | `Ulp.Init.C103_usable_partial` | propext, Classical.choice, Quot.sound |
| C103 | `Ulp.Init.C103_exit` | propext, Quot.sound |
| C103 | `Ulp.Init.C103_stays` | propext, Classical.choice, Quot.sound |
| C103 | `Ulp.Init.C103_umask` | propext, Quot.sound |
| C103 | `Ulp.Init.C103_file` | propext, Quot.sound |
| C103 | `Ulp.Init.C103_second_user` | propext, Quot.sound |
| C104 | `Ulp.Init.C104_page` | propext, Classical.choice, Quot.sound |
| C105 | `Ulp.Ptrace.C105_open_partial` | propext, Quot.sound |
| C105 | `Ulp.Ptrace.C105_open2` | propext, Quot.sound |
| C105 | `Ulp.Ptrace.C105_short` | propext, Quot.sound |
| C105 | `Ulp.Ptrace.C105_undefined` | propext, Quot.sound |
| C106 | `Ulp.Ptrace.C106_fstat_partial` | propext, Quot.sound |
| C106 | `Ulp.Ptrace.C106_error_ignored` | propext, Quot.sound |
| C107 | `Ulp.ProcLinks.C107_open_partial` | propext, Classical.choice, Quot.sound |
| C107 | `Ulp.ProcLinks.C107_exist` | propext, Classical.choice, Quot.sound |
| C107 | `Ulp.ProcLinks.C107_links_partial` | propext, Classical.choice, Quot.sound |
| C107 | `Ulp.ProcLinks.C107_unterminated` | propext, Classical.choice, Quot.sound |
| C107 | `Ulp.ProcLinks.C107_deleted` | propext, Classical.choice, Quot.sound |
| C107 | `Ulp.ProcLinks.C107_fd_zero` | propext, Classical.choice, Quot.sound |
| C107 | `Ulp.ProcLinks.C107_overflow` | propext, Classical.choice, Quot.sound |
| C107 | `Ulp.ProcLinks.C107_modes` | propext, Classical.choice, Quot.sound |
| C108 | `Ulp.Nops.C108_ideal` | propext, Quot.sound |
| C108 | `Ulp.Nops.C108_ftrace` | propext, Quot.sound |
| C108 | `Ulp.Nops.C108_k8` | propext, Quot.sound |
| C108 | `Ulp.Nops.C108_none` | propext |
| C109 | `Ulp.Disasm.C109_listing` | propext, Classical.choice, Quot.sound |
| C109 | `Ulp.Disasm.C109_run_partial` | propext, Classical.choice, Quot.sound |
| C109 | `Ulp.Disasm.C109_error` | propext, Classical.choice, Quot.sound |
| C109 | `Ulp.Disasm.C109_bytes` | propext, Classical.choice, Quot.sound |
| C109 | `Ulp.Disasm.C109_host_addresses` | propext, Classical.choice, Quot.sound |
| C109 | `Ulp.Disasm.C109_unread` | propext, Classical.choice, Quot.sound |
| C109 | `Ulp.Disasm.C109_nothing` | propext, Classical.choice, Quot.sound |
| C11 | `Ulp.X86Reloc.C11_x86_nonzero_refused` | propext, Classical.choice, Quot.sound |
| C11 | `Ulp.X86Reloc.C11_x86_twice_refused` | propext, Classical.choice, Quot.sound |
| C11 | `Ulp.X86Reloc.C11_x86_refusal_keeps_field` | propext, Classical.choice, Quot.sound |
| C110 | `Ulp.ElfShow.C110_ehdr` | propext, Classical.choice, Quot.sound |
| C110 | `Ulp.ElfShow.C110_ehdr_reads` | propext, Classical.choice, Quot.sound |
| C110 | `Ulp.ElfShow.C110_phdr` | propext, Classical.choice, Quot.sound |
| C110 | `Ulp.ElfShow.C110_detail` | propext, Classical.choice, Quot.sound |
| C110 | `Ulp.ElfShow.C110_version` | propext, Classical.choice, Quot.sound |
| C111 | `Ulp.ElfShow.C111_symbol_partial` | propext, Classical.choice, Quot.sound |
| C111 | `Ulp.ElfShow.C111_lucky_partial` | propext, Classical.choice, Quot.sound |
| C111 | `Ulp.ElfShow.C111_visibility` | propext, Classical.choice, Quot.sound |
| C112 | `Ulp.Threads.C112_threads_partial` | propext, Quot.sound |
| C112 | `Ulp.Threads.C112_single_partial` | propext, Quot.sound |
| C112 | `Ulp.Threads.C112_enters_x86` | propext, Quot.sound |
| C112 | `Ulp.Threads.C112_enters_a64` | propext, Quot.sound |
| C112 | `Ulp.Threads.C112_same_write` | propext, Quot.sound |
| C112 | `Ulp.Threads.C112_inside` | propext, Quot.sound |
| C112 | `Ulp.Threads.C112_torn` | propext, Quot.sound |
| C113 | `Ulp.Threads.C113_unmap_partial` | propext, Quot.sound |
| C113 | `Ulp.Threads.C113_dies` | propext, Classical.choice, Quot.sound |
| C114 | `Ulp.Threads.C114_call_partial` | propext, Quot.sound |
| C114 | `Ulp.Threads.C114_meets` | propext, Quot.sound |
| C115 | `Ulp.Threads.C115_killed_partial` | propext, Quot.sound |
| C115 | `Ulp.Threads.C115_half` | propext, Quot.sound |
| C115 | `Ulp.Threads.C115_in_call` | propext, Quot.sound |
| C116 | `Ulp.Patch.C116_alone` | propext, Quot.sound |
| C116 | `Ulp.Patch.C116_turns` | propext, Quot.sound |
| C116 | `Ulp.Patch.C116_patches_partial` | propext, Classical.choice, Quot.sound |
| C116 | `Ulp.Patch.C116_same_number` | propext |
| C116 | `Ulp.Patch.C116_twice` | propext |
| C116 | `Ulp.Patch.C116_dangling` | propext |
| C116 | `Ulp.Patch.C116_crash` | propext |
| C117 | `Ulp.SessionFiles.C117_books_partial` | propext, Classical.choice, Quot.sound |
| C117 | `Ulp.SessionFiles.C117_handles` | propext, Classical.choice, Quot.sound |
| C117 | `Ulp.SessionFiles.C117_flag` | propext, Classical.choice, Quot.sound |
| C117 | `Ulp.SessionFiles.C117_no_memory` | propext, Classical.choice, Quot.sound |
| C118 | `Ulp.SessionFiles.C118_ids_partial` | propext, Classical.choice, Quot.sound |
| C118 | `Ulp.SessionFiles.C118_ids_negative` | propext, Classical.choice, Quot.sound |
| C118 | `Ulp.SessionFiles.C118_patched_partial` | propext, Classical.choice, Quot.sound |
| C118 | `Ulp.SessionFiles.C118_details` | propext, Classical.choice, Quot.sound |
| C118 | `Ulp.SessionFiles.C118_pie_partial` | propext, Classical.choice, Quot.sound |
| C118 | `Ulp.SessionFiles.C118_etc` | propext, Classical.choice, Quot.sound |
| C118 | `Ulp.SessionFiles.C118_last_wins` | propext, Classical.choice, Quot.sound |
| C119 | `Ulp.LoadBytes.C119_x86_partial` | propext, Classical.choice, Quot.sound |
| C119 | `Ulp.LoadBytes.C119_a64_partial` | propext, Classical.choice, Quot.sound |
| C119 | `Ulp.LoadBytes.C119_x86_runs` | propext, Classical.choice, Quot.sound |
| C119 | `Ulp.LoadBytes.C119_a64_runs` | propext, Classical.choice, Quot.sound |
| C119 | `Ulp.LoadBytes.C119_untouched` | propext, Classical.choice, Quot.sound |
| C119 | `Ulp.LoadBytes.C119_listed` | propext, Classical.choice, Quot.sound |
| C119 | `Ulp.LoadBytes.C119_session` | propext, Classical.choice, Quot.sound |
| C12 | `Ulp.X86Reloc.C12_x86_overflow_refused_partial` | propext, Classical.choice, Quot.sound |
| C12 | `Ulp.X86Reloc.C12_x86_fitting_accepted` | propext, Classical.choice, Quot.sound |
| C12 | `Ulp.X86Reloc.C12_pc32_truncated` | propext, Classical.choice, Quot.sound |
| C120 | `Ulp.LoadBytes.C120_refused_x86` | propext, Classical.choice, Quot.sound |
| C120 | `Ulp.LoadBytes.C120_refused_a64` | propext, Classical.choice, Quot.sound |
| C120 | `Ulp.LoadBytes.C120_takes_out_x86` | propext, Classical.choice, Quot.sound |
| C120 | `Ulp.LoadBytes.C120_x86_partial` | propext, Classical.choice, Quot.sound |
| C120 | `Ulp.LoadBytes.C120_a64_partial` | propext, Classical.choice, Quot.sound |
| C121 | `Ulp.LoadLog.C121_quiet` | propext, Classical.choice, Quot.sound |
| C121 | `Ulp.LoadLog.C121_partial` | propext, Classical.choice, Quot.sound |
| C121 | `Ulp.LoadLog.C121_overread` | propext, Classical.choice, Quot.sound |
| C121 | `Ulp.LoadLog.C121_other_length` | propext, Classical.choice, Quot.sound |
| C121 | `Ulp.LoadLog.C121_violated` | propext, Classical.choice, Quot.sound |
| C122 | `Ulp.Peek.C122_header` | propext, Classical.choice, Quot.sound |
| C122 | `Ulp.Peek.C122_gnu` | propext, Classical.choice, Quot.sound |
| C122 | `Ulp.Peek.C122_voffset` | propext, Classical.choice, Quot.sound |
| C122 | `Ulp.Peek.C122_voffset_partial` | propext, Classical.choice, Quot.sound |
| C122 | `Ulp.Peek.C122_voffset_violated` | propext, Classical.choice, Quot.sound |
| C122 | `Ulp.Peek.C122_split` | propext, Classical.choice, Quot.sound |
| C122 | `Ulp.Peek.C122_violated` | propext, Classical.choice, Quot.sound |
| C123 | `Ulp.Peek.C123_library` | propext, Classical.choice, Quot.sound |
| C123 | `Ulp.Peek.C123_library_any` | propext, Classical.choice, Quot.sound |
| C123 | `Ulp.Peek.C123_violated` | propext, Classical.choice, Quot.sound |
| C123 | `Ulp.Peek.C123_exception` | propext, Classical.choice, Quot.sound |
| C124 | `Ulp.Walk.C124_mappings` | propext, Classical.choice, Quot.sound |
| C124 | `Ulp.Walk.C124_names` | propext, Classical.choice, Quot.sound |
| C124 | `Ulp.Walk.C124_addresses_partial` | propext, Classical.choice, Quot.sound |
| C124 | `Ulp.Walk.C124_skipped` | propext, Classical.choice, Quot.sound |
| C125 | `Ulp.Md5.C125_digest` | propext, Quot.sound |
| C125 | `Ulp.Md5.C125_succeeds` | propext, Quot.sound |
| C125 | `Ulp.Md5.C125_released` | propext, Quot.sound |
| C126 | `Ulp.Cli.C126_task_partial` | propext, Classical.choice, Quot.sound |
| C126 | `Ulp.Cli.C126_trace_partial` | propext, Classical.choice, Quot.sound |
| C126 | `Ulp.Cli.C126_info_partial` | propext, Classical.choice, Quot.sound |
| C126 | `Ulp.Cli.C126_patch_partial` | propext, Classical.choice, Quot.sound |
| C126 | `Ulp.Cli.C126_same_partial` | propext, Classical.choice, Quot.sound |
| C126 | `Ulp.Cli.C126_prefix` | propext, Classical.choice, Quot.sound |
| C126 | `Ulp.Cli.C126_patch_again` | propext, Classical.choice, Quot.sound |
| C126 | `Ulp.Cli.C126_patch_violated` | propext, Classical.choice, Quot.sound |
| C126 | `Ulp.Cli.C126_prefix_violated` | propext, Classical.choice, Quot.sound |
| C126 | `Ulp.Cli.C126_fresh_task` | propext, Classical.choice, Quot.sound |
| C126 | `Ulp.Cli.C126_fresh_patch` | propext, Classical.choice, Quot.sound |
| C127 | `Ulp.Cli.C127_start` | propext, Classical.choice, Quot.sound |
| C127 | `Ulp.Cli.C127_libc` | propext, Classical.choice, Quot.sound |
| C127 | `Ulp.Cli.C127_verbose` | propext, Classical.choice, Quot.sound |
| C127 | `Ulp.Cli.C127_info_violated` | propext, Classical.choice, Quot.sound |
| C128 | `Ulp.Sys.C128_others` | propext, Classical.choice, Quot.sound |
| C128 | `Ulp.Sys.C128_alone` | propext, Classical.choice, Quot.sound |
| C128 | `Ulp.Sys.C128_processes` | propext, Classical.choice, Quot.sound |
| C128 | `Ulp.Sys.C128_x86_partial` | propext, Classical.choice, Quot.sound |
| C128 | `Ulp.Sys.C128_a64_partial` | propext, Classical.choice, Quot.sound |
| C128 | `Ulp.Sys.C128_temp` | propext, Classical.choice, Quot.sound |
| C129 | `Ulp.LoadBytes.C129_x86_partial` | propext, Classical.choice, Quot.sound |
| C129 | `Ulp.LoadBytes.C129_a64_partial` | propext, Classical.choice, Quot.sound |
| C129 | `Ulp.LoadBytes.C129_record` | propext, Classical.choice, Quot.sound |
| C13 | `Ulp.Load.C13_success` | propext, Classical.choice, Quot.sound |
| C13 | `Ulp.Load.C13_rel_refused` | propext, Classical.choice, Quot.sound |
| C13 | `Ulp.Load.C13_failure` | propext, Classical.choice, Quot.sound |
| C13 | `Ulp.Load.C13_bookkeeping_never_relocated` | propext, Classical.choice, Quot.sound |
| C13 | `Ulp.Load.C13_x86_unsupported_refused` | propext |
| C13 | `Ulp.Load.C13_prepared` | propext, Classical.choice, Quot.sound |
| C130 | `Ulp.TaskRun.C130_run_partial` | propext, Classical.choice, Quot.sound |
| C130 | `Ulp.TaskRun.C130_look` | propext, Classical.choice, Quot.sound |
| C130 | `Ulp.TaskRun.C130_ends` | propext, Classical.choice, Quot.sound |
| C130 | `Ulp.TaskRun.C130_protected` | propext, Classical.choice, Quot.sound |
| C130 | `Ulp.TaskRun.C130_history_partial` | propext, Classical.choice, Quot.sound |
| C130 | `Ulp.TaskRun.C130_neighbour` | propext, Classical.choice, Quot.sound |
| C130 | `Ulp.TaskRun.C130_novdso` | propext, Classical.choice, Quot.sound |
| C131 | `Ulp.TaskRun.C131_mapped_partial` | propext, Classical.choice, Quot.sound |
| C131 | `Ulp.TaskRun.C131_unmapped_partial` | propext, Classical.choice, Quot.sound |
| C131 | `Ulp.TaskRun.C131_jump` | propext, Classical.choice, Quot.sound |
| C131 | `Ulp.TaskRun.C131_dump_partial` | propext, Classical.choice, Quot.sound |
| C131 | `Ulp.TaskRun.C131_dump_new` | propext, Classical.choice, Quot.sound |
| C131 | `Ulp.TaskRun.C131_traced` | propext, Classical.choice, Quot.sound |
| C132 | `Ulp.Getopt.C132_read` | propext, Classical.choice, Quot.sound |
| C132 | `Ulp.Getopt.C132_one` | propext, Classical.choice, Quot.sound |
| C132 | `Ulp.Getopt.C132_only_partial` | propext, Classical.choice, Quot.sound |
| C132 | `Ulp.Getopt.C132_refused_partial` | propext, Classical.choice, Quot.sound |
| C132 | `Ulp.Getopt.C132_known` | propext, Classical.choice, Quot.sound |
| C132 | `Ulp.Getopt.C132_behind_v` | propext, Classical.choice, Quot.sound |
| C132 | `Ulp.Getopt.C132_violated` | propext, Classical.choice, Quot.sound |
| C132 | `Ulp.Getopt.C132_files_ignored` | propext, Classical.choice, Quot.sound |
| C132 | `Ulp.Getopt.C132_next_word` | propext, Classical.choice, Quot.sound |
| C133 | `Ulp.TaskRun.C133_killed_partial` | propext, Classical.choice, Quot.sound |
| C133 | `Ulp.TaskRun.C133_whole_partial` | propext, Classical.choice, Quot.sound |
| C133 | `Ulp.TaskRun.C133_history_partial` | propext, Classical.choice, Quot.sound |
| C133 | `Ulp.TaskRun.C133_violated` | propext, Classical.choice, Quot.sound |
| C133 | `Ulp.TaskRun.C133_open_file` | propext, Classical.choice, Quot.sound |
| C133 | `Ulp.TaskRun.C133_ends` | propext, Classical.choice, Quot.sound |
| C134 | `Ulp.LoadBytes.C134_x86_partial` | propext, Classical.choice, Quot.sound |
| C134 | `Ulp.LoadBytes.C134_a64_partial` | propext, Classical.choice, Quot.sound |
| C134 | `Ulp.LoadBytes.C134_x86_goes` | propext, Classical.choice, Quot.sound |
| C134 | `Ulp.LoadBytes.C134_a64_goes` | propext, Classical.choice, Quot.sound |
| C134 | `Ulp.LoadBytes.C134_removed` | propext, Classical.choice, Quot.sound |
| C134 | `Ulp.LoadBytes.C134_lost` | propext, Classical.choice, Quot.sound |
| C134 | `Ulp.LoadBytes.C134_half` | propext, Classical.choice, Quot.sound |
| C134 | `Ulp.LoadBytes.C134_lost_example` | propext, Classical.choice, Quot.sound |
| C135 | `Ulp.Threads.C135_threads_partial` | propext, Quot.sound |
| C135 | `Ulp.Threads.C135_killed_partial` | propext, Quot.sound |
| C135 | `Ulp.Threads.C135_same_write` | propext, Classical.choice, Quot.sound |
| C135 | `Ulp.Threads.C135_torn` | propext, Quot.sound |
| C135 | `Ulp.Threads.C135_inside` | propext, Quot.sound |
| C136 | `Ulp.Mixed.C136_x86_partial` | propext, Classical.choice, Quot.sound |
| C136 | `Ulp.Mixed.C136_a64_partial` | propext, Classical.choice, Quot.sound |
| C136 | `Ulp.Mixed.C136_removed` | propext, Classical.choice, Quot.sound |
| C136 | `Ulp.Mixed.C136_dangling` | propext, Classical.choice, Quot.sound |
| C136 | `Ulp.Mixed.C136_dangling_example` | propext, Classical.choice, Quot.sound |
| C136 | `Ulp.Mixed.C136_no_way_back` | propext, Classical.choice, Quot.sound |
| C137 | `Ulp.LoadBytes.C137_x86_partial` | propext, Classical.choice, Quot.sound |
| C137 | `Ulp.LoadBytes.C137_a64_partial` | propext, Classical.choice, Quot.sound |
| C137 | `Ulp.LoadBytes.C137_x86_left` | propext, Classical.choice, Quot.sound |
| C137 | `Ulp.LoadBytes.C137_a64_left` | propext, Classical.choice, Quot.sound |
| C137 | `Ulp.LoadBytes.C137_blocks` | propext, Classical.choice, Quot.sound |
| C138 | `Ulp.ThreadsHist.C138_threads_partial` | propext, Quot.sound |
| C138 | `Ulp.ThreadsHist.C138_functions_partial` | propext, Quot.sound |
| C138 | `Ulp.ThreadsHist.C138_all_out_partial` | propext, Quot.sound |
| C138 | `Ulp.ThreadsHist.C138_killed_partial` | propext, Quot.sound |
| C138 | `Ulp.ThreadsHist.C138_whole_partial` | propext, Quot.sound |
| C138 | `Ulp.ThreadsHist.C138_same_patch` | propext, Quot.sound |
| C138 | `Ulp.ThreadsHist.C138_same_unpatch` | propext, Quot.sound |
| C139 | `Ulp.Shell.C139_means` | propext, Classical.choice, Quot.sound |
| C139 | `Ulp.Shell.C139_spelling` | propext, Classical.choice, Quot.sound |
| C139 | `Ulp.Shell.C139_ulpatch_asked` | propext, Classical.choice, Quot.sound |
| C139 | `Ulp.Shell.C139_ulftrace_asked` | propext, Classical.choice, Quot.sound |
| C139 | `Ulp.Shell.C139_ulpatch_info` | propext, Classical.choice, Quot.sound |
| C139 | `Ulp.Shell.C139_ulftrace_info` | propext, Classical.choice, Quot.sound |
| C139 | `Ulp.Shell.C139_processes` | propext, Classical.choice, Quot.sound |
| C139 | `Ulp.Shell.C139_x86_patched_partial` | propext, Classical.choice, Quot.sound |
| C139 | `Ulp.Shell.C139_a64_patched_partial` | propext, Classical.choice, Quot.sound |
| C139 | `Ulp.Shell.C139_x86_back_partial` | propext, Classical.choice, Quot.sound |
| C139 | `Ulp.Shell.C139_a64_back_partial` | propext, Classical.choice, Quot.sound |
| C139 | `Ulp.Shell.C139_x86_partial` | propext, Classical.choice, Quot.sound |
| C139 | `Ulp.Shell.C139_a64_partial` | propext, Classical.choice, Quot.sound |
| C14 | `Ulp.A64Insn.C14_encode` | propext, Classical.choice, Quot.sound |
| C14 | `Ulp.A64Insn.C14_decode` | propext, Classical.choice, Quot.sound |
| C14 | `Ulp.A64Insn.C14_roundtrip` | propext, Classical.choice, Quot.sound |
| C14 | `Ulp.A64Insn.C14_overwrite` | propext, Classical.choice, Quot.sound |
| C14 | `Ulp.A64Insn.C14_fault` | propext, Quot.sound |
| C140 | `Ulp.TaskShell.C140_means` | propext, Classical.choice, Quot.sound |
| C140 | `Ulp.TaskShell.C140_asked` | propext, Classical.choice, Quot.sound |
| C140 | `Ulp.TaskShell.C140_info` | propext, Classical.choice, Quot.sound |
| C140 | `Ulp.TaskShell.C140_ends` | propext, Classical.choice, Quot.sound |
| C140 | `Ulp.TaskShell.C140_jump` | propext, Classical.choice, Quot.sound |
| C140 | `Ulp.TaskShell.C140_mprotect` | propext, Classical.choice, Quot.sound |
| C140 | `Ulp.TaskShell.C140_unmap_partial` | propext, Classical.choice, Quot.sound |
| C140 | `Ulp.TaskShell.C140_map_partial` | propext, Classical.choice, Quot.sound |
| C140 | `Ulp.TaskShell.C140_dump_partial` | propext, Classical.choice, Quot.sound |
| C141 | `Ulp.InfoShell.C141_harmless` | propext, Classical.choice, Quot.sound |
| C141 | `Ulp.InfoShell.C141_asked` | propext, Classical.choice, Quot.sound |
| C141 | `Ulp.InfoShell.C141_x86_partial` | propext, Classical.choice, Quot.sound |
| C141 | `Ulp.InfoShell.C141_a64_partial` | propext, Classical.choice, Quot.sound |
| C141 | `Ulp.InfoShell.C141_file_partial` | propext, Classical.choice, Quot.sound |
| C142 | `Ulp.Session.C142_ultask_asked` | propext, Classical.choice, Quot.sound |
| C142 | `Ulp.Session.C142_ultask` | propext, Classical.choice, Quot.sound |
| C142 | `Ulp.Session.C142_x86_partial` | propext, Classical.choice, Quot.sound |
| C142 | `Ulp.Session.C142_a64_partial` | propext, Classical.choice, Quot.sound |
| C142 | `Ulp.Session.C142_none` | propext, Classical.choice, Quot.sound |
| C143 | `Ulp.Session.C143_absent` | propext, Classical.choice, Quot.sound |
| C143 | `Ulp.Session.C143_ulpatch_absent` | propext, Classical.choice, Quot.sound |
| C143 | `Ulp.Session.C143_ulftrace_absent` | propext, Classical.choice, Quot.sound |
| C143 | `Ulp.Session.C143_ulpinfo_absent` | propext, Classical.choice, Quot.sound |
| C144 | `Ulp.Session.C144_mistyped_partial` | propext, Classical.choice, Quot.sound |
| C145 | `Ulp.Session.C145_x86_partial` | propext, Classical.choice, Quot.sound |
| C145 | `Ulp.Session.C145_a64_partial` | propext, Classical.choice, Quot.sound |
| C146 | `Ulp.Session.C146_process` | propext, Classical.choice, Quot.sound |
| C146 | `Ulp.Session.C146_files_partial` | propext, Classical.choice, Quot.sound |
| C146 | `Ulp.Session.C146_temp` | propext, Classical.choice, Quot.sound |
| C147 | `Ulp.Session.C147_looking_partial` | propext, Classical.choice, Quot.sound |
| C147 | `Ulp.Session.C147_violated` | propext, Classical.choice, Quot.sound |
| C148 | `Ulp.Session.C148_apart_partial` | propext, Classical.choice, Quot.sound |
| C148 | `Ulp.Session.C148_without` | propext, Classical.choice, Quot.sound |
| C15 | `Ulp.A64Reloc.C15_a64_branch_destination` | propext, Classical.choice, Quot.sound |
| C15 | `Ulp.A64Reloc.C15_a64_branch_partial` | propext, Classical.choice, Quot.sound |
| C15 | `Ulp.A64Reloc.C15_a64_branch_wrong` | propext, Classical.choice, Quot.sound |
| C15 | `Ulp.A64Reloc.C15_a64_adr_partial` | propext, Classical.choice, Quot.sound |
| C15 | `Ulp.A64Reloc.C15_a64_ldr_literal_partial` | propext, Classical.choice, Quot.sound |
| C15 | `Ulp.A64Reloc.C15_a64_adrp_partial` | propext, Classical.choice, Quot.sound |
| C15 | `Ulp.A64Reloc.C15_a64_add_lo12` | propext, Classical.choice, Quot.sound |
| C15 | `Ulp.A64Reloc.C15_a64_adrp_add_partial` | propext, Classical.choice, Quot.sound |
| C15 | `Ulp.A64Reloc.C15_a64_cond_branch_partial` | propext, Classical.choice, Quot.sound |
| C15 | `Ulp.A64Reloc.C15_a64_ldst_lo12` | propext, Classical.choice, Quot.sound |
| C15 | `Ulp.A64Reloc.C15_a64_movzk` | propext, Classical.choice, Quot.sound |
| C15 | `Ulp.A64Reloc.C15_a64_movw_sequence` | propext, Classical.choice, Quot.sound |
| C15 | `Ulp.A64Reloc.C15_a64_movw_signed` | propext, Classical.choice, Quot.sound |
| C15 | `Ulp.A64Reloc.C15_a64_data_abs` | propext, Quot.sound |
| C15 | `Ulp.A64Reloc.C15_a64_data_rel_host` | propext, Quot.sound |
| C15 | `Ulp.A64Reloc.C15_a64_data_rel_partial` | propext, Quot.sound |
| C15 | `Ulp.A64Reloc.C15_a64_data_rel_wrong` | propext, Classical.choice, Quot.sound |
| C15 | `Ulp.A64Reloc.C15_a64_frame` | propext, Quot.sound |
| C16 | `Ulp.A64Reloc.C16_a64_overflow_refused_partial` | propext, Classical.choice, Quot.sound |
| C16 | `Ulp.A64Reloc.C16_a64_in_range_accepted` | propext, Classical.choice, Quot.sound |
| C16 | `Ulp.A64Reloc.C16_a64_never_refused` | propext, Quot.sound |
| C16 | `Ulp.A64Reloc.C16_a64_unchecked_forever` | propext, Quot.sound |
| C16 | `Ulp.A64Reloc.C16_a64_unknown_refused` | propext, Quot.sound |
| C17 | `Ulp.X86Insn.C17_x86_jmp32` | propext, Classical.choice, Quot.sound |
| C17 | `Ulp.X86Insn.C17_x86_call` | propext, Classical.choice, Quot.sound |
| C17 | `Ulp.X86Insn.C17_x86_jmp8` | propext, Classical.choice, Quot.sound |
| C17 | `Ulp.X86Insn.C17_x86_sizes` | propext, Quot.sound |
| C17 | `Ulp.X86Insn.C17_x86_jmpq` | propext, Classical.choice, Quot.sound |
| C17 | `Ulp.X86Insn.C17_x86_ftrace_call` | propext, Classical.choice, Quot.sound |
| C18 | `Ulp.A64Insn.C18_a64_branch_partial` | propext, Classical.choice, Quot.sound |
| C18 | `Ulp.A64Insn.C18_a64_fault` | propext, Quot.sound |
| C18 | `Ulp.A64Insn.C18_high_address_refused` | propext, Quot.sound |
| C18 | `Ulp.A64Insn.C18_high_address_wrong` | propext, Quot.sound |
| C19 | `Ulp.Load.C19_verdict` | propext, Classical.choice, Quot.sound |
| C19 | `Ulp.Load.C19_accepts_iff` | propext, Classical.choice, Quot.sound |
| C19 | `Ulp.Load.C19_code_unique` | propext, Classical.choice, Quot.sound |
| C20 | `Ulp.Load.C20_names_roundtrip` | propext, Classical.choice, Quot.sound |
| C20 | `Ulp.Load.C20_record_roundtrip` | propext, Classical.choice, Quot.sound |
| C20 | `Ulp.Load.C20_macro_record` | propext, Classical.choice, Quot.sound |
| C21 | `Ulp.Load.C21_short_refused` | propext, Quot.sound |
| C21 | `Ulp.Load.C21_magic_refused` | propext, Quot.sound |
| C21 | `Ulp.Load.C21_table_inside` | propext, Quot.sound |
| C21 | `Ulp.Load.C21_sections_inside_partial` | propext, Classical.choice, Quot.sound |
| C21 | `Ulp.Load.C21_table_past_end_not_refused` | propext, Quot.sound |
| C21 | `Ulp.Load.C21_wrapping_section_accepted` | propext, Classical.choice, Quot.sound |
| C21 | `Ulp.Load.C21_reads_outside` | propext, Classical.choice, Quot.sound |
| C22 | `Ulp.Load.C22_values` | propext, Classical.choice, Quot.sound |
| C22 | `Ulp.Load.C22_good_accepted` | propext, Classical.choice, Quot.sound |
| C22 | `Ulp.Load.C22_bad_symbol_refused_partial` | propext, Classical.choice, Quot.sound |
| C22 | `Ulp.Load.C22_bad_symbol_accepted` | propext, Classical.choice, Quot.sound |
| C23 | `Ulp.Load.C23_text_injective` | propext, Quot.sound |
| C23 | `Ulp.Load.C23_text_digits` | propext, Classical.choice, Quot.sound |
| C23 | `Ulp.Load.C23_small_buffer` | propext, Quot.sound |
| C24 | `Ulp.Rb.C24_dictionary` | propext, Classical.choice, Quot.sound |
| C24 | `Ulp.Rb.C24_insert_existing` | propext, Classical.choice, Quot.sound |
| C25 | `Ulp.Rb.C25_balanced` | propext, Classical.choice, Quot.sound |
| C25 | `Ulp.Rb.C25_packed_word` | propext, Classical.choice, Quot.sound |
| C26 | `Ulp.Rb.C26_walk` | propext, Classical.choice, Quot.sound |
| C26 | `Ulp.Rb.C26_postorder` | propext, Classical.choice, Quot.sound |
| C27 | `Ulp.Rb.C27_destroy` | propext, Classical.choice, Quot.sound |
| C27 | `Ulp.Rb.C27_root_dangles` | propext, Classical.choice, Quot.sound |
| C28 | `Ulp.CList.C28_init` | propext, Quot.sound |
| C28 | `Ulp.CList.C28_add` | propext, Quot.sound |
| C28 | `Ulp.CList.C28_add_head` | propext, Quot.sound |
| C28 | `Ulp.CList.C28_del` | propext, Quot.sound |
| C28 | `Ulp.CList.C28_replace` | propext, Quot.sound |
| C28 | `Ulp.CList.C28_replace_head` | propext, Quot.sound |
| C28 | `Ulp.CList.C28_move_same` | propext, Quot.sound |
| C28 | `Ulp.CList.C28_move_other` | propext, Quot.sound |
| C28 | `Ulp.CList.C28_rotate` | propext, Quot.sound |
| C28 | `Ulp.CList.C28_cut` | propext, Quot.sound |
| C28 | `Ulp.CList.C28_splice` | propext, Quot.sound |
| C28 | `Ulp.CList.C28_splice_tail` | propext, Quot.sound |
| C28 | `Ulp.CList.C28_tests` | propext, Classical.choice, Quot.sound |
| C28 | `Ulp.CList.C28_step` | propext, Quot.sound |
| C28 | `Ulp.CList.C28_history` | propext, Quot.sound |
| C28 | `Ulp.CList.C28_move_is_not_head` | propext, Quot.sound |
| C29 | `Ulp.CList.C29_sort` | propext, Classical.choice, Quot.sound |
| C29 | `Ulp.CList.C29_any_comparison` | propext, Classical.choice, Quot.sound |
| C30 | `Ulp.Vma.C30_find` | propext, Classical.choice, Quot.sound |
| C30 | `Ulp.Vma.C30_disjoint_maps` | propext, Classical.choice, Quot.sound |
| C31 | `Ulp.Vma.C31_span` | propext, Classical.choice, Quot.sound |
| C31 | `Ulp.Vma.C31_minimum_partial` | propext, Classical.choice, Quot.sound |
| C31 | `Ulp.Vma.C31_no_mapping` | propext, Classical.choice, Quot.sound |
| C31 | `Ulp.Vma.C31_below_minimum` | propext, Classical.choice, Quot.sound |
| C32 | `Ulp.Sym.C32_by_name` | propext, Classical.choice, Quot.sound |
| C33 | `Ulp.Sym.C33_exact_partial` | propext, Classical.choice, Quot.sound |
| C33 | `Ulp.Sym.C33_wrong_symbol` | propext, Classical.choice, Quot.sound |
| C33 | `Ulp.Sym.C33_missed_symbol` | propext, Classical.choice, Quot.sound |
| C34 | `Ulp.Sym.C34_freed_once_partial` | propext, Classical.choice, Quot.sound |
| C34 | `Ulp.Sym.C34_leak` | propext, Classical.choice, Quot.sound |
| C35 | `Ulp.Str.C35_reads_bytes` | propext, Classical.choice, Quot.sound |
| C35 | `Ulp.Str.C35_writes_text` | propext, Classical.choice, Quot.sound |
| C35 | `Ulp.Str.C35_refused` | propext, Quot.sound |
| C35 | `Ulp.Str.C35_round_trip` | propext, Classical.choice, Quot.sound |
| C35 | `Ulp.Str.C35_rejects_partial` | propext, Classical.choice, Quot.sound |
| C35 | `Ulp.Str.C35_malformed_accepted` | propext, Classical.choice, Quot.sound |
| C36 | `Ulp.Str.C36_stores_partial` | propext, Quot.sound |
| C36 | `Ulp.Str.C36_writes_past_buffer` | propext, Classical.choice, Quot.sound |
| C37 | `Ulp.Str.C37_split` | propext, Quot.sound |
| C37 | `Ulp.Str.C37_pieces_unique` | propext, Quot.sound |
| C37 | `Ulp.Str.C37_pieces_nonempty` | propext, Quot.sound |
| C37 | `Ulp.Str.C37_join` | propext, Quot.sound |
| C37 | `Ulp.Str.C37_join_text` | propext, Quot.sound |
| C38 | `Ulp.Str.C38_addr_decimal` | propext, Classical.choice, Quot.sound |
| C38 | `Ulp.Str.C38_addr_hex` | propext, Classical.choice, Quot.sound |
| C38 | `Ulp.Str.C38_addr_octal` | propext, Classical.choice, Quot.sound |
| C38 | `Ulp.Str.C38_size_decimal` | propext, Classical.choice, Quot.sound |
| C38 | `Ulp.Str.C38_size_hex` | propext, Classical.choice, Quot.sound |
| C38 | `Ulp.Str.C38_verbose` | propext, Classical.choice, Quot.sound |
| C38 | `Ulp.Str.C38_addr_minus` | propext, Classical.choice, Quot.sound |
| C38 | `Ulp.Str.C38_no_number` | propext, Classical.choice, Quot.sound |
| C39 | `Ulp.Ptrace.C39_as_found_partial` | propext, Classical.choice, Quot.sound |
| C39 | `Ulp.Ptrace.C39_x86_partial` | propext, Quot.sound |
| C39 | `Ulp.Ptrace.C39_a64_partial` | propext, Quot.sound |
| C39 | `Ulp.Ptrace.C39_regs_lost` | propext, Quot.sound |
| C39 | `Ulp.Ptrace.C39_code_lost` | propext, Quot.sound |
| C39 | `Ulp.Ptrace.C39_spurious_stop` | propext, Quot.sound |
| C40 | `Ulp.Ptrace.C40_attach` | propext, Quot.sound |
| C40 | `Ulp.Ptrace.C40_attach_ends` | propext, Quot.sound |
| C40 | `Ulp.Ptrace.C40_wait` | propext, Quot.sound |
| C40 | `Ulp.Ptrace.C40_reports` | propext, Quot.sound |
| C40 | `Ulp.Ptrace.C40_wait_reports` | propext, Quot.sound |
| C40 | `Ulp.Ptrace.C40_exit_as_signal` | propext, Quot.sound |
| C41 | `Ulp.Ptrace.C41_close` | propext, Quot.sound |
| C41 | `Ulp.Ptrace.C41_ftruncate` | propext, Quot.sound |
| C42 | `Ulp.Align.C42_round_down` | propext, Classical.choice, Quot.sound |
| C42 | `Ulp.Align.C42_round_up` | propext, Classical.choice, Quot.sound |
| C42 | `Ulp.Align.C42_align` | propext, Quot.sound |
| C42 | `Ulp.Align.C42_pages` | propext, Classical.choice, Quot.sound |
| C43 | `Ulp.Callback.C43_callbacks` | propext, Classical.choice, Quot.sound |
| C43 | `Ulp.Callback.C43_register_result` | propext, Quot.sound |
| C44 | `Ulp.Align.C44_perms` | propext, Quot.sound |
| C44 | `Ulp.Align.C44_flags` | propext, Quot.sound |
| C45 | `Ulp.VmaType.C45_rules` | propext, Classical.choice, Quot.sound |
| C45 | `Ulp.VmaType.C45_made` | propext, Classical.choice, Quot.sound |
| C45 | `Ulp.VmaType.C45_patch` | propext, Classical.choice, Quot.sound |
| C45 | `Ulp.VmaType.C45_type_names` | propext, Classical.choice, Quot.sound |
| C45 | `Ulp.VmaType.C45_not_ours` | propext, Classical.choice, Quot.sound |
| C46 | `Ulp.Vma.C46_first_read` | propext, Classical.choice, Quot.sound |
| C46 | `Ulp.Vma.C46_first_read_found` | propext, Classical.choice, Quot.sound |
| C46 | `Ulp.Vma.C46_reread_partial` | propext, Classical.choice, Quot.sound |
| C46 | `Ulp.Vma.C46_changed_mapping` | propext, Classical.choice, Quot.sound |
| C46 | `Ulp.Vma.C46_group_of_new_mapping` | propext, Classical.choice, Quot.sound |
| C47 | `Ulp.Peek.C47_load_addr` | propext, Classical.choice, Quot.sound |
| C47 | `Ulp.Peek.C47_bias_partial` | propext, Classical.choice, Quot.sound |
| C47 | `Ulp.Peek.C47_symbols_partial` | propext, Classical.choice, Quot.sound |
| C47 | `Ulp.Peek.C47_unaligned` | propext, Classical.choice, Quot.sound |
| C47 | `Ulp.Peek.C47_again` | propext, Classical.choice, Quot.sound |
| C48 | `Ulp.Log.C48_names` | propext, Classical.choice, Quot.sound |
| C48 | `Ulp.Log.C48_gate` | propext, Classical.choice, Quot.sound |
| C48 | `Ulp.Log.C48_line` | propext, Classical.choice, Quot.sound |
| C48 | `Ulp.Log.C48_set` | propext |
| C48 | `Ulp.Log.C48_option_partial` | propext, Classical.choice, Quot.sound |
| C48 | `Ulp.Log.C48_option_zero` | propext, Classical.choice, Quot.sound |
| C48 | `Ulp.Log.C48_option_tail` | propext, Classical.choice, Quot.sound |
| C49 | `Ulp.Load.C49_record` | propext |
| C49 | `Ulp.Load.C49_last_wins` | propext, Quot.sound |
| C49 | `Ulp.Load.C49_missing` | propext |
| C50 | `Ulp.Vma.C50_free_mappings` | propext, Classical.choice, Quot.sound |
| C51 | `Ulp.Sym.C51_load_symbols` | propext, Classical.choice, Quot.sound |
| C52 | `Ulp.Ptrace.C52_malloc_partial` | propext, Quot.sound |
| C52 | `Ulp.Ptrace.C52_error_as_address` | propext, Quot.sound |
| C53 | `Ulp.Ptrace.C53_reported_partial` | propext, Quot.sound |
| C53 | `Ulp.Ptrace.C53_silent` | propext, Quot.sound |
| C53 | `Ulp.Ptrace.C53_close_undefined` | propext, Quot.sound |
| C53 | `Ulp.Ptrace.C53_requests` | propext, Quot.sound |
| C54 | `Ulp.Peek.C54_freed_once_partial` | propext, Classical.choice, Quot.sound |
| C54 | `Ulp.Peek.C54_unread` | propext, Classical.choice, Quot.sound |
| C54 | `Ulp.Peek.C54_short` | propext, Classical.choice, Quot.sound |
| C54 | `Ulp.Peek.C54_no_memory` | propext, Classical.choice, Quot.sound |
| C55 | `Ulp.MapsFile.C55_fields` | propext, Classical.choice, Quot.sound |
| C55 | `Ulp.MapsFile.C55_names_partial` | propext, Classical.choice, Quot.sound |
| C55 | `Ulp.MapsFile.C55_lookup` | propext, Classical.choice, Quot.sound |
| C55 | `Ulp.MapsFile.C55_prot` | propext, Classical.choice, Quot.sound |
| C55 | `Ulp.MapsFile.C55_blank` | propext, Classical.choice, Quot.sound |
| C55 | `Ulp.MapsFile.C55_long_line` | propext, Classical.choice, Quot.sound |
| C55 | `Ulp.MapsFile.C55_rest` | propext, Classical.choice, Quot.sound |
| C56 | `Ulp.MapsFile.C56_first` | propext, Quot.sound |
| C56 | `Ulp.MapsFile.C56_kept` | propext, Quot.sound |
| C57 | `Ulp.LoadBytes.C57_x86_linked` | propext, Classical.choice, Quot.sound |
| C57 | `Ulp.LoadBytes.C57_x86_accepted` | propext, Classical.choice, Quot.sound |
| C57 | `Ulp.LoadBytes.C57_a64_linked_partial` | propext, Classical.choice, Quot.sound |
| C57 | `Ulp.LoadBytes.C57_a64_insns_partial` | propext, Classical.choice, Quot.sound |
| C57 | `Ulp.LoadBytes.C57_a64_same_partial` | propext, Classical.choice, Quot.sound |
| C57 | `Ulp.LoadBytes.C57_a64_accepted` | propext, Classical.choice, Quot.sound |
| C57 | `Ulp.LoadBytes.C57_a64_prel_wrong` | propext, Classical.choice, Quot.sound |
| C57 | `Ulp.LoadBytes.C57_live_refused` | propext, Classical.choice, Quot.sound |
| C58 | `Ulp.LoadBytes.C58_x86_patched` | propext, Classical.choice, Quot.sound |
| C58 | `Ulp.LoadBytes.C58_a64_patched_partial` | propext, Classical.choice, Quot.sound |
| C58 | `Ulp.LoadBytes.C58_a64_branch_destination` | propext, Classical.choice, Quot.sound |
| C58 | `Ulp.LoadBytes.C58_a64_call_partial` | propext, Classical.choice, Quot.sound |
| C58 | `Ulp.LoadBytes.C58_a64_call_wrong` | propext, Classical.choice, Quot.sound |
| C58 | `Ulp.LoadBytes.C58_refused` | propext, Classical.choice, Quot.sound |
| C58 | `Ulp.LoadBytes.C58_applied` | propext, Classical.choice, Quot.sound |
| C58 | `Ulp.LoadBytes.C58_unpatched` | propext, Classical.choice, Quot.sound |
| C59 | `Ulp.Mcount.X86.C59_x86_entry_partial` | propext, Classical.choice, Quot.sound |
| C59 | `Ulp.Mcount.X86.C59_x86_return_partial` | propext, Classical.choice, Quot.sound |
| C59 | `Ulp.Mcount.X86.C59_x86_entry_vector_lost` | propext, Classical.choice, Quot.sound |
| C59 | `Ulp.Mcount.X86.C59_x86_return_vector_lost` | propext, Classical.choice, Quot.sound |
| C59 | `Ulp.Mcount.A64.C59_a64_entry_partial` | propext, Classical.choice, Quot.sound |
| C59 | `Ulp.Mcount.A64.C59_a64_return_partial` | propext, Classical.choice, Quot.sound |
| C59 | `Ulp.Mcount.A64.C59_a64_entry_vector_lost` | propext, Classical.choice, Quot.sound |
| C59 | `Ulp.Mcount.A64.C59_a64_return_vector_lost` | propext, Classical.choice, Quot.sound |
| C59 | `Ulp.Mcount.X86.C59_x86_shipped_entry` | propext, Classical.choice, Quot.sound |
| C59 | `Ulp.Mcount.X86.C59_x86_shipped_return` | propext, Classical.choice, Quot.sound |
| C59 | `Ulp.Mcount.A64.C59_a64_shipped_entry` | propext, Classical.choice, Quot.sound |
| C59 | `Ulp.Mcount.A64.C59_a64_shipped_return` | propext, Classical.choice, Quot.sound |
| C60 | `Ulp.Proc.C60_values` | propext, Classical.choice, Quot.sound |
| C60 | `Ulp.Proc.C60_missing` | propext, Classical.choice, Quot.sound |
| C60 | `Ulp.Proc.C60_open_error` | none |
| C60 | `Ulp.Proc.C60_static` | propext, Classical.choice, Quot.sound |
| C60 | `Ulp.Proc.C60_read_error_hangs` | propext, Quot.sound |
| C61 | `Ulp.Proc.C61_status` | propext, Classical.choice, Quot.sound |
| C61 | `Ulp.Proc.C61_status_missing` | propext, Classical.choice, Quot.sound |
| C61 | `Ulp.Proc.C61_comm_partial` | propext, Classical.choice, Quot.sound |
| C61 | `Ulp.Proc.C61_comm_blank` | propext, Classical.choice, Quot.sound |
| C61 | `Ulp.Proc.C61_comm_empty` | propext, Quot.sound |
| C61 | `Ulp.Proc.C61_gone` | propext, Classical.choice, Quot.sound |
| C62 | `Ulp.WorkDir.C62_files_kept_partial` | propext, Classical.choice, Quot.sound |
| C62 | `Ulp.WorkDir.C62_no_litter` | propext, Classical.choice, Quot.sound |
| C62 | `Ulp.WorkDir.C62_open_close` | propext, Classical.choice, Quot.sound |
| C62 | `Ulp.WorkDir.C62_name_taken` | propext, Quot.sound |
| C62 | `Ulp.WorkDir.C62_failed_open` | propext, Quot.sound |
| C62 | `Ulp.WorkDir.C62_unpatch_leaves` | propext, Quot.sound |
| C62 | `Ulp.WorkDir.C62_taken_away` | propext, Quot.sound |
| C63 | `Ulp.OpenTask.C63_opens_iff` | propext, Classical.choice, Quot.sound |
| C63 | `Ulp.OpenTask.C63_session` | propext, Classical.choice, Quot.sound |
| C63 | `Ulp.OpenTask.C63_failed_clean` | propext, Quot.sound |
| C63 | `Ulp.OpenTask.C63_closed_clean` | propext, Classical.choice, Quot.sound |
| C63 | `Ulp.OpenTask.C63_errno_partial` | propext, Classical.choice, Quot.sound |
| C63 | `Ulp.OpenTask.C63_errno_zero` | propext, Quot.sound |
| C63 | `Ulp.OpenTask.C63_is_step` | propext, Classical.choice, Quot.sound |
| C64 | `Ulp.Ultask.C64_refused` | propext, Classical.choice, Quot.sound |
| C64 | `Ulp.Ultask.C64_protect_partial` | propext, Classical.choice, Quot.sound |
| C64 | `Ulp.Ultask.C64_end_refused` | propext, Classical.choice, Quot.sound |
| C64 | `Ulp.Ultask.C64_hole` | propext, Classical.choice, Quot.sound |
| C65 | `Ulp.Ultask.C65_refused` | propext, Classical.choice, Quot.sound |
| C65 | `Ulp.Ultask.C65_map_partial` | propext, Classical.choice, Quot.sound |
| C65 | `Ulp.Ultask.C65_silent` | propext, Classical.choice, Quot.sound |
| C65 | `Ulp.Ultask.C65_elsewhere` | propext, Classical.choice, Quot.sound |
| C65 | `Ulp.Ultask.C65_stuck` | propext, Classical.choice, Quot.sound |
| C65 | `Ulp.Ultask.C65_truncates` | propext, Classical.choice, Quot.sound |
| C66 | `Ulp.Ultask.C66_refused` | propext, Classical.choice, Quot.sound |
| C66 | `Ulp.Ultask.C66_unmap_partial` | propext, Classical.choice, Quot.sound |
| C66 | `Ulp.Ultask.C66_neighbour` | propext, Classical.choice, Quot.sound |
| C66 | `Ulp.Ultask.C66_silent` | propext, Classical.choice, Quot.sound |
| C67 | `Ulp.Ultask.C67_jump_partial` | propext, Classical.choice, Quot.sound |
| C67 | `Ulp.Ultask.C67_torn` | propext, Classical.choice, Quot.sound |
| C68 | `Ulp.Ultask.C68_dump_partial` | propext, Classical.choice, Quot.sound |
| C68 | `Ulp.Ultask.C68_reports` | propext, Classical.choice, Quot.sound |
| C68 | `Ulp.Ultask.C68_mapping` | propext, Classical.choice, Quot.sound |
| C68 | `Ulp.Ultask.C68_unread` | propext, Classical.choice, Quot.sound |
| C68 | `Ulp.Ultask.C68_tail` | propext, Classical.choice, Quot.sound |
| C68 | `Ulp.Ultask.C68_short` | propext, Classical.choice, Quot.sound |
| C69 | `Ulp.Cli.C69_subopts` | propext, Quot.sound |
| C69 | `Ulp.Cli.C69_asked` | propext, Classical.choice, Quot.sound |
| C69 | `Ulp.Cli.C69_jmp` | propext, Classical.choice, Quot.sound |
| C69 | `Ulp.Cli.C69_unmap` | propext, Classical.choice, Quot.sound |
| C69 | `Ulp.Cli.C69_mprotect` | propext, Classical.choice, Quot.sound |
| C69 | `Ulp.Cli.C69_map` | propext, Classical.choice, Quot.sound |
| C69 | `Ulp.Cli.C69_dump` | propext, Classical.choice, Quot.sound |
| C69 | `Ulp.Cli.C69_output` | propext, Classical.choice, Quot.sound |
| C69 | `Ulp.Cli.C69_no_overwrite` | propext, Classical.choice, Quot.sound |
| C69 | `Ulp.Cli.C69_pid` | propext, Classical.choice, Quot.sound |
| C69 | `Ulp.Cli.C69_jmp_accepted` | propext, Classical.choice, Quot.sound |
| C69 | `Ulp.Cli.C69_mprotect_accepted` | propext, Classical.choice, Quot.sound |
| C69 | `Ulp.Cli.C69_dump_accepted` | propext, Classical.choice, Quot.sound |
| C69 | `Ulp.Cli.C69_len_unit` | propext, Classical.choice, Quot.sound |
| C69 | `Ulp.Cli.C69_dump_twice` | propext, Classical.choice, Quot.sound |
| C69 | `Ulp.Cli.C69_pid_cut` | propext, Classical.choice, Quot.sound |
| C69 | `Ulp.Cli.C69_base16` | propext, Classical.choice, Quot.sound |
| C70 | `Ulp.Cli.C70_ignored` | propext, Classical.choice, Quot.sound |
| C70 | `Ulp.Cli.C70_violated` | propext, Classical.choice, Quot.sound |
| C70 | `Ulp.Cli.C70_look_partial` | propext, Classical.choice, Quot.sound |
| C70 | `Ulp.Cli.C70_patch_ignored` | propext, Quot.sound |
| C70 | `Ulp.Cli.C70_trace_ignored` | propext, Quot.sound |
| C71 | `Ulp.Cli.C71_status_partial` | propext, Quot.sound |
| C71 | `Ulp.Cli.C71_violated` | propext, Classical.choice, Quot.sound |
| C72 | `Ulp.Cli.C72_patch_partial` | propext, Quot.sound |
| C72 | `Ulp.Cli.C72_unpatch_partial` | propext, Quot.sound |
| C72 | `Ulp.Cli.C72_no_pid` | propext, Quot.sound |
| C72 | `Ulp.Cli.C72_violated` | propext, Classical.choice, Quot.sound |
| C73 | `Ulp.Cli.C73_default_partial` | propext |
| C73 | `Ulp.Cli.C73_violated` | propext, Classical.choice, Quot.sound |
| C73 | `Ulp.LoadBytes.C73_no_function_partial` | propext, Classical.choice, Quot.sound |
| C73 | `Ulp.LoadBytes.C73_stays_x86` | propext, Classical.choice, Quot.sound |
| C73 | `Ulp.LoadBytes.C73_stays_a64` | propext, Classical.choice, Quot.sound |
| C73 | `Ulp.LoadBytes.C73_takes_out_x86` | propext, Classical.choice, Quot.sound |
| C73 | `Ulp.LoadBytes.C73_takes_out_a64` | propext, Classical.choice, Quot.sound |
| C74 | `Ulp.Bfd.C74_lookup_partial` | propext, Classical.choice, Quot.sound |
| C74 | `Ulp.Bfd.C74_unique_partial` | propext, Classical.choice, Quot.sound |
| C74 | `Ulp.Bfd.C74_overflow` | propext, Classical.choice, Quot.sound |
| C74 | `Ulp.Bfd.C74_null_name` | propext, Classical.choice, Quot.sound |
| C74 | `Ulp.Bfd.C74_refused` | propext, Classical.choice, Quot.sound |
| C74 | `Ulp.Bfd.C74_violated` | propext, Classical.choice, Quot.sound |
| C75 | `Ulp.Bfd.C75_iterate_partial` | propext, Classical.choice, Quot.sound |
| C76 | `Ulp.Bfd.C76_close_partial` | propext, Classical.choice, Quot.sound |
| C76 | `Ulp.Bfd.C76_leak` | propext, Classical.choice, Quot.sound |
| C77 | `Ulp.Bfd.C77_find_partial` | propext, Classical.choice, Quot.sound |
| C77 | `Ulp.Bfd.C77_violated` | propext, Classical.choice, Quot.sound |
| C78 | `Ulp.Bfd.C78_build_id` | propext, Classical.choice, Quot.sound |
| C78 | `Ulp.Bfd.C78_null` | propext |
| C78 | `Ulp.Bfd.hex2_digits` | propext, Classical.choice, Quot.sound |
| C79 | `Ulp.PFile.C79_other_files_partial` | propext, Classical.choice, Quot.sound |
| C79 | `Ulp.InfoShell.C79_any_size_partial` | propext, Classical.choice, Quot.sound |
| C79 | `Ulp.PFile.C79_success_partial` | propext, Classical.choice, Quot.sound |
| C79 | `Ulp.PFile.C79_removes` | propext, Classical.choice, Quot.sound |
| C79 | `Ulp.PFile.C79_destroys` | propext, Classical.choice, Quot.sound |
| C79 | `Ulp.PFile.C79_left` | propext, Classical.choice, Quot.sound |
| C79 | `Ulp.PFile.C79_crash` | propext, Classical.choice, Quot.sound |
| C80 | `Ulp.PFile.C80_once` | propext, Classical.choice, Quot.sound |
| C80 | `Ulp.PFile.C80_keeps` | propext, Classical.choice, Quot.sound |
| C80 | `Ulp.PFile.C80_success_partial` | propext, Classical.choice, Quot.sound |
| C80 | `Ulp.PFile.C80_leak` | propext, Classical.choice, Quot.sound |
| C81 | `Ulp.PFile.C81_other_files` | propext, Classical.choice, Quot.sound |
| C81 | `Ulp.PFile.C81_failed_partial` | propext, Classical.choice, Quot.sound |
| C81 | `Ulp.PFile.C81_success` | propext, Classical.choice, Quot.sound |
| C81 | `Ulp.PFile.C81_removes` | propext, Classical.choice, Quot.sound |
| C81 | `Ulp.PFile.C81_crash` | propext, Classical.choice, Quot.sound |
| C81 | `Ulp.PFile.C81_taken` | propext, Classical.choice, Quot.sound |
| C82 | `Ulp.PFile.C82_prints` | propext, Classical.choice, Quot.sound |
| C82 | `Ulp.PFile.C82_accepts` | propext, Classical.choice, Quot.sound |
| C83 | `Ulp.Live.C83_shows` | propext, Classical.choice, Quot.sound |
| C83 | `Ulp.Live.C83_x86_patched` | propext, Classical.choice, Quot.sound |
| C83 | `Ulp.Live.C83_a64_patched` | propext, Classical.choice, Quot.sound |
| C84 | `Ulp.Live.C84_skipped_partial` | propext, Classical.choice, Quot.sound |
| C84 | `Ulp.Live.C84_others_partial` | propext, Classical.choice, Quot.sound |
| C84 | `Ulp.Live.C84_short` | propext, Classical.choice, Quot.sound |
| C84 | `Ulp.Live.C84_no_record` | propext, Classical.choice, Quot.sound |
| C84 | `Ulp.Live.C84_incomplete` | propext, Classical.choice, Quot.sound |
| C84 | `Ulp.Live.C84_not_listed` | propext, Classical.choice, Quot.sound |
| C84 | `Ulp.Live.C84_no_build_id` | propext, Classical.choice, Quot.sound |
| C85 | `Ulp.ElfFile.C85_lookup_partial` | propext, Classical.choice, Quot.sound |
| C85 | `Ulp.ElfFile.C85_type_ignored` | propext, Classical.choice, Quot.sound |
| C86 | `Ulp.ElfFile.C86_iterate_partial` | propext, Classical.choice, Quot.sound |
| C86 | `Ulp.ElfFile.C86_dropped` | propext, Classical.choice, Quot.sound |
| C87 | `Ulp.ElfFile.C87_history_partial` | propext, Classical.choice, Quot.sound |
| C87 | `Ulp.ElfFile.C87_close_constant` | propext, Classical.choice, Quot.sound |
| C87 | `Ulp.ElfFile.C87_other_user` | propext, Classical.choice, Quot.sound |
| C87 | `Ulp.ElfFile.C87_leak_refused` | propext, Classical.choice, Quot.sound |
| C87 | `Ulp.ElfFile.C87_leak_build_id` | propext, Classical.choice, Quot.sound |
| C87 | `Ulp.ElfFile.C87_wrap` | propext, Classical.choice, Quot.sound |
| C87 | `Ulp.ElfFile.C87_no_header` | propext, Classical.choice, Quot.sound |
| C87 | `Ulp.ElfFile.C87_no_name` | propext, Classical.choice, Quot.sound |
| C87 | `Ulp.ElfFile.C87_no_section` | propext, Classical.choice, Quot.sound |
| C88 | `Ulp.ElfFile.C88_identity` | propext, Classical.choice, Quot.sound |
| C89 | `Ulp.Files.C89_copy_partial` | propext, Quot.sound |
| C89 | `Ulp.Files.C89_never_overwrites` | propext, Quot.sound |
| C89 | `Ulp.Files.C89_refused` | propext, Quot.sound |
| C89 | `Ulp.Files.C89_disk_full` | propext, Quot.sound |
| C89 | `Ulp.Files.C89_read_error` | propext, Quot.sound |
| C89 | `Ulp.Files.C89_directory` | propext, Quot.sound |
| C89 | `Ulp.Files.C89_success` | propext, Classical.choice, Quot.sound |
| C89 | `Ulp.Files.C89_denied` | propext, Quot.sound |
| C89 | `Ulp.Files.C89_big` | propext, Quot.sound |
| C90 | `Ulp.Files.C90_remove_partial` | propext, Classical.choice, Quot.sound |
| C90 | `Ulp.Files.C90_only_removes` | propext, Quot.sound |
| C90 | `Ulp.Files.C90_nothing` | propext, Quot.sound |
| C90 | `Ulp.Files.C90_link` | propext, Classical.choice, Quot.sound |
| C90 | `Ulp.Files.C90_dangling` | propext, Quot.sound |
| C90 | `Ulp.Files.C90_special` | propext, Quot.sound |
| C90 | `Ulp.Files.C90_unreadable` | propext, Quot.sound |
| C90 | `Ulp.Files.C90_long` | propext, Quot.sound |
| C91 | `Ulp.Files.C91_touch_partial` | propext, Quot.sound |
| C91 | `Ulp.Files.C91_existing` | propext, Quot.sound |
| C91 | `Ulp.Files.C91_keeps` | propext, Quot.sound |
| C91 | `Ulp.Files.C91_disk_full` | propext, Quot.sound |
| C91 | `Ulp.Files.C91_regular` | propext, Quot.sound |
| C91 | `Ulp.Files.C91_exists` | propext, Quot.sound |
| C91 | `Ulp.Files.C91_remove` | propext, Classical.choice, Quot.sound |
| C91 | `Ulp.Files.C91_dangling` | propext, Quot.sound |
| C91 | `Ulp.Files.C91_success` | propext, Classical.choice, Quot.sound |
| C91 | `Ulp.Files.C91_loop` | propext, Quot.sound |
| C91 | `Ulp.Files.C91_big` | propext, Quot.sound |
| C92 | `Ulp.TaskList.C92_threads` | propext, Classical.choice, Quot.sound |
| C92 | `Ulp.TaskList.C92_gone` | propext, Classical.choice, Quot.sound |
| C93 | `Ulp.TaskList.C93_fds_partial` | propext, Classical.choice, Quot.sound |
| C93 | `Ulp.TaskList.C93_vanished` | propext, Classical.choice, Quot.sound |
| C94 | `Ulp.Dump.C94_dump_partial` | propext, Classical.choice, Quot.sound |
| C94 | `Ulp.Dump.C94_count` | propext, Classical.choice, Quot.sound |
| C94 | `Ulp.Dump.C94_overread` | propext, Classical.choice, Quot.sound |
| C94 | `Ulp.Dump.C94_nothing` | propext, Classical.choice, Quot.sound |
| C95 | `Ulp.TaskMem.C95_read_partial` | propext, Quot.sound |
| C95 | `Ulp.TaskMem.C95_write_partial` | propext, Quot.sound |
| C95 | `Ulp.TaskMem.C95_round_trip_partial` | propext, Quot.sound |
| C95 | `Ulp.TaskMem.C95_long` | propext, Quot.sound |
| C95 | `Ulp.TaskMem.C95_overflow` | propext, Quot.sound |
| C95 | `Ulp.TaskMem.C95_stale` | propext, Quot.sound |
| C95 | `Ulp.TaskMem.C95_cut` | propext, Quot.sound |
| C96 | `Ulp.TaskMem.C96_modify_partial` | propext, Classical.choice, Quot.sound |
| C96 | `Ulp.TaskMem.C96_safe` | propext, Quot.sound |
| C96 | `Ulp.TaskMem.C96_refused` | propext, Quot.sound |
| C96 | `Ulp.TaskMem.C96_unmapped` | propext, Quot.sound |
| C96 | `Ulp.TaskMem.C96_garbage` | propext, Classical.choice, Quot.sound |
| C96 | `Ulp.TaskMem.C96_errors` | propext, Quot.sound |
| C97 | `Ulp.TaskMem.C97_first_bl_partial` | propext, Classical.choice, Quot.sound |
| C97 | `Ulp.TaskMem.C97_none` | propext, Classical.choice, Quot.sound |
| C98 | `Ulp.Listing.C98_table_partial` | propext, Classical.choice, Quot.sound |
| C98 | `Ulp.Listing.C98_each_once` | propext, Classical.choice, Quot.sound |
| C98 | `Ulp.Listing.C98_ragged` | propext, Classical.choice, Quot.sound |
| C99 | `Ulp.Listing.C99_table_partial` | propext, Classical.choice, Quot.sound |
| C99 | `Ulp.Listing.C99_columns` | propext, Classical.choice, Quot.sound |
| C99 | `Ulp.Listing.C99_vclock` | propext, Classical.choice, Quot.sound |
