# Formal model of Rtoax/ulpatch

`lean/Verif/` is a Lean 4 model of ulpatch (the sources under `/repo/src`) with
machine-checked proofs of the properties listed in `properties.jsonl`.
`MANIFEST.json` maps every property to its theorems.

## Layout

| directory | content |
|---|---|
| `Verif/Model/*.lean`  | the model: one definition per C function, each with a comment giving the file and lines it models and what was simplified |
| `Verif/Spec/*.lean`   | small specifications that do not mention the model (CPU semantics of the few instructions involved, "interval", "stack of overlays", "list of pieces", ...) |
| `Verif/Proof/*.lean`  | helper lemmas |
| `Verif/Props/*.lean`  | the property theorems `Cnn_...`, each with an `example` showing that a concrete non-trivial case meets its hypotheses; findings (negations with witnesses) are here too |

## Conventions

* Undefined behaviour is a distinct outcome.  C code that can dereference a bad
  pointer, read freed memory or run for ever is modelled in `Option`
  (`none` = undefined behaviour or out of fuel); theorems say `= some ...`.
* Machine words are `BitVec 64`/`BitVec 32` wherever wrap-around matters.
* `unsigned long` pointers to heap nodes are natural numbers, 0 is `NULL`.
* Loops are structural recursion when they run over a sequence, and recursion
  on fuel otherwise; theorems about fuelled loops give a sufficient fuel, so
  they include termination.
* System calls are parameters: an "environment" that may answer anything the
  real call may answer (success, error, short count).  Theorems quantify over
  all environments.

## Plan per property

| id | what is modelled | how it is proved |
|---|---|---|
| C01 | 16-byte entry, byte memory, x86 decode of `FF /4` with RIP-relative memory operand | bit-vector computation for all addresses |
| C02 | same, A64 `LDR (literal)`, `BR` | same |
| C03 C04 C05 C06 C07 C08 C09 | world = byte memory + live patch mappings (with the metadata each carries) + attached flag; session = what `open_task` reads; `init_patch`, `delete_patch` step by step with an environment deciding every system call | invariant "memory is base overlaid with the stack of live patches" by induction over histories; negations with witness where the code violates the property |
| C10 C11 C12 | x86 `arch_apply_relocate_add` over byte memory | loop induction with frame conditions |
| C13 | `apply_relocations`, `rewrite_section_headers` | induction over the section table |
| C14 C15 C16 | A64 immediate encode/decode, `reloc_*` | bit-vector extensionality per bit |
| C17 C18 | `text_gen_insn`, `gen_branch_imm` and decoders | bit-vector/integer arithmetic |
| C19 C20 C21 C22 | `setup_load_info`, `find_sec`, `parse_ulpatch_strtab`, length checks, `simplify_symbols` | decision logic stated outright, induction over tables |
| C23 | `elf_strbuildid` | injectivity by decoding |
| C24 C25 C26 C27 | pointer-level heap model of the red-black tree (parent, colour, left, right) | refinement to inductive trees via a zipper; red-black invariants; functional map semantics |
| C28 | pointer-level doubly linked lists | refinement to sequences |
| C29 | `list_sort` with its pending list and counter | invariants on pending lists |
| C30 C31 C46 | VMA tree, `find_vma`, `find_vma_span_area`, `read_task_vmas` | ordered-tree theorems with interval keys |
| C32 C33 C34 | symbol registration, lookup, reference counts | induction over registration sequences |
| C35 C36 C37 C38 | string utilities on byte lists | induction over strings |
| C39 C40 C41 | `task_syscall`, attach and wait loops, remote close | case analysis over environments, induction over wait statuses |
| C42 | alignment macros | bit-vector arithmetic for all powers of two |
| C43 | callback chain | refinement to sequence |
| C44 C45 C47 C48 | decision logic | stated outright |
| C49 | what a patch file records about itself, from `ULPATCH_*` macros to `setup_load_info` | decision logic, induction over the section table |
| C50 | `free_task_vmas` at pointer level | induction over the list, with the tree invariant |
| C51 | `task_load_vma_elf_syms` over all mappings | reduction to C32 |
| C52 C53 | `task_malloc` and the operations on remote system calls | case analysis over environments |
| C54 | `vma_peek_elf_hdrs` and `vma_free_elf` with failing and short reads | case analysis; header bytes by round trip |
| C55 C56 | `fgets`, `sscanf` with the format used, the loop of `read_task_vmas` over the bytes of the file | round trip with the kernel's line format, induction over the mappings |
| C57 | `load_patch` from the bytes of the file on: `setup_load_info`, `rewrite_section_headers`, `simplify_symbols`, `apply_relocations`, `solve_patch_symbols`, every access to the image checked | a list of file bytes is refined to the sections, symbols and relocations of Spec/PatchFile; each pass by induction over its table with a frame (bytes it may change); the result is stated by `Linked` (Spec/Linked) with the psABI values of Spec/X86Psabi and Spec/A64Psabi |
| C58 | `init_patch` of the `Patch` model with the byte-level `load_patch` of `LoadBytes` as its loader | composition of C57 with the success path of `initPatch` (two writes), C01, C02 and C03 |
| C59 | the four stubs as instruction lists over a small instruction semantics (`Spec/X86Asm`, `Spec/A64Asm`); the hook is any state transformer that keeps the calling convention | symbolic execution up to the call, frame of the callee, symbolic execution of the rest |
| C60 | `load_task_auxv` on the bytes that `read` returns, 16 at a time; the read loop on fuel | induction over the entries: the fields hold the last value of each type |
| C61 | `fgets`, `sscanf` and `fscanf` as used, on the bytes of the files | induction over the lines before, between and after |
| C62 | the directory of a process, the patches mapped in it, and for each session the (possibly old) list of patches it knows; one step per operation | invariant by induction over the history: the files in `map_files` are exactly those of the mapped patches |
| C63 | `open_task` and `close_task` with each step replaced by the answer it gives | case analysis over the first step that fails |
| C64–C66 | `ultask --mprotect/--map/--unmap` as programs over requests to an arbitrary kernel; a lawful kernel is one whose answers agree with a page-level address space (Spec/AddrSpace, Spec/Requests) | case analysis on the answers; an example kernel (Spec/LinuxEx) is proved lawful and used for the non-vacuity examples |
| C67, C68 | `run_jmp`, `dump_task_addr_to_file`, `dump_task_vma_to_file` over memory with transfers of any length | case analysis; the executed instructions from C01 and C02 |
| C69–C73 | the option loops and checks of ultask, ulpatch and ulftrace as folds over the options `getopt_long` returns; sub-options from the text | round trip of the text of sub-options; what one option sets, and that no other option touches it, by induction over the command line |
| C74–C76, C78 | reading the symbols with libbfd: filtering, names up to `@`, the three trees (on the model of the red-black trees), lookup, iteration, closing | the three trees hold, after any prefix of the table, the first symbol of each kind and name (induction over the table, `Inv` of C24); refinement to "the first symbol of the table" |
| C77 | the symbol tables of all mapped files through `bfd_elf_open`, the iterators, `task_load_vma_elf_syms` and `find_task_sym` | composition of C75 and C51 |
| C79–C81 | `ulpinfo --patch` and `init_patch` with the files, descriptors, mappings and blocks of memory they take and give back, where every call may fail | a weakest precondition for each function, carrying which files changed and the multiset of what was taken |
| C82 | the same model with the texts that are printed | the sections found by `setup_load_info` (C36) are those the specification of patch files names; each text ends at its NUL |
| C83, C84 | `vma_load_ulp`, `load_ulp_info_from_vma` and `ulpinfo --pid` on the bytes of the mapping | the bytes that loading changes (C57, C58) do not meet the section headers but for address and flags, nor the metadata; so `setup_load_info` finds in the mapping what it found in the file; induction over the symbols and over the mappings |
| C85, C86, C87, C88 | `elf_file_open`, `elf_file_close`, the lookups and `for_each_symbol` as programs that take and give back pieces of memory, descriptors and libelf handles; the tree of symbols is the red-black tree of C23 | total correctness of each function with the exact multiset of what is held; the tree holds for each class and name the first symbol (induction over the table); induction over the calls |
| C89, C90, C91 | the file system as a finite map from paths to files, directories, links and special files, with path resolution; disk room, the buffer of a stream and a read that fails as parameters | copying: induction over the bytes; removing: induction over the number of entries, with the set of paths that is left |
| C92, C93 | the directory listing as any interleaving of numbers with `.` and `..`; `readlink` as a function that may fail | round trip of `atoi` with the decimal text, induction over the listing |
| C94 | `memshow` as a function from memory to text, where reading past the readable bytes is an error | position of each character in a line of 80, induction over the lines |
| C95, C96, C97 | the memory of a process with the set of mapped addresses; a transfer stops at the first byte that is not mapped, and gives -1 if that is the first one | induction over the string from any position on; case split over the transfer; induction over the words of the body |
| C98 | the tree of names walked with `next_task_sym`, the text of `printf` with its widths | the walk gives the tree in order; the groups are those of C32; width by induction over the walk |
| C99 | `print_vma` on what C55 reads from the file | induction over the mappings, each with the numbers of C55 and the kind of C45 |
| C100 | options in the order of `getopt_long`, as for the other tools | induction over the options |
| C101 | `check_patch_file` on the monad of C69-C72 with all failures of the system | weakest preconditions of the three steps, then the section table of C52 |
| C102 | the pointer to the current task with a history of `open_task` and `close_task` | invariant by induction over the history |
| C103 | what is at the path, user and umask; `mkdirat` and `chmod` as the system does them | cases; induction over the starts |
| C104 | the two cached numbers and the loop over shifts | the loop ends at k by induction; invariant over the calls |
| C105 | `task_open` on the remote system calls of C08, with memory mapped for the path | frame lemmas of the memory, made calls |
| C106 | `task_fstat` in the same way | as C105 |
| C107 | the functions of proc.c over a system that answers for names | lengths of the formatted names, list lemmas of the copied string |
| C108 | the tables of fillings, and a small semantics of x86_64 instructions that do nothing | decode the bytes at any address of any memory and step |
| C109 | `fdisasm_arch` over any disassembler, and the command of ultask around it | induction over the decoded pieces |
| C110 | `print_ehdr`, `print_phdr` and the details of a mapping | line by line against tables of names; reading back |
| C111 | `fprint_sym` | as C110 |
| C112 | threads that execute instructions of any processor between the single stores of `kick_target_process` and `delete_patch` | refinement of an ideal process that keeps its code and is redirected at the entry; invariant over all schedules; the two machines as instances |
| C113 | as C112, with the mappings of the process | frame property of every instruction; the instruction fetch of a thread in the image |
| C114 | the single actions of `task_syscall` between instructions of threads | refinement of an ideal process for which only the effect of the system call is visible; invariant over all schedules |
| C115 | prefixes of the actions of C112 followed by the release of the stopped thread; the registers and code in the middle of a system call | invariant of C112 for prefixes; execution of the left code with the specification of system calls |
| C116 | the stages of patch and unpatch commands, interleaved by a schedule | each command alone refines the command of `Model/Patch`; invariant over all schedules for jobs that do not meet; concrete interleavings for the findings |
| C117 | the loops of `open_task` and `close_task` over the mappings: headers, open files, the handles kept in the task | induction over the list of mappings; the open files are a permutation of the ones that the mappings refer to |
| C118 | `print_task` and `print_task_status`, with `proc_get_pid_status`, the header of the executable and the history model | composition with C61 (status file), C54 (headers) and C04/C07 (histories); the text is compared with a separate specification |
| C119 | `runFiles`: commands one after the other, each with the bytes of its file (C57, C58), on the process of C04; the live patches with their files as ghost state | induction over the history: the invariant of C04 and C07, together with "every live image is intact"; the frame of each command shows that it writes outside of the other images; composition with C01/C02 (processor) and C83 (reading back) |
| C120 | `traceFile`: `ulftrace` with the bytes of its object; `tracingNames`: the names in the metadata of the object | C57 (`load` accepts only with both symbols) and the step of C119; composition with C58 |
| C121 | `loadLog`: `load` with the dump of the string table by `memshowinlog` | C94 for the dump, C19 and C57 for the file; induction over the lines for the over-read |
| C122 | `peekElfHdrs` as for C47; the relation of a segment to its pages is in Spec/Segment.lean | the two loops over the program headers as folds; the last header that tells wins; then the layout of GNU files |
| C123 | `shareLib` in `peekElfHdrs` | decision logic stated outright, for every header table |
| C124 | `Vma.nextVma`, `Sym.nextTaskSym`, `Sym.nextTaskAddr` on the trees of C24 to C26; what a walk visits is in Spec/Walk.lean | the next node of a tree is the next of its in-order list; then the invariants of the two collections |
| C125 | `fmd5sum` with the answers of the file system and of OpenSSL as parameters | induction on the pieces read |
| C126 | The static variables as a state that outlives a call; `call` resets what the code resets | simulation between any two states of the variables, then histories as a special case; the variable that is not reset gives the witness |
| C127 | `elf_core_init`, the order of options, checks and `ulpatch_init` in `call` | case analysis of a call; `find?` characterised by its prefix |
| C128 | `Sys.step`: a run of `ulpatch` or `ulftrace` from the command line (C72, C73) over the check of the file (C101) to the process (C119), in a system of files and processes; processes begin and end | the check does not depend on what was in `temp.ulp` (a relation on the worlds of C101, kept by each call); each run is nothing or one command on one process; induction over the events; composition with C119 |
| C129 | `runFiles` (C119) with arbitrary files and environments; `patchFile` tells whether a refused file has got past `rewrite_section_headers` (`headersDone`, `refused`) | length of the image kept by each step of `load` on any file; invariant: the record of every live patch has the address of a named function or the one in a file that was left behind; frame of each write; induction over the commands |
| C130 | `ultask` composed of the command line parser (C69), the memory map reader (C46), the requests (C64-C66), the jump and the dumps (C67, C68); the kernel is any function whose answers are Linux's (`LawfulP`); memory is kept apart from the address space | frame relation (pages, protections, bytes) closed under composition; each action establishes it; invariant that every known mapping comes from a line that was read; induction over the actions and over the runs |
| C131 | as C130; `Grants`: the kernel lets the tool attach and unmap; `GrantsMap`: it opens and maps files if it can; `Whole`: complete transfers; `Names`: the bytes a dump names | the order of the actions (`acts`) is split at the action in question; what the actions before and after it leave alone; every address of a line is found in its structure (C46), also after the lines are read again behind `--map` |
| C132 | the tables of options, the option strings and the `switch` of each tool; `getopt_long` of glibc as a function from words to return values; the help texts as a separate table; a relation between words and the options they write | the tables agree with the help texts (whole finite tables, all 256 letters); then by induction over the words, in both directions |
| C133 | `ultask` cut after any number of its actions, of the requests of the next one, or of the bytes of the jump; the kernel then detaches | the invariant of C130 for prefixes; at most one request of an action changes pages, so every moment is like the beginning or the end of it; induction over the runs |
| C134 | the commands of C119 together with `run_jmp` on the same process | the invariant of C119 over a base that grows: a write away from all redirects commutes with them, so it can be done first; induction over the commands |
| C135 | `run_jmp` as single stores between the instructions of threads, among the actions of C112 | the simulation of C112; the jump is one more sequence of actions that are honest about what they write |
| C136 | histories of the commands of C119 and the runs of C130/C133 on one memory | the invariant of C119 is kept by a run of `ultask` that does not name what belongs to a patch, by the frame of C130/C133; its changes go below the redirects (`Layers_over`) |
| C137 | the commands of C119, with failing attach, write and unmap calls in the last step and the clean-up | the command is compared with its twin whose last step works: both leave the same mappings, and the memory differs by the 16 bytes of the entry (`initPatch_late`); so the invariant of C119 holds with the new patch idle |
| C138 | the actions of all commands, one store at a time, interleaved with instructions of threads; a stack of live patches for several functions | an invariant relates the process with one that has all its code in place (`inv_acts`); that the actions of ulpatch keep it (`honest_tool`) is proved by induction over the commands with the stack of patches |
| C139 | the words of the command lines (C132) in front of the runs in a system (C128) | the words are read as the options they write (C132_read), so a session is a history of C128; status 0 is traced back through the run to the command on the process (`zero`), and the invariant of C119 gives the patch and the code |
| C140 | the words of the command line (C132) in front of a run of ultask (C130, C131) | the words are read as the options they write (C132_read); `-p` commutes with every other option and the options for logging do nothing, so the command line is one that C69 accepts; C130 and C131 give the effect; for arbitrary words the options that a run acts on are traced back to the words (C69_asked) |
| C141 | the words of ulpinfo (C132) on the system of C128 and C139, reading the memory of the process (C83) | the words are read as the options they write (C132_read, C100_shows); C139 gives the live patches of every process after a session, C119_listed what is read back and shown; C82 for files; all paths for the frame |
| C142 | the four tools, as they are typed, on the system of C128: processes, files, and for each run of ultask the kernel and its view of the process | each line changes at most the process that its last -p names (shape, task_pid); so every process is as after the uses of the tools on it alone, to which C136 applies; C141 for what ulpinfo prints then; induction over the session |
| C143 | the four tools, as they are typed, on the system of C128 | by cases over the loop over the options and over the checks behind it: every status with which they end the program is known, and only that of the help is 0 modulo 256; behind them the process is looked for (ultask, ulpatch, ulftrace), or cannot be opened (ulpinfo) |
| C144 | the four tools, as they are typed, on the system of C128 | words that do not write options make getopt return ? (C132_only_partial); so the loop over the options ends the program, and nothing has been done before; the status is 0 modulo 256 only for the help and the like |
| C145 | the sessions of C142 | what is not for the process leaves its life as it is (step_off, fold_filter), so both sessions have the same life of it; C142 says that the process at the end is a function of its life |
| C146 | the sessions of C142, with no condition on the lines | each line by itself: C139 and C142 say which lines can change a process, C79 what ulpinfo does with files; then induction over the session |
| C147 | the sessions of C142, with no condition on the processes | a simulation between the session and the one without the looks: the same processes and the same files but for temp.ulp (step_any, type_any), which every line keeps |
| C148 | the sessions of C142, with no condition on the processes | a simulation that keeps the process and the files but for temp.ulp: a line that is not for the process changes neither (C146), a line that is for it sees nothing else (type_own) |

## What is modelled

| model file | code |
|---|---|
| `Mem` | process memory as seen through `/proc/PID/mem` (src/task/memcpy.c:66-92) |
| `JmpTable`, `X86Insn`, `A64Insn` | jump table entries, instruction generation (src/patch/asm.h, src/arch/*/) |
| `Patch` | applying and removing patches: src/patch/patch.c (`init_patch`, `load_patch`, `kick_target_process`, `delete_patch`), src/task/patch.c, src/ulftrace.c |
| `Load`, `Rela`, `X86Reloc`, `A64Reloc` | the patch file: `alloc_patch_file`, `setup_load_info`, `rewrite_section_headers`, `simplify_symbols`, `apply_relocations`, relocation of both machines |
| `Str` | src/utils/string.c: byte texts, splitting, numbers; src/elf/note.c `elf_strbuildid` |
| `Align` | src/utils/macros.h alignment; protection bits of src/task/vma.c |
| `CList` | src/utils/list.h and `list_sort`, at pointer level |
| `Callback` | src/utils/callback.c |
| `RbTree` | src/utils/rbtree.c at pointer level |
| `Vma` | src/task/vma.c: insertion, lookup, span search, reading maps, freeing |
| `VmaType` | src/task/vma.c: kinds of mappings |
| `Sym`, `SymLoad` | src/task/symbol.c |
| `Ptrace` | src/task/syscall.c and attach/detach of src/task/core.c |
| `PeekElf` | src/task/core.c: ELF headers of mappings |
| `Log` | src/utils/log.c and the option in src/args-common.c |
| `MapsFile` | src/task/vma.c: `read_task_vmas` from the bytes of `/proc/PID/maps` on |
| `LoadBytes` | src/patch/patch.c: `load_patch` and the passes it calls, on the bytes of the file |
| `LoadPatch` | src/patch/patch.c: `init_patch` on the bytes of a patch file |
| `Mcount` | src/arch/x86_64/mcount.S and src/arch/aarch64/mcount.S (the CFI directives are left out) |
| `Proc` | src/task/auxv.c, src/task/proc.c:101-199 |
| `WorkDir` | src/task/core.c:533-570, 582-628 and the file part of src/patch/patch.c:976-1091 |
| `OpenTask` | src/task/core.c:452-576, 614-679 (order of steps, resources, error) |
| `LoadBytes` on aarch64, instruction fields | the whole `switch` of src/arch/aarch64/patch.c:230-405 on the bytes of a file (Proof/LoadA64, Props/LoadA64) |
| `Ultask` (Model/Ultask.lean) | src/ultask.c:595-722, 766-825; src/task/memcpy.c:66-92, 115-174; `fsize` of src/utils/file.c. Not modelled: what is printed, `malloc` returning NULL for a dump |
| `Cli` (Model/Cli.lean) | src/ultask.c:108-593, 855-931; src/ulpatch.c:82-152, 196-240; src/ulftrace.c:77-200; src/args-common.c:51-101. `getopt_long` is in Model/Getopt.lean. Not modelled: what is printed |
| `BfdSym`, `BfdTask` (Model/BfdSym.lean, Model/BfdTask.lean) | src/elf/symbol-bfd.c:18-525 and the loops of src/task/symbol.c:290-343 over it. What libbfd reads from the file (the three symbol tables) is input; each tree has its own memory; a failing `malloc` is not modelled |
| `PFile` (Model/PatchFile.lean) | src/ulpinfo.c:94-132, src/patch/patch.c:28-243, 306-367, 919-1037 and the functions of src/utils/file.c they use. The layout of the printed lines, the date (`strftime`), the file of `mkstemp`, directories and links are left out; what happens in the target process is an arbitrary result |
| `Live` (Model/LiveUlp.lean) | src/task/patch.c:29-122, src/patch/patch.c:248-304, src/ulpinfo.c:134-192. Formatting, `strftime` and `print_vma` are left out; the symbols are given to `link_task_sym` in the order of the table (C61) |
| `ElfFile` (Model/ElfFile.lean) | src/elf/open.c:17-231, src/elf/section.c, src/elf/symbol.c:125-456, src/elf/note.c:255-349. What libelf gives for a file is data; `handle_phdrs`, `handle_relocs` and symbol versions are left out; memory is not exhausted |
| `Files` (Model/Files.lean) | src/utils/file.c:42-162, 198-258. Simplified: one process, no permissions but three sets of paths, relative links are not modelled |
| `TaskList` (Model/TaskList.lean) | src/task/thread.c, src/task/fd.c, src/utils/file.c:411-432 |
| `Dump` (Model/Dump.lean) | src/utils/string.c:21-71 (`memshow`) |
| `TaskMem` (Model/TaskMem.lean) | src/task/memcpy.c:94-113, src/arch/aarch64/insn.c:16-47, 224-234, src/arch/aarch64/ftrace.c:20-47 |
| `Listing` (Model/Listing.lean) | src/ultask.c:724-764, src/task/vma.c:407-442, 466-480. Not: the details of `-v` for mappings |
| `Cli` (Model/InfoCli.lean) | src/ulpinfo.c:26-106, 199-228 |
| `checkPatchFile` (Model/CheckFile.lean) | src/ulpatch.c:155-188 |
| `Init` (Model/Init.lean) | src/init.c:29-48, 67-110 (not `init_syslog`, `elf_core_init`), src/task/current.c:27-65 |
| `taskOpen`, `taskOpen2`, `taskFstat`, `taskFree`, `taskMsyncSync`, `taskMsyncAsync` (Model/RemoteFile.lean) | src/task/syscall.c:293-301, 315-350, 392-415 |
| `openPidMaps`, `openPidMemFlags`, `procPidExist`, `readProcPidSymlink`, `procPidExe`, `procPidCwd` (Model/ProcLinks.lean) | src/task/proc.c:22-99 |
| `k8_nops`, `p6_nops`, `idealNops`, `ftraceNopReplace` (Model/Nops.lean) | src/arch/x86_64/nops.h, alternative.c, ftrace.c:15-18 |
| `fdisasm`, `fprintBytes`, `fmembytes`, `runDisasm` (Model/Disasm.lean); capstone is any function | src/utils/disasm.c:14-101, src/utils/string.c:73-105, src/ultask.c:828-853 |
| `printEhdr`, `printPhdr`, `vmaDetail`, `fprintSym` and the tables of names (Model/ElfShow.lean) | src/elf/ehdr.c:44-187, src/elf/phdr.c:15-84, src/task/vma.c:443-463, src/elf/symbol.c:17-101 |
| `Proc`, `kickActs`, `deleteActs`, `toolActs` (Model/Threads.lean): the commands as single actions between instructions of threads; system calls succeed | src/patch/patch.c:893-911, 1066-1088, src/task/core.c:681-733, src/task/memcpy.c:80-92 |
| `Act`, `patchActs`, `unpatchActs`, `toolActs` (Model/ThreadsHist.lean): histories of commands as single actions between instructions of threads; every call succeeds | src/patch/patch.c:306-367, 859-917, 976-1091; src/ulpatch.c:200-242 |
| `Op`, `callOps` (Model/ThreadsCall.lean): a system call as single actions between instructions of threads; every step succeeds | src/task/syscall.c:129-240 |
| `stepCmd`, `Conc.run` and the stages (Model/Concurrent.lean): several commands at the same time | src/patch/patch.c:807-1037, src/ulpatch.c:189-245 |
| `openFiles`, `closeFiles`, `printTask`, `printStatus` (Model/SessionFiles.lean): files and headers of a session and the general information | src/task/core.c:377-444, 518-531, 641-655, src/task/proc.c:201-213 |
| `runFile`, `runFiles` (Model/FileHist.lean): commands on patch files one after the other | src/ulpatch.c:190-246 |
| `traceFile` (Model/LoadPatch.lean), `tracingNames` (Model/FileHist.lean): `ulftrace` with the bytes of its object | src/ulftrace.c:163-206, src/objects/ftrace/mcount.c:73-77 |
| `memshowinlog`, `paged`, `strtabDump`, `loadLog` (Model/LoadLog.lean): the dump of the string table while a patch is loaded | src/utils/log.c:160-165, src/patch/patch.c:552-555 |
| `Md5` | src/utils/md5_evp.c; the digest itself is a parameter |
| src/args-common.c: COMMON_RESET_BEFORE_PARSE_ARGS, COMMON_IN_MAIN_AFTER_PARSE_ARGS; *_args_reset of the four tools; src/elf/core.c: elf_core_init; src/init.c: ulpatch_init | Model/Again.lean. An option with sub-options that is refused leaves the variables as before it. syslog is not modelled. |
| src/objects/ftrace/mcount.c: mcount_entry, mcount_exit | Model/Mcount.lean, without `ULPATCH_TEST` |
| src/ulpatch.c: ulpatch; src/ulftrace.c: ulftrace (whole runs, many processes) | Model/System.lean |
| src/patch/patch.c: load_patch (state of the mapping after a refusal) | Model/LoadPatch.lean (`headersDone`, `refused`) |
| src/ultask.c:855-935 ultask; src/task/patch.c:124-127 update_task_vmas_ulp | Model/TaskRun.lean |
| src/args-common.c:13-19, 51-100; src/ultask.c:28-41, 251-268, 276-489; src/ulpatch.c:36-41, 86-123; src/ulftrace.c:80-111; src/ulpinfo.c:61-88; `getopt_long` (glibc) | Model/Getopt.lean. Not modelled: the message for an unknown option |
| src/ultask.c:855-935, killed | Model/TaskKill.lean. Not modelled: the moments within a remote system call (see C115), the output file of a dump that is cut |
| src/ultask.c:766-825 between runs of ulpatch and ulftrace | Model/JumpHist.lean. Not modelled: a jump written over a mapped patch file (excluded in every statement) |
| src/ultask.c:766-825 while threads run | Model/ThreadsJump.lean, with the threads of Model/Threads.lean |
| src/ulpatch.c, src/ulftrace.c and src/ultask.c used in turn | Spec/Mixed.lean (`runUses`), with Model/FileHist.lean, Model/TaskRun.lean and Model/TaskKill.lean |
| `Verif/Model/Shell.lean` | sessions of command lines, from the words on: `main` of ulpatch and ulftrace |
| `Verif/Model/TaskShell.lean` | `main` of ultask from the words on |
| `Verif/Model/InfoShell.lean` | `main` of ulpinfo from the words on |
| `Verif/Model/Session.lean` | a session of command lines of the four tools |

Not modelled: libelf and libbfd (src/elf/ except what is named above, disassembly),
output formatting, the kernel, the dynamic linker, compilers, the interactive parts
of the commands, and concurrency inside ulpatch (it has none).

## Trusted base

* Lean 4.33.0's kernel; axioms at most `propext`, `Classical.choice`,
  `Quot.sound` (see the per-theorem report in `AXIOMS.md`).
* The reading of the C code: nothing was compiled or run.  Every definition
  cites the lines it models.
* The kernel's behaviour (ptrace, `/proc/PID/mem`, mmap, files) enters only
  through environments; compilers, libc, libbfd and libelf are not modelled
  unless stated.

## Findings

Where the code does not have the property, the negation is proved with a concrete
witness and the positive theorem carries the suffix `_partial`.

| property | what the code does | theorem |
|---|---|---|
| C04 C05 | a short or failed write of the 16-byte jump leaves the target half patched, and clean-up after a failure can leave residue | `C04_short_unpatch`, `C04_residual_zero_text`, `C04_residual_crash`, `C05_short_write` |
| C06 | the target stays stopped when the remote open fails, or when waiting fails while attaching | `C06_open_failure_leaves_stopped`, `C06_wait_failure_leaves_stopped` |
| C07 C08 | an unreadable live patch is not counted, so its number and build id can be used again | `C07_unreadable_duplicates` |
| C09 | a tracing session leaves its patch behind, and can remove somebody else's | `C09_trace_session_leaves_patch`, `C09_trace_session_removes_foreign` |
| C10 | TLS relocations use the addend of the first entry; TPOFF is ignored | `C10_tls_uses_first_addend`, `C10_tpoff_ignored` |
| C12 | PC32 and PLT32 values that do not fit are cut off silently | `C12_pc32_truncated` |
| C15 | aarch64 place-relative relocations are computed for the address of the host's copy | `C15_a64_branch_wrong`, `C15_a64_data_rel_wrong` |
| C16 | `overflow_check` is not reset: one unchecked relocation switches checking off for good | `C16_a64_never_refused`, `C16_a64_unchecked_forever` |
| C18 | aarch64 branch generation cuts the call address to 32 bits | `C18_high_address_refused`, `C18_high_address_wrong` |
| C21 | a section table past the end is not refused, a wrapping section is accepted, reads leave the image | `C21_table_past_end_not_refused`, `C21_wrapping_section_accepted`, `C21_reads_outside` |
| C22 | an unresolved symbol is accepted when a resolved one follows | `C22_bad_symbol_accepted` |
| C27 | destroying a tree leaves its root pointing to freed memory | `C27_root_dangles` |
| C28 | `list_move` appends, against its comment | `C28_move_is_not_head` |
| C31 | the range found may be below the minimum; an empty map is undefined | `C31_below_minimum`, `C31_no_mapping` |
| C33 | addresses are compared after cutting the difference to 32 bits | `C33_wrong_symbol`, `C33_missed_symbol` |
| C34 | a symbol repeating name and address is never freed | `C34_leak` |
| C35 C36 | malformed byte texts are accepted; one byte is written past the buffer | `C35_malformed_accepted`, `C36_writes_past_buffer` |
| C39 | registers or code are lost when a step of a remote call fails; a foreign SIGSTOP is taken for the end of the call | `C39_regs_lost`, `C39_code_lost`, `C39_spurious_stop` |
| C45 | foreign files whose path holds `ulp-` and the digits of the pid are taken for patches | `C45_not_ours` |
| C46 | a mapping whose bounds changed is listed again at each reading and never known; a new mapping is not grouped with a known neighbour | `C46_changed_mapping`, `C46_group_of_new_mapping` |
| C47 | wrong load address when the lowest loadable address is not page aligned, and for a second mapping that shows the header | `C47_unaligned`, `C47_again` |
| C48 | the documented level number 0 is refused; texts that begin with a number, and numbers that are no level, are accepted | `C48_option_zero`, `C48_option_tail` |
| C52 | an error number of `mmap` is taken for an address | `C52_error_as_address` |
| C53 | `task_ftruncate` and `task_prctl` report success for calls that were not made; `task_close` uses an unset result | `C53_silent`, `C53_close_undefined` |
| C54 | program headers that could not be read are used; after a short read they are freed twice | `C54_unread`, `C54_short`, `C54_no_memory` |
| C55 | names are cut at the first blank, so an executable with a blank in its path is not recognised; the rest of a line of more than 1023 bytes is read as another line, which can make up a mapping or overflow `perms` | `C55_blank`, `C55_long_line`, `C55_rest` |
| C59 | the tracing stubs do not save vector registers (nor r10): a hook that uses them changes arguments or return values of the traced function | `C59_x86_entry_vector_lost`, `C59_x86_return_vector_lost`, `C59_a64_entry_vector_lost`, `C59_a64_return_vector_lost` |
| C60 | a failing `read` of /proc/PID/auxv is compared as an unsigned number and never ends the loop | `C60_read_error_hangs` |
| C60 | statically linked programs (AT_BASE = 0) are refused | `C60_static` |
| C61 | a process name is cut at the first blank | `C61_comm_blank` |
| C61 | `fopen` of status and comm is not checked: a process that ends meanwhile makes the tool use a null pointer | `C61_gone` |
| C62 | the name of a patch file is unique in the current directory of the tool only; a name that is taken overwrites the code of a live patch | `C62_name_taken` |
| C62 | an open that fails before the mappings are read removes `comm` of a patched process | `C62_failed_open` |
| C62 | unpatching the last patch leaves the directories behind | `C62_unpatch_leaves` |
| C62 | closing one session removes the directories another session needs to patch | `C62_taken_away` |
| C63 | no executable, no memory descriptor, no C library, no stack, or no directory: NULL with errno zero | `C63_errno_zero` |
| C57, C58 | aarch64: fields relative to the place are computed for the address of the image in the tool; after a successful patch command every `BL` of the new code goes to a wrong address unless the two addresses are equal | `C57_a64_prel_wrong`, `C58_a64_call_wrong` |
| C64 | the end of the region is looked up as an address, so a region that ends where a mapping ends and no other begins is refused; a hole between the two ends is not noticed | `C64_end_refused`, `C64_hole` |
| C65 | `--map` does not look at the result of mmap; success with nothing mapped, or mapped elsewhere | `C65_silent`, `C65_elsewhere` |
| C65 | the process stays stopped if the file cannot be opened in it | `C65_stuck` |
| C65 | `fsize` returns an int: mapping a file of 4 GiB + n bytes truncates the file on disk to n bytes | `C65_truncates` |
| C66 | `--unmap` takes the size of the file, not of the mapping, and ignores the result | `C66_neighbour`, `C66_silent` |
| C67 | a partial write of a jump stays in the process | `C67_torn` |
| C68 | dumps contain uninitialised memory of the tool if the process cannot be read; the output file is not truncated; a short write is reported as -errno of an earlier call | `C68_unread`, `C68_tail`, `C68_short` |
| C69 | `--mprotect len=` is read with `str2addr`, so a unit is ignored: `len=4096KB` means one page | `C69_len_unit` |
| C69 | flags set by one `--dump` stay set for the next: a request for a region after one for a mapping dumps the mapping around the region | `C69_dump_twice` |
| C69 | `-p 4294967297` is process 1; `-p 12x7` is process 12 | `C69_pid_cut` |
| C69 | the help says that the address of `--dump vma` is in base 16; it is not | `C69_base16` |
| C70 | `is_dry_run()` is called nowhere: `--dry-run` is accepted and everything is done | `C70_ignored`, `C70_violated` |
| C71 | the results of jumps, dumps and disassemblies do not reach the exit status | `C71_violated` |
| C72 | `--patch FILE --unpatch` takes a patch out of the process without a word about FILE | `C72_violated` |
| C73 | `-j FILE` is checked and then ignored | `C73_violated` |
| C73 | ulftrace ignores a failed `init_patch` and then takes the last patch out, which is somebody else's | `C73_takes_out_x86`, `C73_takes_out_a64` |
| C73 | when `init_patch` succeeds, the tracing patch is not found by `delete_patch` in the same session and stays | `C73_stays_x86`, `C73_stays_a64` |
| C120 | the tracing object says `ULPATCH_INFO(mcount, _ftrace_mcount)`, but the first name is the function in the patch and the second the one in the process | `C120_refused_x86`, `C120_refused_a64` |
| C74 | a symbol name with exactly 256 bytes before an `@` writes one byte behind `buf[256]` (`len > blen` should be `>=`) | `C74_overflow` |
| C74 | a longer name gives NULL, which goes to `strdup` | `C74_null_name` |
| C74 | the version behind `@` is cut off, so the address of the first version in the table is given for all of them | `C74_violated` |
| C74 | a file that libbfd cannot open (`bfd_openr` gives NULL), and a symbol table it cannot read (−1 stays in `symcount`), are not handled | `C74_refused` |
| C76 | a symbol whose name is already in the tree is allocated, not linked and never freed | `C76_leak` |
| C77 | `f@plt` counts as code named `f`: for every imported function the PLT entry of the program hides the function itself, so a patch for it replaces only the PLT entry of the program | `C77_violated` |
| C79 | `ulpinfo --patch` works on `temp.ulp` in the working directory: a file of the user of this name is overwritten and removed, and `ulpinfo -i temp.ulp` fills the very file with zeros | `C79_removes`, `C79_destroys` |
| C79 | `show_file_patch_info` returns without removing `temp.ulp` when the file is refused | `C79_left` |
| C80 | `alloc_patch_file`, `_mmap_file` and `fmemcpy` return without giving back the path copies, the mapping or the stream when something fails; `fmemcpy` does not check `fopen` | `C80_leak` |
| C81 | a patch file whose table of section headers is cut crashes `setup_load_info`; the copy in the directory of the process stays | `C81_crash` |
| C81 | the name of the copy is made unique in the working directory, not in the directory where it is made; an existing file there is overwritten, and removed if the patch fails | `C81_removes` |
| C84 | when the contents of a mapping cannot be read completely, `alloc_ulp` frees the entry, and `free_ulp` unlinks a list node that was never initialised | `C84_short` |
| C84 | the result of `load_ulp_info_from_vma` is not used: for a mapping without record `vma_load_ulp` goes through a null `info.ulp_info`, and a patch of another version stays in the list with uninitialised strings that `ulpinfo --pid` prints | `C84_no_record`, `C84_incomplete`, `C84_not_listed` |
| C84 | `strdup(info->str_build_id)` is called with NULL when the note is not a Build ID | `C84_no_build_id` |
| C85 | the type given to `find_symbol` and its kin is ignored | `C85_type_ignored` |
| C86 | of two symbols with one class and name (static functions of two source files) the second is dropped | `C86_dropped` |
| C87 | closing a relocatable file without Build ID frees the string constant `NO_BUILD_ID` | `C87_close_constant` |
| C87 | files are shared by path without counting users: after one user closes, the handle of the other refers to freed memory | `C87_other_user` |
| C87 | a file refused for a missing Build ID leaves its symbols allocated; of several Build IDs all but the last are lost | `C87_leak_refused`, `C87_leak_build_id` |
| C87 | the count of open files has 16 bits: with 65536 files open it is 0 and `elf_file_close` refuses | `C87_wrap` |
| C87 | damaged files crash: no ELF header (null pointer), a symbol name outside of the string table (`strdup(NULL)`), a section number that does not exist (read outside) | `C87_no_header`, `C87_no_name`, `C87_no_section` |
| C89 | a copy that is cut off by a full disk or a read error is reported as success; copying a directory gives an empty file and success | `C89_disk_full`, `C89_read_error`, `C89_directory` |
| C90 | removing a tree follows symbolic links and deletes files outside of the tree; links that lead nowhere and special files are left, with success | `C90_link`, `C90_dangling`, `C90_special` |
| C90 | a directory that cannot be listed (`readdir(NULL)`) or a path of `PATH_MAX` bytes (`sprintf` overflow) ends the program | `C90_unreadable`, `C90_long` |
| C91 | `ftouch` reports success for a truncated file; `fremove` reports success for a dangling link that stays | `C91_disk_full`, `C91_dangling` |
| C93 | a descriptor that is closed between `readdir` and `readlink` links a null pointer into the list | `C93_vanished` |
| C94 | `memshow` reads up to 15 bytes behind the memory, and returns 15 for each line instead of the characters written | `C94_overread`, `C94_count` |
| C95 | a string of more than 1024 characters is returned without NUL; a string that cannot be read is returned as what was in the buffer; a string that is cut at the end of a mapping is reported as written | `C95_long`, `C95_stale`, `C95_cut` |
| C96 | replacing an instruction at an address that is not mapped reports success, since -1 of the transfer is taken for success | `C96_unmapped`, `C96_garbage` |
| C97 | the search for a `BL` has no end: for a function without one it reads on behind it | `C97_none` |
| C98 | with `-v` the lines of further addresses of a name can be out of line | `C98_ragged` |
| C99 | the name `vvar_vclock` is wider than its column | `C99_vclock` |
| C101 | `ulpatch --check` leaves or overwrites `temp.ulp` in the current directory, and destroys a patch of that name | `C101_leaves`, `C101_destroys` |
| C101 | a file whose section headers are cut off crashes the check | `C101_crash` |
| C102 | a failed `open_task`, or closing another task, makes the program forget the current task | `C102_forgets` |
| C103 | the mode 0777 of `mkdirat` is masked with the umask, so at the first start other users cannot write; the second start repairs it | `C103_umask` |
| C103 | a plain file at the path is accepted; a second user that is not root cannot start any tool | `C103_file`, `C103_second_user` |
| C105 | a copy of the path that is cut short opens the file with the shorter name | `C105_short` |
| C105 | when the call cannot be made an uninitialised result is returned as the descriptor | `C105_undefined` |
| C106 | a refused `fstat` is reported as success with attributes that are all zero | `C106_error_ignored` |
| C107 | a name as long as the array of the caller is returned without a NUL | `C107_unterminated` |
| C107 | a descriptor 0 is taken for a failure, and is left open | `C107_fd_zero` |
| C109 | ultask shows the addresses of its own buffer instead of those of the process | `C109_host_addresses` |
| C109 | after a short read, old contents of the heap are shown and disassembled as memory of the process | `C109_unread` |
| C110 | the version in the identification of an ELF file is shown as 1 whatever it is | `C110_version` |
| C111 | the visibility of a symbol is computed from `st_info`: each function of default visibility is shown as hidden | `C111_visibility` |
| C112 | a thread that is inside the first 16 bytes of a function when it is patched goes on in the middle of the new entry; nothing looks where the threads are | `C112_inside` |
| C112 | only the main thread is stopped: another thread that comes to the function between two stores jumps to an address that is neither old nor new | `C112_torn` |
| C113 | the code of a patch is unmapped while threads are in it; the next instruction of such a thread kills the process | `C113_dies` |
| C114 | other threads are not kept out of the code that is replaced by a system call: one that is there meets the breakpoint and the process is killed | `C114_meets` |
| C115 | killed between two stores ulpatch leaves half an entry in a function | `C115_half` |
| C115 | killed in the middle of a system call ulpatch leaves a process that runs into a breakpoint, which kills it | `C115_in_call` |
| C116 | two commands at the same time give the same number to their patches | `C116_same_number` |
| C116 | two commands at the same time apply the same patch twice | `C116_twice` |
| C116 | two patches of one function, applied at the same time and taken back one after the other, leave a jump to memory that is unmapped; all four commands report success | `C116_dangling` |
| C116 | a command that opens the process while another one is loading a patch follows wild pointers | `C116_crash` |
| C117 | asking for the ELF headers of a process also opens all files and loads all symbols: the flags overlap and are tested with "any bit set" | `C117_flag` |
| C117 | if memory runs out while headers are read, opening succeeds and closing uses freed memory | `C117_no_memory` |
| C118 | user and group numbers from 2^31 on are shown as negative numbers | `C118_ids_negative` |
| C118 | an executable below /etc or /sys is shown as not position independent | `C118_etc` |
| C118 | a later mapping of the executable that begins like an ELF header decides whether it is shown as position independent | `C118_last_wins` |
| C121 | with debug messages the string table is dumped with the size of the symbol table (src/patch/patch.c:555): memory behind the mapping is read | `C121_violated`, `C121_overread`, `C121_other_length` |
| C122 | the address of a segment is compared with an offset in the file (src/task/core.c:316), so the data of usual programs is shown with Voffset 0 and what follows it with a wrong one | `C122_voffset_violated` |
| C122 | the test for the end of the protected part (src/task/core.c:37-73) accepts every loadable header, so the last one overrides a header that fits exactly | `C122_violated` |
| C123 | the names of libraries with an interpreter are compared with the whole path (src/task/vma.c:288-315), so none is ever found | `C123_exception`, `C123_library` |
| C124 | two symbols whose addresses differ by a multiple of 4 GiB are one node of the tree of addresses (src/task/symbol.c), so a walk visits only one of them | `C124_skipped` |
| C40 | a process that ends with a code while it is attached to is continued with the wait status as the signal (src/task/core.c:692-718), that is with the code times 256 | `C40_exit_as_signal` |
| C89 | the number of bytes copied is an `int` (src/utils/file.c:205), which overflows for files of 2 GiB or more | `C89_big` |
| C91 | the counters of `ftouch` are `int` (src/utils/file.c:108), which overflow for files of 2 GiB or more | `C91_big` |
| C38 | an address or size that is no number is taken as 0, and one with a minus sign as an address at the end of the address space; neither is refused (src/utils/string.c:325-362) | `C38_no_number`, `C38_addr_minus` |
| C126 | src/ulpatch.c:47-52 does not reset `command_type`: after `ulpatch(--unpatch -p A)`, `ulpatch(-p B)` in the same program takes a patch out of B instead of being refused | `C126_patch_again`, `C126_patch_violated` |
| C126 | src/args-common.c:107-112 does not reset the prefix of messages that `-v` turns on | `C126_prefix_violated` |
| C127 | `--info` prints a null pointer as the C library (src/version.c:75): `elf_core_init` has not run yet | `C127_info_violated` |
| C59 | the shipped `mcount_exit` returns 0 (src/objects/ftrace/mcount.c:58-66), and the stub jumps to what it returns: a return through the stub goes to address 0 | `C59_x86_shipped_return`, `C59_a64_shipped_return` |
| C128 | the check of a patch file leaves `temp.ulp` in the working directory (src/ulpatch.c:167-186); a later `ulftrace -j temp.ulp` for another process ends differently because of it | `C128_temp` |
| C129 | a file is refused (a symbol is missing) and cannot be unmapped; `--unpatch` then takes it for a live patch and writes the 16 bytes of its record to the address in its record (src/patch/patch.c:1039-1091) | `C129_record` |
| C130 | `ultask --unmap ADDR` of one page of a file that has grown to two pages unmaps a page of the mapping behind it and ends with status 0 | `C130_neighbour` |
| C130 | `ultask --dump vdso` uses a null pointer if the process has no `[vdso]` (src/ultask.c:906-909) | `C130_novdso` |
| C131 | `ultask --map file=F --unmap ADDR`: if F cannot be opened in the process, `mmap_a_file` returns without detaching, and the attach for `--unmap` fails (src/ultask.c:630-637) | `C131_traced` |
| C132 | The letter `v` takes all letters behind it: `-uv` asks for a dry run, `-vu` does not, `-vF` does not force, `-vp 12` gives no process, and `-vx` is accepted although there is no `-x` (`"v::"`, src/args-common.c:62) | `C132_behind_v`, `C132_violated` |
| C132 | Every usage line ends with `[FILE]...`, but words that are no options are passed over silently: `ulpatch -p 12 --patch a.ulp b.ulp` loads only the first | `C132_files_ignored` |
| C133 | `--jmp` writes 16 bytes into a process that runs, without a copy of the old ones: killed within the write it leaves code that is neither the old nor the new one | `C133_violated` |
| C133 | `--map`: killed between `open` and `close` in the process, the descriptor stays open there | `C133_open_file` |
| C134 | `ultask --jmp` at a function that a live patch replaces reports success and silently disables the patch, which is still listed; the next `ulpatch --unpatch` reports success and silently removes the jump | `C134_lost`, `C134_lost_example` |
| C134 | a jump in the middle of the replaced code: `ulpatch --unpatch` reports success and leaves half of the jump | `C134_half` |
| C135 | `ultask --jmp` stops no thread while it writes: even the only thread of a process may execute a half-written jump, to an address that is neither old nor new | `C135_torn`, `C135_inside` |
| C136 | `ultask --unmap` takes the mapping of a live patch without asking; the patched function then jumps to memory that is not mapped, and `ulpatch --unpatch` no longer finds the patch | `C136_dangling_example`, `C136_no_way_back` |
| C137 | a patch command that reports an error because it could not attach again leaves its mapping; the same patch is then refused as already loaded, although it is not in effect, until `--unpatch` | `C137_x86_left`, `C137_blocks` |
| C147 | a look with `ulpinfo -i` removes the `temp.ulp` of the user, and a later `ulftrace -j temp.ulp` ends with 1 instead of going to work | `C147_violated` |
