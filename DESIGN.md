# Formal model of aristos-d/gsb in Lean 4

## 1. Trusted base

* **Lean 4.33.0's kernel.** Mathlib is used only through its kernel-checked theorems.
* **Axioms.** Every theorem depends on at most `propext`, `Classical.choice` and `Quot.sound`. No axiom is
  added, nothing is left open, and no decision procedure that runs compiled code is used
  (`decide +kernel` is evaluated by the kernel).
* **The reading of the C++ source.** Each model definition cites the file and lines it models. This
  correspondence is by hand; section 5 lists what is left out.
* **Specification files** `Verif/Spec.lean` and `Verif/Spec/*.lean` say what the properties mean without
  referring to the model (`spmvExact`, `spmvSum`, `Partition`, `InBlockRange`, `nonEmptyBlocks`,
  file layouts `binFile`, `blockFile`, MatrixMarket text, `renamed`, expansion, heap balance, ...).

## 2. Conventions of the model

* `C α = Except Err α`. A failed `assert`, an access outside an array, the use of an uninitialised cell, a
  division by zero, an otherwise undefined operation and an exhausted loop budget are separate error outcomes, so
  "returns `.ok`" also says that none of them happens. Asserts are active: the Makefile does not define NDEBUG.
* Arrays are `Buf` (length and partial contents). `new T[n]`/`malloc` give an array whose cells are unset. In C06 the
  contents of fresh memory are also a parameter.
* The index type is unsigned with `M` values (2^32 or 2^64; `256^w` in the file models), arithmetic is `Nat` with
  explicit reduction modulo `M`; small index types have `S` values. `int` has 32 bits, `unsigned long` 64.
  Loop counters compared with a bound of the same type are plain `Nat`.
* Values: an arbitrary type with `0`, `+`, `*` and **no laws** unless a theorem names them, so such results hold
  bit for bit for IEEE numbers, provided the compiler neither re-associates nor contracts. The Makefile has
  neither -ffast-math nor -march, so on the default targets it does neither. Paths that re-associate (chunked and dense) have three statements: in a commutative
  semiring (C11, C12, C18), law-free as a sum of the right terms in some order (C76), and with error bounds for IEEE numbers (C77; the
  infinities and NaN are one value there, and the two zeroes one).
* Decisions made in floating point (block type choice, `is_balanced`, `logbeta`) are arbitrary functions; C51 has them in
  exact rational arithmetic, and with a 1% relative error for CGBR.
* Entry lists are lists of triples, `x` and `y` total functions put in full buffers of the stated length.

### Concurrency
`Par/Lang` has programs built from single loads, stores, allocation and fork/join; a run interleaves the steps of all
tasks arbitrarily. `AllSchedules` says that no run faults or races, every run ends, and all give the same memory.
Trusted: data-race-free OpenMP programs are sequentially consistent; a `parallel for` is at least as fine-grained as one task per iteration
(any schedule clause and thread count only restricts the interleavings); `task`/`taskwait` is fork/join; the matrix arrays and `x` are read-only in
the kernels. `std::stable_sort` at the leaves of the parallel sort and `std::move` are library operations with their documented effect.

### Files
Files are byte lists; names are strings and different strings are different files (no links, no `a/../b`). `fread` of a
partial item consumes the rest and leaves the target indeterminate; `Disk` says which names open, how many bytes
`fwrite` accepts and how many survive. Numbers in binary files go through `Codec`s assumed exact
(little-endian indices are proved exact). In MatrixMarket files `strtod` and `%f` are opaque functions on numerals; `inf`, `nan`
and hexadecimal numerals are outside. `malloc` of a positive size succeeds; `malloc(0)` is a parameter. Files do not change
while a function runs.

### Heap (C47)
Only addresses and how each was obtained (`new[]`, `new`, `malloc`); sizes and contents are left out. The allocator may return any
address not in use. A partition object counts as one allocation with its vectors.

## 3. Layout

`Basic/C` error monad, buffers, loops. `Spec*` specification. `Model/*` the code. `Par/*` interleavings. `Proof/*` lemmas.
`Props/*` the property theorems (named `Cnn_*`), each file with concrete cases that meet the hypotheses;
`Cases/*` apply every theorem listed in MANIFEST.json that has hypotheses to concrete arguments (an `example` each), so that all
hypotheses of a theorem are seen to be met together.

## 4. Properties

| id | property | model | proof | theorems | status |
|----|----------|-------|-------|----------|--------|
| C01 | CSR SpMV is correct | Model/Csr: `cooToCsr`, `csrSpmv` | loop invariants; counting lemma for row pointers; uniqueness of stable sorts | `C01_csr_spmv`, `C01_csr_mulVec` | proved |
| C02 | CSR2 SpMV is correct | Model/Csr: Csr2 | as C01 | `C02_csr2_spmv` | proved |
| C03 | CSR blocks with small column indices are correct | Model/Csr with column truncation modulo `S` | as C01; converse by congruence | `C03_blockcsr_spmv`, `C03_blockcsr_any`, `C03_blockcsr_truncation` | proved |
| C04 | COO SpMV is correct for every COO variant | Model/Coo, Model/Morton | fold over the array; Morton order restricted to a row is column order when indices fit | `C04_coo_array_spmv`, `C04_coo_copy`, `C04_coo_spmv`, `C04_coo_sum`, `C04_coo_exact16`, `C04_blockcoo2_spmv`, `C04_blockcoo2_sum`, `C04_blockcoo_rejects` | proved |
| C05 | Dense conversion is exact for distinct coordinates and drops duplicates | Model/Dense | loop invariants; sum over columns; negation by witness | `C05_dense_storage`, `C05_dense_spmv`, `C05_dense_distinct`, `C05_dense_duplicates`, `C05_dense_overflow` | proved |
| C06 | Compressed-row CSR construction depends on stale memory | Model/CrCsr with the fresh memory as a parameter | loop invariant with stale words; case analysis on the row count | `C06_crcsr_never_defined`, `C06_crcsr_memory`, `C06_crcsr_wrapper`, `C06_crcsr_silently_wrong`, `C06_crcsr_zeroed` | proved |
| C07 | CSWR SpMV is correct exactly when the wide-row width fits the small index type | Model/Cswr | as C01 with wide rows; negation by witness | `C07_cswr_spmv`, `C07_cswr_any`, `C07_cswr_any_sum`, `C07_cswr_truncation`, `C07_cswr_zero_width` | proved |
| C08 | CSBR SpMV is correct for every block partition | Model/Csbr, Model/BlockUtil, Model/Scan | induction over the block-sorted list, block by block | `C08_csbr_spmv`, `C08_csbr_const`, `C08_csbr_mulVec` | proved |
| C09 | CSBR2 SpMV is correct for every block partition | Model/Csbr: Csbr2 | as C08 | `C09_csbr2_spmv`, `C09_csbr2_const` | proved |
| C10 | CSBR3 SpMV is correct for constant square blocks | Model/Csbr: Csbr3 | as C08 | `C10_csbr3_spmv`, `C10_csbr3_truncates` | proved |
| C11 | CGBR SpMV is correct whatever block types the heuristic picks | Model/Cgbr, Model/Gsb; choice and balance test are parameters | chunk recursion; sums in a semiring; large blocks: every run of the sorted elements is moved by its block type, the first block that does not fit fails | `C11_cgbr_spmv`, `C11_cgbr_const`, `C11_cgbr_bound`, `C11_cgbr_const_bound`, `C11_cgbr_mulVec`, `C11_cgbr_wide`, `C11_cgbr_rejects`, `C11_cgbr_default` | proved |
| C12 | CGBR2 SpMV is correct for any block factory and either value of its uninitialised balanced flag | Model/Cgbr: Cgbr2, BlockFactory | as C11, also for blocks larger than the small index type | `C12_cgbr2_spmv`, `C12_default_factory_right`, `C12_cgbr2_default`, `C12_cgbr2_wide`, `C12_cgbr2_places` | proved |
| C13 | BCSR constructor writes through an uninitialised index | Model/Broken; the unassigned variable is unset or any value | error is forced on the first iteration; for any value: invariant of the copying loop, then the four cases | `C13_bcsr_uninitialised`, `C13_bcsr_never_returns`, `C13_whatever_outside`, `C13_whatever_unset`, `C13_whatever_right`, `C13_whatever_last` | proved |
| C14 | CSBR from Coo2 reads past the input array, and what follows from what it finds there | Model/Broken; the memory behind the array is an explicit list; `std::sort` an arbitrary function | error is forced while the memory behind looks like rows of the matrix; otherwise (Spec/Behind) the search is followed exactly and the rest is the construction of C08 | `C14_sort_triplets_blocks_oob`, `C14_csbr_from_coo2_oob`, `C14_harmless_behind`, `C14_harmless_sum` | proved |
| C15 | All exact formats give bit-identical results | all exact formats | corollary: all equal `spmvExact` | `C15_formats_agree` | proved |
| C16 | Row-parallel kernels are deterministic | Par/Lang, Par/Kernels: programs of single loads and stores | race freedom by disjoint footprints ⇒ every interleaving gives the sequential result | `C16_csr_kernel`, `C16_csr2_kernel`, `C16_dense_kernel`, `C16_crcsr_kernel`, `C16_csr`, `C16_csr2`, `C16_crcsr`, `C16_dense` | proved |
| C17 | Block-row-parallel kernels are deterministic | Par/Blocked, Par/Formats | as C16, nested parallel loops; Props/ScheduleWide for sizes beyond the small index type | `C17_cswr`, `C17_csbr`, `C17_csbr2`, `C17_csbr3`, `C17_cswr_any`, `C17_csbr3_any`, `C18_cgbr`, `C18_cgbr2` | proved |
| C18 | Task-parallel chunk kernel is deterministic and race free | Par/Blocked, Model/ParGsb: tasks | as C16, induction over the chunk recursion; Props/ScheduleWide for blocks beyond the small index type | `C18_chunk`, `C18_rows`, `C18_cgbr`, `C18_cgbr2`, `C18_cgbr_wide`, `C18_cgbr2_wide` | proved |
| C19 | Block-row partition covers every block once with bounded load | Model/Scan: `partition_blockrow` | loop invariant | `C19_partition_blockrow`, `C19_tiles`, `C19_csbr_partition` | proved |
| C20 | Constant block size constructor makes valid offsets | Model/BlockUtil | loop invariant | `C20_const_offsets`, `C20_zero_size` | proved |
| C21 | index_to_blockindex finds the block containing the index | Model/BlockUtil: `index_to_blockindex` | binary search invariant | `C21_index_to_blockindex`, `C21_unique` | proved |
| C22 | size_to_offset makes prefix sums | Model/BlockUtil | prefix sums | `C22_size_to_offset`, `C22_partition` | proved |
| C23 | Block ids, block sort and count_blocks agree | Model/BlockUtil, Model/Scan | stable sort by id; runs of equal ids | `C23_blocks`, `C23_empty`, `C23_empty_csbr` | proved |
| C24 | parallel_stable_sort is a stable sort under every schedule | Model/Pss, Par/Pss | induction over the recursion; race freedom; merge of lists | `C24_parallel_stable_sort`, `C24_cutoffs`, `C24_unique` | proved |
| C25 | The sorting helpers order as documented | Model/Coo, Model/Cswr, Model/Morton comparators | stable sort specification | `C25_row_major`, `C25_col_major`, `C25_wide_rows`, `C25_morton`, `C25_unique`, `C25_morton_int`, `C25_morton_int_small` | proved |
| C26 | bit_interleave is a Morton code | Model/Morton: `bit_interleave` | bit extensionality | `C26_bits`, `C26_narrow`, `C26_injective`, `C26_monotone`, `C26_not_injective` | proved |
| C27 | next_power_of_two | Model/Bits | bit-level induction | `C27_next_power_of_two`, `C27_zero` | proved |
| C28 | highest_bit_set | Model/Bits | bit-level induction | `C28_highest_bit_set`, `C28_signed` | proved |
| C29 | pick_block_size terminates and returns 0 or a power of two | Model/Choice: `pick_block_size`; `logbeta` a parameter | loop invariants; arithmetic | `C29_pick_block_size`, `C29_degenerate`, `C29_fits`, `C29_l2_overflow`, `C29_wide_undefined` | proved |
| C30 | pick_block_size makes 16-bit local indices safe | Model/Choice | arithmetic from C29 | `C30_blocks_fit`, `C30_cgbr` | proved |
| C31 | Small matrices make the drivers divide by zero | Model/Choice with the offset computation | arithmetic; division by zero forced | `C31_small_zero`, `C29_pick_block_size`, `C31_divides_by_zero` | proved |
| C32 | invert_permutation inverts | Model/Permute (serial and parallel) | loop invariants; injectivity; race freedom | `C32_invert`, `C32_round_trip`, `C32_invert_schedules`, `C32_in_place_schedules`, `C32_permute_schedules`, `C32_not_a_permutation` | proved |
| C33 | SpMV commutes with permutation | Model/Permute | reindexing | `C33_renames`, `C33_coo`, `C33_csr` | proved |
| C34 | Block expansion preserves the matrix | Model/Permute: expand.h | list induction; race freedom | `C34_block_size`, `C34_expand_index`, `C34_order`, `C34_expand_indeces`, `C34_expanded`, `C34_schedules` | proved |
| C35 | .bin COO round trip | Model/File, Model/IoBin | parser of a printer, by induction on the array | `C35_bin_roundtrip` | proved |
| C36 | Truncated .bin files are rejected | Model/IoBin | count of the items read from a prefix | `C36_truncated_rejected`, `C36_counter_wraps` | proved |
| C37 | Write failures of the .bin writers are not reported | Model/File: `Disk` (room, kept) | prefix of a prefix | `C37_write_failure_unreported`, `C37_reader_notices`, `C37_array_short_write` | proved |
| C38 | Array file round trip | Model/IoBin | as C35 | `C38_read_any`, `C38_array_roundtrip` | proved |
| C39 | Three-file COO reader: dimensions | Model/IoBin: three-file readers | as C35; maximum loop invariant | `C39_coo_reader`, `C39_generic_reader`, `C39_generic_accepts_anything`, `C39_coo_short`, `C39_roundtrip` | proved |
| C40 | Blocked file reader equals in-memory construction | Model/IoBlocked | step-by-step simulation of the in-memory constructor | `C40_csbr`, `C40_csbr2`, `C40_header_checked` | proved |
| C41 | Blocked CGBR reader drops the file's first non-zero | Model/IoBlocked: Cgbr reader | simulation on the tail of the records | `C41_cgbr_drops_first`, `C41_missing_term`, `C41_single_uninit` | proved |
| C42 | read_bin_CSR equals read then convert | Model/IoBin: `read_bin_CSR` | as C35 with C01 | `C42_read_csr`, `C42_truncation_accepted` | proved |
| C43 | MatrixMarket read: general and symmetric | Model/IoMm: fgets, sscanf, fscanf on bytes | induction on the lines | `C43_general`, `C43_symmetric`, `C43_symmetric_is`, `C43_truncated_unnoticed` | proved |
| C44 | MatrixMarket read accepts kinds it misreads | Model/IoMm | corollaries of the line lemma | `C44_read_as_general`, `C44_skew`, `C44_hermitian`, `C44_pattern`, `C44_pattern_loses`, `C44_pattern_one` | proved |
| C45 | MatrixMarket write then read keeps structure | Model/IoMm writer | parser of a printer | `C45_write_read`, `C45_wide`, `C45_failure_unnoticed` | proved |
| C46 | File-type dispatch | Model/IoMm: `string_ends_with` | list suffix | `C46_suffix`, `C46_bin`, `C46_mtx`, `C46_other` | proved |
| C47 | Allocation and release match | Model/Heap: addresses and the way each was obtained | Hoare triples over the live multiset | `C47_released`, `C47_csr_given`, `C47_coo`, `C47_csbr2`, `C47_csbr2_sized`, `C47_csbr_mismatch`, `C47_csbr_leak`, `C47_cgbr`, `C47_cgbr2`, `C47_tools` | proved |
| C48 | Reported counts are right | constructors | runs of block ids counted; `Set.ncard` | `C48_csr_nonzeros`, `C48_csbr_counts`, `C48_cgbr_counts`, `C48_cgbr2_counts` | proved |
| C49 | Conversion loses and invents nothing | constructors; decoders in Spec/Readback and Spec/ReadCgbr | list equalities from the invariants | `C49_csr_readback`, `C49_cswr_readback`, `C49_csbr_readback`, `C49_csbr3_readback`, `C49_cgbr_readback` | proved |
| C50 | spmv accumulates | all formats | induction on the number of products | `C50_repeated_spmv`, `C50_repeated_exact`, `C50_repeated_cgbr` | proved |
| C51 | Block type selection | Model/Choice in ℚ | arithmetic, also with a 1% relative error | `C51_cgbr_choice`, `C51_cgbr_always_coo`, `C51_cgbr_always_coo_rounded`, `C51_cgbr_choice_rounded`, `C51_factory_choice`, `C51_factory_dense_fits` | proved |
| C52 | one2zero | Model/Tools | list induction over arguments | `C52_converts`, `C52_rejects`, `C52_large` | proved |
| C53 | COO input stays reusable after CSR/CSBR/CSWR conversion | constructors returning the array they permuted | permutation lemmas | `C53_input_kept`, `C53_cgbr_localizes`, `C53_cgbr_destroys` | proved |
| C54 | Block ids must stay below the sentinel | Model/BlockUtil | witness | `C54_ids_collide`, `C54_sentinel` | proved |
| C55 | Blocked readers are unusable with 64-bit indices | Model/IoBlocked | out-of-bounds access forced | `C55_csbr_out_of_bounds` | proved |
| C56 | convert and convert_blocked: entries right, dimensions arbitrary | Model/Tools | C35/C39/C40 composed | `C56_convert_bin`, `C56_convert_mtx`, `C56_convert_all`, `C56_refuses`, `C56_missing_input`, `C56_convert_blocked` | proved |
| C57 | Long banner words overflow a buffer | Model/IoMm | scanf writes past 64 bytes | `C57_long_word` | proved |
| C58 | A bad size line makes the reader hang | Model/IoMm: fuel | no amount of fuel suffices | `C58_loops_forever` | proved |
| C59 | MatrixMarket indices are not checked | Model/IoMm | witness family | `C59_unchecked` | proved |
| C60 | double2float | Model/Tools | list induction | `C60_converts`, `C60_missing_destroys` | proved |
| C61 | permute tool | Model/Tools | C32 and C38 composed | `C61_permutes`, `C61_inverse`, `C61_out_of_range` | proved |
| C62 | expanded tool | Model/Tools | C34 and C39 composed | `C62_expanded`, `C62_name_overflow` | proved |
| C63 | prepare tool | Model/Tools | C61, C56 composed | `C63_prepare`, `C63_own_directory`, `C63_no_room` | proved |
| C64 | sort tool | Model/Tools | C25, C39, C43, C45 composed | `C64_sort_files`, `C64_sort_mtx`, `C64_sort_blocks_oob` | proved |
| C65 | Files that cannot be opened | Model/IoBin, IoBlocked, IoMm | case analysis on the open | `C65_writers`, `C65_three_files`, `C65_readers`, `C65_readers_row`, `C65_readers_col` | proved |
| C66 | The benchmark programs multiply by the matrix in the file | Model/Drivers: the five main functions, benchmark_spmv_core, timing statistics | composition of C35/C43 (reading), C01, C02, C07-C12 (products), C29-C32; closed form of the timing loop; C76 for arithmetic without laws | `C66_csr`, `C66_cswr`, `C66_blocked_exact`, `C66_blocked_sum`, `C66_bench`, `C66_pbench`, `C66_blocked_total`, `C66_bench_total`, `C66_pbench_total` | proved |
| C67 | When a benchmark program does not run | Model/Drivers | C36, C46, C65 for the refusals; C31 for the division by zero | `C67_refused`, `C67_block_sizes_ignored`, `C67_small`, `C67_cswr_zero`, `C67_no_iterations`, `C67_no_iterations_refused`, `C67_pbench_small`, `C67_pbench_no_permutation`, `C67_pbench_short_permutation` | proved |
| C68 | The timing statistics are right | Model/Drivers: timingStats | sorted permutation; counting below and above the middle | `C68_stats` | proved |
| C69 | Comparing results and the statistics of test/utils.h | Model/Result: checkResults, mean, median, standardDeviation | loop invariant; sorted permutation for the median | `C69_check`, `C69_nan`, `C69_short`, `C69_errors`, `C69_mean`, `C69_median` | proved |
| C70 | The result program compares the right vectors | Model/Result: resultMain | composition of C01-C12; the stable sorts the conversions leave in the array keep the order at each place; C76, C77 for floating point | `C70_exact`, `C70_result`, `C70_fresh_memory`, `C70_total`, `C70_float`, `C70_small`, `C70_refused` | proved |
| C71 | Blocked files read into BCSR come out empty | Model/IoBcsr | closed form of the reader state by induction over the records; the final loop sees zero rows | `C71_bcsr_left_empty` | proved |
| C72 | What pprint prints | Model/Pprint | closed forms of the print loops; at the end of file the variable keeps its value | `C72_triples`, `C72_triples_cut`, `C72_blocks`, `C72_blocks_cut`, `C72_vector`, `C72_missing` | proved |
| C73 | Exit statuses of the tools and the files they may touch | Model/Tools | case analysis over every path of each tool; frame rule for each write | `C73_one2zero`, `C73_double2float`, `C73_permute`, `C73_convert`, `C73_convert_blocked`, `C73_expanded`, `C73_expanded_missing`, `C73_prepare`, `C73_sort`, `C73_usage` | proved |
| C74 | MatrixMarket files whose size line does not fit their entries | Model/IoMm | loop invariants over the lines read; the lines after them are left alone | `C74_general`, `C74_symmetric`, `C74_symmetric_overflow`, `C74_count_missing` | proved |
| C75 | The block format comparison program | Model/BlockTest | induction over the files, each multiplication keeping y; evaluation of the reading of the labels | `C75_reports`, `C75_later_unusable`, `C75_stale_labels`, `C75_too_large`, `C75_area`, `C75_first_unusable`, `C75_unlabelled` | proved |
| C76 | CGBR adds the right terms, each once, in arithmetic without laws | Model/Cgbr, Model/ParGsb, Par/Acts | each block kernel is a row action that extends a sum; composition over the blocks of a block row and over chunks with private vectors | `C76_cgbr`, `C76_cgbr_const`, `C76_cgbr2`, `C76_dense`, `C76_exact`, `C76_inOrder`, `C76_semiring` | proved |
| C77 | Rounding error of the matrix-vector product | all kernels; Spec/Float for IEEE numbers | induction over the sum of C76: (1+u)^k-1 accumulates per addition; roundTo bounds from the nearest integer | `C77_bound`, `C77_csr`, `C77_csr2`, `C77_coo`, `C77_cswr`, `C77_csbr`, `C77_csbr2`, `C77_csbr3`, `C77_cgbr`, `C77_cgbr2`, `C77_dense`, `C77_finite`, `C77_finite_sparse`, `C77_dense_infinite`, `C77_agree`, `C77_exact`, `C77_ieee` | proved |
| C78 | The tools one after the other | the tool models composed with the readers, CSR and its parallel kernel | the postcondition of each tool (C52, C60, C61, C63) is the precondition of the next; renaming composed with permutation keeps RowTotals; stable block order is unique, so the .block file is the one C40 reads | `C78_import`, `C78_permute`, `C78_prepare`, `C78_end_to_end`, `C78_block` | proved |
| C79 | What the library prints about a matrix | Model/Show | loops in closed form over the represented lists; the counts through C48, the partition through C19, the failure of visual through C14, its output when the memory behind is harmless through C14_harmless_behind | `C79_show_nonzeros`, `C79_show_coo`, `C79_show_csr`, `C79_info_csr`, `C79_info_cswr`, `C79_info_csbr`, `C79_info_csbr3`, `C79_info_cgbr`, `C79_info_cgbr2`, `C79_dump_csbr`, `C79_dump_cgbr`, `C79_visual`, `C79_visual_harmless` | proved |
| C80 | Header and size lines of the bundled Matrix Market library | Model/MmLib, Spec/MmLib | case analysis over the letters, the scanner lemmas of C43 | `C80_banner`, `C80_writers_return_17`, `C80_banner_null`, `C80_banner_object`, `C80_valid`, `C80_array_size`, `C80_array_size_read`, `C80_array_size_none`, `C80_crd_size` | proved |
| C81 | Coordinate files through the bundled Matrix Market library | Model/MmLib, Spec/MmLib | induction on the lines of the file; the written text is shown to be a well-formed file | `C81_read`, `C81_short`, `C81_bad_entry`, `C81_integer_unread`, `C81_refused`, `C81_complex_overflow`, `C81_stdin`, `C81_write_read`, `C81_write_integer`, `C81_write_unopened`, `C81_entry`, `C81_entry_end` | proved |
| C82 | mm_read_unsymmetric_sparse | Model/MmLib | induction on the lines of the file | `C82_read`, `C82_short`, `C82_refused` | proved |
| C83 | The order of the entries in the input does not matter | the conversions | stable sorts of rearranged lists are equal when ties are only at equal places; the rest of each conversion is a function of the sorted list | `C83_distinct`, `C83_csr`, `C83_csr2`, `C83_cswr`, `C83_csbr`, `C83_csbr2`, `C83_csbr3`, `C83_cgbr`, `C83_cgbr2`, `C83_const`, `C83_dense`, `C83_coo` | proved |
| C84 | What the number of threads decides | the conversions, partition_init | the outcome of partition_init does not depend on the minimum load; counterexample computed by the kernel after replacing the merge sort by insertion sort (equal by C25), and rounded in Binary64 | `C84_csbr`, `C84_cgbr`, `C84_cgbr2`, `C84_unbalanced`, `C84_threads_matter` | proved |
| C85 | Entries that are not inside the matrix | the conversions and kernels, on arbitrary coordinates | a loop that ends well ends each iteration well from a state with its invariant (array lengths, offsets of the current block), so each entry passed its bounds or assertions; the gaps by computing the arrays in closed form | `C85_csr`, `C85_csr_serial`, `C85_csr2`, `C85_coo`, `C85_cswr`, `C85_csbr`, `C85_csbr2`, `C85_csbr3`, `C85_cgbr`, `C85_cgbr2`, `C85_csbr3_accepts`, `C85_csr_last_row`, `C85_csr2_last_row`, `C85_dense_wraps` | proved |
| C86 | CSBR3's task kernel | spmv_chunk(Csbr3*), sequentially and as a fork/join program | it is the general task kernel for a blocked matrix with COO blocks; then the invariants of C76 (which products a row has received) and of C18 (disjoint windows of y, private temporary vectors); the overrun by following a successful merge loop to its last cell | `C86_chunks`, `C86_chunk`, `C86_chunks_sum`, `C86_overrun` | proved |
| C87 | Several multiplications at the same time, and one after the other | The `Prog` models of the multiplications, run by `n` threads on arrays of their own (`parFor`), each thread with a list of calls in sequence. `Call`, `callsInTurn`, `effectInTurn` and `vectors` are the specification. | `Par/Compose.lean`: a program that behaves on every schedule on its own memory is safe next to any other memory (steps and faults of a larger memory project to the smaller one), so statements about all schedules compose under sequence and fork. The race: up to its first write a program only reads, so two copies can both reach it. | `C87_threads`, `C87_in_turn`, `C87_csr`, `C87_csr2`, `C87_cswr`, `C87_csbr`, `C87_csbr2`, `C87_csbr3`, `C87_cgbr`, `C87_cgbr2`, `C87_same_vector`, `C87_csr_same_vector`, `C87_allocate_nothing`, `vectors_at` | proved |
| C88 | What a blocked conversion checks of the block offsets | the constructors, with any offset lists | inversion from success, as for C85: the range assertions of the scan let nothing else through, because `lo + (hi - lo)` is `hi` in the index type also when `hi < lo`. The product part reproves the block lookup for offsets that start anywhere, for entries the first part has shown to lie in blocks; the schedules part frames the rows before the first block-row, which no thread owns. | `C88_csbr`, `C88_csbr2`, `C88_cgbr`, `C88_cgbr2`, `C88_csbr_product`, `C88_csbr2_product`, `C88_csbr_schedules`, `C88_csbr2_schedules` | proved |
| C89 | The operations a multiplication takes and the rates reported | the conversions and kernels at the value type of operation counts (Spec/Rates); common.cpp:29-65 (Model/Rates) | the counts are read off the law-free sums of C15, C01, C76 and C05; the rates from C68 and the monotonicity of rounding | `C89_operations`, `C89_cgbr`, `C89_dense`, `C89_printed`, `C89_order`, `C89_exact` | proved |
| C90 | CSR and CSR2 do the same | csr.1.h, csr.2.h and their kernels, as in C01, C02, on arbitrary arrays | a simulation of the loops: CSR's row with the partial sum in y[i] is CSR2's with it in a variable, read by read. | `C90_product`, `C90_convert`, `C90_parallel_serial`, `C90_schedules` | proved |

## 5. What is not modelled

* Printing: the layout of the numbers in `show`, `print_info`, `partition_dump` (C79) and pprint.c (C72); structs.cpp and messages on the terminal. Of the benchmark programs, C66-C70 have
  the reading, conversion, multiplication, choice of the statistics and exit status; the clock and the random numbers are parameters.
* `sgsb.h`, `test/threads.h`, the three-array `Coo_to_Csr`, `spmv` of `Csbr3` (its loop is in C86) and of `Bcsr`: they do not compile when instantiated
  (checked by reading), so they have no behaviour to model.
* Cilk/TBB variants selected by macros in `rt.h` (only the OpenMP one has kernels in the repository).
* Running out of memory, signals, arithmetic exceptions of floating point, path aliasing, locale, and processes changing a
  file while it is read. `mkdir`/`rm` in the prepare tool are modelled as effects on names under one directory.
* `timestamp` of mm_io.c (prints the time); `read_bin_CSR(Csr2*)` (input.h:405-445), which does not compile when instantiated.
* Performance claims.

## 6. Disagreements between code and documentation or expectation found while modelling

Each is a theorem (a defect theorem states what the code does, with the exact condition).

* C06 stale row pointers; C13 uninitialised block index in BCSR; C14 CSBR from Coo2 reads past the array.
* C03/C07/C10 silent truncation of small indices; C05 duplicates dropped and size overflow in Dense; C54 block ids meeting the sentinel;
  C23 empty matrices in blocked constructors.
* C12 `balanced` of Cgbr2 is never set (harmless); C41 the blocked CGBR reader drops the first record; C55 blocked readers fail for 64-bit indices. C12: with the default factory of Cgbr2 blocks larger than 2^bits(SIT) in either direction give silently wrong products (COO blocks are not checked there, unlike in Cgbr, where an assertion stops: C11).
* C29/C31 block size 0 for small matrices (division by zero), L2 bound lost by overflow, undefined shift for wide dimensions.
* C32 non-permutations are accepted; C36 wrap of the item counter; C37/C45 write failures unreported; C39/C42 short files accepted;
  C65 three-file writer empties its files before failing.
* C43 truncated MatrixMarket files accepted; C44 pattern, skew-symmetric and hermitian files misread; C57 buffer overflow; C58 endless loop; C59 indices unchecked; C74 size lines that do not fit the entries accepted.
* C47 mismatched or missing releases. C56/C63 dimensions taken from unset variables. C60 an existing output is emptied when the input is missing.
  C62 name buffer overflow. C63 everything under the temporary directory is removed. C64 the block option of the sort tool always reads past the array.
* C72: pprint prints repeated or invented records of a file cut short and goes on with a null stream if there is no file.
* C75: block.cpp multiplies by a zero `x` (and a random `y`), reports an unlabelled file under the labels of the one before, prints unset labels for a first one,
  fails its assertion on matrices it should time, and frees unset pointers when it refuses its arguments. It also leaks the COO, CSR and dense arrays of all files (not modelled).
* C73: expanded goes on with an unset number of entries if the row or column file is missing; sort with two arguments reads beyond its arguments.
* C71: the blocked BCSR reader returns success with every block empty.
* C70: result.cpp compares vectors added to uninitialised memory; with memory that is not zero it reports differences between right formats.
* C77: an infinity or NaN in `x` spreads to every row of a dense block, also to rows with no entry in its column, unlike in the sparse formats.
* C85: an entry with row index 0 in a MatrixMarket file (row number -1, wrapped) silently moves all entries of a CSR matrix to other rows; a column index
  beyond the last one ends up in a row below in a dense matrix.
* C86: the task kernel of CSBR3 writes past `y` in the last block-row if the block size does not divide the number of rows.
* C80: the writers of header and size lines of the bundled Matrix Market library report failure for every input. C81: its reader reports success on integer files
  without reading an entry. C82: its other reader decrements indices it has not read when the file is short.
* C67: `blocked` ignores the block sizes it asks for, and `blocked`/`bench` divide by zero on small matrices. The block size `pick_block_size`
  picks for very wide matrices can give more than 2^32 blocks (example in Props/Drivers), where C54 applies.

## 7. Tests of the theorems

`seeded/LOG.jsonl` records each wrong program tried: the definition edited, the edit, the claim it breaks, the theorems that
stopped proving and those tightened afterwards. Edits that break no claim (equivalent programs) are marked.
