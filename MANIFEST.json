{
 "claims": [
  {
   "property": "C01",
   "status": "proved",
   "theorems": [
    "Gsb.C01_csr_spmv",
    "Gsb.C01_csr_mulVec"
   ],
   "note": "construction and both kernels, any index width, no laws on the arithmetic"
  },
  {
   "property": "C02",
   "status": "proved",
   "theorems": [
    "Gsb.C02_csr2_spmv"
   ],
   "note": ""
  },
  {
   "property": "C03",
   "status": "proved",
   "theorems": [
    "Gsb.C03_blockcsr_spmv",
    "Gsb.C03_blockcsr_any",
    "Gsb.C03_blockcsr_truncation"
   ],
   "note": ""
  },
  {
   "property": "C04",
   "status": "proved",
   "theorems": [
    "Gsb.C04_coo_array_spmv",
    "Gsb.C04_coo_copy",
    "Gsb.C04_coo_spmv",
    "Gsb.C04_coo_sum",
    "Gsb.C04_coo_exact16",
    "Gsb.C04_blockcoo2_spmv",
    "Gsb.C04_blockcoo2_sum",
    "Gsb.C04_blockcoo_rejects"
   ],
   "note": ""
  },
  {
   "property": "C05",
   "status": "proved",
   "theorems": [
    "Gsb.C05_dense_storage",
    "Gsb.C05_dense_spmv",
    "Gsb.C05_dense_distinct",
    "Gsb.C05_dense_duplicates",
    "Gsb.C05_dense_overflow"
   ],
   "note": ""
  },
  {
   "property": "C06",
   "status": "proved",
   "theorems": [
    "Gsb.C06_crcsr_never_defined",
    "Gsb.C06_crcsr_memory",
    "Gsb.C06_crcsr_wrapper",
    "Gsb.C06_crcsr_silently_wrong",
    "Gsb.C06_crcsr_zeroed"
   ],
   "note": "as the language defines it the constructor is never defined; on arbitrary memory contents its outcome is characterised completely; exact on zeroed memory with the right row count"
  },
  {
   "property": "C07",
   "status": "proved",
   "theorems": [
    "Gsb.C07_cswr_spmv",
    "Gsb.C07_cswr_any",
    "Gsb.C07_cswr_any_sum",
    "Gsb.C07_cswr_truncation",
    "Gsb.C07_cswr_zero_width"
   ],
   "note": ""
  },
  {
   "property": "C25",
   "status": "proved",
   "theorems": [
    "Gsb.C25_row_major",
    "Gsb.C25_col_major",
    "Gsb.C25_wide_rows",
    "Gsb.C25_morton",
    "Gsb.C25_unique",
    "Gsb.C25_morton_int",
    "Gsb.C25_morton_int_small"
   ],
   "note": ""
  },
  {
   "property": "C26",
   "status": "proved",
   "theorems": [
    "Gsb.C26_bits",
    "Gsb.C26_narrow",
    "Gsb.C26_injective",
    "Gsb.C26_monotone",
    "Gsb.C26_not_injective"
   ],
   "note": ""
  },
  {
   "property": "C08",
   "status": "proved",
   "theorems": [
    "Gsb.C08_csbr_spmv",
    "Gsb.C08_csbr_const",
    "Gsb.C08_csbr_mulVec"
   ],
   "note": "constructor from Coo3 with arbitrary valid offsets and with constant block sizes"
  },
  {
   "property": "C09",
   "status": "proved",
   "theorems": [
    "Gsb.C09_csbr2_spmv",
    "Gsb.C09_csbr2_const"
   ],
   "note": ""
  },
  {
   "property": "C10",
   "status": "proved",
   "theorems": [
    "Gsb.C10_csbr3_spmv",
    "Gsb.C10_csbr3_truncates"
   ],
   "note": "the only instantiable kernel of Csbr3 is spmv_balanced"
  },
  {
   "property": "C20",
   "status": "proved",
   "theorems": [
    "Gsb.C20_const_offsets",
    "Gsb.C20_zero_size"
   ],
   "note": ""
  },
  {
   "property": "C21",
   "status": "proved",
   "theorems": [
    "Gsb.C21_index_to_blockindex",
    "Gsb.C21_unique"
   ],
   "note": ""
  },
  {
   "property": "C22",
   "status": "proved",
   "theorems": [
    "Gsb.C22_size_to_offset",
    "Gsb.C22_partition"
   ],
   "note": ""
  },
  {
   "property": "C23",
   "status": "proved",
   "theorems": [
    "Gsb.C23_blocks",
    "Gsb.C23_empty",
    "Gsb.C23_empty_csbr"
   ],
   "note": ""
  },
  {
   "property": "C54",
   "status": "proved",
   "theorems": [
    "Gsb.C54_ids_collide",
    "Gsb.C54_sentinel"
   ],
   "note": "the positive half is C08/C09/C10 (hypothesis hgrid)"
  },
  {
   "property": "C11",
   "status": "proved",
   "theorems": [
    "Gsb.C11_cgbr_spmv",
    "Gsb.C11_cgbr_const",
    "Gsb.C11_cgbr_bound",
    "Gsb.C11_cgbr_const_bound",
    "Gsb.C11_cgbr_mulVec",
    "Gsb.C11_cgbr_wide",
    "Gsb.C11_cgbr_rejects",
    "Gsb.C11_cgbr_default"
   ],
   "note": "block choice and balance test are arbitrary functions"
  },
  {
   "property": "C12",
   "status": "proved",
   "theorems": [
    "Gsb.C12_cgbr2_spmv",
    "Gsb.C12_default_factory_right",
    "Gsb.C12_cgbr2_default",
    "Gsb.C12_cgbr2_wide",
    "Gsb.C12_cgbr2_places"
   ],
   "note": ""
  },
  {
   "property": "C51",
   "status": "proved",
   "theorems": [
    "Gsb.C51_cgbr_choice",
    "Gsb.C51_cgbr_always_coo",
    "Gsb.C51_cgbr_always_coo_rounded",
    "Gsb.C51_cgbr_choice_rounded",
    "Gsb.C51_factory_choice",
    "Gsb.C51_factory_dense_fits"
   ],
   "note": "factory comparisons in exact arithmetic; the CGBR choice also under any rounding with relative error <= 1%, away from the borders"
  },
  {
   "property": "C15",
   "status": "proved",
   "theorems": [
    "Gsb.C15_formats_agree"
   ],
   "note": "CSR, CSR2, CSWR, CSBR, CSBR2, CSBR3 and the row-sorted COO array; no law assumed on the arithmetic"
  },
  {
   "property": "C19",
   "status": "proved",
   "theorems": [
    "Gsb.C19_partition_blockrow",
    "Gsb.C19_tiles",
    "Gsb.C19_csbr_partition"
   ],
   "note": "load bound: every chunk but the last <= min_nnz + its first block; the last also its last block"
  },
  {
   "property": "C48",
   "status": "proved",
   "theorems": [
    "Gsb.C48_csr_nonzeros",
    "Gsb.C48_csbr_counts",
    "Gsb.C48_cgbr_counts",
    "Gsb.C48_cgbr2_counts"
   ],
   "note": "nonzeros() of a dense block is rows*columns by design and excluded from the per-block reading"
  },
  {
   "property": "C49",
   "status": "proved",
   "theorems": [
    "Gsb.C49_csr_readback",
    "Gsb.C49_cswr_readback",
    "Gsb.C49_csbr_readback",
    "Gsb.C49_csbr3_readback",
    "Gsb.C49_cgbr_readback"
   ],
   "note": "decoders are a separate specification (Verif/Spec/Readback.lean, Verif/Spec/ReadCgbr.lean)"
  },
  {
   "property": "C50",
   "status": "proved",
   "theorems": [
    "Gsb.C50_repeated_spmv",
    "Gsb.C50_repeated_exact",
    "Gsb.C50_repeated_cgbr"
   ],
   "note": ""
  },
  {
   "property": "C53",
   "status": "proved",
   "theorems": [
    "Gsb.C53_input_kept",
    "Gsb.C53_cgbr_localizes",
    "Gsb.C53_cgbr_destroys"
   ],
   "note": ""
  },
  {
   "property": "C13",
   "status": "proved",
   "theorems": [
    "Gsb.C13_bcsr_uninitialised",
    "Gsb.C13_bcsr_never_returns",
    "Gsb.C13_whatever_outside",
    "Gsb.C13_whatever_unset",
    "Gsb.C13_whatever_right",
    "Gsb.C13_whatever_last"
   ],
   "note": "defect theorems: as the C++ standard has it the constructor never returns; with any value in the unassigned variable: out of bounds if it is no block's number; reads of unset members (in it or in release) if another block is empty; right if all others are occupied and it is too or is the last; otherwise the last block's row pointers stay counts"
  },
  {
   "property": "C14",
   "status": "proved",
   "theorems": [
    "Gsb.C14_sort_triplets_blocks_oob",
    "Gsb.C14_csbr_from_coo2_oob",
    "Gsb.C14_harmless_behind",
    "Gsb.C14_harmless_sum"
   ],
   "note": "the array and what is found behind it are separate lists; std::sort is an arbitrary function in the defect theorems and an arbitrary (not necessarily stable) sort by block column in the harmless ones"
  },
  {
   "property": "C16",
   "status": "proved",
   "theorems": [
    "Gsb.C16_csr_kernel",
    "Gsb.C16_csr2_kernel",
    "Gsb.C16_dense_kernel",
    "Gsb.C16_crcsr_kernel",
    "Gsb.C16_csr",
    "Gsb.C16_csr2",
    "Gsb.C16_crcsr",
    "Gsb.C16_dense"
   ],
   "note": "every interleaving of individual memory accesses; race and fault freedom, termination and result (AllSchedules, Verif/Par/Lang.lean)"
  },
  {
   "property": "C17",
   "status": "proved",
   "theorems": [
    "Gsb.C17_cswr",
    "Gsb.C17_csbr",
    "Gsb.C17_csbr2",
    "Gsb.C17_csbr3",
    "Gsb.C17_cswr_any",
    "Gsb.C17_csbr3_any",
    "Gsb.C18_cgbr",
    "Gsb.C18_cgbr2"
   ],
   "note": "nested parallel loops included; CGBR/CGBR2 in a semiring, the CSR-based formats without any law"
  },
  {
   "property": "C18",
   "status": "proved",
   "theorems": [
    "Gsb.C18_chunk",
    "Gsb.C18_rows",
    "Gsb.C18_cgbr",
    "Gsb.C18_cgbr2",
    "Gsb.C18_cgbr_wide",
    "Gsb.C18_cgbr2_wide"
   ],
   "note": "C18_chunk, C18_rows use no law of the arithmetic; C18_cgbr/C18_cgbr2 give y + A x from construction on"
  },
  {
   "property": "C24",
   "status": "proved",
   "theorems": [
    "Gsb.C24_parallel_stable_sort",
    "Gsb.C24_cutoffs",
    "Gsb.C24_unique"
   ],
   "note": "every interleaving of individual element accesses of the tasks; std::stable_sort on the base case is trusted; moved-from cells indeterminate; cut-offs must be >= 1 (sort) and >= 2 (merge) for the recursion to make progress, the code uses 500 and 2000"
  },
  {
   "property": "C27",
   "status": "proved",
   "theorems": [
    "Gsb.C27_next_power_of_two",
    "Gsb.C27_zero"
   ],
   "note": ""
  },
  {
   "property": "C28",
   "status": "proved",
   "theorems": [
    "Gsb.C28_highest_bit_set",
    "Gsb.C28_signed"
   ],
   "note": ""
  },
  {
   "property": "C29",
   "status": "proved",
   "theorems": [
    "Gsb.C29_pick_block_size",
    "Gsb.C29_degenerate",
    "Gsb.C29_fits",
    "Gsb.C29_l2_overflow",
    "Gsb.C29_wide_undefined"
   ],
   "note": "the floating-point logbeta is an arbitrary function; the L2 bound needs value size times dimension to fit the index type (counterexample C29_l2_overflow); 64-bit dimensions above 2^31 are undefined behaviour"
  },
  {
   "property": "C30",
   "status": "proved",
   "theorems": [
    "Gsb.C30_blocks_fit",
    "Gsb.C30_cgbr"
   ],
   "note": "values of at most 8 bytes"
  },
  {
   "property": "C31",
   "status": "proved",
   "theorems": [
    "Gsb.C31_small_zero",
    "Gsb.C29_pick_block_size",
    "Gsb.C31_divides_by_zero"
   ],
   "note": "C29_pick_block_size gives the exact condition (rounded dimension <= 8*workers)"
  },
  {
   "property": "C32",
   "status": "proved",
   "theorems": [
    "Gsb.C32_invert",
    "Gsb.C32_round_trip",
    "Gsb.C32_invert_schedules",
    "Gsb.C32_in_place_schedules",
    "Gsb.C32_permute_schedules",
    "Gsb.C32_not_a_permutation"
   ],
   "note": "serial result and every schedule of the omp loops"
  },
  {
   "property": "C33",
   "status": "proved",
   "theorems": [
    "Gsb.C33_renames",
    "Gsb.C33_coo",
    "Gsb.C33_csr"
   ],
   "note": "COO bit-exact without laws; CSR in a commutative additive monoid because the column order changes"
  },
  {
   "property": "C34",
   "status": "proved",
   "theorems": [
    "Gsb.C34_block_size",
    "Gsb.C34_expand_index",
    "Gsb.C34_order",
    "Gsb.C34_expand_indeces",
    "Gsb.C34_expanded",
    "Gsb.C34_schedules"
   ],
   "note": "sizes*slots must fit the index type"
  },
  {
   "property": "C35",
   "status": "proved",
   "theorems": [
    "Gsb.C35_bin_roundtrip"
   ],
   "note": "bytes on disk; value encoding any exact codec"
  },
  {
   "property": "C36",
   "status": "proved",
   "theorems": [
    "Gsb.C36_truncated_rejected",
    "Gsb.C36_counter_wraps"
   ],
   "note": "every prefix; C36_counter_wraps shows the bound is needed"
  },
  {
   "property": "C37",
   "status": "proved",
   "theorems": [
    "Gsb.C37_write_failure_unreported",
    "Gsb.C37_reader_notices",
    "Gsb.C37_array_short_write"
   ],
   "note": "every amount of space and every amount that survives"
  },
  {
   "property": "C38",
   "status": "proved",
   "theorems": [
    "Gsb.C38_read_any",
    "Gsb.C38_array_roundtrip"
   ],
   "note": "an empty file depends on malloc(0)"
  },
  {
   "property": "C39",
   "status": "proved",
   "theorems": [
    "Gsb.C39_coo_reader",
    "Gsb.C39_generic_reader",
    "Gsb.C39_generic_accepts_anything",
    "Gsb.C39_coo_short",
    "Gsb.C39_roundtrip"
   ],
   "note": ""
  },
  {
   "property": "C42",
   "status": "proved",
   "theorems": [
    "Gsb.C42_read_csr",
    "Gsb.C42_truncation_accepted"
   ],
   "note": ""
  },
  {
   "property": "C40",
   "status": "proved",
   "theorems": [
    "Gsb.C40_csbr",
    "Gsb.C40_csbr2",
    "Gsb.C40_header_checked"
   ],
   "note": "32-bit indices; every proper prefix rejected"
  },
  {
   "property": "C55",
   "status": "proved",
   "theorems": [
    "Gsb.C55_csbr_out_of_bounds"
   ],
   "note": ""
  },
  {
   "property": "C41",
   "status": "proved",
   "theorems": [
    "Gsb.C41_cgbr_drops_first",
    "Gsb.C41_missing_term",
    "Gsb.C41_single_uninit"
   ],
   "note": "any index width, any block type choice, either value of the unassigned member balanced"
  },
  {
   "property": "C43",
   "status": "proved",
   "theorems": [
    "Gsb.C43_general",
    "Gsb.C43_symmetric",
    "Gsb.C43_symmetric_is",
    "Gsb.C43_truncated_unnoticed"
   ],
   "note": "byte-level model of fgets/sscanf/fscanf; strtod and the conversion to T are an arbitrary function of the numeral; inf, nan and hexadecimal numbers are outside the model"
  },
  {
   "property": "C44",
   "status": "proved",
   "theorems": [
    "Gsb.C44_read_as_general",
    "Gsb.C44_skew",
    "Gsb.C44_hermitian",
    "Gsb.C44_pattern",
    "Gsb.C44_pattern_loses",
    "Gsb.C44_pattern_one"
   ],
   "note": ""
  },
  {
   "property": "C45",
   "status": "proved",
   "theorems": [
    "Gsb.C45_write_read",
    "Gsb.C45_wide",
    "Gsb.C45_failure_unnoticed"
   ],
   "note": "sizes below 2^31, or 32-bit index type; finite values; C45_wide shows the limit"
  },
  {
   "property": "C46",
   "status": "proved",
   "theorems": [
    "Gsb.C46_suffix",
    "Gsb.C46_bin",
    "Gsb.C46_mtx",
    "Gsb.C46_other"
   ],
   "note": ""
  },
  {
   "property": "C57",
   "status": "proved",
   "theorems": [
    "Gsb.C57_long_word"
   ],
   "note": ""
  },
  {
   "property": "C58",
   "status": "proved",
   "theorems": [
    "Gsb.C58_loops_forever"
   ],
   "note": ""
  },
  {
   "property": "C59",
   "status": "proved",
   "theorems": [
    "Gsb.C59_unchecked"
   ],
   "note": ""
  },
  {
   "property": "C52",
   "status": "proved",
   "theorems": [
    "Gsb.C52_converts",
    "Gsb.C52_rejects",
    "Gsb.C52_large"
   ],
   "note": "fewer than 2^32 indices per file; C52_large shows the limit"
  },
  {
   "property": "C56",
   "status": "proved",
   "theorems": [
    "Gsb.C56_convert_bin",
    "Gsb.C56_convert_mtx",
    "Gsb.C56_convert_all",
    "Gsb.C56_refuses",
    "Gsb.C56_missing_input",
    "Gsb.C56_convert_blocked"
   ],
   "note": "gr, gc: the contents of the unassigned variables"
  },
  {
   "property": "C60",
   "status": "proved",
   "theorems": [
    "Gsb.C60_converts",
    "Gsb.C60_missing_destroys"
   ],
   "note": "the conversion (float) v is a parameter"
  },
  {
   "property": "C61",
   "status": "proved",
   "theorems": [
    "Gsb.C61_permutes",
    "Gsb.C61_inverse",
    "Gsb.C61_out_of_range"
   ],
   "note": ""
  },
  {
   "property": "C62",
   "status": "proved",
   "theorems": [
    "Gsb.C62_expanded",
    "Gsb.C62_name_overflow"
   ],
   "note": "non-empty matrix; %lu is a parameter"
  },
  {
   "property": "C63",
   "status": "proved",
   "theorems": [
    "Gsb.C63_prepare",
    "Gsb.C63_own_directory",
    "Gsb.C63_no_room"
   ],
   "note": "non-empty matrix; gr, gc: the contents of the unassigned variables"
  },
  {
   "property": "C64",
   "status": "proved",
   "theorems": [
    "Gsb.C64_sort_files",
    "Gsb.C64_sort_mtx",
    "Gsb.C64_sort_blocks_oob"
   ],
   "note": ""
  },
  {
   "property": "C47",
   "status": "proved",
   "theorems": [
    "Gsb.C47_released",
    "Gsb.C47_csr_given",
    "Gsb.C47_coo",
    "Gsb.C47_csbr2",
    "Gsb.C47_csbr2_sized",
    "Gsb.C47_csbr_mismatch",
    "Gsb.C47_csbr_leak",
    "Gsb.C47_cgbr",
    "Gsb.C47_cgbr2",
    "Gsb.C47_tools"
   ],
   "note": "allocation ledger (addresses and the way each was obtained): exact release for Coo2/Coo3/Csr/Csr2/CrCsr/Cswr/Csbr3, Csbr2 with malloc'd offsets and Cgbr; the mismatches, the double release and the leaks of the others are proved too"
  },
  {
   "property": "C65",
   "status": "proved",
   "theorems": [
    "Gsb.C65_writers",
    "Gsb.C65_three_files",
    "Gsb.C65_readers",
    "Gsb.C65_readers_row",
    "Gsb.C65_readers_col"
   ],
   "note": ""
  },
  {
   "property": "C66",
   "status": "proved",
   "theorems": [
    "Gsb.C66_csr",
    "Gsb.C66_cswr",
    "Gsb.C66_blocked_exact",
    "Gsb.C66_blocked_sum",
    "Gsb.C66_bench",
    "Gsb.C66_pbench",
    "Gsb.C66_blocked_total",
    "Gsb.C66_bench_total",
    "Gsb.C66_pbench_total"
   ],
   "note": "Cgbr, Cgbr2: values in a commutative semiring, or law-free (_total); a dense block type only for matrices without repeated entries; at least one iteration"
  },
  {
   "property": "C67",
   "status": "proved",
   "theorems": [
    "Gsb.C67_refused",
    "Gsb.C67_block_sizes_ignored",
    "Gsb.C67_small",
    "Gsb.C67_cswr_zero",
    "Gsb.C67_no_iterations",
    "Gsb.C67_no_iterations_refused",
    "Gsb.C67_pbench_small",
    "Gsb.C67_pbench_no_permutation",
    "Gsb.C67_pbench_short_permutation"
   ],
   "note": ""
  },
  {
   "property": "C68",
   "status": "proved",
   "theorems": [
    "Gsb.C68_stats"
   ],
   "note": "times in a linearly ordered commutative monoid with an arbitrary division by a number"
  },
  {
   "property": "C69",
   "status": "proved",
   "theorems": [
    "Gsb.C69_check",
    "Gsb.C69_nan",
    "Gsb.C69_short",
    "Gsb.C69_errors",
    "Gsb.C69_mean",
    "Gsb.C69_median"
   ],
   "note": "count and return code for any comparison of values; printed errors and statistics in an ordered field"
  },
  {
   "property": "C70",
   "status": "proved",
   "theorems": [
    "Gsb.C70_exact",
    "Gsb.C70_result",
    "Gsb.C70_fresh_memory",
    "Gsb.C70_total",
    "Gsb.C70_float",
    "Gsb.C70_small",
    "Gsb.C70_refused"
   ],
   "note": "CGBR comparisons: values in a commutative semiring, law-free (C70_total) or rounded (C70_float); a dense block type only for matrices without repeated entries"
  },
  {
   "property": "C71",
   "status": "proved",
   "theorems": [
    "Gsb.C71_bcsr_left_empty"
   ],
   "note": "32-bit indices"
  },
  {
   "property": "C72",
   "status": "proved",
   "theorems": [
    "Gsb.C72_triples",
    "Gsb.C72_triples_cut",
    "Gsb.C72_blocks",
    "Gsb.C72_blocks_cut",
    "Gsb.C72_vector",
    "Gsb.C72_missing"
   ],
   "note": "the layout of printed numbers is not modelled"
  },
  {
   "property": "C73",
   "status": "proved",
   "theorems": [
    "Gsb.C73_one2zero",
    "Gsb.C73_double2float",
    "Gsb.C73_permute",
    "Gsb.C73_convert",
    "Gsb.C73_convert_blocked",
    "Gsb.C73_expanded",
    "Gsb.C73_expanded_missing",
    "Gsb.C73_prepare",
    "Gsb.C73_sort",
    "Gsb.C73_usage"
   ],
   "note": ""
  },
  {
   "property": "C74",
   "status": "proved",
   "theorems": [
    "Gsb.C74_general",
    "Gsb.C74_symmetric",
    "Gsb.C74_symmetric_overflow",
    "Gsb.C74_count_missing"
   ],
   "note": "missing count: symmetric files with 64-bit indices: fewer than 2^31 entries read; missing count: first entry's value written as a natural number and at least one more entry"
  },
  {
   "property": "C75",
   "status": "proved",
   "theorems": [
    "Gsb.C75_reports",
    "Gsb.C75_later_unusable",
    "Gsb.C75_stale_labels",
    "Gsb.C75_too_large",
    "Gsb.C75_area",
    "Gsb.C75_first_unusable",
    "Gsb.C75_unlabelled"
   ],
   "note": "int indices; the first hypothesis, adding a product with zero changes nothing, holds in every semiring"
  },
  {
   "property": "C76",
   "status": "proved",
   "theorems": [
    "Gsb.C76_cgbr",
    "Gsb.C76_cgbr_const",
    "Gsb.C76_cgbr2",
    "Gsb.C76_dense",
    "Gsb.C76_exact",
    "Gsb.C76_inOrder",
    "Gsb.C76_semiring"
   ],
   "note": "the entries of one block are in distinct places whenever dense blocks occur"
  },
  {
   "property": "C77",
   "status": "proved",
   "theorems": [
    "Gsb.C77_bound",
    "Gsb.C77_csr",
    "Gsb.C77_csr2",
    "Gsb.C77_coo",
    "Gsb.C77_cswr",
    "Gsb.C77_csbr",
    "Gsb.C77_csbr2",
    "Gsb.C77_csbr3",
    "Gsb.C77_cgbr",
    "Gsb.C77_cgbr2",
    "Gsb.C77_dense",
    "Gsb.C77_finite",
    "Gsb.C77_finite_sparse",
    "Gsb.C77_dense_infinite",
    "Gsb.C77_agree",
    "Gsb.C77_exact",
    "Gsb.C77_ieee"
   ],
   "note": "no fused multiply-add, no re-association by the compiler"
  },
  {
   "property": "C78",
   "status": "proved",
   "theorems": [
    "Gsb.C78_import",
    "Gsb.C78_permute",
    "Gsb.C78_prepare",
    "Gsb.C78_end_to_end",
    "Gsb.C78_block"
   ],
   "note": "32-bit indices, as in the tools; C76_semiring and C77_bound turn the sums into y + A x and into error bounds"
  },
  {
   "property": "C79",
   "status": "proved",
   "theorems": [
    "Gsb.C79_show_nonzeros",
    "Gsb.C79_show_coo",
    "Gsb.C79_show_csr",
    "Gsb.C79_info_csr",
    "Gsb.C79_info_cswr",
    "Gsb.C79_info_csbr",
    "Gsb.C79_info_csbr3",
    "Gsb.C79_info_cgbr",
    "Gsb.C79_info_cgbr2",
    "Gsb.C79_dump_csbr",
    "Gsb.C79_dump_cgbr",
    "Gsb.C79_visual",
    "Gsb.C79_visual_harmless"
   ],
   "note": "tokens, not characters: the layout of the numbers by printf is not modelled"
  },
  {
   "property": "C80",
   "status": "proved",
   "theorems": [
    "Gsb.C80_banner",
    "Gsb.C80_writers_return_17",
    "Gsb.C80_banner_null",
    "Gsb.C80_banner_object",
    "Gsb.C80_valid",
    "Gsb.C80_array_size",
    "Gsb.C80_array_size_read",
    "Gsb.C80_array_size_none",
    "Gsb.C80_crd_size"
   ],
   "note": ""
  },
  {
   "property": "C81",
   "status": "proved",
   "theorems": [
    "Gsb.C81_read",
    "Gsb.C81_short",
    "Gsb.C81_bad_entry",
    "Gsb.C81_integer_unread",
    "Gsb.C81_refused",
    "Gsb.C81_complex_overflow",
    "Gsb.C81_stdin",
    "Gsb.C81_write_read",
    "Gsb.C81_write_integer",
    "Gsb.C81_write_unopened",
    "Gsb.C81_entry",
    "Gsb.C81_entry_end"
   ],
   "note": "the digits printf chooses for a number are a parameter that gives a well-formed decimal numeral; strtod is a parameter; infinities and NaN are not modelled"
  },
  {
   "property": "C82",
   "status": "proved",
   "theorems": [
    "Gsb.C82_read",
    "Gsb.C82_short",
    "Gsb.C82_refused"
   ],
   "note": "as C81"
  },
  {
   "property": "C83",
   "status": "proved",
   "theorems": [
    "Gsb.C83_distinct",
    "Gsb.C83_csr",
    "Gsb.C83_csr2",
    "Gsb.C83_cswr",
    "Gsb.C83_csbr",
    "Gsb.C83_csbr2",
    "Gsb.C83_csbr3",
    "Gsb.C83_cgbr",
    "Gsb.C83_cgbr2",
    "Gsb.C83_const",
    "Gsb.C83_dense",
    "Gsb.C83_coo"
   ],
   "note": "equality of the results of the model functions, arrays and failures included; the blocked formats for entries in range and a grid of blocks the index type can number; coordinate blocks for 16-bit places"
  },
  {
   "property": "C84",
   "status": "proved",
   "theorems": [
    "Gsb.C84_csbr",
    "Gsb.C84_cgbr",
    "Gsb.C84_cgbr2",
    "Gsb.C84_unbalanced",
    "Gsb.C84_threads_matter"
   ],
   "note": "no hypothesis on the input except that the conversion succeeds (CGBR, CGBR2); the last two are the counterexample, for arbitrary arithmetic and for IEEE doubles; schedules for a fixed number of threads are C16-C18"
  },
  {
   "property": "C85",
   "status": "proved",
   "theorems": [
    "Gsb.C85_csr",
    "Gsb.C85_csr_serial",
    "Gsb.C85_csr2",
    "Gsb.C85_coo",
    "Gsb.C85_cswr",
    "Gsb.C85_csbr",
    "Gsb.C85_csbr2",
    "Gsb.C85_csbr3",
    "Gsb.C85_cgbr",
    "Gsb.C85_cgbr2",
    "Gsb.C85_csbr3_accepts",
    "Gsb.C85_csr_last_row",
    "Gsb.C85_csr2_last_row",
    "Gsb.C85_dense_wraps"
   ],
   "note": "the other direction, arrays inside the matrix are accepted and multiplied rightly, is C01-C12; C85_csr, C85_csr2 and, with a width of 1, C85_cswr leave out the largest row number, which for CSR and CSR2 is C85_csr_last_row, C85_csr2_last_row; constant block sizes go through the same conversions"
  },
  {
   "property": "C86",
   "status": "proved",
   "theorems": [
    "Gsb.C86_chunks",
    "Gsb.C86_chunk",
    "Gsb.C86_chunks_sum",
    "Gsb.C86_overrun"
   ],
   "note": "spmv_chunk only: the function spmv(Csbr3*) around it cannot be instantiated (it calls a free function and uses a member function as a field); the loop over block-rows is modelled with these two read as the members they name, and the cuts are the caller's because partition_init cannot be instantiated for Csbr3 either. spmv_balanced is C10 and C17."
  },
  {
   "property": "C87",
   "status": "proved",
   "theorems": [
    "Gsb.C87_threads",
    "Gsb.C87_in_turn",
    "Gsb.C87_csr",
    "Gsb.C87_csr2",
    "Gsb.C87_cswr",
    "Gsb.C87_csbr",
    "Gsb.C87_csbr2",
    "Gsb.C87_csbr3",
    "Gsb.C87_cgbr",
    "Gsb.C87_cgbr2",
    "Gsb.C87_same_vector",
    "Gsb.C87_csr_same_vector",
    "Gsb.C87_allocate_nothing",
    "Gsb.vectors_at"
   ],
   "note": "the matrices and the vectors x are not written by anyone meanwhile (the library's multiplications take them read-only); CGBR and CGBR2 in a semiring; the race is shown for the formats whose multiplication allocates nothing"
  },
  {
   "property": "C88",
   "status": "proved",
   "theorems": [
    "Gsb.C88_csbr",
    "Gsb.C88_csbr2",
    "Gsb.C88_cgbr",
    "Gsb.C88_cgbr2",
    "Gsb.C88_csbr_product",
    "Gsb.C88_csbr2_product",
    "Gsb.C88_csbr_schedules",
    "Gsb.C88_csbr2_schedules"
   ],
   "note": "for offset lists with values in the index type; conversions that return are shown to exist for offsets starting at 1 and for decreasing ones in Cases/AnyPartition.lean"
  },
  {
   "property": "C89",
   "status": "proved",
   "theorems": [
    "Gsb.C89_operations",
    "Gsb.C89_cgbr",
    "Gsb.C89_dense",
    "Gsb.C89_printed",
    "Gsb.C89_order",
    "Gsb.C89_exact"
   ],
   "note": "operations are counted by multiplying values that record what computing them took; the rounding of the printed digits is not modelled"
  },
  {
   "property": "C90",
   "status": "proved",
   "theorems": [
    "Gsb.C90_product",
    "Gsb.C90_convert",
    "Gsb.C90_parallel_serial",
    "Gsb.C90_schedules"
   ],
   "note": "C90_parallel_serial, C90_schedules: at least one row; row numbers may be anything; column numbers are values of the index type, as they always are in the program"
  }
 ]
}