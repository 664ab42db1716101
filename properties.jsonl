{"id": "C01", "title": "CSR SpMV is correct", "statement": "After Coo_to_Csr builds a Csr matrix from any array of in-range non-zeros (any order, duplicates allowed), the construction finishes without undefined behaviour or assertion failure, and spmv / spmv_serial add to every y[i] exactly the products val*x[col] of the entries of row i, taken in increasing column order (ties in input order), and change nothing else.", "quantifier": "every value type with + and * (no algebraic laws), every rows/columns/nnz below the index type's limit, every entry list, every x and y", "why_tests_cant": "Matrix sizes, patterns, duplicate structure and vectors are unbounded; a test samples a few matrices.", "anchors": ["include/matrix/csr.1.h: Csr, Coo_to_Csr", "include/generic/csr.h: Coo_to_Csr", "include/spmv/csr.h: spmv_csr_serial", "include/spmv/omp/csr.h: spmv_csr", "include/utils.h: sort_triplets"]}
{"id": "C02", "title": "CSR2 SpMV is correct", "statement": "Coo_to_Csr into a Csr2 (value/index pairs) succeeds for every in-range COO input and spmv / spmv_serial give the same exact per-row column-ordered accumulation into y as the specification.", "quantifier": "every value type, index width, entry list, x, y", "why_tests_cant": "Unbounded inputs.", "anchors": ["include/matrix/csr.2.h: Csr2, Coo_to_Csr", "include/spmv/csr.h: spmv_csr2_serial", "include/spmv/omp/csr.h: spmv_csr2"]}
{"id": "C03", "title": "CSR blocks with small column indices are correct", "statement": "BlockCsr / BlockCsrSerial / BlockCsrParallel built from entries sorted by row, whose columns fit the small index type, multiply exactly like the entries they were built from; a column that does not fit is silently taken modulo the number of small indices (for every such list the product is that of the entries so moved) and gives a wrong product.", "quantifier": "every sorted entry list, every small index width, every x, y", "why_tests_cant": "Needs all block shapes and all widths, and the failing boundary.", "anchors": ["include/matrix/block_csr.h: Coo_to_Csr, BlockCsr", "include/matrix/blocks.h: BlockCsrSerial, BlockCsrParallel"]}
{"id": "C04", "title": "COO SpMV is correct for every COO variant", "statement": "Coo, Coo2, Coo3, BlockCoo and BlockCoo2 spmv accumulate val*x[col] into y[row] for each stored entry in storage order; the Morton-sorting constructors only permute the entries stably, so in a commutative-associative arithmetic y grows by the matrix-vector product, and for 16-bit coordinates the result is even bit-identical to CSR's.", "quantifier": "every entry list, x, y, index widths", "why_tests_cant": "Unbounded inputs; order effects of floating point cannot be sampled away.", "anchors": ["include/spmv/coo.h: spmv_coo", "include/matrix/coo.1.h: Coo", "include/matrix/coo.2.h: Coo2", "include/matrix/coo.3.h: Coo3", "include/matrix/block_coo.1.h: Coo_to_Coo", "include/matrix/block_coo.2.h: Coo_to_Coo", "include/utils.h: sort_triplets_morton"]}
{"id": "C05", "title": "Dense conversion is exact for distinct coordinates and drops duplicates", "statement": "Coo_to_Dense / DenseSerial / BlockDense store every entry at its coordinate when rows*columns does not overflow the index type; if coordinates are distinct spmv equals the sparse product (in a semiring), with duplicates the last one wins and the product differs from COO/CSR.", "quantifier": "every entry list, dimension pair, x, y", "why_tests_cant": "Needs all lists; the duplicate divergence is a semantic fact, not a sample.", "anchors": ["include/matrix/dense.h: Coo_to_Dense, DenseSerial, BlockDense", "include/spmv/dense.h: spmv_dense_serial", "include/spmv/omp/dense.h: spmv_dense"]}
{"id": "C06", "title": "Compressed-row CSR construction depends on stale memory", "statement": "Coo_to_CrCsr increments row pointers it never initialised, so by the language rules it has no defined result for any input. Run on memory that held words g0..gn: with a row count below the number of non-empty rows it writes out of bounds, with a larger one an assertion fails; with the right one an assertion fails unless the stale words sum to 0 modulo the index range, in which case row pointer k is off by g0+..+gk (right iff all words were 0) and spmv may silently drop products. The wrapper that counts rows itself does so before sorting: it works as with the right count iff the entries of each row are adjacent in the input, otherwise an assertion fails. On zeroed memory with the right count the product is exact.", "quantifier": "every non-empty entry list, every row count, every content of the allocated memory", "why_tests_cant": "A test on a fresh heap page that happens to be zero passes.", "anchors": ["include/matrix/crcsr.h: Coo_to_CrCsr", "include/utils.h: count_nnz_rows", "include/spmv/crcsr.h: spmv_serial", "include/spmv/omp/crcsr.h: spmv"]}
{"id": "C07", "title": "CSWR SpMV is correct exactly when the wide-row width fits the small index type", "statement": "Coo_to_Cswr with 0 < width <= 2^bits(SIT) succeeds for every in-range COO input and spmv is the exact per-row column-ordered accumulation; with a larger width the constructor's assertion does not catch the truncation: within its wide row every entry goes to its local row modulo the number of small indices, and y is wrong.", "quantifier": "every entry list, width, x, y", "why_tests_cant": "All widths and patterns; the truncation boundary.", "anchors": ["include/matrix/cswr.h: Cswr, Coo_to_Cswr", "include/utils.h: sort_triplets_widerows"]}
{"id": "C08", "title": "CSBR SpMV is correct for every block partition", "statement": "Coo_to_Csbr from a Coo3 with any valid offset vectors and at least one non-zero succeeds, and spmv is the exact per-row column-ordered accumulation into y.", "quantifier": "every valid block-row/column offset vector, every non-empty in-range entry list, x, y", "why_tests_cant": "Partitions and patterns are unbounded.", "anchors": ["include/matrix/csbr.h: Coo_to_Csbr, Csbr", "include/spmv/omp/gsb.h: spmv_blocked, spmv_balanced", "include/utils.h: calculate_block_id, sort_elements_blocks, count_blocks"]}
{"id": "C09", "title": "CSBR2 SpMV is correct for every block partition", "statement": "Coo_to_Csbr / Coo_to_Blocked into a Csbr2 with any valid offset vectors and at least one non-zero succeeds and spmv is the exact per-row accumulation.", "quantifier": "every valid offset vector, non-empty entry list, x, y", "why_tests_cant": "Unbounded inputs.", "anchors": ["include/matrix/csbr.2.h", "include/spmv/omp/gsb.h: spmv_balanced"]}
{"id": "C10", "title": "CSBR3 SpMV is correct for constant square blocks", "statement": "Coo_to_Csbr into a Csbr3 with block size 0 < b <= 2^bits(SIT) succeeds for non-empty in-range input and the balanced kernel is the exact per-row accumulation; larger b truncates indices silently.", "quantifier": "every block size, entry list, x, y", "why_tests_cant": "Unbounded inputs and the truncation boundary.", "anchors": ["include/matrix/csbr.3.h", "include/spmv/omp/csbr.3.h: spmv_balanced"]}
{"id": "C11", "title": "CGBR SpMV is correct whatever block types the heuristic picks", "statement": "Coo_to_Cgbr with any valid partition succeeds and spmv / spmv_serial compute y + A*x whichever of COO, CSR, dense is chosen per block (dense only for duplicate-free blocks), on both the balanced and the chunked path. Blocks larger than the small index type allows: an entry of a COO block whose place does not fit stops construction with an assertion (with the library's own choice, always COO, this is what happens); CSR blocks silently take local columns modulo the small range.", "quantifier": "every partition, entry list, block-type choice function, number of workers, x, y in any commutative semiring", "why_tests_cant": "The heuristic is a float computation; all choices and all partitions must be right.", "anchors": ["include/matrix/cgbr.h: Coo_to_Cgbr, Coo_to_MatrixBlock, Cgbr", "include/spmv/omp/gsb.h"]}
{"id": "C12", "title": "CGBR2 SpMV is correct for any block factory and either value of its uninitialised balanced flag", "statement": "Cgbr2::create never sets `balanced`, which spmv reads; for every value it may hold, every factory and every valid partition the result is y + A*x. With the default factory nothing checks that places in a block fit the small index type: local rows and columns of COO blocks and local columns of CSR blocks are silently taken modulo the small range, and the product is that of the entries so moved.", "quantifier": "every partition, factory choice, flag value, workers, entry list, x, y", "why_tests_cant": "The flag is indeterminate: a test sees one value.", "anchors": ["include/matrix/cgbr.2.h: create, spmv", "include/matrix/blocks.h: BlockFactoryDefault"]}
{"id": "C13", "title": "BCSR constructor writes through an uninitialised index", "statement": "Coo_to_Bcsr's loop over blocks indexes with a variable that was never initialised, so no run of it with a non-zero block count is defined. Whatever value the variable happens to hold: if it is no block's number the constructor writes outside the array of blocks; if it is one and some other block is empty, the constructor or release() reads members that were never assigned; if all other blocks have entries and that block has one or is the last, the matrix is right; otherwise the last block's row pointers are left as counts.", "quantifier": "every input that passes its assertions, every value of the variable", "why_tests_cant": "Depends on stack garbage.", "anchors": ["include/matrix/bcsr.h"]}
{"id": "C14", "title": "CSBR from Coo2 reads past the input array, and what follows from what it finds there", "statement": "sort_triplets_blocks (used by Coo_to_Csbr from a Coo2) reads element [size] for every in-range input and valid offsets, so that constructor is never free of out-of-bounds access. If what lies behind the array never looks like something outside the rows, the search runs to the end of the memory. If it does stop the search, and (when the last block-row is empty) the first thing there is not taken for an entry of an earlier block-row, then, for any std::sort that sorts, stable or not, the constructor returns, the triplets are left block by block and by rows in local coordinates, and the product is that of the matrix: bit-identical to CSR when no position is given twice, the exact sum always.", "quantifier": "every in-range entry list, every valid partition, everything that can lie behind the array, every sorting function", "why_tests_cant": "Reading one past an array usually passes a test.", "anchors": ["include/utils.h: sort_triplets_blocks", "include/matrix/csbr.h: Coo_to_Csbr (Coo2)"]}
{"id": "C15", "title": "All exact formats give bit-identical results", "statement": "For every entry list CSR, CSR2, CSWR, CSBR, CSBR2, CSBR3 and COO-after-row-sort leave bit-identical y vectors, even in non-associative (floating point) arithmetic.", "quantifier": "every entry list, valid partitions/widths for each format, x, y, arbitrary + and *", "why_tests_cant": "Floating-point order effects appear only on some data.", "anchors": ["src/test/result.cpp", "include/matrix/*.h"]}
{"id": "C16", "title": "Row-parallel kernels are deterministic", "statement": "Every interleaving of the loads, multiply-adds and stores of the OpenMP loops of spmv_csr, spmv_csr2, spmv_dense and the compressed-row spmv yields the serial kernel's y, with no data race.", "quantifier": "every schedule of iterations on any number of threads, every matrix satisfying the row structure", "why_tests_cant": "Schedules are unbounded.", "anchors": ["include/spmv/omp/csr.h", "include/spmv/omp/dense.h", "include/spmv/omp/crcsr.h"]}
{"id": "C17", "title": "Block-row-parallel kernels are deterministic", "statement": "Every interleaving of the block-row loop (and nested row loops) in spmv_balanced for CSBR/CSBR2/CGBR, of CSBR3's and of CSWR's loop yields the sequential y with no data race; also when blocks or wide rows have more rows than there are small indices, where the sequential y itself is wrong (C07, C10).", "quantifier": "every schedule, every valid blocked matrix", "why_tests_cant": "Schedules are unbounded.", "anchors": ["include/spmv/omp/gsb.h: spmv_balanced", "include/spmv/omp/csbr.3.h: spmv_balanced", "include/matrix/cswr.h: spmv"]}
{"id": "C18", "title": "Task-parallel chunk kernel is deterministic and race free", "statement": "Every interleaving of the recursive spmv_chunk tasks with their temporaries gives the y of the sequential run of the same recursion; in a commutative monoid that is y plus the block-row's product; for blocks larger than the small index type the schedules agree on the wrong result of C11 and C12.", "quantifier": "every schedule, every chunk vector, every nesting", "why_tests_cant": "Schedules and recursion depth are unbounded.", "anchors": ["include/spmv/omp/gsb.h: spmv_chunk, spmv_blocked"]}
{"id": "C19", "title": "Block-row partition covers every block once with bounded load", "statement": "partition_blockrow returns boundaries that start at start, end at end, never decrease, so consecutive chunks tile the block range; every chunk but the last holds at most min_nnz non-zeros plus those of its first block.", "quantifier": "every block-row range, every block size distribution, every worker count", "why_tests_cant": "All distributions.", "anchors": ["include/partition.h: partition_blockrow, partition_init"]}
{"id": "C20", "title": "Constant block size constructor makes valid offsets", "statement": "For block sizes b > 0 and rows > 0 the offsets built by the constant-size constructors start at 0, end at rows, and all block sizes lie in [b,2b) (the single block if rows < b has size rows).", "quantifier": "every rows, columns, block size", "why_tests_cant": "All divisibility cases and overflow.", "anchors": ["include/generic/gsb.h: Coo_to_Blocked", "include/matrix/csbr.h: Coo_to_Csbr (constant size)"]}
{"id": "C21", "title": "index_to_blockindex finds the block containing the index", "statement": "For any sorted offsets starting at 0 and index below the last offset, the returned block b satisfies offset[b] <= index < offset[b+1]; for strictly increasing offsets it is the only one.", "quantifier": "every offset vector, every index", "why_tests_cant": "All vectors.", "anchors": ["include/utils.h: index_to_blockindex"]}
{"id": "C22", "title": "size_to_offset makes prefix sums", "statement": "offsets[0]=0 and offsets[k] is the sum of the first k sizes whenever the total fits the index type; otherwise it is that sum modulo 2^width.", "quantifier": "every size vector", "why_tests_cant": "All lengths; wrap-around.", "anchors": ["include/utils.h: size_to_offset"]}
{"id": "C23", "title": "Block ids, block sort and count_blocks agree", "statement": "calculate_block_id followed by sort_elements_blocks groups the entries of each block contiguously in block-major, row, column order; count_blocks returns the number of distinct blocks; on an empty array count_blocks reads out of bounds.", "quantifier": "every entry list, every valid partition", "why_tests_cant": "All lists.", "anchors": ["include/utils.h: calculate_block_id, sort_elements_blocks, count_blocks, count_nnz_rows"]}
{"id": "C24", "title": "parallel_stable_sort is a stable sort under every schedule", "statement": "parallel_stable_sort returns a permutation of its input, sorted by the comparator, with equal elements in input order, for every cut-off size, for serial and parallel merge and for every interleaving of its tasks.", "quantifier": "every array, strict weak order, cut-off, schedule", "why_tests_cant": "All arrays and schedules.", "anchors": ["dep/pss/parallel_stable_sort.h", "dep/pss/pss_common.h"]}
{"id": "C25", "title": "The sorting helpers order as documented", "statement": "sort_triplets (row/column major), sort_triplets_widerows and sort_triplets_morton return a stable permutation in, respectively, (row,col), (col,row), (row/width,col,row) and Morton order. With indices of type int and 16-bit coordinates the Morton sort puts the triplets with a column index of 2^15 and more before all others, either part in Morton order; it is the Morton order if there are none.", "quantifier": "every entry list and width > 0", "why_tests_cant": "All lists.", "anchors": ["include/utils.h: sort_triplets, sort_triplets_widerows, sort_triplets_morton"]}
{"id": "C26", "title": "bit_interleave is a Morton code", "statement": "For 16-bit row and col the result has row's bit k at position 2k and col's bit k at 2k+1; it is injective and for a fixed row increasing in col (and vice versa). For larger coordinates it is not injective; cast to a narrower type with 2^(2w) values (16-bit small indices: w = 8) it keeps only the low w bits of each coordinate.", "quantifier": "every pair of 16-bit integers", "why_tests_cant": "2^32 pairs.", "anchors": ["include/utils.h: bit_interleave"]}
{"id": "C27", "title": "next_power_of_two", "statement": "For 1 <= n <= 2^63 the result is the least power of two >= n; for 0 and n > 2^63 the result is 0.", "quantifier": "every 64-bit n", "why_tests_cant": "2^64 inputs.", "anchors": ["src/common.cpp: next_power_of_two"]}
{"id": "C28", "title": "highest_bit_set", "statement": "For n > 0 the result is floor(log2 n) in the 64-bit and 32-bit unsigned and signed versions; 0 for 0; -1 for negatives in the signed versions.", "quantifier": "every 32/64-bit value", "why_tests_cant": "2^64 inputs.", "anchors": ["src/common.cpp: highest_bit_set"]}
{"id": "C29", "title": "pick_block_size terminates and returns 0 or a power of two", "statement": "For every m, n, value size and worker count where it returns, pick_block_size returns 0 or a power of two 2^k with k < number of index bits, such that one block of x or y fits in the L2 budget; it returns 0 exactly when the size requirement fails.", "quantifier": "every m, n, value size, workers", "why_tests_cant": "All sizes.", "anchors": ["include/utils.h: pick_block_size"]}
{"id": "C30", "title": "pick_block_size makes 16-bit local indices safe", "statement": "For 32-bit indices, blocks built by the constant-size constructor with the picked size have all local indices below 2^16, so COO/CSR blocks with uint16 indices never truncate.", "quantifier": "every m, n, workers, value size", "why_tests_cant": "All sizes; a single overflow corrupts the product silently.", "anchors": ["include/utils.h: pick_block_size", "include/generic/gsb.h: Coo_to_Blocked", "include/matrix/block_coo.1.h"]}
{"id": "C31", "title": "Small matrices make the drivers divide by zero", "statement": "pick_block_size returns 0 for every matrix that is small relative to the number of workers, and every constant-block-size constructor given 0 divides by zero.", "quantifier": "every matrix with rounded dimension <= 8*workers", "why_tests_cant": "Depends on the machine's thread count.", "anchors": ["include/utils.h: pick_block_size", "include/generic/gsb.h", "src/test/result.cpp", "src/drivers/blocked.cpp"]}
{"id": "C32", "title": "invert_permutation inverts", "statement": "For every permutation vector p, invert_permutation gives the inverse, inverting twice gives p back and permuting indices by p then by its inverse restores every entry.", "quantifier": "every permutation and size", "why_tests_cant": "n! permutations.", "anchors": ["include/permute.h"]}
{"id": "C33", "title": "SpMV commutes with permutation", "statement": "Permuting a matrix's row and column indices and multiplying equals permuting the vectors around the original product.", "quantifier": "every permutation pair, matrix, x, y", "why_tests_cant": "All permutations.", "anchors": ["include/permute.h: permute_indeces", "src/tools/permute.cpp"]}
{"id": "C34", "title": "Block expansion preserves the matrix", "statement": "expand_indeces maps every index into its block's enlarged slot injectively and order-preservingly, within bounds, and SpMV on expanded matrix and vectors is the expansion of the original SpMV.", "quantifier": "every offset vector, matrix, x, y", "why_tests_cant": "All partitions.", "anchors": ["include/expand.h"]}
{"id": "C35", "title": ".bin COO round trip", "statement": "write_bin_COO followed by read_bin_COO restores rows, columns and every entry, in order, for every matrix.", "quantifier": "every matrix and value encoding", "why_tests_cant": "All contents.", "anchors": ["include/io/output.h: write_bin_COO", "include/io/input.h: read_bin_COO"]}
{"id": "C36", "title": "Truncated .bin files are rejected", "statement": "For every proper prefix of a written .bin file, read_bin_COO returns a negative code (never 0), provided three times the number of entries is representable in the index type; at and above that bound some prefix is accepted with code 0.", "quantifier": "every matrix, every truncation (crash) point", "why_tests_cant": "All crash points.", "anchors": ["include/io/input.h: read_bin_COO"]}
{"id": "C37", "title": "Write failures of the .bin writers are not reported", "statement": "write_bin_COO returns 0 for every amount of data actually written, so a full disk leaves a truncated file and a success code; write_bin_array reports a short write.", "quantifier": "every failure point", "why_tests_cant": "All failure points.", "anchors": ["include/io/output.h: write_bin_COO, write_bin_array"]}
{"id": "C38", "title": "Array file round trip", "statement": "write_bin_array then read_bin_array restores the array and its length for every array; a file whose length is not a multiple of the element size is read as the whole elements it holds.", "quantifier": "every array and element encoding", "why_tests_cant": "All arrays.", "anchors": ["include/io/output.h: write_bin_array", "include/io/input.h: read_bin_array"]}
{"id": "C39", "title": "Three-file COO reader: dimensions", "statement": "The three-file read_bin_COO returns all entries in order; the Coo overload returns exactly max index + 1 in each dimension, while the generic overload leaves both dimensions indeterminate and accepts any three files, however short, where the Coo overload takes the largest index from memory never written; both close the column stream twice and the value stream never.", "quantifier": "every triple of files", "why_tests_cant": "Depends on stack garbage.", "anchors": ["include/io/input.h: read_bin_COO (val, row, col)"]}
{"id": "C40", "title": "Blocked file reader equals in-memory construction", "statement": "Reading a .bin file sorted by block with read_bin_blocked into a Csbr or Csbr2 yields, with 32-bit indices, the same matrix as constructing it in memory from the same entries; no proper prefix of the file is accepted.", "quantifier": "every non-empty matrix and partition", "why_tests_cant": "All partitions.", "anchors": ["include/io/blocked.h: read_bin_blocked (Csbr, Csbr2), write_bin_blocked"]}
{"id": "C41", "title": "Blocked CGBR reader drops the file's first non-zero", "statement": "read_bin_blocked into a Cgbr builds its first block without the file's first entry for every file, so the product lacks exactly that entry's term; a file with a single entry makes it compare a block number it never read.", "quantifier": "every file with at least one entry", "why_tests_cant": "One missing entry is easy to miss on a numeric tolerance.", "anchors": ["include/io/blocked.h: read_bin_blocked (Cgbr)"]}
{"id": "C42", "title": "read_bin_CSR equals read then convert", "statement": "read_bin_CSR on a row-sorted .bin file gives the same Csr as converting the entries in memory; but it checks no read count, so a file cut anywhere after its row indices is accepted with code 0 and an indeterminate last value.", "quantifier": "every row-sorted matrix", "why_tests_cant": "All matrices.", "anchors": ["include/io/input.h: read_bin_CSR"]}
{"id": "C43", "title": "MatrixMarket read: general and symmetric", "statement": "read_mm_COO returns the file's entries with 0-based indices; for symmetric files it returns each off-diagonal entry and its mirror image and each diagonal entry once, so the matrix is symmetric.", "quantifier": "every well-formed file", "why_tests_cant": "All files.", "anchors": ["include/io/input.h: read_mm_COO", "dep/mm_io/mm_io.c"]}
{"id": "C44", "title": "MatrixMarket read accepts kinds it misreads", "statement": "Pattern, skew-symmetric and hermitian coordinate files are accepted but not read as the matrix they denote: skew files lose their mirrored negatives.", "quantifier": "every skew-symmetric file with an off-diagonal entry", "why_tests_cant": "Semantic mismatch, silent.", "anchors": ["include/io/input.h: read_mm_COO"]}
{"id": "C45", "title": "MatrixMarket write then read keeps structure", "statement": "write_mm_COO then read_mm_COO restores dimensions and every coordinate in order; values are those of the decimal rendering.", "quantifier": "every matrix", "why_tests_cant": "All matrices.", "anchors": ["include/io/output.h: write_mm_COO", "include/io/input.h: read_mm_COO"]}
{"id": "C46", "title": "File-type dispatch", "statement": "read_COO picks the binary reader exactly for names ending in .bin, otherwise the MatrixMarket reader exactly for names ending in .mtx, and otherwise returns -1 and touches nothing; string_ends_with is exactly the suffix test.", "quantifier": "every file name", "why_tests_cant": "All strings.", "anchors": ["src/common.cpp: string_ends_with", "include/io/input.h: read_COO", "include/io/output.h"]}
{"id": "C47", "title": "Allocation and release match", "statement": "Building a matrix and releasing it gives back every allocation exactly once, in the way it was obtained, for Coo2, Coo3, Csr, Csr2, CompRowCsr, Cswr, Csbr3, for Csbr2 when the caller made the offsets by malloc (one array or two), and for Cgbr on the caller's offsets whatever its blocks are. The others do not: Coo released explicitly and then destroyed is released twice; Csbr gives calloc'd row pointers to delete[] and, even where that is harmless, leaves its partition allocated; Csbr2 built with block sizes gives new[]'d offsets to free; Cgbr built with block sizes leaves its two offset arrays; Cgbr2 leaves the value array of each dense block and nothing else; the tools give new[]'d elements to free.", "quantifier": "every heap, every matrix, every list of block types", "why_tests_cant": "Mismatches and leaks are silent on most allocators, and which allocations remain depends on the block types of the matrix.", "anchors": ["include/matrix/*.h: allocate, release, Coo_to_*", "include/generic/gsb.h: Coo_to_Blocked", "include/partition.h: partition_init, partition_destroy", "src/tools/*.cpp", "src/drivers/pbench.cpp"]}
{"id": "C48", "title": "Reported counts are right", "statement": "nonzeros(), nnzblocks, type_block_count and type_nnz_count of a constructed matrix equal the number of entries, of non-empty blocks, and sum to them over the block types.", "quantifier": "every matrix, partition and type choice", "why_tests_cant": "All matrices.", "anchors": ["include/matrix/cgbr.2.h: create", "include/matrix/cgbr.h", "include/matrix/csr.1.h: nonzeros"]}
{"id": "C49", "title": "Conversion loses and invents nothing", "statement": "The multiset of (row, column, value) read back from a constructed CSR/CSR2/CSWR/CSBR/CSBR2/CSBR3 equals the input multiset; from a CGBR it is the input multiset and the zeros its dense blocks store.", "quantifier": "every entry list", "why_tests_cant": "All lists.", "anchors": ["include/matrix/*.h"]}
{"id": "C50", "title": "spmv accumulates", "statement": "Calling spmv k times adds the product k times: y is never cleared, and repeated calls depend only on the matrix, x and the current y.", "quantifier": "every matrix, x, y, number of calls", "why_tests_cant": "All histories of calls.", "anchors": ["include/spmv/*.h", "include/test/bench.h"]}
{"id": "C51", "title": "Block type selection", "statement": "With exact arithmetic Coo_to_MatrixBlock picks COO iff it takes less than 1.5 times the bytes of CSR, otherwise CSR iff less than 0.3 of the positions are filled, otherwise dense; so it always picks COO for 4-byte values and indices with 2-byte small indices; in rounded arithmetic (relative error up to 1%) the choice is the same where the memory is not within 7% of the first border and the filled part not between 0.28 and 0.32; BlockFactoryDefault picks COO iff nnz*sizeof(SIT) < rows*sizeof(IT), otherwise CSR iff CSR is smaller than dense.", "quantifier": "every rows, columns, nnz", "why_tests_cant": "All triples.", "anchors": ["include/matrix/cgbr.h: Coo_to_MatrixBlock", "include/matrix/blocks.h: BlockFactoryDefault::create"]}
{"id": "C52", "title": "one2zero", "statement": "The one2zero tool subtracts one from every index and reports an error exactly when some index is zero.", "quantifier": "every index file", "why_tests_cant": "All files.", "anchors": ["src/tools/one2zero.c"]}
{"id": "C53", "title": "COO input stays reusable after CSR/CSBR/CSWR conversion", "statement": "Coo_to_Csr, Coo_to_Csbr (Coo3, into Csbr and Csbr2) and Coo_to_Cswr only permute the entries of their COO argument, so it still denotes the same matrix; Coo_to_Cgbr rewrites the indices and the COO no longer denotes it.", "quantifier": "every entry list and partition", "why_tests_cant": "src/test/result.cpp relies on it for every matrix.", "anchors": ["src/test/result.cpp", "include/matrix/csr.1.h", "include/matrix/csbr.h", "include/matrix/cgbr.h"]}
{"id": "C54", "title": "Block ids must stay below the sentinel", "statement": "Blocked construction is right whenever blockrows*blockcols is below the largest index value; at or above it block ids wrap or collide with the sentinel and distinct blocks merge.", "quantifier": "every grid of blocks", "why_tests_cant": "Needs grids too large to test.", "anchors": ["include/utils.h: calculate_block_id", "include/matrix/csbr.h"]}
{"id": "C55", "title": "Blocked readers are unusable with 64-bit indices", "statement": "With a 64-bit index type read_bin_blocked into a Csbr or Csbr2 writes outside its arrays on the first record, whatever the file, because its sentinel UINT_MAX does not wrap to zero when incremented.", "quantifier": "every file with at least one record and at most 2^32 blocks", "why_tests_cant": "Undefined behaviour may look fine in a run.", "anchors": ["include/io/blocked.h: read_bin_blocked (Csbr, Csbr2)"]}
{"id": "C57", "title": "Long banner words overflow a buffer", "statement": "If one of the first five words of the first line of a MatrixMarket file has 64 or more characters, read_mm_COO writes beyond the end of a 64-byte buffer.", "quantifier": "every file whose first line (at most 1023 characters) has such a word", "why_tests_cant": "An overflow may go unnoticed in a run.", "anchors": ["dep/mm_io/mm_io.c: mm_read_banner", "include/io/input.h: read_mm_COO"]}
{"id": "C58", "title": "A bad size line makes the reader hang", "statement": "If a MatrixMarket file has a valid banner but the first line after the comments, and the line after that, start with something that is not a number, read_mm_COO never returns.", "quantifier": "every such file, any number of steps", "why_tests_cant": "Non-termination cannot be observed by a finite run.", "anchors": ["dep/mm_io/mm_io.c: mm_read_mtx_crd_size", "include/io/input.h: read_mm_COO"]}
{"id": "C59", "title": "MatrixMarket indices are not checked", "statement": "read_mm_COO returns 0 and stores whatever indices the entry lines have: beyond the declared size, and index 0 as the largest value of the index type.", "quantifier": "every syntactically well-formed general file", "why_tests_cant": "All files.", "anchors": ["include/io/input.h: read_mm_COO"]}
{"id": "C56", "title": "convert and convert_blocked: entries right, dimensions arbitrary", "statement": "convert writes to out.bin (or out.mtx) exactly the entries of the three input files in column-major order, entries at the same place keeping their order, and no other file; convert_blocked writes exactly these entries with their block numbers in block order and the right number of non-empty blocks. But the numbers of rows and columns in the outputs are the contents of two variables that are never assigned, whatever the input; unless both happen to be right, every blocked reader stops with a failing assertion on the file convert_blocked wrote. Wrong arguments or missing inputs give status 1 and touch nothing.", "quantifier": "every input, every disk that works, every value the unassigned variables may hold", "why_tests_cant": "a test sees one value of the uninitialised memory (often a lucky one), and a few matrices", "anchors": ["src/tools/convert.cpp: main", "src/tools/convert_blocked.cpp: main", "include/io/input.h: read_bin_COO"]}
{"id": "C60", "title": "double2float", "statement": "For every file f named, double2float writes f.float with the values of f converted one by one in order, dropping bytes after the last complete value; it touches no other file. Naming a missing file ends with status 1 but empties the output of an earlier run.", "quantifier": "every list of files of every length", "why_tests_cant": "needs all file lengths and lists of names", "anchors": ["src/tools/double2float.c: main"]}
{"id": "C61", "title": "permute tool", "statement": "With a permutation vector long enough for all indices, permute writes beside each index file a file .permuted that holds, in order, p[i] for every index i (compiled with INVPERM and given a permutation: the place where the vector holds i), and touches no other file. An index beyond the vector reads outside the array.", "quantifier": "every pair of index files and every vector", "why_tests_cant": "every permutation and index list", "anchors": ["src/tools/permute.cpp: main", "include/permute.h: permute_indeces, invert_permutation"]}
{"id": "C62", "title": "expanded tool", "statement": "expanded writes to out.expN, N being the smallest power of two not below the largest block size, the entries of the three input files in column-major order with every coordinate moved to the same position of its block's slot of size N; the dimensions in the header are the number of blocks times N; no other file is touched. If out is so long that out, .exp and the digits of N do not fit in 255 bytes, the name buffer overflows although the copy is bounded.", "quantifier": "every matrix inside the partition, every list of block sizes that fits 32 bits, every output name", "why_tests_cant": "all matrices, partitions and name lengths", "anchors": ["src/tools/expanded.cpp: main", "include/expand.h: expand_indeces"]}
{"id": "C63", "title": "prepare tool", "statement": "prepare writes the entries with indices renamed by the permutation vector: in row order to out.row, in block order with block numbers to out.block, in column order to out.col, and moved to equal slots to out.col.expN with the right dimensions; no other file changes except that every file in the temporary directory is deleted. The dimensions in the headers of the first three are arbitrary. An output name inside the temporary directory loses all four files although the status is 0.", "quantifier": "every matrix, permutation vector and list of block sizes that fit, every working disk", "why_tests_cant": "all matrices, permutations, partitions; tests see one value of uninitialised memory", "anchors": ["src/tools/prepare.cpp: main"]}
{"id": "C64", "title": "sort tool", "statement": "sort with three files writes beside each a file .sorted holding the same entries ordered by row and column, entries at the same place in their order, and touches no other file; with one general MatrixMarket file it writes f.sorted with the same dimensions and the entries in that order. With block sizes it never works: with four arguments it reads outside an array for every matrix and every non-empty list of sizes, with two it reads beyond argv.", "quantifier": "every matrix, every list of sizes", "why_tests_cant": "all matrices; the out-of-bounds read need not be visible in a test", "anchors": ["src/tools/sort.cpp: main", "include/utils.h: sort_triplets, sort_triplets_blocks"]}
{"id": "C65", "title": "Files that cannot be opened", "statement": "A single-file writer (write_bin_COO, write_mm_COO, write_bin_blocked, write_bin_array) returns -1 and changes no file if its output cannot be opened; if it can, it changes only that file and never returns -1. The three-file writer returns -1 if any of its files cannot be opened but has then emptied the others. On a missing file read_bin_COO, read_mm_COO and read_bin_CSR return -1, the three-file readers return -1 for a missing row or column file, whereas read_bin_array, the blocked readers and the three-file readers with a missing value file end the process.", "quantifier": "every file system, name, disk and matrix", "why_tests_cant": "Tests use files that exist.", "anchors": ["include/io/input.h", "include/io/output.h", "include/io/blocked.h: read_bin_blocked_common", "src/common.cpp: get_file_size"]}
{"id": "C66", "title": "The benchmark programs multiply by the matrix in the file", "statement": "For every readable file (a .bin file, or a general or symmetric .mtx file), csr, cswr and blocked end with status 0 and report one benchmark, bench and pbench two; the multiplication timed is that of the matrix in the file: y after one warm-up call and ITERATIONS timed calls from y = 0 is the (ITERATIONS+1)-fold application of y += A x - bit for bit for Csr, Csr2, Cswr, Csbr, Csbr2, up to the order of summation for Cgbr and Cgbr2 (with floating point numbers: each call adds up the old value and the products of the row, each once, in some order) - and the non-zeros the rates are computed from are those of the file. In pbench the matrix is the one with rows and columns renamed by the inverse of the permutation in the second file. The block size is the one the program picks (not 0, fewer than 2^32 blocks).", "quantifier": "every file, matrix, number of workers, iterations, random vectors and block type decisions", "why_tests_cant": "The drivers print rates and never look at y; a test would need all matrices and worker counts.", "anchors": ["src/drivers/csr.cpp", "src/drivers/cswr.cpp", "src/drivers/blocked.cpp", "src/drivers/bench.cpp", "src/drivers/pbench.cpp", "include/test/bench.h"]}
{"id": "C67", "title": "When a benchmark program does not run", "statement": "With a missing file, a file whose name ends in neither .bin nor .mtx, a proper prefix of a binary matrix file, or a wrong number of arguments, every benchmark program ends with status 1 and reports nothing. The two block sizes blocked announces as arguments are ignored (the branch is unreachable) and a further argument is refused. For a matrix of at most 4*workers rows (one worker: 2 rows) blocked, in all variants, bench and pbench divide by zero; cswr does so for width 0; a program built with ITERATIONS=0 never ends properly unless refused: it reads outside the array of times. pbench without its permutation file ends with status 1, and with a permutation shorter than some index of the matrix it reads outside the array.", "quantifier": "every file system, argument list, matrix and machine", "why_tests_cant": "The conditions depend on file contents, number of workers and matrix size together.", "anchors": ["src/drivers/blocked.cpp: main", "src/drivers/cswr.cpp: main", "src/drivers/csr.cpp: main", "src/drivers/bench.cpp: main", "src/drivers/pbench.cpp: main"]}
{"id": "C68", "title": "The timing statistics are right", "statement": "For every non-empty series of running times, the numbers printed are the least time, the greatest time, the upper median and the sum divided by the number of times.", "quantifier": "every non-empty list of running times (no NaN)", "why_tests_cant": "Holds for every list; tests sample a few lengths.", "anchors": ["src/common.cpp: print_timing_verbose, print_timing_csv"]}
{"id": "C69", "title": "Comparing results and the statistics of test/utils.h", "statement": "check_results counts exactly the places where two vectors of at least the given size differ and returns 0 if there are none and -1 otherwise (a NaN in both vectors counts as a difference); in exact arithmetic the numbers it prints are the mean squared error, the same divided by the squared norm of the first vector and the greatest absolute difference. A vector shorter than the size is read outside its bounds. mean, standard_deviation and median are right for one or more numbers; median of none reads outside the array.", "quantifier": "every pair of vectors, size and comparison of values; every list of numbers", "why_tests_cant": "The claim is about every vector and every length.", "anchors": ["include/test/utils.h: check_results, mean, median, standard_deviation"]}
{"id": "C70", "title": "The result program compares the right vectors", "statement": "For every matrix file result can use and that is large enough for its blocked formats, it ends with status 0 whatever the comparisons say, and the comparisons are of y1 + A x with y2 + A x for CSR(2), CSWR, CSBR, CSBR(2) (bit for bit), CGBR with 32-bit and 16-bit local indices and CGBR(2) (up to the order of summation), where y1 is what fresh memory held and y2 is the same in the first comparison and zero in the others. In exact arithmetic with zeroed fresh memory all report equality; in floating point then every vector compared is within twice the error bound of C77 of the other. Otherwise six of them report differences although all formats are right. Small matrices end it with a division by zero; without a usable file it ends with status 1.", "quantifier": "every matrix file, worker count, content of fresh memory and block type decision", "why_tests_cant": "Depends on the content of fresh memory and on every matrix; the program itself is a test on one matrix.", "anchors": ["src/test/result.cpp: main", "include/test/utils.h: check_results"]}
{"id": "C71", "title": "Blocked files read into BCSR come out empty", "statement": "For every matrix and partition, reading the matrix's blocked file (the one the CSBR readers accept) into a Bcsr with 32-bit indices returns 0 and stores all values and block-local column indices, but leaves every block marked as having no rows, without the start of its entries, and with row pointers that are raw per-row counts; so block_nonzeros is 0 for every block that has entries (and reads an unassigned pointer for the others), and release frees none of the row pointer arrays.", "quantifier": "every non-empty matrix, partition and value type the index type can hold", "why_tests_cant": "The reader reports success; only the whole content of the result for every file shows that no file gives a usable matrix.", "anchors": ["include/io/blocked.h: read_bin_blocked(Bcsr*)", "include/matrix/bcsr.h: block_nonzeros, release"]}
{"id": "C72", "title": "What pprint prints", "statement": "pprint f triples prints the dimensions, all row indices, all column indices and all values of a binary matrix file; pprint f blocks (or with no or any other mode, or more arguments, after a notice) prints every record of a blocked file in order; pprint f vector prints every complete index of any file; the status is 0. A file cut short is not noticed: of a triples file that ends in the values the last value present is printed for every missing one, of a blocked file a record that never was (block, row and column all equal to the last column, with the last value) for every missing one, with status 0. If the file cannot be opened the program goes on with a null stream.", "quantifier": "every matrix, blocked file, byte sequence and cut after a whole item", "why_tests_cant": "The claims hold for every file and every cut; a test sees one.", "anchors": ["src/tools/pprint.c: main"]}
{"id": "C73", "title": "Exit statuses of the tools and the files they may touch", "statement": "Whatever the arguments, the files and the disk, a run of one2zero, double2float, permute, convert, convert_blocked, expanded, prepare or sort that ends at all ends with status 0 or 1; it touches only its documented output files (prepare also the files in its temporary directory); status 0 implies the right number of arguments and that every input could be opened (and, for one2zero and double2float, that every output could be). With status 1, convert, convert_blocked, expanded and sort have touched nothing. A wrong number of arguments gives status 1 and touches nothing, except that sort with two arguments reads beyond its argument vector. expanded with a missing row file goes on with an unset number of entries.", "quantifier": "every argument list, file system and disk, including missing, short and overlong files", "why_tests_cant": "Quantifies over all inputs, good and bad; a test can try only some failures.", "anchors": ["src/tools/one2zero.c: main", "src/tools/double2float.c: main", "src/tools/permute.cpp: main", "src/tools/convert.cpp: main", "src/tools/convert_blocked.cpp: main", "src/tools/expanded.cpp: main", "src/tools/prepare.cpp: main", "src/tools/sort.cpp: main"]}
{"id": "C74", "title": "MatrixMarket files whose size line does not fit their entries", "statement": "read_mm_COO returns 0 whatever the number of entry lines: of a general file it returns the first nnz lines (nnz as in the size line), of a symmetric file the first 2*nnz lines, each off-diagonal entry with its mirror image (undefined behaviour if the size line of a symmetric file says 2^30 or more). If the size line lacks the number of entries (one or two numbers only), it is ignored and the first entry line is taken for the size line: the matrix gets that entry's row and column as its dimensions and as many of the other entries as that entry's value says, in or out of these dimensions, again with return value 0.", "quantifier": "every file with a valid banner, any number of entry lines, any comments and spacing", "why_tests_cant": "Quantifies over all files and all disagreements between size line and entries.", "anchors": ["include/io/input.h: read_mm_COO", "dep/mm_io/mm_io.c: mm_read_mtx_crd_size"]}
{"id": "C75", "title": "The block format comparison program", "statement": "The program comparing block formats (test/block), run on binary or MatrixMarket files whose names are size<digits>ratio<fraction>.<anything>, with coordinates below 2^16 and rows*columns below 2^31: it ends with status 0 and reports, per file and in argument order, the two labels of the name, the number of entries, and for each of COO, COO2, COO (16 bit), CSR, CSR2, CSR (16 bit) and dense the time of the loop over the number of iterations; x being zero, every one of these multiplications leaves y, which is random, as it is. If a later file cannot be used, it ends with status 1 after the reports of the files before. A later file without labels in its name is reported under the labels of the file before it; a first one prints variables never set. An entry in row or column 2^16 or beyond ends the program by assertion; rows*columns of 2^31 or more overflows. Without arguments, or when the first file cannot be used, the return frees pointers that were never set.", "quantifier": "every list of files, every machine (times, random numbers, number of iterations), every value type where adding a product with zero changes nothing", "why_tests_cant": "Quantifies over all lists of files and all their contents.", "anchors": ["src/test/block.cpp: main", "include/test/utils.h: BENCH_AVG", "include/matrix/coo.1.h: ~Coo", "include/matrix/block_coo.1.h: Coo_to_Coo"]}
{"id": "C76", "title": "CGBR adds the right terms, each once, in arithmetic without laws", "statement": "Without assuming that addition is associative or commutative or that adding zero changes nothing (so for floating point numbers too): in CGBR (any block types, chunked or not) and CGBR2 with the library's factory, and in a dense block, each y[i] is a sum, in some order and bracketing, of the old y[i] and each product of row i exactly once; the only other summands are zeroes and zeroes times components of x; y beyond the rows is unchanged; every schedule of the parallel kernel ends without a race with the very same values as the loops one after the other. The other formats compute such a sum without other summands. In a commutative semiring this pins the result to y + A x.", "quantifier": "every matrix, partition, choice of block types, chunking, x, y, number of workers, schedule and value type without laws", "why_tests_cant": "The claim is about all schedules and all orders of summation; a floating point test cannot tell a lost term from rounding.", "anchors": ["include/matrix/cgbr.h", "include/matrix/cgbr.2.h", "include/spmv/omp/gsb.h", "include/spmv/omp/csr.h", "include/spmv/omp/dense.h", "include/matrix/dense.h"]}
{"id": "C77", "title": "Rounding error of the matrix-vector product", "statement": "With floating point numbers of unit round-off u and underflow error eta (shown to hold for IEEE 754 binary formats with rounding to nearest even and gradual underflow, in particular float and double), the result of every format, in row i with m entries, is if finite within ((1+u)^(m+1)-1)*(|y_i|+sum|a_ij x_j|) + (1+u)^m*m*eta of the exact y_i + sum a_ij x_j, for every schedule, and so any two formats differ by at most twice that. It is finite if the operands are and (1+u)^(m+1)*(size of the terms + m*eta) does not exceed the overflow threshold; for the sparse formats x need be finite only where the row has entries, whereas one infinity or NaN in x makes every row of a dense block infinite or NaN. If nothing is rounded the result is exact.", "quantifier": "every matrix, x, y, format, schedule, and binary floating point format", "why_tests_cant": "The bound must hold for all values; tests sample a few and compare with an arbitrary tolerance.", "anchors": ["include/spmv/coo.h", "include/spmv/csr.h", "include/spmv/dense.h", "include/spmv/omp/csr.h", "include/spmv/omp/dense.h", "include/spmv/omp/gsb.h", "include/spmv/omp/csbr.3.h", "Makefile"]}
{"id": "C78", "title": "The tools one after the other", "statement": "From one-based files of coordinates and wide values to the product: one2zero on the two index files and double2float on the values leave the three files of the same matrix with indices from zero and narrowed values, and touch nothing else. permute leaves files of the matrix with rows and columns renamed by the vector. prepare, given a permutation and block sizes whose sum is its length, writes a file that reads back as a square matrix in which index i of the input is index psi(i), psi being one to one: permuted, then moved to the slot of its block. Converted to CSR and multiplied, under every schedule, by x placed by psi, into y placed by psi, it leaves at psi(i) a sum of y_i and each product of row i of the input exactly once, nothing else, in arithmetic without laws. The .block file of the same run reads back as a matrix with the product of the permuted matrix, bit for bit, if two uninitialised variables happen to hold the sum of the sizes; otherwise every reader stops at an assertion.", "quantifier": "every matrix, permutation, partition into blocks, file names that do not clash, disk with room, value formats, x, y and schedule", "why_tests_cant": "Each tool works on files and quantifies over their contents; a composition only holds if the output of each is what the next expects, for all of them.", "anchors": ["src/tools/one2zero.c: main", "src/tools/double2float.c: main", "src/tools/permute.cpp: main", "src/tools/prepare.cpp: main", "include/io/input.h: read_bin_COO", "include/io/blocked.h: read_bin_blocked", "include/matrix/csr.1.h: Coo_to_Csr", "include/spmv/omp/csr.h"]}
{"id": "C79", "title": "What the library prints about a matrix", "statement": "show prints the entries of a coordinate matrix in order, and of a CSR matrix each row's entries in the order of their columns, or one sentence when there are more than 20 entries or rows. print_info prints, for every format, the sizes, the number of entries and the number of non-empty blocks of the matrix that was given; for the general blocked formats the counts by block type add up to these totals, and for the second one the line on balance is whatever an uninitialised member holds. partition_dump prints for each block-row the sizes of its chunks, which add up to its number of blocks; on a balanced matrix, which has no partition, it reads outside memory. The program visual prints its entries, the sorted entries, the CSR rows and the product, and then always reads outside its memory; if what it finds there is harmless (C14) and no position is given twice, it prints the products with two blocked formats and they are the same numbers.", "quantifier": "every list of entries in range, partition into blocks, number of workers and outcome of the floating-point decisions; for visual every matrix of at most 20 entries and rows", "why_tests_cant": "A test compares the text for one matrix; the claim is that every count printed is the count of the matrix given, and that the text is complete, for all matrices.", "anchors": ["include/generic/coo.h: show", "include/matrix/csr.1.h: show", "include/generic/csr.h: print_info", "include/matrix/cswr.h: print_info", "include/matrix/csbr.h, csbr.2.h, csbr.3.h: print_info", "include/generic/gsb.h: print_info", "include/partition.h: partition_dump", "src/test/visual.cpp: main"]}
{"id": "C80", "title": "Header and size lines of the bundled Matrix Market library", "statement": "For every type code of a matrix (coordinate or array; real, complex, pattern or integer; general, symmetric, hermitian or skew-symmetric) mm_write_banner writes a line of the format's words, and mm_read_banner of that line gives the same code back; the size lines written by mm_write_mtx_array_size and mm_write_mtx_crd_size are read back past any comments (and a dense size line also past empty lines; a file without one gives 12 and sizes zero). But all three writers return 17 (could not write) whatever happens, because they compare what fprintf returns, a number of characters, with a number of items. mm_is_valid refuses exactly dense patterns, real hermitian matrices, and hermitian or skew-symmetric patterns. A code with an unknown letter makes mm_write_banner print a null pointer, one that is no matrix an uninitialised pointer.", "quantifier": "every type code, sizes, text already written, room on the disk, comments and following text", "why_tests_cant": "Round trips for all codes and sizes; the return value is wrong for every input, which a test that ignores it does not notice.", "anchors": ["dep/mm_io/mm_io.c: mm_is_valid, mm_typecode_to_str, mm_strdup, mm_write_banner, mm_read_banner, mm_write_mtx_array_size, mm_read_mtx_array_size, mm_write_mtx_crd_size, mm_read_mtx_crd_size"]}
{"id": "C81", "title": "Coordinate files through the bundled Matrix Market library", "statement": "mm_read_mtx_crd of a well-formed real, complex or pattern file (any comments, spacing, case of the words, number format) returns 0, the sizes, the indices as they are in the file and the values in order (real and imaginary parts in turn for a complex file, no array for a pattern); a file with fewer entries than announced, with something that is no number where an entry should begin, or cut inside an entry gives 12. What mm_write_mtx_crd writes is read back the same, values up to their 16 digits. Types the format forbids, dense ones, missing files and unreadable headers give their codes and nothing is allocated. But an integer file is reported as read (0) although not one entry has been read: the index arrays are uninitialised and the values a null pointer; writing an integer matrix leaves a file with header and size line only and returns 15; a complex file announcing 2^30 entries or more overflows an int. mm_read_mtx_crd_entry reads one entry and returns 12 at the end.", "quantifier": "every well-formed file, every file cut between lines, all sizes, indices and values, every disk and file name", "why_tests_cant": "Quantifies over all files; the integer case fails for every file while reporting success.", "anchors": ["dep/mm_io/mm_io.c: mm_read_mtx_crd, mm_read_mtx_crd_data, mm_read_mtx_crd_entry, mm_write_mtx_crd"]}
{"id": "C82", "title": "mm_read_unsymmetric_sparse", "statement": "For every real coordinate file, of any symmetry, mm_read_unsymmetric_sparse returns 0, the sizes, the values and the indices lowered by one, exactly the entries listed (a symmetric file is not completed). A file with fewer entries than announced is not noticed: indices that were never read are decremented. A missing file, an unreadable header, a dense matrix or one that is not real gives -1 and nothing is allocated.", "quantifier": "every real coordinate file, every cut between lines, every refused header", "why_tests_cant": "The result of fscanf is ignored, so only a proof over all files shows when uninitialised memory is used.", "anchors": ["dep/mm_io/mm_io.c: mm_read_unsymmetric_sparse"]}
{"id": "C83", "title": "The order of the entries in the input does not matter", "statement": "Converting the same entries, given in another order, to CSR, CSR2, CSWR, CSBR, CSBR2, CSBR3, CGBR, CGBR2 (partition or block sizes given), a dense matrix or a coordinate block gives exactly the same matrix, array by array, or the same failure; for CSBR, CSBR2, CSBR3, CGBR and CGBR2 the input array is also left the same. The only order that counts is that of entries at one place among themselves, so if no place is used twice every permutation of the input gives the same matrix. What the fields of the input elements besides row, column and value hold (stale block numbers) does not matter either.", "quantifier": "every list of entries, every rearrangement of it that keeps the order of entries at one place, every partition, factory, choice of block types, index width and worker count", "why_tests_cant": "Only a few permutations of a few matrices can be run; equality must hold for all of them, including the grouping of floating-point sums.", "anchors": ["include/utils.h: sort_triplets, sort_elements_blocks, sort_triplets_morton", "include/matrix/csr.1.h: Coo_to_Csr", "include/matrix/csr.2.h: Coo_to_Csr", "include/matrix/cswr.h: Coo_to_Cswr", "include/matrix/csbr.h: Coo_to_Csbr", "include/matrix/cgbr.h: Coo_to_Cgbr", "include/matrix/cgbr.2.h: Coo_to_Cgbr", "include/matrix/dense.h: Coo_to_Dense"]}
{"id": "C84", "title": "What the number of threads decides", "statement": "The number of threads at the time of a conversion only decides how the block-rows are cut into chunks. For CSBR, converting with any number of threads and multiplying gives the same vector bit for bit, or the same failure, for every input whatever. For CGBR and CGBR2 the conversion succeeds alike, leaves the same input array and makes the same blocks; if CGBR finds the matrix balanced (or CGBR2 runs without chunks) the product is the same bit for bit. If the matrix is not balanced the chunks change the grouping of the sums: there is a 3x8 matrix of doubles for which one thread and two threads give different results, 1+2^-52 and 1+2^-51.", "quantifier": "every input array, valid or not, every partition, choice of block types and factory, every two positive numbers of threads, every x and y", "why_tests_cant": "A run uses one number of threads; whether another gives the same bits must be shown for all inputs, and the difference in the unbalanced case only shows for particular values.", "anchors": ["include/partition.h: partition_blockrow, partition_init", "include/rt.h: RT_WORKERS", "include/spmv/omp/gsb.h: spmv_blocked, spmv_chunk", "include/matrix/csbr.h: Coo_to_Csbr", "include/matrix/cgbr.h: Coo_to_Cgbr, is_balanced", "include/matrix/cgbr.2.h: Coo_to_Cgbr"]}
{"id": "C85", "title": "Entries that are not inside the matrix", "statement": "No check is made when an array of non-zeros is handed over, so the coordinates can be anything. For CSR, CSR2, CSWR and COO, if conversion and product come to an end without a memory error or a failed assertion, then every entry was inside the matrix and the result is the right product. For CSBR, CSBR2, CGBR and CGBR2 the conversion alone comes to an end only if every entry is inside; CSBR3 checks against the matrix rounded up to whole blocks, accepts everything in there and multiplies it. There are two gaps. In the dense formats an entry right of the last column is stored as an entry of a row below, and nothing is reported. In CSR and CSR2 an entry with the largest row number of the index type, which is what the MatrixMarket reader makes of a row index 0, is not noticed: with k such entries, conversion and product report nothing, the first k entries are lost and each other entry is multiplied in the row of the entry k places before it.", "quantifier": "every array of non-zeros with arbitrary coordinates, every size and partition, every choice of block types and every factory that keeps the number of elements, every x and y", "why_tests_cant": "Which of the many ways to be outside is caught depends on wrap-around and on assertions in the middle of a conversion; a test with a few bad entries does not show that all are caught, and the silent cases look like ordinary results.", "anchors": ["include/matrix/csr.1.h: Coo_to_Csr", "include/matrix/csr.2.h: Coo_to_Csr", "include/matrix/cswr.h: Coo_to_Cswr", "include/spmv/coo.h: spmv_coo", "include/matrix/csbr.h: Coo_to_Csbr", "include/matrix/csbr.2.h: Coo_to_Csbr", "include/matrix/csbr.3.h: Coo_to_Csbr", "include/matrix/cgbr.h: Coo_to_Cgbr", "include/matrix/cgbr.2.h: Coo_to_Cgbr", "include/matrix/dense.h: Coo_to_Dense"]}
{"id": "C86", "title": "CSBR3's task kernel", "statement": "However a caller of CSBR3's spmv_chunk cuts the blocks of each block-row into chunks (pieces may be empty), and on every schedule of the tasks, there is no race, the calls come to an end and each row of y receives its own products, each exactly once; apart from zeros nothing else is added, and in exact arithmetic the result is y + A x. Every call with two or more chunks writes all block_size cells from y on, so if block_size does not divide the number of rows, y has to be longer than the matrix has rows, although spmv_balanced needs only that many; with a shorter y the call does not come to a defined end.", "quantifier": "every array of non-zeros inside the matrix, every block size that fits the small index type, every way to cut the block-rows, every x and y, every schedule, any arithmetic", "why_tests_cant": "The tasks can interleave in exponentially many ways, the temporary vectors are merged in a tree that depends on the cuts, and the overrun at the end of y usually goes unnoticed.", "anchors": ["include/spmv/omp/csbr.3.h: spmv_chunk", "include/matrix/csbr.3.h: Csbr3"]}
{"id": "C87", "title": "Several multiplications at the same time, and one after the other", "statement": "Any number of threads may multiply at the same time, with the same matrix object or different ones, the same x or different ones, any number of times each, as long as every thread adds into a vector y of its own: no schedule of all their threads has a data race or undefined behaviour, all of it ends, and each y is exactly what its own thread's calls, made alone one after the other, make of it. Two multiplications at the same time into the same y, on the other hand, race on some schedule as soon as they change it.", "quantifier": "every number of threads, every sequence of calls per thread, every matrix, x and y, every interleaving of all memory accesses of all threads and of the tasks they create, every choice of addresses by the allocator", "why_tests_cant": "a test runs a few interleavings on one machine; whether two calls can disturb each other is a statement about all of them", "anchors": ["include/matrix/csr.1.h: spmv", "include/matrix/csr.2.h: spmv", "include/matrix/cswr.h: spmv", "include/matrix/csbr.h: spmv", "include/matrix/csbr.2.h: spmv", "include/spmv/omp/csr.h: spmv_csr", "include/spmv/omp/gsb.h: spmv_blocked, spmv_balanced, spmv_chunk", "include/spmv/omp/csbr.3.h: spmv_balanced"]}
{"id": "C88", "title": "What a blocked conversion checks of the block offsets", "statement": "Converting an array to CSBR, CSBR2, CGBR or CGBR2 with given block offsets comes to an end only if there are no more block-rows than rows and no more block-columns than columns, the last offsets are the numbers of rows and of columns, and every entry lies between two consecutive row offsets and two consecutive column offsets. It is not required that the offsets start at 0 or increase: such offsets are accepted if all entries lie in blocks. With weakly increasing offsets that end at the dimensions, wherever they start, a conversion to CSBR or CSBR2 that came to an end gives a matrix whose product is the exact one; with several threads it is that on every schedule, without races.", "quantifier": "every list of offsets whatever, every entry array, every dimensions; every schedule", "why_tests_cant": "offsets come from files and from callers; a test tries a few wrong ones", "anchors": ["include/matrix/csbr.h: Coo_to_Csbr", "include/matrix/csbr.2.h: Coo_to_Csbr", "include/matrix/cgbr.h: Coo_to_Cgbr", "include/matrix/cgbr.2.h: create"]}
{"id": "C89", "title": "The operations a multiplication takes and the rates reported", "statement": "Multiplying by a matrix of n entries takes exactly n additions and n multiplications of values with CSR, CSR2, CSWR, CSBR, CSBR2, CSBR3 and as an array of triplets, whatever the matrix, the blocks and the widths; with a dense block as many of each as the block has cells; with CGBR at least n of each. print_timing_verbose prints for the least, the middle, the mean and the greatest running time the time and the rate 2 * nonzeros / (time * 10^6), print_timing_csv the same four rates; with positive times the rates come in the order best, median, worst from the greatest to the least, with float and double arithmetic too; in exact arithmetic each rate times its time is the number of operations, in millions, and the rate of the mean lies between best and worst. With no times both read outside the array.", "quantifier": "every matrix, partition and width; every list of positive running times; every rounding that is monotone", "why_tests_cant": "An operation count is not observable in a test's result, and the rates only for the times a run happened to take.", "anchors": ["src/common.cpp: mflops, print_timing, print_timing_verbose, print_timing_csv", "include/test/bench.h: benchmark_spmv_core", "include/spmv/csr.h", "include/matrix/cswr.h", "include/spmv/dense.h"]}
{"id": "C90", "title": "CSR and CSR2 do the same", "statement": "CSR2 is CSR with columns and values interleaved: for any entries, inside the matrix or not, sorted or not, converting to CSR2 makes the same arrays as converting to CSR and leaves the input in the same order, or fails in the same way; and on any arrays whatever - row pointers that decrease, columns outside x, arrays too short - the parallel and the serial product give the same y, bit for bit, or the same failure, although CSR adds into y[i] and CSR2 into a local variable. With at least one row the parallel product done in order is the serial one, also on arrays that are not in order, and if the serial one comes to an end then every schedule of either format's parallel product does so with the same y and without a race.", "quantifier": "every array of entries, every matrix object however damaged, every x of any length, every y at least as long as the matrix has rows", "why_tests_cant": "a test compares the two formats on matrices that are in order; where one fails the other could go on", "anchors": ["include/matrix/csr.1.h: Coo_to_Csr", "include/matrix/csr.2.h: Coo_to_Csr", "include/spmv/csr.h: spmv_csr_serial, spmv_csr2_serial", "include/spmv/omp/csr.h: spmv_csr, spmv_csr2"]}
