{
 "C01": {
  "status": "proved",
  "theorems": [
   "SC.C01_xorshift_bijection"
  ]
 },
 "C02": {
  "status": "proved",
  "theorems": [
   "SC.C02_multiplicative_bijection"
  ]
 },
 "C03": {
  "status": "proved",
  "theorems": [
   "SC.C03_quotient_roundtrip",
   "SC.C03_quotient_injective"
  ]
 },
 "C04": {
  "status": "proved",
  "theorems": [
   "SC.C04_narrow_storage_iff",
   "SC.C04_readme_scenario"
  ]
 },
 "C05": {
  "status": "proved",
  "theorems": [
   "SC.C05_splitMix_injective",
   "SC.C05_splitMix_range"
  ]
 },
 "C06": {
  "status": "proved",
  "theorems": [
   "SC.C06_adapter_roundtrip",
   "SC.C06_adapter_undefined_for_zero"
  ]
 },
 "C07": {
  "status": "proved",
  "theorems": [
   "SC.C07_varwidth_write_read"
  ],
  "note": ""
 },
 "C08": {
  "status": "proved",
  "theorems": [
   "SC.C08_varwidth_erase"
  ],
  "note": ""
 },
 "C09": {
  "status": "proved",
  "theorems": [
   "SC.C09_varwidth_resize",
   "SC.C09_varwidth_init",
   "SC.C09_varwidth_history"
  ],
  "note": ""
 },
 "C10": {
  "status": "proved",
  "theorems": [
   "SC.C10_varwidth_find"
  ],
  "note": "broadwordsearch is external and enters as contract; the scan for width 64 is modelled."
 },
 "C100": {
  "status": "proved",
  "theorems": [
   "SC.C100_group_debug_serialize"
  ],
  "note": "Debug-build serialize/deserialize of group_chaining_table; erasures after reading a file only if reads one word behind an array are not faults (C58)."
 },
 "C101": {
  "status": "proved",
  "theorems": [
   "SC.C101_debug_reads_release",
   "SC.C101_debug_rejects_release",
   "SC.C101_release_reads_debug_not",
   "SC.C101_empty"
  ],
  "note": "Not covered: quotients and values of 64 bits each (SplitMix with 64-bit keys and 64-bit values)."
 },
 "C102": {
  "status": "proved",
  "theorems": [
   "SC.C102_wrapper",
   "SC.C102_after_erase_not"
  ],
  "note": "The object returned by operator[] of compact_chaining_map reads, compares and assigns like a reference as long as nothing is erased and the bucket count stays; after an erasure it does not (witness)."
 },
 "C103": {
  "status": "partial",
  "theorems": [
   "SC.C103_adapters_partial",
   "SC.C103_not",
   "SC.C103_copy_double_delete",
   "SC.C103_copy_shares",
   "SC.C103_swap_dangles"
  ],
  "note": "False as stated: copying copies the pointers. C103_not refutes the claim for every adapter; C103_copy_double_delete, C103_copy_shares and C103_swap_dangles say what goes wrong after every program without copies. C103_adapters_partial proves the claim for all programs that copy no adapter."
 },
 "C104": {
  "status": "proved",
  "theorems": [
   "SC.C104_separate",
   "SC.C104_separate_file",
   "SC.C104_separate_prefix",
   "SC.C104_group",
   "SC.C104_group_file",
   "SC.C104_group_prefix",
   "SC.C104_separate_debug",
   "SC.C104_group_debug",
   "SC.C104_array"
  ],
  "note": "Every proper prefix of a file (own files and all files of the format) makes a read hit the end of the stream; files are prefix-free. The code itself does not test the stream."
 },
 "C105": {
  "status": "proved",
  "theorems": [
   "SC.C105_separate_forward",
   "SC.C105_compact_forward",
   "SC.C105_group_forward",
   "SC.C105_recheck",
   "SC.C105_shorter_loops_not"
  ],
  "note": "Release builds, without overflow table. The two shorter loops do not do what their author may expect (C105_shorter_loops_not); what they do is described exactly."
 },
 "C106": {
  "status": "partial",
  "theorems": [
   "SC.C106_separate_array_partial",
   "SC.C106_group_array_partial",
   "SC.C106_junk_key_false",
   "SC.C106_erase_false"
  ],
  "note": "False in general: C106_junk_key_false (a key that equals a number in uninitialised memory is not found), C106_erase_false (erasing removes another element); clear() is C65. Proved: histories without erase and clear whose keys are none of the numbers that fresh arrays hold give the answers of a finite map."
 },
 "C107": {
  "status": "proved",
  "theorems": [
   "SC.C107_separate_debug_overflow",
   "SC.C107_group_debug_overflow"
  ],
  "note": "Debug builds of separate_chaining_map and group_chaining_table with map_overflow; std::unordered_map and the bit vector are arbitrary within their contracts (MapEnv.good, MapEnv.roomy)."
 },
 "C108": {
  "status": "partial",
  "theorems": [
   "SC.C108_wide_value_partial",
   "SC.C108_spilled_false"
  ],
  "note": "False as stated: C108_spilled_false gives a value that is accepted in the overflow table and makes a later valid reserve throw. C108_wide_value_partial: the assignment throws or the element is in the overflow table."
 },
 "C109": {
  "status": "partial",
  "theorems": [
   "SC.C109_separate_array_file_partial",
   "SC.C109_read_back_find_false",
   "SC.C109_file_ex"
  ],
  "note": "False: a search in the table read leaves the array unless the overflow table is empty or full (C109_read_back_find_false, for every history; C109_file_ex is a concrete one). The rest holds: C109_separate_array_file_partial. separate_chaining_table only."
 },
 "C11": {
  "status": "proved",
  "theorems": [
   "SC.C11_avx2_find"
  ],
  "note": ""
 },
 "C110": {
  "status": "proved",
  "theorems": [
   "SC.C110_separate_debug_walk",
   "SC.C110_compact_debug_walk",
   "SC.C110_group_debug_walk"
  ],
  "note": ""
 },
 "C111": {
  "status": "proved",
  "theorems": [
   "SC.C111_separate_buckets",
   "SC.C111_compact_buckets",
   "SC.C111_group_buckets",
   "SC.C111_group_overflow_buckets"
  ],
  "note": "Tables without overflow table, and group_chaining_table with map_overflow; separate_chaining_table with map_overflow is in C124."
 },
 "C112": {
  "status": "proved",
  "theorems": [
   "SC.C112_separate_file_size",
   "SC.C112_separate_bits",
   "SC.C112_separate_compression",
   "SC.C112_full_domain",
   "SC.C112_group_bits"
  ],
  "note": "The formula for the exact size takes the size of a block of n entries from the format of the bucket class (fixedFmt_size, packedFmt_size, noFmt_size). Release builds."
 },
 "C113": {
  "status": "partial",
  "theorems": [
   "SC.C113_separate_debug_array_partial",
   "SC.C113_group_debug_array_partial",
   "SC.C113_junk_key_false",
   "SC.C113_erase_false"
  ],
  "note": "False: in a debug build, too, a key that fresh memory holds is lost (C113_junk_key_false) and an erasure removes another key (C113_erase_false) without a failing assertion. The rest holds: C113_separate_debug_array_partial, C113_group_debug_array_partial."
 },
 "C114": {
  "status": "partial",
  "theorems": [
   "SC.C114_debug_array_file_partial",
   "SC.C114_debug_read_false",
   "SC.C114_read_back_insert_false"
  ],
  "note": "False: an assertion of deserialize fails whenever an element is in the overflow table (C114_debug_read_false, for every history), and after reading, insertions fail (C114_read_back_insert_false). The rest holds: C114_debug_array_file_partial. separate_chaining_table only."
 },
 "C115": {
  "status": "partial",
  "theorems": [
   "SC.C115_group_array_file_partial",
   "SC.C115_group_find_false",
   "SC.C115_file_ex"
  ],
  "note": "False: whenever the overflow table holds at least one and at most 255 elements, find of the table read accesses memory behind the end of an array (C115_group_find_false, for every history; C115_file_ex is an instance). The rest holds: C115_group_array_file_partial."
 },
 "C116": {
  "status": "proved",
  "theorems": [
   "SC.C116_separate_crowd",
   "SC.C116_separate_attack",
   "SC.C116_compact_crowd",
   "SC.C116_compact_attack",
   "SC.C116_group_crowd",
   "SC.C116_group_attack"
  ],
  "note": ""
 },
 "C117": {
  "status": "partial",
  "theorems": [
   "SC.C117_overflow_arrays_partial",
   "SC.C117_two_blocks_partial",
   "SC.not_C117_load_leaks",
   "SC.not_C117_moved_from",
   "SC.not_C117_cleared"
  ],
  "note": "False as stated: deserialize into an object with arrays leaks them (not_C117_load_leaks), objects that were moved from or cleared keep m_elements and have null arrays (not_C117_moved_from, not_C117_cleared). Proved for programs that avoid this."
 },
 "C118": {
  "status": "proved",
  "theorems": [
   "SC.C118_separate_files",
   "SC.C118_group_files"
  ],
  "note": ""
 },
 "C119": {
  "status": "partial",
  "theorems": [
   "SC.C119_separate_map_file_partial",
   "SC.C119_group_map_file_partial",
   "SC.C119_separate_foreign_memory_false",
   "SC.C119_separate_values_false",
   "SC.C119_group_foreign_memory_false",
   "SC.C119_group_values_false",
   "SC.C119_map_file_false"
  ],
  "note": "False as stated: the keys of spilled elements are used as addresses and their values are not written (C119_*_false, for all reachable tables). Proved for tables whose overflow table is empty when written; group_chaining_table: erasures after reading as in C58."
 },
 "C12": {
  "status": "proved",
  "theorems": [
   "SC.C12_array_buckets",
   "SC.C12_aligned_realloc"
  ],
  "note": ""
 },
 "C120": {
  "status": "proved",
  "theorems": [
   "SC.C120_separate_cost",
   "SC.C120_separate_overflow_cost",
   "SC.C120_compact_cost",
   "SC.C120_group_cost",
   "SC.C120_group_overflow_cost"
  ],
  "note": "Executions of find_or_insert are counted; the time of one execution is not modelled. map_overflow for separate_chaining_table and group_chaining_table."
 },
 "C121": {
  "status": "partial",
  "theorems": [
   "SC.C121_bucket_size_one_partial",
   "SC.C121_debug_false"
  ],
  "note": "False in debug builds (C121_debug_false: an assertion fails once quotients have no bits). Proved for release builds, every SEPARATE_MAX_BUCKET_SIZE from 1 on, key buckets with cells of a fixed type, bijective hash functions, keys of at most 63 bits. Missing: varwidth_bucket for keys, SplitMix, 64-bit keys."
 },
 "C122": {
  "status": "proved",
  "theorems": [
   "SC.C122_separate_overflow_stable",
   "SC.C122_group_overflow_stable",
   "SC.C122_reserve_moves"
  ],
  "note": "separate_chaining_table and group_chaining_table with map_overflow; reserve excluded, with a witness that it moves elements"
 },
 "C123": {
  "status": "proved",
  "theorems": [
   "SC.C123_separate_buckets",
   "SC.C123_compact_buckets",
   "SC.C123_separate_order",
   "SC.C123_compact_order"
  ],
  "note": "separate_chaining_table and compact_chaining_map without overflow table"
 },
 "C124": {
  "status": "proved",
  "theorems": [
   "SC.C124_overflow_smaller",
   "SC.C124_overflow_buckets"
  ],
  "note": "separate_chaining_table with map_overflow"
 },
 "C125": {
  "status": "proved",
  "theorems": [
   "SC.C125_group_buckets",
   "SC.C125_group_order"
  ],
  "note": "group_chaining_table without overflow table"
 },
 "C126": {
  "status": "proved",
  "theorems": [
   "SC.C126_size_in_bytes_overflow",
   "SC.sep_ov_occupancy"
  ],
  "note": "separate_chaining_table with map_overflow"
 },
 "C127": {
  "status": "partial",
  "theorems": [
   "SC.C127_overflow_file_partial",
   "SC.C127_overflow_file_false"
  ],
  "note": "false as stated: elements that share a bucket of the std::unordered_map after reading are not found (C127_overflow_file_false); proved: the rest, and exactly when all pairs are found"
 },
 "C128": {
  "status": "proved",
  "theorems": [
   "SC.C128_group_overflow_smaller"
  ],
  "note": "group_chaining_table with and without map_overflow"
 },
 "C129": {
  "status": "partial",
  "theorems": [
   "SC.C129_overflow_capacity_false",
   "SC.C129_overflow_capacity_partial",
   "SC.C129_group_overflow_capacity_partial"
  ],
  "note": "False as stated: capacity() and max_size() do not count the overflow table (witness with five insertions). Proved: size() exceeds them at most by the pairs in the overflow table."
 },
 "C13": {
  "status": "partial",
  "theorems": [
   "SC.C13_false_byte_blocks",
   "SC.C13_erase_overreads",
   "SC.C13_in_bounds_partial"
  ],
  "note": "The claim is false of the code: negations with witnesses, and the largest part that holds (64-bit blocks, erase only with a spare entry)."
 },
 "C130": {
  "status": "proved",
  "theorems": [
   "SC.C130_array_overflow_size"
  ],
  "note": "Under the conditions of the true part of C106, which the statement names; release builds."
 },
 "C131": {
  "status": "partial",
  "theorems": [
   "SC.C131_debug_map_file_partial",
   "SC.C131_debug_read_false",
   "SC.C131_debug_foreign_memory_false",
   "SC.C131_debug_file_false"
  ],
  "note": "False as stated: with a pair in the overflow table serialize is undefined (C131_debug_foreign_memory_false) or deserialize fails its last assertion (C131_debug_read_false); witness for both: C131_debug_file_false. C131_debug_map_file_partial: true whenever the overflow table is empty at the time of serialize and, with arbitrary_resize, the table has a bucket."
 },
 "C132": {
  "status": "partial",
  "theorems": [
   "SC.C132_group_debug_map_file_partial",
   "SC.C132_group_debug_read_false",
   "SC.C132_group_debug_foreign_memory_false",
   "SC.C132_group_debug_file_false"
  ],
  "note": "False as stated: with a pair in the overflow table serialize is undefined (C132_group_debug_foreign_memory_false) or deserialize fails its last assertion (C132_group_debug_read_false); witness for both: C132_group_debug_file_false. C132_group_debug_map_file_partial: true whenever the overflow table is empty at the time of serialize."
 },
 "C133": {
  "status": "proved",
  "theorems": [
   "SC.C133_separate_debug_stable",
   "SC.C133_compact_debug_stable",
   "SC.C133_group_debug_stable",
   "SC.C133_separate_debug_overflow_stable",
   "SC.C133_group_debug_overflow_stable"
  ],
  "note": "Separate, compact and group tables; with map_overflow for separate and group."
 },
 "C134": {
  "status": "proved",
  "theorems": [
   "SC.C134_separate_debug_loops",
   "SC.C134_compact_debug_loops",
   "SC.C134_group_debug_loops"
  ],
  "note": "Without overflow table; group_chaining_table: backward loop from find(key) only."
 },
 "C135": {
  "status": "proved",
  "theorems": [
   "SC.C135_separate_debug_overflow_loops",
   "SC.C135_group_overflow_loops",
   "SC.C135_group_debug_overflow_loops"
  ],
  "note": "exact description of both loops; that pairs are missed is the finding of C52 and C64. For debug builds of group tables begin() is modelled as the equivalent loop over the buckets"
 },
 "C136": {
  "status": "proved",
  "theorems": [
   "SC.C136_separate_update",
   "SC.C136_group_update",
   "SC.C136_separate_debug_update",
   "SC.C136_group_debug_update"
  ],
  "note": "separate_chaining_table and group_chaining_table with map_overflow, release and debug builds"
 },
 "C137": {
  "status": "proved",
  "theorems": [
   "SC.C137_separate_array_loops",
   "SC.C137_group_array_loops",
   "SC.C137_separate_debug_array_loops",
   "SC.C137_group_debug_array_loops"
  ],
  "note": "For the histories for which tables with array_overflow work (C106, C113): nothing erased or cleared, no key among the numbers in fresh memory. Forward loops are complete; backward loops visit nothing while the overflow table is in use."
 },
 "C138": {
  "status": "proved",
  "theorems": [
   "SC.C138_separate_array_update",
   "SC.C138_group_array_update",
   "SC.C138_separate_debug_array_update",
   "SC.C138_group_debug_array_update"
  ],
  "note": "For the histories for which tables with array_overflow work (C106, C113): nothing erased or cleared, no key among the numbers in fresh memory."
 },
 "C139": {
  "status": "proved",
  "theorems": [
   "SC.C139_separate_array_stable",
   "SC.C139_group_array_stable",
   "SC.C139_separate_debug_array_stable",
   "SC.C139_group_debug_array_stable"
  ],
  "note": "Histories without erasures and clear, as in C106 and C113; the navigator of a key is what find returns."
 },
 "C14": {
  "status": "proved",
  "theorems": [
   "SC.C14_resize_rule",
   "SC.C14_resize_grows",
   "SC.C14_resize_rule_large"
  ],
  "note": ""
 },
 "C140": {
  "status": "proved",
  "theorems": [
   "SC.C140_debug_several_tables",
   "SC.C140_compact_debug_several_tables",
   "SC.C140_group_debug_several_tables"
  ],
  "note": "Tables that were moved from are not used any more, as in C86."
 },
 "C15": {
  "status": "proved",
  "theorems": [
   "SC.C15_separate_map_semantics"
  ],
  "note": "For plain, class, AVX2 and varwidth key buckets, plain/class/varwidth/null value buckets, both resize strategies, the three hash families, maximum bucket sizes from 2 to 255 and key widths from 3; the hypotheses of SepOK and SepValid are stated there."
 },
 "C16": {
  "status": "proved",
  "theorems": [
   "SC.C16_separate_find"
  ],
  "note": ""
 },
 "C17": {
  "status": "proved",
  "theorems": [
   "SC.C17_separate_find_or_insert"
  ],
  "note": ""
 },
 "C18": {
  "status": "proved",
  "theorems": [
   "SC.C18_separate_assign"
  ],
  "note": ""
 },
 "C19": {
  "status": "proved",
  "theorems": [
   "SC.C19_separate_erase"
  ],
  "note": ""
 },
 "C20": {
  "status": "proved",
  "theorems": [
   "SC.C20_separate_size"
  ],
  "note": ""
 },
 "C21": {
  "status": "proved",
  "theorems": [
   "SC.C21_separate_rehash"
  ],
  "note": ""
 },
 "C22": {
  "status": "proved",
  "theorems": [
   "SC.C22_separate_reserve_rounding"
  ],
  "note": ""
 },
 "C23": {
  "status": "proved",
  "theorems": [
   "SC.C23_separate_shrink"
  ],
  "note": ""
 },
 "C24": {
  "status": "proved",
  "theorems": [
   "SC.C24_separate_clear"
  ],
  "note": ""
 },
 "C25": {
  "status": "proved",
  "theorems": [
   "SC.C25_separate_insert_bound"
  ],
  "note": ""
 },
 "C26": {
  "status": "proved",
  "theorems": [
   "SC.C26_separate_occupancy"
  ],
  "note": ""
 },
 "C27": {
  "status": "proved",
  "theorems": [
   "SC.C27_separate_capacity"
  ],
  "note": ""
 },
 "C28": {
  "status": "proved",
  "theorems": [
   "SC.C28_separate_forward"
  ],
  "note": ""
 },
 "C29": {
  "status": "proved",
  "theorems": [
   "SC.C29_separate_backward"
  ],
  "note": ""
 },
 "C30": {
  "status": "proved",
  "theorems": [
   "SC.C30_separate_drain"
  ],
  "note": ""
 },
 "C31": {
  "status": "partial",
  "theorems": [
   "SC.C31_separate_rbegin_false",
   "SC.C31_separate_rbegin_partial"
  ],
  "note": "The claim is false of the code: negation with witness, and the exact set of states in which rbegin_nav() is defined."
 },
 "C32": {
  "status": "proved",
  "theorems": [
   "SC.C32_separate_serialize"
  ],
  "note": ""
 },
 "C33": {
  "status": "partial",
  "theorems": [
   "SC.C33_key_width_one_false",
   "SC.C33_key_width_two_false",
   "SC.C33_key_widths_partial"
  ],
  "note": "The claim is false of the code for key widths 1 and 2: witnesses; proved for widths 3 to 64."
 },
 "C34": {
  "status": "proved",
  "theorems": [
   "SC.C34_separate_set_semantics"
  ],
  "note": ""
 },
 "C35": {
  "status": "proved",
  "theorems": [
   "SC.own_swap_contents",
   "SC.own_swap_release",
   "SC.own_safe",
   "SC.own_release_partial",
   "SC.own_returns",
   "SC.own_hash_returns"
  ],
  "note": "For every program over tables: swap exchanges the contents, destroying all tables afterwards succeeds without a double or mismatched release, and exactly the same blocks are released as without the swap. Blocks that other calls lost before are the subject of C61; without such calls the heap is empty at the end (own_release_partial). own_hash_returns: with the library's hash functions and keys of key_width bits every call of the program returns (own_returns: with any hash function that spreads the keys)."
 },
 "C36": {
  "status": "partial",
  "theorems": [
   "SC.own_move_ctor_double_release",
   "SC.own_moved_from_null",
   "SC.own_move_assign_partial",
   "SC.own_set_moves_partial"
  ],
  "note": "False: after move construction of any reachable table with value buckets, destroying both objects releases the value array twice (own_move_ctor_double_release); a moved-from table with buckets follows a null pointer on every insertion and erasure, also after clear() (own_moved_from_null). Proved: sets release every block once under all moves; move assignment never releases twice and loses exactly the value array of the target."
 },
 "C37": {
  "status": "proved",
  "theorems": [
   "SC.C37_compact_map_semantics"
  ],
  "note": ""
 },
 "C38": {
  "status": "proved",
  "theorems": [
   "SC.C38_compact_push",
   "SC.C38_compact_erase",
   "SC.C38_compact_write_value"
  ],
  "note": ""
 },
 "C39": {
  "status": "proved",
  "theorems": [
   "SC.C39_select64",
   "SC.C39_versions_agree"
  ],
  "note": "both versions of select64 (BMI2 and broadword with lt_sel/ps_overflow), for all words and all valid i"
 },
 "C40": {
  "status": "proved",
  "theorems": [
   "SC.C40_borders"
  ],
  "note": ""
 },
 "C41": {
  "status": "proved",
  "theorems": [
   "SC.C41_packed_array",
   "SC.C41_packed_array_history",
   "SC.C41_packed_array_find"
  ],
  "note": ""
 },
 "C42": {
  "status": "proved",
  "theorems": [
   "SC.C42_group"
  ],
  "note": ""
 },
 "C43": {
  "status": "proved",
  "theorems": [
   "SC.C43_group_map_semantics",
   "SC.C43_group_observed",
   "SC.C43_group_loops"
  ],
  "note": "with dummy_overflow"
 },
 "C44": {
  "status": "partial",
  "theorems": [
   "SC.C44_group_backward_false",
   "SC.C44_group_backward_not",
   "SC.C44_group_backward_partial"
  ],
  "note": "false: rbegin_nav() returns a position equal to the bucket size, which is an invalid navigator, so the loop visits nothing on every reachable table; proved: the negation, and that the loop works when started one step earlier"
 },
 "C45": {
  "status": "proved",
  "theorems": [
   "SC.C45_group_serialize"
  ],
  "note": "Every table reachable by calls and reloading; any target table and any continuation of the stream; contents, size, group size, widths, bucket count (if not empty), and behaviour afterwards."
 },
 "C46": {
  "status": "proved",
  "theorems": [
   "SC.C46_bucket_table_map"
  ],
  "note": "All sequences of calls; at most 2^32-1 elements with incremental_resize (m_elements has 32 bits) and 255 with arbitrary_resize_bucket. Key buckets: plain, class, avx2, varwidth (also with strict access bounds)."
 },
 "C47": {
  "status": "partial",
  "theorems": [
   "SC.C47_no_limit_false",
   "SC.C47_full_insert_oob",
   "SC.C47_no_limit_partial"
  ],
  "note": "False: with 255 elements in plain/class/avx2 key buckets the insertion of any further key writes behind the end. The partial theorem gives memory safety up to 255 elements."
 },
 "C48": {
  "status": "proved",
  "theorems": [
   "SC.C48_keysplit_route"
  ],
  "note": "For every max_bits from 1 to 64 and every number of tables; the slot is the first table whose width suffices."
 },
 "C49": {
  "status": "proved",
  "theorems": [
   "SC.C49_keysplit_generic",
   "SC.C49_keysplit_separate",
   "SC.C49_keysplit_compact",
   "SC.C49_keysplit_group",
   "SC.C49_narrow_interval_fails"
  ],
  "note": "For any table class that behaves like a finite map, and instantiated for separate, compact and group tables (key widths of all tables at least 3, because the tables are wrong for widths 1 and 2, see C33). Iteration over the adapter does not exist in the code; empty() cannot be instantiated."
 },
 "C50": {
  "status": "proved",
  "theorems": [
   "SC.C50_separate_map_overflow",
   "SC.C50_group_map_overflow"
  ],
  "note": "separate_chaining_map with every bucket class and group_chaining_table; std::unordered_map is a contract (bucket_count, bucket(key), no rehash below the load factor), everything it may choose is universally quantified; values must fit into the value width; serialisation and iteration are excluded by the statement"
 },
 "C51": {
  "status": "partial",
  "theorems": [
   "SC.C51_array_erase_false",
   "SC.C51_array_erase_partial"
  ],
  "note": "false as stated (witness: erasing position 0 of three pairs removes the last one); proved: erase always removes the last pair, so it is right exactly for the last position"
 },
 "C52": {
  "status": "partial",
  "theorems": [
   "SC.C52_forward_overflow_false",
   "SC.C52_forward_overflow_partial"
  ],
  "note": "false as stated (witness: a history after which four pairs are in the overflow table and are not visited); proved for all histories: the loop visits exactly the pairs in buckets, and those in the overflow table exactly if its position 0 is occupied"
 },
 "C53": {
  "status": "proved",
  "theorems": [
   "SC.C53_separate_navigator"
  ],
  "note": ""
 },
 "C54": {
  "status": "partial",
  "theorems": [
   "SC.C54_capacity_after_deserialize_false",
   "SC.C54_capacity_after_deserialize_partial"
  ],
  "note": "The claim is false of the code with arbitrary_resize: witness; proved with incremental_resize."
 },
 "C55": {
  "status": "proved",
  "theorems": [
   "SC.C55_compact_observed",
   "SC.C55_compact_observed_back"
  ],
  "note": ""
 },
 "C56": {
  "status": "partial",
  "theorems": [
   "SC.C56_compact_rbegin_false",
   "SC.C56_compact_rbegin_partial"
  ],
  "note": "The claim is false of the code for tables with buckets but without elements: witness; the theorem says exactly when rbegin_nav is defined."
 },
 "C57": {
  "status": "proved",
  "theorems": [
   "SC.C57_compact_space"
  ],
  "note": ""
 },
 "C58": {
  "status": "partial",
  "theorems": [
   "SC.C58_erase_after_deserialize_false",
   "SC.C58_erase_after_deserialize_partial"
  ],
  "note": "False: witness (64-bit values, one pair) where erase on a just-read table reads behind the end of the value array. Proved: correct if such reads are unspecified only; all calls other than erase stay inside."
 },
 "C59": {
  "status": "partial",
  "theorems": [
   "SC.C59_array_find_false",
   "SC.C59_array_find_erased_false",
   "SC.C59_array_find_partial"
  ],
  "note": "false as stated (witnesses: find in a new array reads unwritten entries; find of an erased key returns an invalid position); proved: stored keys are found at their first position, and -1 is returned for others if all 256 entries are in use"
 },
 "C60": {
  "status": "proved",
  "theorems": [
   "SC.C60_bucket_table_iteration"
  ],
  "note": ""
 },
 "C61": {
  "status": "partial",
  "theorems": [
   "SC.own_clear_leaks",
   "SC.own_reserve_one_leaks",
   "SC.own_release_partial",
   "SC.own_set_moves_partial",
   "SC.own_returns",
   "SC.own_hash_returns"
  ],
  "note": "False: clear() followed by an insertion loses the value array (own_clear_leaks), reserve(1) followed by an insertion loses all arrays (own_reserve_one_leaks). Proved for programs without these calls and for sets. With the library's hash functions and keys of key_width bits every call of such programs returns (own_hash_returns)."
 },
 "C62": {
  "status": "partial",
  "theorems": [
   "SC.own_class_bucket_mismatch",
   "SC.own_load_partial",
   "SC.own_safe",
   "SC.own_load_returns_partial"
  ],
  "note": "False for class_bucket: deserialize allocates with malloc, clear releases with delete[] (own_class_bucket_mismatch). Proved for the other bucket classes. With the library's hash functions reading, using and destroying the table also returns (own_load_returns_partial)."
 },
 "C63": {
  "status": "partial",
  "theorems": [
   "SC.C63_wrong_release",
   "SC.C63_release_partial",
   "SC.C63_moved_from_null",
   "SC.C63_reserve_one_leaks",
   "SC.C63_returns_partial",
   "SC.C63_hash_returns_partial"
  ],
  "note": "False as stated: the arrays are allocated with malloc/realloc and released with delete[] (C63_wrong_release, any state), and reserve(1) loses arrays. Proved for all programs without use of moved-from maps if the release function matched: no memory fault, all blocks released once (without reserve(1)). C63_hash_returns_partial: with the library's hash functions and keys of key_width bits every call returns; for arbitrary hash functions the result may also be 'recursion bound reached' or 'shift by 64 or more'."
 },
 "C64": {
  "status": "partial",
  "theorems": [
   "SC.C64_backward_overflow_false",
   "SC.C64_backward_overflow_partial",
   "SC.C64_backward_unused_partial"
  ],
  "note": "False: the backward loop starts at position size() of the overflow table and never reaches the buckets. Proved: exactly which pairs are visited in every state, and the full claim when the overflow table is empty."
 },
 "C65": {
  "status": "partial",
  "theorems": [
   "SC.C65_clear_overflow_partial",
   "SC.C65_array_clear_false",
   "SC.C65_table_clear_false"
  ],
  "note": "Proved for map_overflow. False for array_overflow in every reachable state: clear() keeps m_elements and null arrays; table-level witness."
 },
 "C66": {
  "status": "proved",
  "theorems": [
   "SC.C66_separate_bidirectional",
   "SC.C66_compact_bidirectional",
   "SC.C66_group_bidirectional"
  ],
  "note": "any walk of ++ and -- from begin_nav() in separate_chaining_map, compact_chaining_map and group_chaining_table"
 },
 "C67": {
  "status": "partial",
  "theorems": [
   "SC.C67_separate_iterator_false",
   "SC.C67_compact_iterator_false",
   "SC.C67_group_iterator_false",
   "SC.C67_iterator_not",
   "SC.C67_separate_iterator_partial",
   "SC.C67_compact_iterator_partial",
   "SC.C67_group_iterator_partial"
  ],
  "note": "false: operator-- of iterators is inherited and does not update the cached pair, in every table with at least two elements; proved: ++ only, range-based for, find, and an exact description of the cached pair"
 },
 "C68": {
  "status": "partial",
  "theorems": [
   "SC.C68_separate_before_end_false",
   "SC.C68_compact_before_end_false",
   "SC.C68_group_before_end_false",
   "SC.C68_separate_before_end_partial",
   "SC.C68_compact_before_end_partial",
   "SC.C68_group_before_end_partial"
  ],
  "note": "false for end_nav(): reads the size of bucket 2^64-1 in every table that is not empty; holds for navigators that arrive at the end by ++"
 },
 "C69": {
  "status": "partial",
  "theorems": [
   "SC.C69_release_partial",
   "SC.C69_move_assign",
   "SC.C69_reserve_one_leaks",
   "SC.C69_returns_partial",
   "SC.C69_hash_returns_partial"
  ],
  "note": "False with reserve(1) (witness C69_reserve_one_leaks: the array of groups is lost by the next insertion). C69_release_partial: no program has a memory fault, all tables can be destroyed, and without reserve(1) (and streams with one bucket) all blocks are released; for arbitrary hash functions the result may also be 'recursion bound reached' or 'shift by 64 or more'. C69_hash_returns_partial: with the library's hash functions and keys of key_width bits every call returns. C69_move_assign: the source of a move is an empty table."
 },
 "C70": {
  "status": "partial",
  "theorems": [
   "SC.C70_quotient_width_partial",
   "SC.C70_max_bucket_size_one_false"
  ],
  "note": "True for the values 2..255; false for 1 (C70_max_bucket_size_one_false)."
 },
 "C71": {
  "status": "proved",
  "theorems": [
   "SC.C71_separate_limits",
   "SC.C71_compact_limits",
   "SC.C71_group_limits",
   "SC.C71_beyond_max_key",
   "SC.C71_beyond_max_value"
  ],
  "note": ""
 },
 "C72": {
  "status": "proved",
  "theorems": [
   "SC.C72_compact_max_size",
   "SC.C72_group_capacity"
  ],
  "note": ""
 },
 "C73": {
  "status": "proved",
  "theorems": [
   "SC.C73_separate_sweep",
   "SC.C73_compact_sweep",
   "SC.C73_group_sweep"
  ],
  "note": "group_chaining_table: from find(key) only (rbegin_nav is refuted, C44); tables without overflow table"
 },
 "C74": {
  "status": "proved",
  "theorems": [
   "SC.C74_separate_update",
   "SC.C74_compact_update",
   "SC.C74_group_update"
  ],
  "note": "tables without overflow table"
 },
 "C75": {
  "status": "proved",
  "theorems": [
   "SC.C75_bucket_tables"
  ],
  "note": ""
 },
 "C76": {
  "status": "proved",
  "theorems": [
   "SC.C76_two_blocks"
  ],
  "note": ""
 },
 "C77": {
  "status": "proved",
  "theorems": [
   "SC.C77_debug_semantics",
   "SC.C77_debug_iteration"
  ],
  "note": "No DDCHECK fails for valid calls; dummy_overflow only"
 },
 "C78": {
  "status": "proved",
  "theorems": [
   "SC.C78_debug_reserve_one",
   "SC.C78_debug_wide_value",
   "SC.C78_debug_large_key"
  ],
  "note": "Three kinds of calls that a debug build rejects"
 },
 "C79": {
  "status": "proved",
  "theorems": [
   "SC.C79_compact_debug_semantics",
   "SC.C79_compact_debug_iteration"
  ],
  "note": "All assertions and debug copies of compact_chaining_map executed"
 },
 "C80": {
  "status": "proved",
  "theorems": [
   "SC.C80_compact_debug_insert_wide",
   "SC.C80_compact_debug_assign_wide",
   "SC.C80_compact_debug_large_key"
  ],
  "note": "What a debug build of compact_chaining_map reports, and when"
 },
 "C81": {
  "status": "proved",
  "theorems": [
   "SC.C81_group_debug_semantics",
   "SC.C81_group_debug_iteration",
   "SC.C81_group_debug_clear"
  ],
  "note": "By induction over the calls, for every history, width and content of fresh memory; all copies kept by a debug build are part of the state. Without overflow table and without HEAVY_DEBUG."
 },
 "C82": {
  "status": "proved",
  "theorems": [
   "SC.C82_group_debug_insert_wide",
   "SC.C82_group_debug_assign_wide",
   "SC.C82_group_debug_large_key"
  ],
  "note": "For every valid history."
 },
 "C83": {
  "status": "proved",
  "theorems": [
   "SC.C83_bucket_table_debug_semantics",
   "SC.C83_bucket_table_debug_iteration"
  ],
  "note": "All classes of key and value buckets; at most 2^32-1 or 255 elements. DCHECK failing = fault exc."
 },
 "C84": {
  "status": "proved",
  "theorems": [
   "SC.C84_bucket_table_debug_full",
   "SC.C84_bucket_table_debug_large_key",
   "SC.C84_bucket_table_debug_width"
  ],
  "note": "The insertion of the 256th key, keys above max_key(), key widths above that of key_type."
 },
 "C85": {
  "status": "proved",
  "theorems": [
   "SC.C85_const_access_debug",
   "SC.C85_const_access_release"
  ],
  "note": "Both builds; absent keys fault."
 },
 "C86": {
  "status": "proved",
  "theorems": [
   "SC.C86_several_tables",
   "SC.C86_several_tables_compact",
   "SC.C86_several_tables_group",
   "SC.C86_moved_from"
  ],
  "note": ""
 },
 "C87": {
  "status": "partial",
  "theorems": [
   "SC.C87_incremental_memory_partial",
   "SC.C87_incremental_memory_false"
  ],
  "note": "Proved for values of all bucket classes and for keys in plain, class and avx2 buckets. For keys in varwidth_bucket the statement is false (C87_incremental_memory_false): the first block is computed with the key width; proved: the block is at least as large as needed and at most the maximum of that and the first block."
 },
 "C88": {
  "status": "partial",
  "theorems": [
   "SC.C88_shrink_memory_partial",
   "SC.C88_shrink_memory_false"
  ],
  "note": "Proved for plain, class and avx2 buckets and sets. False for varwidth_bucket (C88_shrink_memory_false): shrink_to_fit never releases memory of such a bucket."
 },
 "C89": {
  "status": "partial",
  "theorems": [
   "SC.C89_size_in_bytes_partial",
   "SC.C89_size_in_bytes_false",
   "SC.C89_size_in_bytes_over",
   "SC.C89_memory_after_shrink"
  ],
  "note": "False as stated (C89_size_in_bytes_false: arrays of buckets and sizes not counted; C89_size_in_bytes_over: values in varwidth_bucket counted with 8 bytes). Proved: for values with a fixed number of bits the result is at least what the entries need and at most what the table uses; what a map with entries of fixed sizes uses after shrink_to_fit(), as an exact formula (C89_memory_after_shrink)."
 },
 "C90": {
  "status": "proved",
  "theorems": [
   "SC.C90_half_memory"
  ],
  "note": ""
 },
 "C91": {
  "status": "proved",
  "theorems": [
   "SC.C91_separate_stable",
   "SC.C91_compact_stable",
   "SC.C91_group_stable",
   "SC.C91_enlarging_moves"
  ],
  "note": "for separate_chaining_map, compact_chaining_map and group_chaining_table without overflow table; the condition on the number of buckets is shown to be necessary"
 },
 "C92": {
  "status": "proved",
  "theorems": [
   "SC.C92_separate_format",
   "SC.C92_separate_length",
   "SC.C92_group_format"
  ],
  "note": "separate_chaining_table with every bucket class and group_chaining_table, release build"
 },
 "C93": {
  "status": "partial",
  "theorems": [
   "SC.C93_separate_not",
   "SC.C93_group_not",
   "SC.C93_same_bytes_partial"
  ],
  "note": "False: varwidth buckets write padding bits from uninitialised memory, and so do group tables after reading a file and inserting (negations with witnesses). Proved: tables with bucket classes without padding and the same pairs in the same number of buckets write the same bytes; group tables that never read a file (C98_group_same_bytes)."
 },
 "C94": {
  "status": "proved",
  "theorems": [
   "SC.C94_read_file",
   "SC.C94_portable",
   "SC.C94_smaller_limit_not"
  ],
  "note": "Files of the format of C92 are read back exactly; the hypothesis on the bucket size is shown to be necessary by C94_smaller_limit_not. Release builds without overflow table."
 },
 "C95": {
  "status": "partial",
  "theorems": [
   "SC.C95_debug_serialize_partial",
   "SC.C95_debug_empty_not"
  ],
  "note": "False with arbitrary_resize for tables without buckets (C95_debug_empty_not): the file is read, but the next insertion throws. Everything else is proved in C95_debug_serialize_partial. Without overflow table."
 },
 "C96": {
  "status": "proved",
  "theorems": [
   "SC.C96_release_reads_debug",
   "SC.C96_debug_reads_release",
   "SC.C96_debug_fails_on_release"
  ],
  "note": "Without overflow table; group_chaining_table and compact_chaining_map not covered."
 },
 "C97": {
  "status": "partial",
  "theorems": [
   "SC.C97_array_serialize_partial",
   "SC.C97_array_insert_not",
   "SC.C97_array_find_not",
   "SC.C97_array_consult_not"
  ],
  "note": "False: after reading, every insertion writes and every find of an absent key reads behind the arrays (C97_array_insert_not, C97_array_find_not, for all histories), and need_consult is lost (C97_array_consult_not). The rest is proved in C97_array_serialize_partial."
 },
 "C98": {
  "status": "proved",
  "theorems": [
   "SC.C98_group_same_bytes"
  ],
  "note": ""
 },
 "C99": {
  "status": "proved",
  "theorems": [
   "SC.C99_group_read_file",
   "SC.C99_group_portable"
  ],
  "note": "Any file meeting the independent format specification (arbitrary padding) is read into a table with its pairs; portability between environments."
 }
}