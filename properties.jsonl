{"id": "C01", "title": "Xorshift is a bijection on w-bit keys with hash_inv as its inverse", "statement": "For a Xorshift function constructed for w bits, hash and hash_inv map w-bit integers to w-bit integers, hash_inv(hash(x)) = x and hash(hash_inv(x)) = x.", "quantifier": "every width w from 1 to 64 and every w-bit integer x", "why_tests_cant": "2^64 inputs for the widest setting; a wrong entry in the constant table or a wrong shift can keep almost all samples correct", "anchors": ["include/separate/bijective_hash.hpp: Xorshift::hash, Xorshift::hash_inv, PRIME_TABLE"]}
{"id": "C02", "title": "MultiplicativeHash is a bijection on w-bit keys with hash_inv as its inverse", "statement": "For a MultiplicativeHash constructed for w bits, hash and hash_inv stay within w bits and are inverse to each other, although one fixed multiplier pair serves all widths.", "quantifier": "every width w from 1 to 64 and every w-bit integer x", "why_tests_cant": "input space up to 2^64 per width", "anchors": ["include/separate/bijective_hash.hpp: MultiplicativeHash::hash, MultiplicativeHash::hash_inv"]}
{"id": "C03", "title": "Quotienting loses no information", "statement": "With a bijective hash mapping of w bits and a table of 2^b buckets (b < w) whose storage type is wide enough for w-b bits, inv_map applied to the (remainder, bucket) pair returned by map gives back the key; the bucket is smaller than 2^b and the remainder fits in remainder_width(b) = w-b bits; hence two different keys never get the same pair.", "quantifier": "every w in 1..64, every b < w, every w-bit key (and pair of keys), both bijective functions", "why_tests_cant": "product of all widths, bucket counts and up to 2^64 keys", "anchors": ["include/separate/hash.hpp: bijective_hash_adapter::map, inv_map, remainder_width"]}
{"id": "C04", "title": "Narrow quotient storage is lossless exactly when enough buckets are allocated", "statement": "If the storage type of the quotients has s bits, keys have w bits and the table has 2^b buckets, then storing the quotient is lossless for all keys if w-b <= s, and if w-b > s there are two different keys of the universe that receive the same (stored quotient, bucket) pair.", "quantifier": "every w in 1..64, s in {8,16,32,64}, b < w", "why_tests_cant": "the threshold has to be right for all combinations; samples rarely hit colliding keys", "anchors": ["include/separate/hash.hpp: bijective_hash_adapter::map", "README.md: quotienting"]}
{"id": "C05", "title": "SplitMix never maps two 64-bit keys to the same hash", "statement": "The SplitMix hash function is injective on 64-bit integers.", "quantifier": "every pair of 64-bit integers", "why_tests_cant": "2^128 pairs", "anchors": ["include/separate/hash.hpp: SplitMix::operator()"]}
{"id": "C06", "title": "hash_mapping_adapter yields a bucket in range and keeps the key", "statement": "For any hash function, hash_mapping_adapter::map on a table with 2^b buckets returns a bucket smaller than 2^b and inv_map returns the original key; for b = 0 the code shifts by 64 and has no defined result.", "quantifier": "every hash function, every key, every b in 0..64", "why_tests_cant": "quantifies over arbitrary user-supplied hash functions", "anchors": ["include/separate/hash.hpp: hash_mapping_adapter::map, inv_map"]}
{"id": "C07", "title": "Bit-packed bucket: writing an entry and reading it back", "statement": "In a variable-width bucket, read(i) after write(i, x) returns x (reduced to the entry width), and every other entry, as well as every bit outside the written entry, is unchanged.", "quantifier": "every entry width 1..64, every block type of 8/16/32/64 bits, every index, every previous memory content", "why_tests_cant": "entries straddle block and word borders in width-dependent patterns; memory contents are unbounded", "anchors": ["include/separate/bucket.hpp: varwidth_bucket::read, varwidth_bucket::write"]}
{"id": "C08", "title": "Bit-packed bucket: erase removes exactly one entry", "statement": "In a variable-width bucket holding entries x_0..x_{n-1}, erase(p) leaves x_0..x_{p-1}, x_{p+1}..x_{n-1} in this order.", "quantifier": "every entry width 1..64, every number of entries n, every position p < n, every block type", "why_tests_cant": "the move is done in 64-bit chunks at unaligned bit offsets; the number of alignments times lengths is unbounded", "anchors": ["include/separate/bucket.hpp: varwidth_bucket::erase"]}
{"id": "C09", "title": "Bit-packed bucket: resize and growth keep all entries and always provide room", "statement": "Growing a variable-width bucket from n entries to room for m >= n entries keeps all n entries; afterwards the allocation has room for m entries, even when the bucket was initialised for a larger width or the reallocation was skipped.", "quantifier": "every width, block type, n <= m, every earlier allocation with room for n entries", "why_tests_cant": "whether the reallocation is skipped depends on rounding for each (n, m, width)", "anchors": ["include/separate/bucket.hpp: varwidth_bucket::resize, varwidth_bucket::initialize"]}
{"id": "C10", "title": "Bit-packed bucket: find returns the first matching entry", "statement": "find(x) in a variable-width bucket returns the smallest index whose entry equals x, or -1 if there is none, whatever the bits behind the last entry are.", "quantifier": "every width 1..64, every content, every key", "why_tests_cant": "unbounded contents; garbage behind the entries", "anchors": ["include/separate/bucket.hpp: varwidth_bucket::find"]}
{"id": "C11", "title": "AVX2 bucket: vectorised find equals the linear scan", "statement": "avx2_bucket::find(x) returns the smallest index holding x or -1, for every number of entries, including lengths that are not multiples of the register size.", "quantifier": "every storage type of 8/16/32/64 bits, every length, every content, every key fitting the storage type", "why_tests_cant": "all lengths and contents; matches may occur in several lanes of a register", "anchors": ["include/separate/bucket.hpp: avx2_bucket::find, avx_functions"]}
{"id": "C12", "title": "Plain and AVX2 buckets behave like growable arrays", "statement": "plain_bucket, class_bucket and avx2_bucket: initialize/resize keep the entries, write stores an entry, erase removes exactly one entry preserving order, find returns the first match or -1; no call touches memory outside the allocation or reads an uninitialised entry as long as positions are within the number of entries.", "quantifier": "every sequence of entries, positions and sizes", "why_tests_cant": "unbounded sequences; memory safety is about all accesses", "anchors": ["include/separate/bucket.hpp: plain_bucket, class_bucket, avx2_bucket, aligned_realloc"]}
{"id": "C13", "title": "Bit-packed bucket: accesses stay inside the allocation", "statement": "No operation of a variable-width bucket reads or writes memory outside the block it allocated.", "quantifier": "every width, block type, number of entries, operation", "why_tests_cant": "out-of-bounds accesses are silent in ordinary test runs because allocators round up", "anchors": ["include/separate/bucket.hpp: varwidth_bucket::read, write, erase, find"]}
{"id": "C14", "title": "Capacity growth rule never yields less than requested", "statement": "arbitrary_resize::resize(n) returns a capacity of at least n that fits the one-byte capacity field, for every n a bucket can reach (n <= 255); it fails to do so for every n > 255.", "quantifier": "every n", "why_tests_cant": "the statement is about all n, the exact switch-over and the clamp", "anchors": ["include/separate/size.hpp: arbitrary_resize::resize"]}
{"id": "C15", "title": "Map semantics over arbitrary histories (separate_chaining_map)", "statement": "Starting from an empty table, every sequence of calls to find_or_insert, operator[] (read and assignment), find, count, erase, size, empty, reserve, shrink_to_fit and clear gives the same answers as a mathematical finite map, no call runs into undefined behaviour, and every call terminates.", "quantifier": "every finite sequence of operations with keys <= max_key(), every key width from 3 to 64, every supported bucket type, hash mapping and resize strategy", "why_tests_cant": "unbounded histories; rehashes and bucket reallocations happen at data-dependent points", "anchors": ["include/separate/separate_chaining_table.hpp: separate_chaining_table::find_or_insert, find, count, erase, operator[], write_value, reserve, shrink_to_fit, clear, size, empty"]}
{"id": "C16", "title": "find returns an iterator to the requested key and its current value", "statement": "If find(k) differs from end(), then dereferencing it gives (k, v) where v is the value last stored for k; if it equals end(), k is not stored.", "quantifier": "every reachable table state and every key <= max_key()", "why_tests_cant": "all reachable states", "anchors": ["include/separate/separate_chaining_table.hpp: find", "include/separate/iterator.hpp: separate_chaining_iterator"]}
{"id": "C17", "title": "find_or_insert never overwrites and never duplicates", "statement": "If the key is already stored, find_or_insert leaves the table unchanged and returns a navigator to the stored value; otherwise exactly this pair is added and the navigator refers to it. No key is ever stored twice.", "quantifier": "every reachable table state, key and value", "why_tests_cant": "all reachable states including full buckets that trigger (nested) rehashing", "anchors": ["include/separate/separate_chaining_table.hpp: find_or_insert"]}
{"id": "C18", "title": "operator[] assignment changes the value of one key only", "statement": "After m[k] = v, find(k) gives v and the answers for every other key are unchanged; if k was absent, size() grows by one.", "quantifier": "every reachable table state, every key, every value <= max_value()", "why_tests_cant": "non-interference has to hold for all other keys and bit alignments", "anchors": ["include/separate/separate_chaining_table.hpp: operator[], write_value", "include/separate/iterator.hpp: separate_chaining_navigator::operator="]}
{"id": "C19", "title": "erase removes exactly the given key and reports it", "statement": "erase(k) returns 1 and removes k if stored, returns 0 and changes nothing otherwise; all other keys keep their values; size() decreases accordingly.", "quantifier": "every reachable table state and every key", "why_tests_cant": "all reachable states; elements behind the erased one are shifted", "anchors": ["include/separate/separate_chaining_table.hpp: erase"]}
{"id": "C20", "title": "size() is the number of stored keys", "statement": "size() equals the number of distinct keys for which find succeeds, equals the number of pairs visited by iteration, and empty() is true iff this number is 0.", "quantifier": "every reachable table state", "why_tests_cant": "invariant over all histories", "anchors": ["include/separate/separate_chaining_table.hpp: size, empty"]}
{"id": "C21", "title": "Rehashing preserves the contents and the key width", "statement": "reserve(n) never changes which keys are stored nor their values, whether it grows or shrinks the number of buckets and whether or not the temporary table has to grow again while it is filled.", "quantifier": "every reachable table state, every n >= 1 with ceil(log2 n) < key_width()", "why_tests_cant": "every content and every pair of bucket counts", "anchors": ["include/separate/separate_chaining_table.hpp: reserve"]}
{"id": "C22", "title": "reserve rounds the number of buckets up to a power of two", "statement": "After reserve(n) on a table without buckets, bucket_count() is the smallest power of two that is at least n (for 2 <= n <= 2^63).", "quantifier": "every n", "why_tests_cant": "all 64-bit n; off-by-one at powers of two", "anchors": ["include/separate/separate_chaining_table.hpp: reserve", "include/separate/math.hpp: most_significant_bit"]}
{"id": "C23", "title": "shrink_to_fit keeps the contents and removes all slack", "statement": "shrink_to_fit() changes no observable content; afterwards capacity() equals size().", "quantifier": "every reachable table state", "why_tests_cant": "all reachable states", "anchors": ["include/separate/separate_chaining_table.hpp: shrink_to_fit, capacity"]}
{"id": "C24", "title": "clear() resets the table to a usable empty table", "statement": "After clear(), size() is 0, bucket_count() is 0, find of every key fails, and the table can be used again with full map semantics.", "quantifier": "every reachable table state and every continuation", "why_tests_cant": "all states and continuations", "anchors": ["include/separate/separate_chaining_table.hpp: clear, clear_structure"]}
{"id": "C25", "title": "Insertion terminates with a bounded number of buckets", "statement": "find_or_insert performs finitely many rehashes. With a bijective hash of w bits automatic growth never exceeds 2^(w-7) buckets (or the number already present), so the quotient always keeps at least one bit; with SplitMix it never exceeds 2^57.", "quantifier": "every reachable table state, every key", "why_tests_cant": "termination over all inputs, including adversarial key sets", "anchors": ["include/separate/separate_chaining_table.hpp: find_or_insert, max_bucket_size"]}
{"id": "C26", "title": "Bucket occupancy limits", "statement": "No bucket ever holds more than max_bucket_size() = 255 elements, the one-byte counters never wrap, the bucket sizes sum up to size(), and size() <= max_size() unless the table has more than 2^56 buckets (where the 64-bit product max_bucket_size() * bucket_count() can wrap).", "quantifier": "every reachable table state", "why_tests_cant": "invariant over all histories", "anchors": ["include/separate/separate_chaining_table.hpp: max_bucket_size, bucket_size, max_size"]}
{"id": "C27", "title": "capacity() is at least size()", "statement": "capacity() >= size() in every state reached by insertions, erasures, rehashing, shrinking and clearing.", "quantifier": "every history of the operations above, both resize strategies", "why_tests_cant": "invariant over all histories", "anchors": ["include/separate/separate_chaining_table.hpp: capacity", "include/separate/size.hpp: arbitrary_resize, incremental_resize"]}
{"id": "C28", "title": "Forward iteration visits every pair exactly once", "statement": "A loop from begin()/begin_nav() to end()/end_nav() with ++ terminates and visits each stored (key, value) pair exactly once.", "quantifier": "every reachable table state", "why_tests_cant": "all patterns of empty and non-empty buckets", "anchors": ["include/separate/separate_chaining_table.hpp: begin, cbegin, begin_nav, end", "include/separate/iterator.hpp: operator++, operator==, invalid"]}
{"id": "C29", "title": "Backward iteration visits the pairs in reverse order", "statement": "On a non-empty table, a loop from rbegin_nav() to rend_nav() with -- visits exactly the pairs of the forward loop in reverse order.", "quantifier": "every reachable non-empty table state", "why_tests_cant": "all patterns of empty and non-empty buckets", "anchors": ["include/separate/separate_chaining_table.hpp: rbegin_nav, rend_nav", "include/separate/iterator.hpp: operator--"]}
{"id": "C30", "title": "Process-and-delete from the back drains the table", "statement": "Starting at rbegin_nav() of a non-empty table and repeatedly reading the pair, calling erase(navigator) and then --navigator until rend_nav() visits every pair exactly once and leaves the table empty.", "quantifier": "every reachable non-empty table state", "why_tests_cant": "navigators are invalidated and repaired during the loop; all states", "anchors": ["README.md: deletion during traversal", "include/separate/iterator.hpp: operator--", "include/separate/separate_chaining_table.hpp: erase(navigator)"]}
{"id": "C31", "title": "rbegin_nav is defined on every table", "statement": "rbegin_nav() has defined behaviour on every reachable table and equals rend_nav() if the table is empty.", "quantifier": "every reachable table state, including tables emptied by erase", "why_tests_cant": "the claim is about all states; the failing ones (buckets allocated, no element) are easily missed", "anchors": ["include/separate/separate_chaining_table.hpp: rbegin_nav", "include/separate/compact_chaining_map.hpp: rbegin_nav"]}
{"id": "C32", "title": "Serialisation round trip", "statement": "deserialize applied to the bytes written by serialize restores a table with the same contents, size, bucket count, key and value width, and consumes exactly these bytes.", "quantifier": "every reachable table state, every bucket type, every state of the target table, every following data in the stream", "why_tests_cant": "all states; byte-exact", "anchors": ["include/separate/separate_chaining_table.hpp: serialize, deserialize", "include/separate/bucket.hpp: serialize, deserialize"]}
{"id": "C33", "title": "Key widths 1 and 2 are supported like all others", "statement": "A table constructed with key_width w stores keys correctly for every w >= 1 accepted by the constructor.", "quantifier": "every w from 1 to 64", "why_tests_cant": "needs all widths; boundary widths are easily skipped", "anchors": ["include/separate/separate_chaining_table.hpp: separate_chaining_table(), find_or_insert, reserve"]}
{"id": "C34", "title": "Hash set semantics", "statement": "A separate_chaining_set behaves like a mathematical finite set under insertion, count, erase, size, reserve and clear.", "quantifier": "every finite sequence of operations", "why_tests_cant": "unbounded histories", "anchors": ["include/separate/separate_chaining_table.hpp: separate_chaining_set, null_value_bucket, value_dummy_manager"]}
{"id": "C35", "title": "swap exchanges two tables; destroying both frees every block once", "statement": "After a.swap(b) the contents are exchanged, and destroying both tables afterwards releases every heap block exactly once.", "quantifier": "every pair of reachable tables", "why_tests_cant": "ownership over all states", "anchors": ["include/separate/separate_chaining_table.hpp: swap, ~separate_chaining_table, value_array_manager"]}
{"id": "C36", "title": "Moved-from tables are safe to destroy", "statement": "After move construction or move assignment of a table, destroying both objects releases every heap block exactly once.", "quantifier": "every reachable table state", "why_tests_cant": "ownership over all states; double frees are not always visible", "anchors": ["include/separate/separate_chaining_table.hpp: move constructor, move assignment, value_array_manager(value_array_manager&&)"]}
{"id": "C37", "title": "Map semantics over arbitrary histories (compact_chaining_map)", "statement": "The same statement as for separate_chaining_map, for the table that packs quotients and values of a bucket into one bit array.", "quantifier": "every finite sequence of operations, every key width 3..64, every value width 1..64, every bijective hash", "why_tests_cant": "unbounded histories; every insertion and erasure shifts values across bit borders", "anchors": ["include/separate/compact_chaining_map.hpp: find_or_insert, enlarge_storage, erase, value_at, write_value, locate, reserve"]}
{"id": "C38", "title": "Compact bucket layout: inserting and erasing move every other quotient and value unchanged", "statement": "In a compact bucket with quotients q_i and values v_i, enlarging by one entry and erasing one entry leave all remaining quotients and values readable and unchanged although the value area is shifted in place.", "quantifier": "every quotient width, value width, number of entries, position, block type, memory content", "why_tests_cant": "overlapping in-place moves with arbitrary widths", "anchors": ["include/separate/compact_chaining_map.hpp: enlarge_storage, erase, write_quotient, value_at"]}
{"id": "C39", "title": "select64 finds the i-th set bit", "statement": "select64(x, i) returns the position of the i-th set bit of x, for every 64-bit x and every i from 1 to the number of set bits.", "quantifier": "every 64-bit word x and every valid i", "why_tests_cant": "2^64 words; table and broadword constants", "anchors": ["include/separate/select.hpp: select64"]}
{"id": "C40", "title": "Group borders: bucket boundaries after arbitrary insertions and erasures", "statement": "The unary border bit vector of a group always encodes the sizes of its buckets: the begin of each bucket found through find_group_position equals the sum of the sizes of the preceding buckets, after any sequence of push_back and erase in any of its buckets.", "quantifier": "every number of buckets per group up to 254, every history", "why_tests_cant": "bit insertion and deletion across 64-bit words at all offsets", "anchors": ["include/separate/group_chaining.hpp: keyvalue_group::find_group_position, bucketsize, push_back, erase, initialize"]}
{"id": "C41", "title": "Packed group array: insert and erase", "statement": "core_group insert(i, x) and erase(i) on a packed array of fixed-width entries insert/remove exactly the entry at position i and keep all others in order, within the allocated blocks for all arrays built by initialize and insert.", "quantifier": "every entry width 1..64, every length, every position, every content", "why_tests_cant": "overlapping 64-bit chunk moves at unaligned offsets", "anchors": ["include/separate/group_chaining.hpp: core_group::insert, core_group::erase, core_group::find"]}
{"id": "C42", "title": "A group behaves like a list of buckets", "statement": "keyvalue_group behaves like a list of buckets of (quotient, value) pairs: push_back appends to one bucket, erase removes one pair, find locates the first match within one bucket, reads return the stored pairs; the other buckets are unaffected.", "quantifier": "every group size, widths, histories", "why_tests_cant": "unbounded histories; all buckets share one array", "anchors": ["include/separate/group_chaining.hpp: keyvalue_group"]}
{"id": "C43", "title": "Map semantics over arbitrary histories (group_chaining_table)", "statement": "The same statement as for separate_chaining_map, for the table that stores groups of buckets, including the change of the group size at the first rehash and nested rehashes.", "quantifier": "every finite sequence of operations, every key width 3..64", "why_tests_cant": "unbounded histories", "anchors": ["include/separate/group_chaining.hpp: group_chaining_table"]}
{"id": "C44", "title": "Backward iteration of the group table", "statement": "On a non-empty group_chaining_table, a loop from rbegin_nav() to rend_nav() visits the stored pairs.", "quantifier": "every reachable non-empty table state", "why_tests_cant": "a loop that visits nothing passes assertions placed inside the loop body", "anchors": ["include/separate/group_chaining.hpp: rbegin_nav"]}
{"id": "C45", "title": "Serialisation round trip (group table)", "statement": "deserialize applied to the bytes written by serialize of a non-empty group_chaining_table restores contents, size, bucket count, group size and widths and consumes exactly these bytes.", "quantifier": "every reachable non-empty table state", "why_tests_cant": "all states; byte-exact", "anchors": ["include/separate/group_chaining.hpp: serialize, deserialize"]}
{"id": "C46", "title": "Map semantics of bucket_table", "statement": "bucket_table with incremental growth behaves like a finite map under find_or_insert, operator[], find, count, erase, size, shrink_to_fit and clear as long as at most 2^32-1 elements are stored; with arbitrary_resize_bucket it does so as long as at most 255 elements are stored.", "quantifier": "every finite sequence of operations", "why_tests_cant": "unbounded histories", "anchors": ["include/separate/bucket_table.hpp: bucket_table"]}
{"id": "C47", "title": "bucket_table with arbitrary_resize_bucket has no capacity limit", "statement": "Inserting any number of elements into a bucket_table with arbitrary_resize_bucket is memory safe.", "quantifier": "every number of insertions", "why_tests_cant": "the overflow happens only past 255 elements and corrupts the heap silently", "anchors": ["include/separate/bucket_table.hpp: arbitrary_resize_bucket, find_or_insert", "include/separate/size.hpp: arbitrary_resize::resize"]}
{"id": "C48", "title": "keysplit_adapter routes each key to exactly one table that can hold it", "statement": "Every key of at most max_bits bits is routed to a slot smaller than the number of tables, and fits the key width of that table; the route depends only on the key.", "quantifier": "every key, every number of tables, every max_bits from 1 to 64", "why_tests_cant": "all widths and divisors", "anchors": ["include/separate/keysplit_adapter.hpp: keysplit_adapter"]}
{"id": "C49", "title": "keysplit_adapter has map semantics", "statement": "An adapter over correct tables behaves like one finite map under find, operator[], count, erase, size, shrink_to_fit and clear.", "quantifier": "every finite sequence of operations", "why_tests_cant": "unbounded histories", "anchors": ["include/separate/keysplit_adapter.hpp: find, operator[], erase, size, count, shrink_to_fit, clear"]}
{"id": "C50", "title": "Overflow tables store spilled elements like a map", "statement": "With map_overflow as overflow table, the hash table keeps map semantics over arbitrary histories (without serialisation and iteration).", "quantifier": "every finite sequence of operations, every behaviour of the underlying std::unordered_map bucket assignment", "why_tests_cant": "unbounded histories; spilling happens only in full buckets", "anchors": ["include/separate/overflow.hpp: map_overflow", "include/separate/separate_chaining_table.hpp: find_or_insert"]}
{"id": "C51", "title": "array_overflow erase removes the requested element", "statement": "array_overflow::erase(p) removes the p-th element and keeps the others.", "quantifier": "every content and position", "why_tests_cant": "all contents and positions", "anchors": ["include/separate/overflow.hpp: array_overflow::erase, find"]}
{"id": "C52", "title": "Forward iteration also visits spilled elements", "statement": "Iteration from begin() to end() visits the elements held in the overflow table.", "quantifier": "every reachable table state with a non-empty overflow table", "why_tests_cant": "depends on the bucket assignment inside the overflow map", "anchors": ["include/separate/iterator.hpp: operator++", "include/separate/overflow.hpp: map_overflow::first_position"]}
{"id": "C53", "title": "A navigator differs from end() exactly if it stands on a stored element", "statement": "For an arbitrary bucket index and position, the navigator (map, bucket, position) compares unequal to end() exactly if find(k) returns this navigator for some stored key k; dereferencing it then gives k and the value of k.", "quantifier": "every reachable table state, every bucket index and position (also outside of the table)", "why_tests_cant": "all states and all positions; off-by-one errors show up at the last position of a bucket only", "anchors": ["include/separate/iterator.hpp: invalid, operator==, key, value"]}
{"id": "C54", "title": "capacity() bounds size() also in deserialised tables", "statement": "capacity() is never less than size(), for tables built by operations and for tables read by deserialize.", "quantifier": "every table reachable through operations and serialisation, both resize strategies", "why_tests_cant": "all states; involves the bookkeeping of the resize strategy after deserialize", "anchors": ["include/separate/separate_chaining_table.hpp: capacity, deserialize", "include/separate/size.hpp: arbitrary_resize"]}
{"id": "C55", "title": "Single calls of compact_chaining_map, seen from outside", "statement": "In every reachable compact_chaining_map: find gives the value last stored; find_or_insert adds exactly the new pair or nothing; operator[] assignment and erase change one key only; reserve and shrink_to_fit keep the contents; clear gives a table that behaves like a new one; forward iteration visits every pair once, backward iteration in reverse order, draining from the back visits every pair and leaves the table empty; a navigator is valid exactly if it stands on an element.", "quantifier": "every reachable table state, every key and value, every key width 3..64, value width 1..64, storage type and hash", "why_tests_cant": "all states, keys and widths", "anchors": ["include/separate/compact_chaining_map.hpp: find, find_or_insert, operator[], erase, reserve, clear, rbegin_nav", "include/separate/iterator.hpp"]}
{"id": "C56", "title": "rbegin_nav of compact_chaining_map is defined on every table", "statement": "rbegin_nav() returns a navigator on every reachable compact_chaining_map; it equals rend_nav() if the table is empty.", "quantifier": "every reachable table state", "why_tests_cant": "all states; the fault is a read before the beginning of an array", "anchors": ["include/separate/compact_chaining_map.hpp: rbegin_nav"]}
{"id": "C57", "title": "compact_chaining_map uses exactly the blocks its entries need", "statement": "In every reachable table each bucket holds at most 255 entries in ceil(n*(quotient width + value width)/block size) blocks, empty buckets have none, and the bucket sizes sum up to size().", "quantifier": "every reachable table state, every widths, storage type and hash", "why_tests_cant": "space bound over all states", "anchors": ["include/separate/compact_chaining_map.hpp: realloc_bucket, enlarge_storage, erase, clear"]}
{"id": "C58", "title": "Calls on a deserialised group_chaining_table access allocated memory only", "statement": "erase(key) on a group_chaining_table that was read by deserialize does not read or write outside of the arrays of its groups and removes exactly the key.", "quantifier": "every group_chaining_table reachable through calls and serialisation, every key", "why_tests_cant": "all states; the access behind the end of a heap array has no visible effect in most runs", "anchors": ["include/separate/group_chaining.hpp: core_group::erase, core_group::deserialize, keyvalue_group::deserialize"]}
{"id": "C59", "title": "array_overflow finds exactly the stored keys", "statement": "array_overflow::find(key) returns the position of key if it is stored, and -1 otherwise.", "quantifier": "every reachable array_overflow, every key", "why_tests_cant": "depends on the contents of memory that was never written and on erased entries", "anchors": ["include/separate/overflow.hpp: array_overflow::find, array_overflow, erase"]}
{"id": "C60", "title": "Iteration over bucket_table", "statement": "In every reachable bucket_table forward iteration visits every stored pair exactly once; iteration from rbegin_nav visits them in reverse order, also for the empty table; after shrink_to_fit a non-empty table has capacity equal to its number of elements and the same contents.", "quantifier": "every reachable bucket_table within its element limit", "why_tests_cant": "all states and histories", "anchors": ["include/separate/bucket_table.hpp: begin, end, rbegin_nav, rend_nav, shrink_to_fit, capacity", "include/separate/iterator.hpp"]}
{"id": "C61", "title": "No memory is lost", "statement": "After any calls on tables (insertion, erasure, reserve, shrink_to_fit, clear, deserialize, swap, moves), destroying all tables releases every heap block that was allocated.", "quantifier": "every program over tables, every bucket class and resize strategy", "why_tests_cant": "leaks depend on combinations of calls; memory checkers see only the executed ones", "anchors": ["include/separate/separate_chaining_table.hpp: clear, clear_structure, reserve, find_or_insert, value_array_manager::resize, ~separate_chaining_table"]}
{"id": "C62", "title": "A table that was read from a stream can be used and destroyed", "statement": "After deserialize every call on the table and its destruction release each heap block with the function that belongs to its allocation.", "quantifier": "every table image, every bucket class", "why_tests_cant": "mismatched release functions usually go unnoticed", "anchors": ["include/separate/separate_chaining_table.hpp: deserialize", "include/separate/bucket.hpp: deserialize, initialize, clear, class_bucket"]}
{"id": "C63", "title": "compact_chaining_map releases every block once and with the right function", "statement": "After any program of creations, calls, swaps and move assignments on compact_chaining_maps, destroying all maps releases every heap block exactly once, with the function that belongs to its allocation.", "quantifier": "every program over maps, every hash, width, storage type and both behaviours of realloc(p, 0)", "why_tests_cant": "a mismatched release function has no visible effect with most allocators; leaks depend on combinations of calls", "anchors": ["include/separate/compact_chaining_map.hpp: clear, clear_structure, reserve, realloc_bucket, operator=, ~compact_chaining_map"]}
{"id": "C64", "title": "Backward iteration with an overflow table", "statement": "In a separate_chaining_map whose overflow table is in use, iterating from rbegin_nav() to rend_nav() with -- visits every stored pair exactly once.", "quantifier": "every history, every std::unordered_map implementation", "why_tests_cant": "depends on which buckets the implementation of std::unordered_map chooses", "anchors": ["include/separate/separate_chaining_table.hpp: rbegin_nav", "include/separate/iterator.hpp: operator--", "include/separate/overflow.hpp: map_overflow::previous_position"]}
{"id": "C65", "title": "clear() of a table with an overflow table", "statement": "After clear(), a table with an overflow table has size 0 and behaves like a new table for every further sequence of calls.", "quantifier": "every history before and after clear()", "why_tests_cant": "all pairs of histories; the fault appears only when a bucket becomes full a second time", "anchors": ["include/separate/separate_chaining_table.hpp: clear, clear_structure", "include/separate/overflow.hpp: array_overflow::clear, map_overflow::clear"]}
{"id": "C66", "title": "Navigators are bidirectional", "statement": "Starting from begin_nav(), any sequence of ++ and -- that stays within the elements and the position behind the last one leads to the element at the corresponding index of the forward order, or to a navigator that equals end_nav(); two such navigators are equal exactly if they are at the same index.", "quantifier": "every reachable separate_chaining_map, compact_chaining_map and group_chaining_table without overflow table, every sequence of steps", "why_tests_cant": "all tables and all walks", "anchors": ["include/separate/iterator.hpp: separate_chaining_navigator::operator++, operator--, operator==, invalid", "include/separate/separate_chaining_table.hpp: begin_nav, end_nav"]}
{"id": "C67", "title": "The pair behind an iterator", "statement": "After any sequence of ++ and -- from begin() on that stays within the elements, *it is the key and the value of the element at which the iterator is; a range-based for loop sees every pair exactly once; *find(k) is k with its value.", "quantifier": "every reachable table without overflow table, every sequence of steps", "why_tests_cant": "all tables and all walks; the iterator keeps a copy of the pair", "anchors": ["include/separate/iterator.hpp: separate_chaining_iterator", "include/separate/separate_chaining_table.hpp: begin, find"]}
{"id": "C68", "title": "Stepping back from the end", "statement": "In every table that is not empty, -- on end_nav() leads to the last element.", "quantifier": "every reachable table without overflow table", "why_tests_cant": "all tables; the access is far out of bounds", "anchors": ["include/separate/iterator.hpp: operator--", "include/separate/separate_chaining_table.hpp: end_nav"]}
{"id": "C69", "title": "Every block of a group_chaining_table is released exactly once", "statement": "Programs create group_chaining_tables and insert, find, erase, clear, reserve, deserialise, swap, move-assign and destroy them in any order; tables that were moved from may be used again. No such program reads or writes through a null or dangling pointer, releases a block twice or with the wrong function; a table that was move-assigned from is an empty table; when all tables are destroyed, every block (arrays of groups, keys, values and borders of every group) has been released. False as stated: reserve(1) allocates an array of groups but leaves m_buckets = 0, so that the next insertion or reserve overwrites the pointer and the array is lost.", "quantifier": "for every program (any number of tables and statements), hash function, quotient and value width, word size and limit of the group size up to 255, keys of at least three bits", "why_tests_cant": "leaks and dangling pointers depend on the history of calls, in particular rehashing in the middle of an insertion and moves between tables; tests see them only under a sanitizer and only for the histories they run", "anchors": ["include/separate/group_chaining.hpp: core_group, keyvalue_group, group_chaining_table (memory management)"]}
{"id": "C70", "title": "Every SEPARATE_MAX_BUCKET_SIZE from 1 to 255 leaves quotients with at least one bit", "statement": "The README allows SEPARATE_MAX_BUCKET_SIZE to be any value from 1 to 255. In every table with buckets, remainder_width is at least 1 and at most key_width() (as asserted before each access to a bucket), and with a bijective hash function it is key_width() - log2(bucket_count()). False for the value 1: five insertions of 3-bit keys lead to eight buckets and quotients of width 0.", "quantifier": "for every history of calls, hash function, bucket type, resize strategy and value 2..255; the value 1 is refuted", "why_tests_cant": "depends on how far collisions make the table grow; the assertion is compiled out in release builds", "anchors": ["include/separate/separate_chaining_table.hpp: max_bucket_size, find_or_insert, locate", "README.md: SEPARATE_MAX_BUCKET_SIZE"]}
{"id": "C71", "title": "max_key() and max_value() are the limits of what can be stored", "statement": "max_key() = 2^key_width() - 1 and max_value() = 2^value_width() - 1 in every reachable table; for each k <= max_key() and v <= max_value(), m[k] = v stores exactly this pair and changes nothing else. The limits are tight: in a compact map max_value() + 1 is stored as 0, and there are tables in which max_key() + 1 is stored as another key.", "quantifier": "for every history, all three table classes, every key and value up to the limits", "why_tests_cant": "all tables, keys and values", "anchors": ["include/separate/separate_chaining_table.hpp: max_key, max_value", "include/separate/compact_chaining_map.hpp: max_key, max_value", "include/separate/group_chaining.hpp: max_key, max_value"]}
{"id": "C72", "title": "max_size() of compact_chaining_map and capacity() of group_chaining_table bound the size", "statement": "In every reachable compact_chaining_map, size() <= max_size(); in every reachable group_chaining_table no group holds more than 255 entries, the sizes of the groups add up to size(), and size() <= capacity() = max_size(). Tables with more than 2^56 buckets are excluded (the 64-bit products can wrap).", "quantifier": "for every history of calls, hash function, key width and value width", "why_tests_cant": "invariant over all histories", "anchors": ["include/separate/compact_chaining_map.hpp: max_size, max_bucket_size", "include/separate/group_chaining.hpp: capacity, max_size, group_count, max_group_size"]}
{"id": "C73", "title": "Keeping, erasing and overwriting elements in a backward loop", "statement": "A loop for(nav = rbegin_nav(); nav != rend_nav(); --nav) over a table that is not empty, or the same loop from find(key) on, whose body for each element either does nothing, calls erase(nav) or assigns nav = x, visits every element from its start to the first one exactly once, with its old value, and terminates; afterwards the table holds exactly the elements that were kept, with the values assigned, in the old order, and answers every further call accordingly. (The README recommends this loop for erasing.)", "quantifier": "every reachable separate_chaining_map and compact_chaining_map without overflow table, every reachable group_chaining_table (from find(key)), every choice of the action depending on key and value", "why_tests_cant": "all tables and all 3^n combinations of actions; erasing changes positions and may release the bucket the navigator is in", "anchors": ["include/separate/iterator.hpp: separate_chaining_navigator::operator--, operator=", "include/separate/separate_chaining_table.hpp: erase(navigator), write_value, rbegin_nav, rend_nav", "README.md: iterating and erasing"]}
{"id": "C74", "title": "Overwriting elements in a forward loop", "statement": "A loop for(nav = begin_nav(); nav != end_nav(); ++nav) nav = f(nav.key(), nav.value()); visits every element exactly once, with its old value, and terminates; afterwards every key has its new value, reduced to what the table can store, and nothing else changed; every further call answers accordingly.", "quantifier": "every reachable separate_chaining_map, compact_chaining_map and group_chaining_table without overflow table, every function f", "why_tests_cant": "all tables and all functions", "anchors": ["include/separate/iterator.hpp: separate_chaining_navigator::operator++, operator=", "include/separate/separate_chaining_table.hpp: write_value, begin_nav, end_nav", "include/separate/compact_chaining_map.hpp: write_value", "include/separate/group_chaining.hpp: write_value"]}
{"id": "C75", "title": "Several bucket_tables are independent finite maps", "statement": "Programs construct bucket_tables, call their functions, swap them, move-assign them (also x.swap(x) and x = std::move(x)) and destroy them in any order. All answers are those of independent finite maps: swap exchanges the contents, move assignment hands them over and leaves an empty table that can be used like a new one (moving a table to itself empties it). No program has a memory fault, and destroying the tables that are left leaves no block.", "quantifier": "every program with any number of tables and statements; plain, class, avx2 and varwidth buckets; both resize strategies, up to 2^32-1 resp. 255 elements", "why_tests_cant": "all programs; double releases and contents shared between tables appear only for particular sequences of swaps, moves and calls", "anchors": ["include/separate/bucket_table.hpp: bucket_table (all functions, swap, operator=, ~bucket_table)", "include/separate/bucket.hpp: move constructors and move assignments, initialize, resize, clear"]}
{"id": "C76", "title": "A bucket_table holds two blocks exactly while it has elements", "statement": "After every program, each table that has elements owns exactly two blocks (keys and values), each table without elements owns none, and there are no other blocks: erase of the last element, clear and moves release the memory.", "quantifier": "every program with any number of tables and statements", "why_tests_cant": "all programs; needs the exact set of blocks of the heap in every state", "anchors": ["include/separate/bucket_table.hpp: find_or_insert, erase, clear, shrink_to_fit, operator=, swap"]}
{"id": "C77", "title": "In a debug build no assertion fails during valid calls", "statement": "A separate_chaining_map or separate_chaining_set compiled without NDEBUG (so that every DDCHECK/DCHECK is executed and the debug members m_plainkeys, m_length, m_size, m_buckets are maintained) runs every sequence of valid calls on a new table without a failing assertion, and gives the answers of a finite map, as the release build does. The same holds for the constructor, for traversing the resulting table forwards, backwards, and backwards with erasing, and for comparing and reading navigators. Valid means: keys at most max_key(), values at most max_value(), and with arbitrary_resize no reserve(1).", "quantifier": "every history of valid calls; plain, class, avx2 and varwidth key buckets; plain, class, varwidth and null value buckets; all three hash mappings, both resize strategies, every SEPARATE_MAX_BUCKET_SIZE from 2 to 255, all supported key and value widths, any initial content of the uninitialised debug members", "why_tests_cant": "all histories; an assertion that is too strong or a debug copy that is not kept in step fails only for particular sequences of insertions, erasures and rehashes", "anchors": ["include/separate/dcheck.hpp: DDCHECK", "include/separate/separate_chaining_table.hpp: m_plainkeys, locate, find_or_insert, erase, shrink_to_fit, reserve, write_value", "include/separate/bucket.hpp: DDCHECKs", "include/separate/bijective_hash.hpp: DDCHECKs", "include/separate/hash.hpp: bijective_hash_adapter", "include/separate/size.hpp: arbitrary_resize", "include/separate/iterator.hpp: DDCHECKs"]}
{"id": "C78", "title": "A debug build rejects reserve(1), values above max_value() and keys above max_key()", "statement": "With arbitrary_resize a debug build throws at the first insertion after reserve(1) (the assertion in allocate fails), although the same calls are fine in a release build. After every valid history, assigning a value with more than value_width() bits throws; with a bijective hash function inserting a key above max_key() throws.", "quantifier": "every bucket class, hash mapping, key and value; every valid history", "why_tests_cant": "all tables, keys and values", "anchors": ["include/separate/size.hpp: arbitrary_resize::allocate", "include/separate/separate_chaining_table.hpp: reserve, write_value, find_or_insert", "include/separate/bijective_hash.hpp: Xorshift::hash, MultiplicativeHash::hash"]}
{"id": "C79", "title": "In a debug build of compact_chaining_map no assertion fails during valid calls", "statement": "A compact_chaining_map compiled without NDEBUG (so that every DDCHECK/DCHECK is executed, the copies m_plainkeys, m_plainvalues, m_large_storage and m_storagesizes are maintained, and the whole bucket is compared with its copies in every insertion and erasure) runs every sequence of valid calls on a new map without a failing assertion, without a memory fault in the copies, and gives the answers of a finite map, as the release build does. The same holds for the constructor, for traversing the resulting map forwards, backwards, and backwards with erasing, and for comparing and reading navigators. Valid means: keys at most max_key(), values at most max_value().", "quantifier": "every history of valid calls; every storage type and content of fresh memory, all three hash mappings, all supported key and value widths, key_type of 8, 16, 32 or 64 bits", "why_tests_cant": "all histories; the three copies and the bit-packed storage move their entries in different ways when a bucket grows, shrinks or is rehashed, and a mistake in one of them shows only for particular widths and histories", "anchors": ["include/separate/compact_chaining_map.hpp: DDCHECKs, m_plainkeys, m_plainvalues, m_large_storage, m_storagesizes, quotient_at, value_at, write_quotient, write_value, realloc_bucket, enlarge_storage, locate, find_or_insert, erase, reserve", "include/separate/dcheck.hpp: DDCHECK"]}
{"id": "C80", "title": "A debug build of compact_chaining_map reports values above max_value() and keys above max_key()", "statement": "After every valid history: inserting a new key with a value of more than value_width() bits throws (also if the insertion has to enlarge the map first); with a bijective hash function inserting a key above max_key() throws. Assigning such a value to an entry by operator[] does not throw, but the next read of the entry does.", "quantifier": "every valid history, storage type, hash mapping, key and value below 2^64", "why_tests_cant": "all histories, keys and values", "anchors": ["include/separate/compact_chaining_map.hpp: find_or_insert, value_at, write_value", "include/separate/bijective_hash.hpp: Xorshift::hash, MultiplicativeHash::hash"]}
{"id": "C81", "title": "In a debug build of group_chaining_table no assertion fails during valid calls", "statement": "A group_chaining_table compiled without NDEBUG (so that every DDCHECK/DCHECK is executed, every core_group keeps the copy m_plaindata, every group the copy m_groupsizes of the bucket ends, and the table the copies m_plainkeys, m_plainvalues and m_bucketsizes) runs every sequence of valid calls on a new table without a failing assertion, without a memory fault in the copies, and gives the answers of a finite map, as the release build does. The same holds for the constructor, for traversing the resulting table forwards, backwards, and backwards with erasing, and for comparing and reading navigators. Valid means: keys at most max_key(), values at most max_value().", "quantifier": "every history of valid calls; every content of fresh memory and version of select64, all three hash mappings, all supported key and value widths", "why_tests_cant": "all histories; the unary border, the bit-packed arrays of a group and five kinds of copies are shifted in different ways by every insertion and erasure, and a mistake in one of them shows only for particular positions, widths and histories", "anchors": ["include/separate/group_chaining.hpp: DDCHECKs, core_group, keyvalue_group, m_plaindata, m_groupsizes, m_plainkeys, m_plainvalues, m_bucketsizes, locate, find_or_insert, erase, clear_group, reserve", "include/separate/dcheck.hpp: DDCHECK"]}
{"id": "C82", "title": "A debug build of group_chaining_table reports values above max_value() and keys above max_key()", "statement": "After every valid history: inserting a new key with a value of more than value_width() bits throws (also if the insertion has to enlarge the table first); assigning such a value by operator[] throws; with a bijective hash function inserting a key above max_key() throws.", "quantifier": "every valid history, hash mapping, key and value", "why_tests_cant": "all histories, keys and values", "anchors": ["include/separate/group_chaining.hpp: find_or_insert, read_value, write_value, push_back", "include/separate/bijective_hash.hpp: Xorshift::hash, MultiplicativeHash::hash"]}
{"id": "C83", "title": "In a debug build of bucket_table no assertion fails during valid calls", "statement": "A bucket_table compiled without NDEBUG (so that every DCHECK is executed and the copy m_plainkeys of the keys is maintained) runs the constructor and every sequence of calls with keys up to max_key() without a failing assertion, without a memory fault in the copy, and gives the answers of a finite map, as long as there are at most 2^32-1 elements (incremental_resize) or 255 elements (arbitrary_resize_bucket). The same holds for forward iteration, for iteration from rbegin_nav(), and for shrink_to_fit().", "quantifier": "every history of valid calls; every class of key and value buckets, key width and resize strategy", "why_tests_cant": "all histories; the assertions compare the copy with the bucket entry by entry in every search", "anchors": ["include/separate/bucket_table.hpp: DCHECKs, m_plainkeys, locate, find_or_insert, erase, clear, shrink_to_fit, bucket_table_navigator, bucket_table_iterator", "include/separate/bucket.hpp: DDCHECKs"]}
{"id": "C84", "title": "A debug build of bucket_table reports the 256th element, keys above max_key() and key widths above that of key_type", "statement": "After every valid history: with arbitrary_resize_bucket and 255 elements the insertion of another key makes an assertion fail before anything is written, for every class of buckets (where the release build writes behind the end of the bucket); inserting, accessing or assigning a key above max_key() makes an assertion fail; constructing a table with a key width above the number of bits of key_type does so.", "quantifier": "every valid history, key, value and class of buckets", "why_tests_cant": "all histories, keys and values", "anchors": ["include/separate/bucket_table.hpp: bucket_table, arbitrary_resize_bucket, find_or_insert, operator[]"]}
{"id": "C85", "title": "operator[] of a constant bucket_table gives the value of a present key and never invents one for an absent key", "statement": "After every valid history and for every key up to max_key(): operator[] const returns the value of the key in the finite map if the key is present. If it is absent, a debug build fails an assertion, and a release build reads outside of the array of values (through a null pointer if the table is empty), that is, it faults; it never returns a value.", "quantifier": "every valid history, key, class of buckets and resize strategy, both builds", "why_tests_cant": "all histories and keys; the undefined behaviour for absent keys may go unnoticed in a run", "anchors": ["include/separate/bucket_table.hpp: operator[] const, locate"]}
{"id": "C86", "title": "Swapping and moving tables carries their contents; tables do not influence each other", "statement": "Every program with any number of tables of one class, of any key and value widths, that constructs them, calls their functions, swaps them, move-constructs and move-assigns them (also to themselves), and does not call functions of tables that were moved from, gets the answers it would get if each table were a finite map with value semantics. (A table that was moved from must not be used: size() answers the old number, find dereferences null.)", "quantifier": "every finite program, any number of tables, all widths, all three table classes", "why_tests_cant": "interleavings of calls on several tables with swaps and moves are unbounded; a member forgotten in a swap shows up only with different widths or sizes", "anchors": ["include/separate/separate_chaining_table.hpp: swap, operator=, move constructor", "include/separate/compact_chaining_map.hpp: swap, operator=, move constructor", "include/separate/group_chaining.hpp: swap, operator="]}
{"id": "C87", "title": "With incremental_resize each bucket takes exactly as much memory as needed (README)", "statement": "With incremental_resize and without erasures, after every valid history the blocks of every bucket have exactly the size needed for its entries: n cells for plain_bucket, class_bucket and avx2_bucket, the least number of words for varwidth_bucket; empty buckets have no blocks.", "quantifier": "every valid history without erase, every bucket class, hash function and width", "why_tests_cant": "tests observe contents, not the sizes of the blocks; all histories and widths", "anchors": ["README.md: incremental_resize", "include/separate/size.hpp: incremental_resize", "include/separate/separate_chaining_table.hpp: find_or_insert", "include/separate/bucket.hpp: initialize, resize"]}
{"id": "C88", "title": "shrink_to_fit releases the memory that erase keeps (README)", "statement": "After every valid history followed by shrink_to_fit(), the blocks of every bucket have exactly the size needed for its entries, and empty buckets have no blocks.", "quantifier": "every valid history, both resize strategies, every bucket class, hash function and width", "why_tests_cant": "tests observe contents, not the sizes of the blocks; all histories", "anchors": ["README.md: Caveats", "include/separate/separate_chaining_table.hpp: shrink_to_fit, erase", "include/separate/bucket.hpp: resize"]}
{"id": "C89", "title": "size_in_bytes() is the number of bytes the hash table uses", "statement": "After every valid history, size_in_bytes() of separate_chaining_table is the number of bytes of its members, its arrays of buckets, sizes and capacities, and the blocks of its buckets.", "quantifier": "every valid history, bucket class, strategy, hash function and width, if the table fits into memory", "why_tests_cant": "all histories; the result is not compared with the allocator in tests", "anchors": ["include/separate/separate_chaining_table.hpp: size_in_bytes"]}
{"id": "C90", "title": "Without erasures at most half of the memory of a bucket is unused", "statement": "Without erasures, after every valid history the blocks of every bucket have at most twice the size needed for its entries (plain_bucket, class_bucket, avx2_bucket; arbitrary_resize and incremental_resize).", "quantifier": "every valid history without erase, both resize strategies, hash function and width", "why_tests_cant": "tests observe contents, not the sizes of the blocks; all histories", "anchors": ["include/separate/size.hpp: arbitrary_resize", "include/separate/separate_chaining_table.hpp: find_or_insert"]}
{"id": "C91", "title": "A navigator stays on its element while the number of buckets is the same", "statement": "A navigator obtained from find(k) still is what find(k) gives, and still reads k and its value, after any number of lookups, insertions, assignments and shrink_to_fit() that leave bucket_count() the same, and after a reserve(n) that rounds to the present bucket_count(). When another element is erased, it has to be decreased by one position exactly if that element is in front of it in the same bucket. (An insertion that enlarges the table moves elements to other buckets.)", "quantifier": "every valid history before, every finite sequence of calls after, all three table classes", "why_tests_cant": "all histories, keys, hash functions; navigators that outlive calls are not tested, and whether an insertion enlarges the table depends on the collisions", "anchors": ["include/separate/iterator.hpp: separate_chaining_navigator", "include/separate/separate_chaining_table.hpp: find, find_or_insert, erase, reserve", "include/separate/compact_chaining_map.hpp: find_or_insert, erase", "include/separate/group_chaining.hpp: find_or_insert, erase, reserve"]}
{"id": "C92", "title": "The format of the files that serialize writes", "statement": "After every valid history, serialize of separate_chaining_table writes exactly: key width, value width, log of the number of buckets (one byte each), the number of elements (8 bytes), the size of every bucket (one byte each) and for every non-empty bucket the quotients of its keys and then its values, little endian, packed as the bucket classes do; the concatenation of the buckets is the sequence of iteration. Without bit packing the file has 11 + bucket_count() + size() * (key bytes + value bytes) bytes. group_chaining_table writes the header, the number of buckets per group, and for each group its size, its bucket sizes in unary, its quotients and values.", "quantifier": "every valid history (with files read in between), bucket class, hash function, width and growth strategy", "why_tests_cant": "round-trip tests do not see the format; files of older versions become unreadable without a test failing", "anchors": ["include/separate/separate_chaining_table.hpp: serialize", "include/separate/bucket.hpp: serialize", "include/separate/group_chaining.hpp: serialize"]}
{"id": "C93", "title": "Equal calls give equal files", "statement": "The bytes that serialize writes depend only on the calls made on the table, not on the contents of uninitialised memory; two tables with the same number of buckets and the same sequence of pairs write the same bytes.", "quantifier": "every valid history, contents of fresh memory, bucket class, hash function and width", "why_tests_cant": "depends on the contents of fresh memory, which is mostly zero in tests", "anchors": ["include/separate/bucket.hpp: varwidth_bucket::serialize, initialize, resize", "include/separate/group_chaining.hpp: core_group::insert, deserialize, serialize", "include/separate/separate_chaining_table.hpp: serialize"]}
{"id": "C94", "title": "Files of the right format are read correctly, whoever wrote them", "statement": "deserialize of separate_chaining_table, given any file of the format of serialize (whatever its padding bits are) with distinct keys, a number of buckets that is possible for the hash function and no bucket larger than SEPARATE_MAX_BUCKET_SIZE of the reader, gives a table with exactly the pairs of the file in the order of the file, which afterwards behaves like the finite map of these pairs; so a file can be read by a program with another growth strategy, with avx2_bucket in place of plain_bucket, or with a larger SEPARATE_MAX_BUCKET_SIZE. The limit on the bucket size is necessary: find_or_insert compares the size of the bucket with == only.", "quantifier": "every file of the format, every table read into, every history afterwards, bucket class, hash function, width", "why_tests_cant": "tests read only files that the same program has just written", "anchors": ["include/separate/separate_chaining_table.hpp: deserialize, find_or_insert", "include/separate/bucket.hpp: deserialize"]}
{"id": "C95", "title": "A debug build reads back its own files", "statement": "In a debug build, serialize of separate_chaining_table fails no assertion after any valid history, and deserialize of the bytes written, into any table and with anything following in the stream, fails no assertion either (bucket count, every plain key, number of elements), consumes exactly the bytes written and gives a table with the same contents, bucket count and widths that behaves like the same finite map afterwards.", "quantifier": "every valid history (with files read in between), every table read into, every history afterwards, bucket class, hash function, width and growth strategy", "why_tests_cant": "the debug members and plain keys in the file are only written and checked in debug builds; all histories and hash functions", "anchors": ["include/separate/separate_chaining_table.hpp: serialize, deserialize (under !NDEBUG)", "include/separate/bucket.hpp: serialize, deserialize (under !NDEBUG)", "include/separate/size.hpp: arbitrary_resize::allocate"]}
{"id": "C96", "title": "Files of debug and release builds are not interchangeable", "statement": "If a debug build has written a non-empty separate_chaining_table, a release build with the same template arguments that reads the file stops before its end, so that whatever follows in the stream is misread. If a release build has written a non-empty table, a debug build with the same template arguments that reads the file fails or consumes bytes behind its end; if nothing follows it fails.", "quantifier": "every valid history (with files read in between), every table read into, everything that follows in the stream, bucket class, hash function, width and growth strategy", "why_tests_cant": "tests write and read files with the same build; a statement about two builds of the program", "anchors": ["include/separate/separate_chaining_table.hpp: serialize, deserialize (under !NDEBUG)", "include/separate/bucket.hpp: serialize, deserialize (under !NDEBUG)"]}
{"id": "C97", "title": "An array_overflow read from a file can replace the one written", "statement": "array_overflow::deserialize of the bytes of serialize consumes exactly these bytes and gives an overflow table with the same pairs at the same positions on which find, insert (while size() < capacity()), need_consult and assignments behave as on the original.", "quantifier": "every history of the overflow table, every object read into, everything that follows in the stream, all keys and values, 8 to 64-bit types", "why_tests_cant": "serialisation of overflow tables is not tested; accesses behind a block usually go unnoticed", "anchors": ["include/separate/overflow.hpp: array_overflow::serialize, deserialize, insert, find, need_consult"]}
{"id": "C98", "title": "A group table that has not read a file writes the same bytes in every environment", "statement": "After the same sequence of calls two group_chaining_tables write the same bytes, whatever uninitialised memory contains and whether or not the program is compiled with BMI2 instructions, as long as neither of them has read a file.", "quantifier": "all valid sequences of calls of any length, all hash functions, key widths and value widths, all contents of uninitialised memory, with and without BMI2", "why_tests_cant": "needs a comparison of runs on all possible contents of uninitialised memory; the padding bits do not influence any answer", "anchors": ["include/separate/group_chaining.hpp: core_group, keyvalue_group, group_chaining_table::serialize", "include/separate/select.hpp: select64"]}
{"id": "C99", "title": "Group tables read every file of the right format, whoever wrote it", "statement": "deserialize of group_chaining_table, given any file of the format of serialize (whatever its padding bits are) with distinct keys, at most 255 entries in a group, at most 64 buckets in a group and a number of buckets that is possible for the hash function, into any table and with anything following in the stream, consumes exactly the bytes of the file and gives a table with exactly the pairs of the file in the order of the file, which afterwards behaves like the finite map of these pairs (erasures included unless reading behind the end of an array is a fault). So a file can be read by a program compiled with other instructions or with other contents of uninitialised memory.", "quantifier": "every file of the format, every table read into, everything that follows in the stream, every history afterwards, hash function and width", "why_tests_cant": "tests read only files that the same program has just written; the padding bits are zero there", "anchors": ["include/separate/group_chaining.hpp: group_chaining_table::deserialize, keyvalue_group::deserialize, core_group::deserialize", "include/separate/select.hpp: select64"]}
{"id": "C100", "title": "A debug build of the group table reads back its own files", "statement": "In a debug build, serialize of group_chaining_table fails no assertion after any valid history, and deserialize of the bytes written, into any table and with anything following in the stream, fails no assertion either (widths, lengths and plain copies of the packed arrays, sizes of all buckets, all plain keys and values, number of elements), consumes exactly the bytes written and gives a table with the same contents, size, group size and widths (and bucket count if there are entries). Afterwards no assertion fails in further lookups, insertions, assignments and enlargements, and the table behaves like the same finite map; erasures are included if reading one word behind a packed array is harmless.", "quantifier": "every valid history (with files read in between), every table read into, every history afterwards, hash function, width, contents of uninitialised memory, with and without BMI2", "why_tests_cant": "the debug members in the file are only written and checked in debug builds; uninitialised members are written; all histories and hash functions", "anchors": ["include/separate/group_chaining.hpp: core_group, keyvalue_group, group_chaining_table: serialize, deserialize (under !NDEBUG)"]}
{"id": "C101", "title": "Files of debug and release builds of the group table are not interchangeable", "statement": "If a release build has written a non-empty group_chaining_table, a debug build that reads the file fails or consumes bytes behind its end; if nothing follows it fails (unless quotients and values both have 64 bits, where nothing is claimed). A release build cannot read every file of a debug build. Files of tables without entries are interchangeable in both directions.", "quantifier": "every valid history (with files read in between), every table read into, everything that follows in the stream, hash function and width", "why_tests_cant": "tests write and read files with the same build; a statement about two builds of the program", "anchors": ["include/separate/group_chaining.hpp: group_chaining_table::serialize, deserialize, keyvalue_group::serialize, deserialize (under !NDEBUG)"]}
{"id": "C102", "title": "operator[] of the compact map gives an object that works like a reference", "statement": "For every table and key k < 2^key_width, map[k] of compact_chaining_map succeeds, adds (k, 0) if k is missing and changes nothing else. The value_wrapper that it returns reads, compares and assigns the value of k: reading gives what find(k) finds, comparing compares that number, assigning v stores v mod 2^value_width under k, leaves all other keys, the size and the bucket count alone and has exactly the effect of map[k] = v. All this still holds after any further calls that erase nothing and are no clear or reserve, as long as the bucket count is the same in the end. After an erasure of another key it fails: the object can stand for the value of a different key.", "quantifier": "every valid history before, every key, every sequence of further calls of any length, every value assigned, hash function, width and storage type", "why_tests_cant": "the wrapper keeps a position of 8 bits and is used at any later time; all histories before and after", "anchors": ["include/separate/compact_chaining_map.hpp: value_wrapper, operator[], value_at, write_value"]}
{"id": "C103", "title": "Adapters own their tables and copies of adapters are independent", "statement": "Any number of keysplit_adapter objects, constructed, copied, assigned, swapped, used and destroyed in any order, answer like independent finite maps (a copy has the contents of the original at the time of copying); no deleted table is used or deleted again; when all adapters are destroyed each table has been deleted exactly once. (False: the generated copy functions copy the pointers. Whenever an adapter is copied or moved from, destroying both deletes every table twice, and an assignment through the copy changes the original; after std::swap the second adapter has only deleted tables.)", "quantifier": "every program with any number of adapters, every class of tables that behave like finite maps (the three tables of the library included), number of tables and key width", "why_tests_cant": "tests construct one adapter and never copy it; programs of any length", "anchors": ["include/separate/keysplit_adapter.hpp: m_maps, keysplit_adapter(), ~keysplit_adapter(), implicit copy constructor and copy assignment"]}
{"id": "C104", "title": "Truncated files are always noticed", "statement": "If a file written by serialize of separate_chaining_table, group_chaining_table (release and debug builds) or array_overflow, or any other file of the format of the two tables, is cut off anywhere, then a read of deserialize hits the end of the stream, whatever object is read into; so testing the stream after deserialize tells whether the file was complete. No file is the beginning of the file of another table (with the same bucket classes and hash function, but any widths and contents).", "quantifier": "every valid history (with files read in between), every file of the format, every number of bytes cut off, every object read into, hash function and width", "why_tests_cant": "a file can be cut off at any of its bytes, and every read takes lengths from bytes read before; tests read only complete files", "anchors": ["include/separate/separate_chaining_table.hpp: deserialize", "include/separate/group_chaining.hpp: deserialize of core_group, keyvalue_group, group_chaining_table", "include/separate/bucket.hpp: deserialize", "include/separate/overflow.hpp: array_overflow::deserialize"]}
{"id": "C105", "title": "Erasing elements in a forward loop", "statement": "erase(nav) leaves the navigator on the place of the erased element. A loop from begin_nav() to end_nav() whose body keeps, erases or overwrites the current element does the following, depending on how it goes on after an erasure: if it does ++nav only when nav has become equal to end_nav(), it visits every element exactly once and leaves exactly what its body leaves; if it always does ++nav, it skips, after each erasure, exactly the next element if that is in the same bucket; if it never does ++nav after an erasure, it ends as soon as the last element of a bucket is erased and leaves all later buckets alone. Elements are erased or overwritten only if the body asks for it, no access leaves a bucket, and afterwards the table behaves like the finite map of what is left.", "quantifier": "every valid history before, every loop body that is a function of key and value, every history afterwards, hash function, width, storage type, the three tables", "why_tests_cant": "depends on how the elements are distributed over buckets; the existing tests erase in loops from the back only", "anchors": ["include/separate/iterator.hpp: operator++, operator==, invalid", "include/separate/separate_chaining_table.hpp, compact_chaining_map.hpp, group_chaining.hpp: erase(navigator), begin_nav, end_nav"]}
{"id": "C106", "title": "A table with array_overflow behaves like a finite map", "statement": "Whatever sequence of calls is made on a new separate_chaining_table or group_chaining_table whose overflow table is array_overflow, no call fails and the answers are those of a finite map. (False: find compares the key with all 256 cells of an array that malloc has not initialised. On memory that holds zeros, key 0 is reported as absent after it has been inserted, as soon as another element is in the overflow table. Erasing one of two spilled elements removes the other one. True: if nothing is erased or cleared and no key in use is among the numbers that the fresh array happens to hold, the answers are those of a finite map, across all rehashes.)", "quantifier": "every history of any length, every content of fresh memory, hash function, width, bucket class, SEPARATE_MAX_BUCKET_SIZE and contents of resized bit vectors", "why_tests_cant": "depends on what uninitialised memory holds and on which elements spill; the test of the repository inserts and finds random keys and hardly ever reaches the array", "anchors": ["include/separate/overflow.hpp: array_overflow", "include/separate/separate_chaining_table.hpp, group_chaining.hpp: find_or_insert, find, reserve"]}
{"id": "C107", "title": "Debug builds of tables with map_overflow", "statement": "In a debug build of separate_chaining_map or group_chaining_table with map_overflow, every sequence of calls that are valid in a debug build runs without a failing assertion, also when elements spill into the overflow table, move back when the table grows, are overwritten or erased there; the answers are those of a finite map. This includes the assertions of map_overflow that each bucket of the std::unordered_map holds at most one element.", "quantifier": "every history of any length, every behaviour of std::unordered_map and the bit vector within their contracts, hash function, width, bucket class, SEPARATE_MAX_BUCKET_SIZE", "why_tests_cant": "which elements spill and where std::unordered_map puts them depends on the hash functions and the growth policy; tests see one implementation", "anchors": ["include/separate/overflow.hpp: map_overflow", "include/separate/separate_chaining_table.hpp, group_chaining.hpp: find_or_insert, erase, write_value, reserve"]}
{"id": "C108", "title": "A debug build with map_overflow reports values above max_value()", "statement": "In a debug build of separate_chaining_map with map_overflow, assigning a value with more than value_width() bits throws, after every valid history. (False: if the element is in the overflow table, the value is stored and found, and a later valid call of reserve throws when it moves the element into a bucket. True: the assignment throws, or the element is in the overflow table.)", "quantifier": "every valid history, key, value of more than value_width() bits, bucket class, hash function, behaviour of std::unordered_map", "why_tests_cant": "whether the assertion is executed depends on whether the element has spilled", "anchors": ["include/separate/separate_chaining_table.hpp: write_value, operator[], reserve", "include/separate/overflow.hpp: map_overflow::operator[]", "include/separate/bucket.hpp: varwidth_bucket::write"]}
{"id": "C109", "title": "A table with array_overflow survives being written to and read from a file", "statement": "If a separate_chaining_table whose overflow table is array_overflow is written by serialize and read by deserialize into another table, the table read answers every search as the one written. (False: array_overflow::deserialize allocates only as many entries as are stored, but find looks at 256. Unless the overflow table is empty or full, the search of every key that is not in it reads behind the end of the array, be the key stored in a bucket or absent. True: exactly the bytes written are consumed, widths, size(), bucket_count() and the pairs in the overflow table are the same, and each of these pairs is found; with an empty or a full overflow table every search is answered correctly.)", "quantifier": "every history for which such a table works (C106), every object read into, rest of the stream, hash function, width, bucket class, SEPARATE_MAX_BUCKET_SIZE, contents of fresh memory", "why_tests_cant": "reading behind the end of an array on the heap usually goes unnoticed; which elements spill depends on the hash function", "anchors": ["include/separate/overflow.hpp: array_overflow::deserialize, find", "include/separate/separate_chaining_table.hpp: serialize, deserialize, find"]}
{"id": "C110", "title": "Navigators and iterators in debug builds", "statement": "In a debug build, whatever sequence of ++ and -- is applied to begin_nav() or begin(): as long as the place is an element, a step leads to its neighbour in the order of the forward loop, or to a place that equals end_nav() if there is none; from such a place every step throws (a release build steps from behind the last element back to it); key() and value() of an element give its key and value. operator* and operator-> of an iterator throw exactly at the places that equal end(), and otherwise give the pair the iterator has read last, which is the pair at its place if it has only been moved by ++. A range-based for loop sees all pairs without failing assertion.", "quantifier": "every valid history in a debug build, every sequence of steps of any length, hash function, width, bucket class, the three tables without overflow table", "why_tests_cant": "the assertions depend on where the walk passes empty buckets and ends; tests walk forwards over few tables", "anchors": ["include/separate/iterator.hpp: operator++, operator--, operator*, operator->, invalid, key, value"]}
{"id": "C111", "title": "The number of buckets after a whole history", "statement": "After every history of valid calls in which reserve is called with at most N buckets, N a power of two, bucket_count() is at most the largest of N, the number of buckets of the first allocation (16, in the group table 8) and 2^(w - log2 M), where w is the key width (64 for SplitMix) and M is max_bucket_size(); for compact_chaining_map M = 255, for group_chaining_table the last number is 2^(w-1). In particular no history of insertions and erasures alone makes a table with 255 elements per bucket larger than 2^(w-7) buckets.", "quantifier": "every history of any length, key and value width, hash function, bucket class, SEPARATE_MAX_BUCKET_SIZE from 2 on, the three tables without overflow table and group_chaining_table with map_overflow", "why_tests_cant": "growth is triggered by the fullest bucket; a test sees the growth of a few tables only", "anchors": ["include/separate/separate_chaining_table.hpp, compact_chaining_map.hpp, group_chaining.hpp: find_or_insert, reserve, erase, clear, shrink_to_fit"]}
{"id": "C112", "title": "The size of files; storing many keys of a small domain compresses them (README)", "statement": "The file of a separate_chaining_table has 11 bytes, one byte for each bucket, and for each bucket the bytes of its keys and its values. With varwidth_bucket over words of s bits for the keys it has at most 88 + bucket_count()*(7+s) + size()*q bits and the bits of the values, where q is the width of the quotients. Hence with a bijective hash function it is shorter than the list of the pairs with each key in its key_width() bits as soon as 88 + bucket_count()*(7+s) < size()*log2(bucket_count()) (the README promises compression for many keys of a small domain). A set of all keys of w bits, w at least 11, over 8-bit words and never asked to reserve more than 2^(w-7) buckets takes exactly 11 + 113*2^(w-7) bytes, less than one byte for a key. The file of a group_chaining_table has at most 96 bits, 222 bits and one bit per bucket for each group, and for each pair one bit more than quotient and value.", "quantifier": "every table a program can have, including tables read from files; every history, hash function, width, bucket class, contents of fresh memory", "why_tests_cant": "file sizes depend on how the keys are spread over the buckets; a test measures few tables", "anchors": ["include/separate/separate_chaining_table.hpp, group_chaining.hpp: serialize", "include/separate/bucket.hpp: varwidth_bucket::serialize", "README.md: Usage"]}
{"id": "C113", "title": "The assertions of debug builds detect the errors of array_overflow", "statement": "If a debug build of a table with array_overflow gives an answer that a finite map would not give, an assertion fails first. (False: with a key that fresh memory happens to hold, a stored key is reported as absent, and the erasure of one key removes another one, without a failing assertion. True: as long as a program neither erases nor clears and mentions no key that fresh memory holds, no assertion fails and all answers are those of a finite map.)", "quantifier": "every history of any length, contents of fresh memory, hash function, width, bucket class, SEPARATE_MAX_BUCKET_SIZE, separate_chaining_map and group_chaining_table", "why_tests_cant": "the assertions about the overflow table are executed only if elements spill; whether an element is lost depends on uninitialised memory", "anchors": ["include/separate/overflow.hpp: array_overflow", "include/separate/separate_chaining_table.hpp, group_chaining.hpp: find_or_insert, erase", "include/separate/bucket.hpp: plain_bucket"]}
{"id": "C114", "title": "A debug build with array_overflow reads the files that it writes", "statement": "If a debug build of a separate_chaining_table with array_overflow writes a table, it can read the file, and the table read works as the one written. (False: as soon as an element is in the overflow table, the assertion at the end of deserialize, which compares the number of all elements with that of the elements in the buckets, fails whatever table is read into; and after reading a table with an empty overflow table, an assertion fails at the next element that spills. True: serialize fails no assertion, and tables with an empty overflow table are read with the same widths, size(), bucket_count() and contents.)", "quantifier": "every history for which such a table works (C113), every object read into, rest of the stream, hash function, width, bucket class, SEPARATE_MAX_BUCKET_SIZE, contents of fresh memory", "why_tests_cant": "needs a debug build, a file and elements that spill into the overflow table", "anchors": ["include/separate/separate_chaining_table.hpp: serialize, deserialize", "include/separate/overflow.hpp: array_overflow::serialize, deserialize", "include/separate/bucket.hpp: plain_bucket::serialize, deserialize"]}
{"id": "C115", "title": "A group_chaining_table with array_overflow survives being written to and read from a file", "statement": "If a group_chaining_table with array_overflow is written and the file is read into any object, the table read finds the same keys and values. (False: whenever the overflow table holds at least one and at most 255 elements, find of the table read accesses the arrays of array_overflow behind their end for every key that is not in the overflow table, also for keys that are stored. True: reading the file consumes exactly its bytes and restores the widths, size(), bucket_count(), the number of buckets per group and the content of the overflow table, and all keys are found with their values if the overflow table was empty or full, and else those in the overflow table.)", "quantifier": "every history for which such a table works (C106), every object read into, rest of the stream, hash function, width, instruction set, contents of fresh memory", "why_tests_cant": "needs a file, a table whose groups have spilled, and a sanitizer, as the access behind the end often goes unnoticed", "anchors": ["include/separate/group_chaining.hpp: serialize, deserialize, find, locate", "include/separate/overflow.hpp: array_overflow::serialize, deserialize"]}
{"id": "C116", "title": "Few keys can make a table as large as any history can", "statement": "If more than max_bucket_size() stored keys fall into the same one of 2^s buckets, the table has at least 2^(s+1) buckets. For each of the bijective hash functions and each key width w there are max_bucket_size()+1 keys, namely those whose hash values agree in all but the upper bits, whose insertion into a new table gives exactly the number of buckets that bounds all histories (C111): 2^(w - log2(max_bucket_size())) in separate_chaining_table, 2^(w-7) in compact_chaining_map, and at least 2^(w-7) in group_chaining_table. So the memory of a table is not bounded by any function of the number of its elements alone; 256 keys of 32 bits need 33554432 buckets.", "quantifier": "every width, hash function, bucket class, SEPARATE_MAX_BUCKET_SIZE from 2 on, order and values of the insertions; the first part for every table a program can have", "why_tests_cant": "random keys never collide this way; the allocation would fail on the test machine", "anchors": ["include/separate/separate_chaining_table.hpp, compact_chaining_map.hpp, group_chaining.hpp: find_or_insert, reserve", "include/separate/bijective_hash.hpp: Xorshift, MultiplicativeHash", "include/separate/hash.hpp: xorshift_hash, multiplicative_hash"]}
{"id": "C117", "title": "Objects of the class array_overflow own their arrays, and stay usable", "statement": "In every program that constructs, fills, swaps, move-assigns (also to themselves), clears, writes, reads and destroys objects of the class array_overflow, no block is released twice or used after its release, destroying the objects releases everything, all answers are those of independent lists, and objects that were moved from or cleared are empty and usable. (This is false: deserialize does not release the arrays of the object, so reading into an object that was just constructed leaks both; the generated move functions and clear leave m_elements unchanged, so the object still claims its elements, but find, insert and key dereference a null pointer. It holds for programs in which objects without arrays are only assigned to, cleared, read from a file or destroyed, and in which objects with arrays are not read from files; then every object owns exactly two blocks or none.)", "quantifier": "all programs with any number of objects, all keys and values, all contents of fresh memory", "why_tests_cant": "The leak needs no wrong answer to happen, and the tests never look at overflow tables that were moved from; which sequence of moves, swaps and reads is safe is a property of all programs.", "anchors": ["include/separate/overflow.hpp: array_overflow", "include/separate/bucket.hpp: plain_bucket", "include/separate/separate_chaining_table.hpp: swap, operator=", "include/separate/group_chaining.hpp: swap"]}
{"id": "C118", "title": "Programs with several tables and streams behave like programs with maps and queues of maps", "statement": "A program constructs tables of any widths, calls their functions, swaps and moves them, writes them with serialize to any number of streams, several tables per stream, and reads them back with deserialize into any objects: objects with other widths, with contents, or moved from, also while writing goes on. Then every answer is that of a program with finite maps in which each stream is a queue of maps, no call fails, and a stream from which every table was read is at its end. Holds for separate_chaining_table; for group_chaining_table in programs without erase, or with it if reading one word behind an array is harmless (C58).", "quantifier": "every program, any number of tables and streams, all widths, hash functions, bucket classes, SEPARATE_MAX_BUCKET_SIZE from 2 on, contents of fresh memory", "why_tests_cant": "the order in which tables of different widths are written, moved and read into one another has no bound; deserialize must replace the hash function and widths of whatever object it finds and stop exactly where the next table begins", "anchors": ["include/separate/separate_chaining_table.hpp: serialize, deserialize, swap, operator=", "include/separate/group_chaining.hpp: serialize, deserialize, swap, operator="]}
{"id": "C119", "title": "Files of tables with map_overflow restore the table", "statement": "If a table with map_overflow is written with serialize, the bytes depend on all keys and values and reading them into any object gives a table with the same contents. (False: map_overflow::serialize passes the key itself as an address to ostream::write, so with any element in the overflow table the memory at the address that equals the key is read, which is undefined and ends the process if it is not mapped; and el.first is written twice, so even if all of memory can be read, the file does not change if the value of any element in the overflow table is overwritten, in every table a program can have. True: if the overflow table is empty when the table is written, reading consumes exactly the bytes written, restores widths, size() and bucket_count(), and every further sequence of calls, also such that use the overflow table, gives the answers of a finite map with the contents written; the object read into may have any widths and contents, also in its overflow table.)", "quantifier": "every sequence of calls before writing and after reading, every object read into, rest of the stream, hash function, width, bucket class, instruction set, behaviour of std::unordered_map and order of its iteration, contents of memory; group_chaining_table as C58 after reading", "why_tests_cant": "the tests never write a table whose buckets have spilled; what is read at an address made from a key depends on the process", "anchors": ["include/separate/overflow.hpp: map_overflow::serialize, deserialize", "include/separate/separate_chaining_table.hpp: serialize, deserialize", "include/separate/group_chaining.hpp: serialize, deserialize"]}
{"id": "C120", "title": "Amortised number of executions of find_or_insert", "statement": "In every sequence of calls on a new table, find_or_insert is executed, including all executions by the rehashes that it and reserve cause, at least once for each call that inserts, and at most (1 + B) times as often as calls insert, times one plus the number of calls of reserve. B is the largest number of bits that the number of buckets can have: the maximum of 4 (group_chaining_table: 3), the bits of the largest request to reserve, and the width of the hash value minus the binary logarithm of the bucket size (separate: max_bucket_size; compact: 7; group: 1). So without reserve, an insertion costs on average at most 1 + B executions, even if one insertion causes several rehashes or a rehash is nested in another.", "quantifier": "every sequence of calls, including erase, clear and shrink_to_fit, all keys and values, hash functions, widths, bucket classes, SEPARATE_MAX_BUCKET_SIZE from 2 on; separate_chaining_table and group_chaining_table also with map_overflow", "why_tests_cant": "a sum over whole histories; an insertion into a table while it is being rehashed may itself rehash, and how deep that goes depends on the keys", "anchors": ["include/separate/separate_chaining_table.hpp: find_or_insert, reserve", "include/separate/compact_chaining_map.hpp: find_or_insert, reserve", "include/separate/group_chaining.hpp: find_or_insert, reserve"]}
{"id": "C121", "title": "Buckets for one element", "statement": "With SEPARATE_MAX_BUCKET_SIZE = 1, which the README allows, every sequence of valid calls on a separate_chaining_table runs without fault and gives the answers of a finite map, in release and debug builds. (False in debug builds: with a bijective hash function the table may get as many buckets as there are keys, and DDCHECK_GT(key_bitwidth, 0) fails; five insertions of 3-bit keys suffice. True in release builds for plain_bucket, class_key_bucket and avx2_key_bucket, a bijective hash function and keys of at most 63 bits, for every SEPARATE_MAX_BUCKET_SIZE from 1 on, and with reserve(n) for every n up to the number of keys.)", "quantifier": "every sequence of calls, all keys and values, key widths 3 to 63, value bucket classes, resize strategies, every SEPARATE_MAX_BUCKET_SIZE from 1 on", "why_tests_cant": "the tests use the default 255; with buckets for one element, every collision doubles the table, until quotients have no bits", "anchors": ["include/separate/separate_chaining_table.hpp: max_bucket_size, find_or_insert, reserve, locate", "README.md: SEPARATE_MAX_BUCKET_SIZE"]}
{"id": "C122", "title": "Navigators of tables with map_overflow stay on their elements", "statement": "In a separate_chaining_table or group_chaining_table with map_overflow, let n be the navigator that find returned for a stored key, in a bucket or in the overflow table. Through n the key and its value are read. After any number of lookups, insertions, assignments and calls of shrink_to_fit that leave the number of buckets the same in the end, find still returns n, although insertions may spill into the overflow table. When another key is erased, n moves by one position if it is behind the erased element in the same bucket; elements in the overflow table do not move. (Unlike in tables without overflow table, C91, calls of reserve are excluded: a reserve that keeps the number of buckets moves elements from the overflow table back to buckets that have room. This is proved by a witness.)", "quantifier": "every sequence of calls before and after obtaining the navigator, all keys and values, hash functions, widths, bucket classes, SEPARATE_MAX_BUCKET_SIZE from 2 on, every choice of buckets by std::unordered_map", "why_tests_cant": "the tests never keep a navigator across calls; the overflow table has to be partly filled, and whether it rehashes depends on the standard library", "anchors": ["include/separate/overflow.hpp: map_overflow", "include/separate/iterator.hpp", "include/separate/separate_chaining_table.hpp: find, find_or_insert, erase, reserve", "include/separate/group_chaining.hpp: find, find_or_insert, erase, reserve"]}
{"id": "C123", "title": "The number of buckets is a function of the history", "statement": "After any sequence of valid calls on a new table without overflow table, bucket_count() is exactly this: a call that inserts makes it the least power of two, from the current number on, with which no more than max_bucket_size() stored keys fall into the same bucket; the first insertion starts with the least power of two that is not less than min(key_width - 1, 16). reserve(n) gives the least such power of two from n rounded up to a power of two on, or just n rounded up if the table is empty; reserve(1) of a table with elements starts like the first insertion. clear makes it 0, other calls leave it. In particular, two tables with the same keys that were built without erase, clear and reserve have the same number of buckets, whatever the order of the insertions and the values.", "quantifier": "every sequence of calls, all keys and values, hash functions, widths, bucket classes, SEPARATE_MAX_BUCKET_SIZE from 2 on; separate_chaining_table and compact_chaining_map", "why_tests_cant": "that insertions in another order, which cause other rehashes and nested rehashes, end with the same number of buckets is a statement about all pairs of histories", "anchors": ["include/separate/separate_chaining_table.hpp: find_or_insert, reserve, clear, bucket_count", "include/separate/compact_chaining_map.hpp: find_or_insert, reserve, clear, bucket_count"]}
{"id": "C124", "title": "An overflow table never makes a table larger", "statement": "After the same sequence of valid calls, a separate_chaining_table with map_overflow has at most as many buckets as one without overflow table. Hence the bound of the number of buckets of C111 holds for it, too.", "quantifier": "every sequence of calls, all keys and values, hash functions, widths, bucket classes, SEPARATE_MAX_BUCKET_SIZE from 2 on, every choice of buckets by std::unordered_map", "why_tests_cant": "the table with overflow table rehashes at other times and then moves elements from the overflow table back into buckets; comparing two tables needs an invariant over both histories", "anchors": ["include/separate/separate_chaining_table.hpp: find_or_insert, reserve", "include/separate/overflow.hpp: map_overflow"]}
{"id": "C125", "title": "Number of buckets and size of groups are functions of the history", "statement": "After any sequence of valid calls on a new group_chaining_table without overflow table, bucket_count() and m_buckets_per_group are exactly these: a new table has groups of 3 buckets, and the first insertion starts with the least power of two that is not less than min(key_width - 1, 8). A call that inserts leaves both numbers if, with the new key, no group gets more than 255 keys. Otherwise groups have 64 buckets from then on, and the number of buckets is the least power of two, from twice the current number on, with which no group of 64 buckets gets more than 255 keys. reserve(n) on a table with buckets gives groups of 64 buckets and the least such power of two from n rounded up on, or just n rounded up if the table is empty; on a table without buckets it keeps the size of groups; reserve(1) of a table with elements starts with the number of buckets of the first insertion. clear makes the number of buckets 0 and keeps the size of groups, other calls leave both. In particular, two tables with the same keys that were built without erase, clear and reserve agree in both numbers, whatever the order of the insertions and the values.", "quantifier": "every sequence of calls, all keys and values, hash functions, widths, junk in fresh memory", "why_tests_cant": "that insertions in another order, which cause other rehashes and nested rehashes, end with the same number of buckets is a statement about all pairs of histories", "anchors": ["include/separate/group_chaining.hpp: find_or_insert, reserve, clear, bucket_count, m_buckets_per_group"]}
{"id": "C126", "title": "size_in_bytes() with map_overflow counts every element", "statement": "After any sequence of valid calls, size_in_bytes() of a separate_chaining_table with map_overflow runs without fault. Every stored pair is in exactly one of the buckets and the overflow table. If the upper bound below fits into 64 bits, the returned number of bytes is at least: the members, one mark bit per bucket, quotient and value for each pair in a bucket, and sizeof(std::pair) for each bucket of the std::unordered_map, which has at least as many buckets as elements. It is at most that plus the rounding of each bucket to whole keys (less than 64 bits each) and unused bits of the bit vector.", "quantifier": "every sequence of calls, all keys and values, hash functions, widths, bucket classes, resize strategies, SEPARATE_MAX_BUCKET_SIZE from 2 on, every choice of buckets by std::unordered_map, every bit_size() of the bit vector that is not less than its length", "why_tests_cant": "the tests never call size_in_bytes() with an overflow table; that no pair is counted twice or forgotten after erasures and rehashes is an invariant of all histories", "anchors": ["include/separate/overflow.hpp: map_overflow::size_in_bytes", "include/separate/separate_chaining_table.hpp: size_in_bytes"]}
{"id": "C127", "title": "map_overflow::deserialize restores every pair of a file", "statement": "Let a file hold, as deserialize expects it, the number of pairs followed by the keys and values of an overflow table map_overflow. Reading it into an empty map_overflow takes exactly the bytes of the file, size() is the number of pairs, no other key is found, and every key of the file is found, with its value at the position returned. (The last part is false: find looks at the first element of a bucket of the std::unordered_map only, and deserialize does not see to it that no bucket gets two. All pairs are found if and only if no two keys are in the same bucket. Moreover, the marks of the buckets of the hash table are not restored.)", "quantifier": "every list of pairs with different keys that fit into their types, every width of keys and values, every choice of buckets by std::unordered_map", "why_tests_cant": "map_overflow is never read from a file in the tests, and whether two keys share a bucket after reading depends on the standard library", "anchors": ["include/separate/overflow.hpp: map_overflow::deserialize, find, key, operator[], need_consult"]}
{"id": "C128", "title": "An overflow table never makes a group table larger", "statement": "After the same sequence of valid calls, a group_chaining_table with map_overflow has at most as many buckets as one without overflow table, provided that clear is never called, or that reserve is never called for more than 64 buckets. If clear is never called and both have the same number of buckets, their groups have the same number of buckets. (After clear, the two tables may differ in the size of groups, because it is kept; groups of 3 and of 64 buckets are not comparable.)", "quantifier": "every such sequence of calls, all keys and values, hash functions, widths, every choice of buckets by std::unordered_map, junk in fresh memory", "why_tests_cant": "the tables rehash at different times, and a rehash changes the size of groups; comparing them needs an invariant over both histories", "anchors": ["include/separate/group_chaining.hpp: find_or_insert, reserve, clear, m_buckets_per_group", "include/separate/overflow.hpp: map_overflow"]}
{"id": "C129", "title": "capacity() and max_size() bound size() also with map_overflow", "statement": "In every reachable separate_chaining_table or group_chaining_table with map_overflow (of at most 2^56 buckets), size() is at most capacity() and at most max_size(). (False: neither counts the overflow table. With SEPARATE_MAX_BUCKET_SIZE = 2, five insertions of 3-bit keys give a separate_chaining_table with size() = 5 but capacity() = max_size() = 4. True: size() exceeds each of them at most by the number of pairs in the overflow table, which is at most the capacity() of the overflow table; every pair is in exactly one of the buckets or groups and the overflow table, and no group holds more than 255.)", "quantifier": "every sequence of calls, all keys and values, hash functions, widths, bucket classes, resize strategies, SEPARATE_MAX_BUCKET_SIZE from 2 on, every choice of buckets by std::unordered_map", "why_tests_cant": "the tests compare neither function with size() when an overflow table is used; all buckets have to be full when a pair spills for the difference to show", "anchors": ["include/separate/separate_chaining_table.hpp: capacity, max_size, size", "include/separate/group_chaining.hpp: capacity, max_size, size", "include/separate/overflow.hpp: map_overflow"]}
{"id": "C130", "title": "size_in_bytes() and capacity() with array_overflow", "statement": "After any sequence of valid calls on a separate_chaining_table with array_overflow that neither erases nor clears and mentions no key that fresh memory happens to hold (for other calls see C106), every pair is in exactly one of the buckets and the overflow table, which holds at most 256; those in buckets are at most capacity() and at most max_bucket_size() * bucket_count(). size_in_bytes() runs without fault. If the upper bound below fits into 64 bits, the returned number of bytes is more than: the members, one mark bit per bucket, quotient and value for each pair in a bucket, and key_type and value_type for each of the 256 places of the overflow table. It is at most that plus the rounding of each bucket to whole keys (less than 64 bits each), unused bits of the bit vector and one byte.", "quantifier": "every such sequence of calls, all keys and values, hash functions, widths, bucket classes, resize strategies, SEPARATE_MAX_BUCKET_SIZE from 2 on, every content of fresh memory, every bit_size() of the bit vector that is not less than its length", "why_tests_cant": "the tests never call size_in_bytes() with an overflow table; that no pair is counted twice or forgotten after rehashes is an invariant of all histories", "anchors": ["include/separate/overflow.hpp: array_overflow::size_in_bytes", "include/separate/separate_chaining_table.hpp: size_in_bytes, capacity"]}
{"id": "C131", "title": "A debug build with map_overflow reads the files it writes", "statement": "In a build with assertions, after any sequence of valid calls on a separate_chaining_table with map_overflow, serialize succeeds, and deserialize into any table fails no assertion and restores size(), bucket_count(), the widths and all pairs, so that all further calls answer as a finite map does. (False: as soon as one pair is in the overflow table, serialize reads the memory at the address given by a key, which is undefined if nothing can be read there; and if something can be read there and keys are as wide as values, the last assertion of deserialize always fails, since it compares size() with the number of pairs in the buckets. True if the overflow table is empty at the time of serialize and, with arbitrary_resize, the table has a bucket; the further calls may again fill the overflow table.)", "quantifier": "every sequence of calls before and after, all keys and values that fit, hash functions, widths, bucket classes, resize strategies, every table read into, every choice of buckets and every order of iteration of std::unordered_map", "why_tests_cant": "the tests never serialize a table with map_overflow; whether a pair has spilled depends on the standard library", "anchors": ["include/separate/separate_chaining_table.hpp: serialize, deserialize", "include/separate/overflow.hpp: map_overflow::serialize, deserialize, resize_buckets"]}
{"id": "C132", "title": "A debug build of the group table with map_overflow reads the files it writes", "statement": "In a build with assertions, after any sequence of valid calls on a group_chaining_table with map_overflow, serialize succeeds, and deserialize into any table fails no assertion and restores size(), the widths, the size of groups, bucket_count() if there are pairs, and all pairs, so that all further calls answer as a finite map does. (False: as soon as one pair is in the overflow table, serialize reads the memory at the address given by a key, which is undefined if nothing can be read there; and if something can be read there and keys are as wide as values, the last assertion of deserialize always fails, since it compares size() with the number of pairs in the groups. True if the overflow table is empty at the time of serialize; the further calls may again fill the overflow table, and erase, if words behind the end of an array may be read, see C58.)", "quantifier": "every sequence of calls before and after, all keys and values that fit, hash functions, widths, every table read into, every choice of buckets and every order of iteration of std::unordered_map", "why_tests_cant": "the tests never serialize a table with map_overflow; a pair spills only if 255 others are in its group", "anchors": ["include/separate/group_chaining.hpp: serialize, deserialize", "include/separate/overflow.hpp: map_overflow::serialize, deserialize, resize_buckets"]}
{"id": "C133", "title": "Navigators keep their elements in builds with assertions", "statement": "In a build with assertions, reading the key and the value through the navigator that find returned for a stored key fails no assertion and gives the key and its value, in separate_chaining_table and group_chaining_table without overflow table or with map_overflow, and in compact_chaining_map. After any number of valid lookups, insertions, assignments and calls of shrink_to_fit that leave the number of buckets the same in the end, find still returns this navigator. When another key is erased, the navigator moves by one position exactly if it is behind the erased element in the same bucket, and elements in the overflow table do not move. Without overflow table, a reserve that rounds to the present number of buckets and keeps it moves nothing either.", "quantifier": "every sequence of calls before and after obtaining the navigator, all keys and values that fit, hash functions, widths, bucket classes, resize strategies, every choice of buckets by std::unordered_map", "why_tests_cant": "all histories and navigators kept across them; the assertions in the read paths of buckets and of the overflow table have to hold in every reachable state", "anchors": ["include/separate/iterator.hpp: separate_chaining_navigator", "include/separate/overflow.hpp: map_overflow", "include/separate/separate_chaining_table.hpp: find, find_or_insert, erase, reserve", "include/separate/compact_chaining_map.hpp: find_or_insert, erase", "include/separate/group_chaining.hpp: find, find_or_insert, erase, reserve"]}
{"id": "C134", "title": "Loops that change the table in builds with assertions", "statement": "In a build with assertions, the loops over navigators of C73, C74 and C105 (backwards from rbegin_nav() or from find(key), forwards with assignments, forwards with erasures in its three variants) fail no assertion on tables without overflow table and do exactly what they do in a release build, provided that the values assigned to the visited elements have at most value_width() bits: the visited pairs, the pairs left, the number of buckets and the answers of all further valid calls are those specified there.", "quantifier": "every valid history before, every body of the loop (any function of key and value that keeps, erases or assigns a value that fits), every finite sequence of valid calls after, all three table classes (group_chaining_table: backwards from find(key) only)", "why_tests_cant": "all tables and all bodies; the assertions in navigators, buckets and erase have to hold in all intermediate states of the loop", "anchors": ["include/separate/iterator.hpp: separate_chaining_navigator::operator++, operator--, operator=", "include/separate/separate_chaining_table.hpp: erase, write_value (with DDCHECK)", "include/separate/compact_chaining_map.hpp: erase, write_value", "include/separate/group_chaining.hpp: erase, write_value"]}
{"id": "C135", "title": "Which pairs loops visit in group tables and debug builds with map_overflow", "statement": "In a group_chaining_table with map_overflow, and in builds with assertions of separate_chaining_table and group_chaining_table with map_overflow, the loop from begin() to end() ends, fails no assertion and visits no key twice. It visits exactly the stored pairs that are not in the overflow table, and those in the overflow table if and only if position 0 of that table is occupied. If the overflow table is in use, the loop from rbegin_nav() with -- ends as well, visits no key twice and no pair in a bucket; it visits exactly the pairs of the overflow table at positions up to its size() if position size() is occupied, and none otherwise.", "quantifier": "every sequence of valid calls before the loop, all keys, values, hash functions, widths, bucket classes, resize strategies, every choice of buckets by std::unordered_map", "why_tests_cant": "which pairs are missed depends on the positions std::unordered_map chooses; in group tables a pair spills only if 255 others are in its group, and the tests never iterate over such a table", "anchors": ["include/separate/group_chaining.hpp: begin, rbegin_nav", "include/separate/iterator.hpp: separate_chaining_navigator::operator++, operator--, invalid", "include/separate/overflow.hpp: map_overflow::next_position, previous_position, key, operator[] (with DCHECK)", "include/separate/separate_chaining_table.hpp: begin_nav, rbegin_nav"]}
{"id": "C136", "title": "Assigning to all elements of a table with map_overflow", "statement": "In a separate_chaining_table or group_chaining_table with map_overflow, the loop from begin_nav() to end_nav() that assigns f(key, value) through the navigator visits exactly the pairs that the loop without assignments visits (C52, C135), each with its old value. Afterwards every visited key has its new value, every other stored key still has its old one, size() and bucket_count() are unchanged, and all further valid calls give the answers of the changed map. In builds with assertions none fails.", "quantifier": "every sequence of valid calls before and after the loop, every function f whose values can be stored, all hash functions, widths, bucket classes, every choice of buckets by std::unordered_map; release and debug builds", "why_tests_cant": "the loop crosses from the buckets into the overflow table and writes to both; the tests never iterate over a table whose overflow table is in use", "anchors": ["include/separate/iterator.hpp: separate_chaining_navigator::operator++, operator=, operator==", "include/separate/overflow.hpp: map_overflow::operator[], next_position, valid_position", "include/separate/separate_chaining_table.hpp: begin_nav, write_value", "include/separate/group_chaining.hpp: begin, write_value"]}
{"id": "C137", "title": "Which pairs loops visit in tables with array_overflow", "statement": "In a separate_chaining_table or group_chaining_table with array_overflow, after calls for which this table works (C106, C113), the loop from begin() to end() ends and visits every stored pair exactly once, whether it is in a bucket or in the overflow table. As soon as an element is in the overflow table, the loop from rbegin_nav() to rend_nav() visits no pair at all, since rbegin_nav() is behind the last position of the overflow table and thus equal to rend_nav(). In builds with assertions none fails.", "quantifier": "every sequence of valid calls that neither erases nor clears and mentions no key among the numbers that fresh memory holds, all values, hash functions, widths, bucket classes, all contents of fresh memory; release and debug builds", "why_tests_cant": "all tables whose overflow table is in use; the tests never iterate over one, and the contents of fresh memory cannot be enumerated", "anchors": ["include/separate/overflow.hpp: array_overflow::first_position, next_position, valid_position, size", "include/separate/iterator.hpp: separate_chaining_navigator::operator++, operator==, invalid", "include/separate/separate_chaining_table.hpp: begin_nav, rbegin_nav", "include/separate/group_chaining.hpp: begin, rbegin_nav"]}
{"id": "C138", "title": "Assigning to all elements of a table with array_overflow", "statement": "In a separate_chaining_table or group_chaining_table with array_overflow, after calls for which this table works (C106, C113), the loop from begin_nav() to end_nav() that assigns f(key, value) through the navigator visits every stored pair exactly once with its old value. Afterwards every stored key has its new value, no other key is stored, size() and bucket_count() are unchanged, find answers accordingly for every key that is not among the numbers that fresh memory holds, and all further calls of this kind give the answers of the changed map. In builds with assertions none fails.", "quantifier": "every sequence of valid calls before and after the loop that neither erases nor clears and mentions no key among the numbers that fresh memory holds, every function f whose values can be stored, hash functions, widths, bucket classes, all contents of fresh memory; release and debug builds", "why_tests_cant": "the loop crosses from the buckets into the overflow table and writes to both; the tests never iterate over a table whose overflow table is in use", "anchors": ["include/separate/overflow.hpp: array_overflow::operator[], next_position, valid_position, find", "include/separate/iterator.hpp: separate_chaining_navigator::operator++, operator=, operator==", "include/separate/separate_chaining_table.hpp: begin_nav, write_value", "include/separate/group_chaining.hpp: begin, write_value"]}
{"id": "C139", "title": "How long a navigator can be used in a table with array_overflow", "statement": "In a separate_chaining_table or group_chaining_table with array_overflow, after calls for which this table works (C106, C113), the navigator that find returned for a key still leads to that key, and reads its current value, after any number of further calls of this kind that look up, insert, assign or shrink, as long as the number of buckets is the same in the end; this holds for keys in buckets and in the overflow table. In builds with assertions none fails when the key and the value are read.", "quantifier": "every sequence of valid calls before and after find that neither erases nor clears and mentions no key among the numbers that fresh memory holds, all keys, values, hash functions, widths, bucket classes, all contents of fresh memory; release and debug builds", "why_tests_cant": "needs an element in the overflow table, a navigator to it kept across calls, and every sequence of such calls; the tests keep no navigator across calls", "anchors": ["include/separate/overflow.hpp: array_overflow::find, insert, operator[], key", "include/separate/iterator.hpp: separate_chaining_navigator", "include/separate/separate_chaining_table.hpp: find, find_or_insert, shrink_to_fit", "include/separate/group_chaining.hpp: find, find_or_insert, shrink_to_fit"]}
{"id": "C140", "title": "Swapping and moving tables in builds with assertions", "statement": "In builds with assertions of separate_chaining_table, compact_chaining_map and group_chaining_table, no assertion fails in a program that constructs any number of tables of any supported widths, calls their functions with valid arguments, swaps them, and moves them by assignment or construction, as long as it does not call functions of tables that were moved from. All answers are those of finite maps that are swapped and moved likewise; in particular the additional members of these builds always stay with the table they describe.", "quantifier": "all programs of any length, any number of tables of any widths, all keys, values, hash functions, bucket classes, resize strategies", "why_tests_cant": "a debugging array that is left behind by one of the moves is only noticed by an assertion in a later call; there are infinitely many programs, and the tests swap and move few tables", "anchors": ["include/separate/separate_chaining_table.hpp: swap, operator=, separate_chaining_table(separate_chaining_table&&) (with ON_DEBUG)", "include/separate/compact_chaining_map.hpp: swap, operator=, compact_chaining_map(compact_chaining_map&&) (with ON_DEBUG)", "include/separate/group_chaining.hpp: swap, operator= (with ON_DEBUG)"]}
