# Formal model of koeppl/separate_chaining

Source: `/repo/include/separate/*.hpp` (read as text, never built).  The model and the proofs are in
Lean 4.33.0, in `/verif/lean/Verif/`.  Build with `lake build` in `/verif/lean`.

## How the code is modelled

* Every C++ integer is a natural number; where C++ wraps (`uint64_t`, `uint8_t`, unsigned `--`), the
  model contains an explicit `% 2^64` / `% 256`.
* Every function of the model returns `Res α := Except Fault α`.  Undefined behaviour (null pointer,
  access outside an allocation, read of an uninitialised entry, shift by >= 64), a thrown exception, and
  running out of recursion fuel are separate values of `Fault`.  "No undefined behaviour" therefore is
  part of each theorem that says `= ok ...`.
* The code is a set of templates.  The model mirrors that: `BucketOps` is the bucket interface
  (plain/class/avx2/varwidth/null), `HashMapping` the hash adapter interface, `OverflowOps` the overflow
  interface, `StoreOps` what is left of the three tables when the shared control flow is factored out
  (per-bucket arrays, compact bit arrays, groups).  The control flow (`find`, `locate`,
  `find_or_insert`, `reserve`, `erase`, iterators ...) is copied three times in the C++ code; the model
  contains it once, with the line numbers of the three copies, and is instantiated three times.
* Release builds (`NDEBUG`) everywhere except in C77 - C85, C95, C96, C100, C101, C107, C108, C110, C113, C114, C131 - C140: `DDCHECK`/`DCHECK`/`ON_DEBUG` code is modelled for
  `separate_chaining_table` without overflow table (C77, C78), `compact_chaining_map` (C79, C80), `group_chaining_table` without overflow
  table (C81, C82), both with `map_overflow` (C107, C108) and with `array_overflow` (C113, C114), and `bucket_table` (C83 - C85).

## Trusted base

* The Lean kernel; axioms used by the theorems: at most `propext`, `Classical.choice`, `Quot.sound`
  (checked with `#print axioms` in `tools/axioms.sh`).  No own axioms, no `sorry`, no `native_decide`,
  no `bv_decide`.
* Faithfulness of the transcription of C++ into the model (each definition cites file and lines).
* Contracts of code that is not in the repository (git submodules are empty): `tdc_sdsl::bits_impl`
  (`read_int`, `write_int`, `read_int_and_move`, `write_int_and_move`, `move_left`), `broadwordsearch::broadsearch`,
  AVX2 intrinsics, `_pdep_u64`/`__builtin_ctzll`/`__builtin_popcountll`, `std::unordered_map` (used by `map_overflow`),
  `tdc::BitVector`, `malloc`/`realloc`/`free`, iostreams.  They are modelled by their documented meaning.
* `malloc` never fails; the contents of fresh memory come from an arbitrary oracle, over which the theorems
  quantify.  Little-endian byte order.
* Not modelled: `print_stats`, debug-only members except those of C77 - C85, C95, C96, C100, C101, C107, C108, C110, C113, C114 and C131 - C140, exceptions other than the one thrown by `locate`,
  threads (the code has none), class-typed values with non-trivial moves (values are numbers).

## Layers / modules

| module | content |
|---|---|
| `Prim` | `Res`, faults, `math.hpp` |
| `Hash.*` | `bijective_hash.hpp`, `hash.hpp` |
| `Bits.*` | bit memory, contract of `bits_impl` |
| `Bucket.*` | `bucket.hpp`, `size.hpp` |
| `Spec` | the mathematical finite map used in the statements (no reference to the model) |
| `Table.*` | shared control flow of the three tables, iterators, refinement proof; `Table.Observe`: what a user sees |
| `Sep.*` | `separate_chaining_table.hpp` storage, serialisation |
| `Compact.*` | `compact_chaining_map.hpp` storage |
| `Select`, `Group.*` | `select.hpp`, `group_chaining.hpp` storage |
| `Overflow.*` | `overflow.hpp` |
| `Keysplit.*` | `keysplit_adapter.hpp` |
| `BucketTable.*` | `bucket_table.hpp` |
| `Own.*` | heap of blocks with identities; ownership under calls, move, swap and destruction |
| `Props.*` | the property theorems, one file per topic; nothing else |

## Plan per property

| id | modelled | proof |
|---|---|---|
| C01 C02 | `Xorshift`, `MultiplicativeHash` with the full constant table | x ^ (x >> s) is an involution for 2s >= w (bitwise); p*q = 1 mod 2^w for all 65x3 rows by kernel evaluation of the complete table |
| C03 C04 | `bijective_hash_adapter` incl. truncation to `storage_type` | arithmetic on div/mod 2^b; converse of C04 through surjectivity of the hash |
| C05 C06 | `SplitMix`, `hash_mapping_adapter` | explicit inverse; mask bound |
| C07-C10, C13 | `varwidth_bucket` on a bit memory with explicit allocation bound, strict and flat access mode | `testBit` extensionality, loop invariants for the chunk moves; C13 is false, witness theorems and a partial |
| C11 C12 | `plain_bucket`, `class_bucket`, `avx2_bucket` | refinement to lists, loop invariants |
| C14 | `arbitrary_resize::resize` | arithmetic |
| C15-C27, C33, C34 | shared control flow + separate storage | refinement to the finite map of `Spec` by induction over operation lists; rehash loop invariant; fuel bound from a pigeonhole argument; C33 is false for widths 1 and 2: witnesses |
| C28-C31 | navigators and iterators | induction over bucket scan; C31 is false: witness |
| C32 C54 | byte streams; reachability through operations and reloading | parse/print round trip, invariant with and without the capacity bound; C54 is false with `arbitrary_resize`: witness |
| C53 | `invalid`, `operator==` of navigators | from the invariant; added because a mutant of `invalid` survived |
| C35 C36 C61 C62 | heap with block identities (`Own/Heap`), all allocating, releasing and pointer-moving functions of `separate_chaining_table`, its value managers and resize strategies (`Own/Model`); keys instead of quotients, any hash function, no overflow table | every statement of a program keeps the invariant “the heap is the disjoint union of the blocks of the tables and the lost blocks” (multisets of blocks as in separation logic); C36 C61 C62 are false: double release after every move construction of a map, leaks by `clear()` and `reserve(1)`, `class_bucket::deserialize`. That calls return: `Own/Keys` (set of keys, greatest number of buckets, buckets hold distinct keys that belong there), `Own/Hash` (the library's hash functions put at most two keys in a bucket of the greatest table), so a full bucket can always be split; the same for C63 and C69 |
| C63 | the same heap; `compact_chaining_map` (`Own/Compact`), programs over any table class (`Own/Prog`) | generic invariant `TInv` for programs, instantiated through `TabLaws`; false: arrays come from `malloc`/`realloc` and are released by `delete[]`, so destroying a non-empty map is undefined in every state; proved with `free` in its place; `reserve(1)` leaks; a moved-from map dereferences null |
| C69 | the same heap and programs; `group_chaining_table` (`Own/Group`): the array of groups, the three blocks of every group, `deserialize`; keys instead of quotients, contents of the borders not shown, no overflow table | `TabLaws` with moved-from tables usable; false only for `reserve(1)`: witness |
| C37 C38 C55-C57 | compact storage on bit memory | loop invariants for the overlapping moves; refinement; C56 is false: witness |
| C39 | broadword `select64` and the BMI2 version | byte decomposition, full table check in the kernel |
| C40-C43 | border bit vector, packed arrays, groups, group table | select/rank invariants of the border words under insertion and removal of a bit; refinement of the packed array to lists, of a group to a row of buckets (`Spec.Buckets`), of the table to the finite map; the loops over groups in `begin` and `reserve` are modelled as written and proved equal to the loops over buckets |
| C44 | `rbegin_nav` of the group table | false for every non-empty table: the loop visits nothing |
| C45 C58 | byte streams of groups; reachability through calls and reloading | round trip; after reading, the arrays have no spare word, so `erase` reads behind the end: C58 is false with strict checks (witness), proved without; all other calls stay inside (comparison with a table whose `eraseAt` is not checked, `Table.Erase`) |
| C46 C47 C60 | `bucket_table` (`BucketTable/Model`, `BucketTable/Proofs`, `BucketTable/Run`) | refinement to a list of pairs with distinct keys and to the finite map; C47 is false: with 255 elements every insertion of a new key into plain buckets writes behind the end |
| C48 C49 | `keysplit_adapter` (`Keysplit/Model`, `Keysplit/Proofs`, `Props/Keysplit`) | arithmetic on bit widths; invariant: table i holds exactly the keys with slot i, sizes add up; generic in the table class, instantiated for the three tables |
| C50-C52 C59 | `array_overflow`, `map_overflow` | `map_overflow` over an abstract `std::unordered_map` (an environment chooses bucket counts and buckets) satisfies the demands on overflow tables, so the refinement of the tables applies; forward loops with spilled elements are characterised exactly (`Table.IterOv`); C51, C52, C59 are false: witnesses and exact descriptions of what happens |
| C64 C65 | `--`, `rbegin_nav` and `clear` with overflow tables (`Props/OverflowBack`) | C64 is false: exact description of the backward loop (no pair of a bucket is ever visited when the overflow table is in use); C65 holds for `map_overflow` and is false for `array_overflow` in every state (null pointer) |
| C66 C67 C68 | walks with `++` and `--`, `separate_chaining_iterator`, range-based `for` (`Table/Bidi`, `Props/Iterator`) | navigators are at an index into the forward order (relation `AtIdx`, kept by every step); iterators: exact description of the cached pair by induction over the steps; C67 is false after `--` (every table with two elements), C68 is false for `end_nav()` (every table that is not empty) |
| C70-C72 | `max_key`, `max_value`, `max_size`, `capacity`, `remainder_width` (`Props/Limits`) | from the invariants of the tables (pigeonhole bound on the number of buckets, sizes of buckets and groups); C70 is false for `SEPARATE_MAX_BUCKET_SIZE` = 1: witness |
| C73 C74 | loops over navigators whose body erases or assigns (`Table/Sweep`, `Props/Sweep`) | induction over the iterations; the state after the loop is described bucket by bucket (`swept`), resp. by the index in the forward order (`AtIdx`); everything afterwards by the invariant. Not covered: overflow tables; forward loops that erase (they skip elements) |
| C75 C76 | `bucket_table` in the heap of `Own/Heap` (`Own/Bt`): two pointers, two counters; programs over any class with a value (`Own/Obj`), values given by `Spec/Objects` | `ObjLaws`: every function is correct for one table and any rest of the heap (separation by multisets of blocks), then induction over the program. Blocks are arrays of numbers (packing: C07-C13, C46), unwritten entries are 0, all tables have the same `m_width` |
| C77 C78 | the assertions (`ddcheck`, `Debug.lean`) of `dcheck.hpp`, executed in the control flow if the flag `debug` of the configuration is set; buckets, hash functions and storage of a debug build with their additional members (`Bucket/Debug`, `Hash/Debug`, `Sep/Debug`, `Sep/DebugTable`) | the debug versions obey the same laws as the release versions under the preconditions of the assertions (values that fit, dimensions that occur), so the refinement of the tables applies; `m_plainkeys` is kept in step with the buckets (`PlainKeys`). Overflow tables: C107, C108, C113; `deserialize`: C95, C114, C131. Iterators: C110 |
| C79 C80 | `Compact/Debug`: the buckets of `compact_chaining_map` with the copies `m_plainkeys`, `m_plainvalues`, `m_large_storage`, `m_storagesizes` and all assertions; `Compact/DebugTable`: the map | `Compact/DebugLemmas`: the copies agree with the stored bits after every operation (`CmpDbgBRep`), so the store obeys the laws of the release build for values that fit (`lawful_cmpDbg`) and the refinement proof of the control flow applies; `Table/InsertFail`: an insertion whose value the store rejects fails, also if the table grows first (induction on the recursion of `find_or_insert`) |
| C81 C82 | `Group/Debug`: `core_group` with `m_plaindata`, groups with `m_groupsizes`, the table with `m_plainkeys`, `m_plainvalues`, `m_bucketsizes`, and all assertions outside `HEAVY_DEBUG`; `Group/DebugTable`: the table. Loops over groups (`reserve`, `begin`, `rbegin_nav`) are those over buckets of the common control flow, as in C43; `Tab.checkTally`: `reserve` counts the elements that it moves (with an overflow table: C107, C113) | `Group/DebugCore`, `Group/DebugBorder`, `Group/DebugGroup`: the copies of a group agree with its bit-packed arrays and with the unary border, whose bits behind the end are 0 (`GroupDbgRep`); `Group/DebugLemmas`: the copies of the table agree with the groups (`RowRep`), so the store obeys the laws of the release build for values that fit (`lawful_grpDbg`); the rest as for C79 C80. `Props/DebugClear`: the loop of `clear()` with its assertions (`GrpDbg.clearLoop`), by induction over the groups |
| C83 C84 C85 | `BucketTable/Model` with the flag `debug`: `m_plainkeys`, the loop of `locate` over it, all `DCHECK`s; the buckets are those of `Bucket/Debug`. Not modelled: `max_bucket_size` (only used for statistics), the width assertions of `operator=` and `swap` (all tables in C75 C76 have the same width) | the same refinement as for C46 C60, with `m_plainkeys` holding the keys of the list (`HoldsP`); C84, C85: the failing assertion, or the faulting access, is reached from every state that represents a list |
| C86 | objects with all members of the tables, `m_hash` included (`Table/Several`): constructor, `swap`, move assignment (also to itself), move construction; contents only, the memory is C36 C61 C63 C69 | specification `Spec/Tables` (finite maps with widths, swapped and moved); induction over programs from the refinement of single calls (`Classy`), instantiated for the three classes; `C86_moved_from`: what happens to tables that are used after they were moved from |
| C87-C90 | the sizes of the blocks of the buckets in the models of the tables (`Bucket/Memory`: `BucketMem` gives the size of a block and the size needed for `n` entries of width `w`); `size_in_bytes` of `separate_chaining_table` with `dummy_overflow` (`Sep/Size`; the sizes of the types are the structure `Sizeof`). The overhead of `malloc` is not counted | (The memory of `compact_chaining_map` is C57.) `Table/Keep` lifts a property kept by the functions of a store to all histories (partial correctness, `Post`; total correctness is C15-C27); `Sep/Memory`: sizes and capacities of a bucket under insertion, erasure, shrinking. C87 is false for keys in `varwidth_bucket`, whose first block is computed with the key width (witness), C88 is false for `varwidth_bucket`, whose `resize` to the same size does nothing (witness), C89 is false: the arrays of buckets and sizes are missing (witness; `C89_memory_after_shrink` gives the memory used after `shrink_to_fit()` exactly), values in `varwidth_bucket` count as 8 bytes each (witness); proved: a lower and an upper bound |
| C91 | navigators as pairs of bucket and position, kept by the caller across calls (`Table/Stable`, `Props/Stable`); without overflow table, release build | `ins_same`: `find_or_insert` either leaves the table alone, appends to one bucket, or ends with more buckets (the recursion never returns to the old number); `insAll_same`: a rehash into the same number of buckets rebuilds every bucket in its old order; then the place of a quotient in the contents (`At`) is followed through every call, histories by induction. The condition on the number of buckets is needed: `C91_enlarging_moves` |
| C92, C93 | the bytes of a file as a specification of its own (`SepFile` in `Sep/Format`, `GrpFile` in `Group/Format`): header, bucket sizes, quotients and values as digits of a packed number, unary sizes for groups; it does not mention the memory of the buckets. Release builds only (a debug build of the group table writes more). | C92: the bytes written by each bucket class are related to the digits of the stored numbers (`ser_plain`, `ser_var`, `core_fmt`), `serialize_format` by induction over the buckets, `BorderRep.bits` for the unary part. C93: the format leaves the padding bits open; with formats without padding (`Fmt.Exact`) the bytes are unique (`SepFile.unique`). The negations are two runs with different contents of fresh memory. Group tables that never read a file are the subject of C98. |
| C94 | `deserialize` of `Sep/Serial` applied to arbitrary files that meet the specification `SepFile` of C92 (any padding bits). Release builds. | `deser_plain`, `deser_var`: reading the digits back; `deserBuckets_file` by induction over the buckets, `read_file`: the table read satisfies the invariant with the rows of the file. `C94_smaller_limit_not`: a file with a bucket of 255 entries and a reader with a smaller `SEPARATE_MAX_BUCKET_SIZE` gives a table whose next insertion writes out of bounds. |
| C95 | `serialize`/`deserialize` of the separate table in a debug build (`Sep/DebugSerial`): the members `m_length`/`m_size` of the buckets, the plain keys, the assertions of both functions. Without overflow table (with `array_overflow`: C114). | `dbgSerialize_ok`: induction over the buckets, invariant of C77; the number of restored elements is the length of the stored sequence. False with `arbitrary_resize` for tables without buckets: `C95_debug_empty_not` (reading allocates one bucket, the next insertion throws). |
| C96 | the functions of C95 and C32 on each other's files; `DbgOf` pairs the bucket classes of the two builds | every bucket class writes and reads a number of bytes that depends only on length and width (`FixedLen`), in a debug build more; sums over the buckets (`blockLen`) |
| C97 | `array_overflow::serialize`/`deserialize` (`Overflow/ArraySerial`); the old arrays are not freed by `deserialize`, which is not modelled. Release builds; the overflow table alone. | representation `ArrRep`; the arrays read have exactly `size()` entries, so the next insertion (`C97_array_insert_not`) and `find` of an absent key (`C97_array_find_not`) leave them, and `m_bucketfull` is not written (`C97_array_consult_not`). What remains true: `C97_array_serialize_partial`. |
| C98 | group tables without `deserialize` in their history; both implementations of `select64`. Release builds. | simulation: `Table/Simulate` shows that runs of two tables correspond if their storage functions do (`CfgSim.run`); `Group/Determinate` relates storages that agree on all allocated memory, starting from an environment in which accesses outside of allocated memory fail (`refCfg`; its runs succeed by the laws of the storage). The invariant behind it: a reallocation for another entry adds at most one word to an array (`CoreR`), and this word is set to zero (grp:177-180). |
| C99 | `grpDeserialize` of `Group/Serial` applied to arbitrary files that meet the specification `GrpFile` of C92 (any padding bits). Release builds, `dummy_overflow`. | `borderRead_bits` (words read from bytes), `rank_unaryTo` and `borderRep_of_bits` (bits in unary notation make a border on which `select` finds the ends of the buckets), `core_read` (packed digits), `grpDeserGroups_file` by induction over the blocks, `grp_read_file`: the table read satisfies the invariant with the rows of the file. |
| C100 | `serialize`/`deserialize` of the group table in a debug build (`Group/DebugSerial`): `m_width`, `m_length`, `m_blocksize`, the plain copies of the packed arrays, `m_border_array`, `m_groupsize`, `m_border_length` (uninitialised for a group that never had an entry, nevertheless written), `m_bucketsizes`, plain keys and values, all assertions of these functions. | `grpDbgSerialize_ok`: inductions over groups and buckets from the invariant of C81; the arrays read have no spare word, hence the invariant with `sp = false`, under which `eraseAt` may read one word behind an array (C58); `Group/DebugRelax`: an erasure that succeeds with these reads as faults does the same without. |
| C101 | the functions of C100 and C45 on each other's files | lengths: `groupBlocks_len` bounds a release file from its format (C92), `grpDbgRead_len` bounds what a successful debug read consumes from below (21 bytes per group, 4 per bucket, 16 per restored element, and the last assertion makes the number of restored elements that of the header). Counterexample by evaluation for the other direction. |
| C102 | `value_wrapper` (cmp:26-66) and `operator[]` (cmp:618-620): bucket and narrowed position, reading, assigning, comparing with a number | a bucket has at most 255 elements, so the narrowed position is the position, and the functions of the wrapper are those of the navigator; then the facts of C91 about navigators. Counterexample by evaluation for erasures. Not modelled: copying of wrappers (`map[a] = map[b]` does not compile, as the reference and constant members delete the copy assignment). |
| C103 | `Keysplit/Objects`: table objects at addresses, the pointers `m_maps` of each adapter, constructor, destructor (`delete` of a deleted table is a fault), calls through the pointers, generated copy functions (also used for `std::move` and `std::swap`, as the destructor suppresses the generated move functions). Not modelled: the memory inside a table (C61, C63, C69), `empty()` (would not compile). | invariant `KsOwn`: the pointers of all adapters are pairwise different and are exactly the addresses of the existing tables; calls change only tables of their adapter. False with copies: proved for every state reachable without copies (`C103_copy_double_delete`, `C103_copy_shares`, `C103_swap_dangles`), not by an example. |
| C104 | the functions `deserialize` of C32, C45, C95, C97, C100 applied to beginnings of files. A read that hits the end of the stream ends the model with the fault `uninit`; the code does not test the stream and goes on with the old contents of its variables, which is not modelled. | `Reader`: a function that reads from the front either hits the end or does the same if bytes are added at the end; this is preserved by sequencing and shown for every reading function; together with the round trips (a complete file is consumed exactly) a proper prefix can only hit the end. |
| C105 | `Table/Forward`: the loop with its three ways of going on after an erasure (`AfterErase`); `operator++` is applied to navigators behind the last element of a bucket. Without overflow table, release builds. | `forward_ok`: induction over the elements that are left, with the index of the navigator in the sequence of all pairs (`AtIdx`) and `next_at` for `++` from a place behind a bucket; the specification `forwardPairs` only knows the sequence of pairs and the bucket in which `find` finds a key. `C105_shorter_loops_not`: with a body that erases everything the two shorter loops leave elements, in all three tables. |
| C106 | `Overflow/Junk`: `array_overflow` where fresh memory holds numbers (`arrJunk`; in C51, C59, C65 an unwritten cell holds nothing and reading it is a fault). All arrays of keys hold the same numbers when they are allocated. | `arrIdeal`, an array that is used as it should be, satisfies the demands on overflow tables (`lawful_ideal`), so the refinement of the tables applies to it. `Table/Agree`: a table whose overflow table agrees with a correct one on the keys in use does the same as the correct table in every call but `erase` and `clear` (`run_withOv`; induction over the recursion of `find_or_insert` through rehashes, where the keys moved are keys in use by the invariant). `junk_agree`: the array of the library agrees for keys that are not junk. False in general: `C106_junk_key_false`, `C106_erase_false`, by evaluation. |
| C107 C108 | `Overflow/MapDebug`: `map_overflow` with its assertions, together with those of the tables that directly follow an insertion into it; `Table/SetOv`: the debug tables of C77, C81 with this overflow table. Assumed of `std::unordered_map`: `reserve(n)` provides at least `n` buckets (`roomy`; asserted in overflow.hpp:254). `deserialize`: C131, C132 (release builds: C119). | `lawful_map_dbg`: the representation of C50 (each bucket of the `unordered_map` holds at most one element) implies every assertion; the demands on overflow tables only ask for values that are stored alike in buckets, so the refinement proof of C77, C81 applies (`Laws.setOv`). C108: the navigator that `operator[]` gives points into a bucket, where `write_value` throws, or into the overflow table. `C108_spilled_false`: by evaluation. |
| C109 | `Sep/SerialOv`: `serialize`/`deserialize` of `separate_chaining_table` with `array_overflow` (sep:790-850 without the debug parts); `resize_buckets`, which `reserve` calls before the buckets are read, is executed last, which makes no difference. | `bare_file`: the part behind the overflow table is read as with `dummy_overflow` (`serialize_rep`), so the table read, if it had the overflow table of the one written, satisfies the invariant for the idealised array of C106; `OvAlike.lookup`: `find` gives the same on overflow tables that look alike to the search of this key; `read_alike`: the array read looks like the idealised one if the key is in it, or if it is empty or full. `C109_read_back_find_false`, for all histories: otherwise the scan leaves the array. |
| C110 | `Table/BidiDebug`: the navigators of `Table/Iter` with their assertions, `operator*` and `operator->` of iterators (iterator.hpp:168-176). Tables without overflow table. | the specification is a walk over the indices of the list of pairs (`Seq.walk`, `Seq.iwalk`); induction over the steps with the places of C66 (`AtPlace`). |
| C111 | no new model code; the specification is arithmetic on `bucket_count()` and the arguments of `reserve` (`ReserveAtMost`). | `Table/Buckets`: induction over the history; each call changes the number of buckets by at most what C25 says, `reserve` may also reduce it. |
| C112 | no new model code; sizes follow from the format of C92, not from the code that writes it. | `blocks_size`, `blocks_cost`, `groupBlocks_cost`: induction over the blocks. `C112_full_domain`: by C111 there are at most `2^(w-7)` buckets, by the limit of 255 entries at least as many, and then each bucket must have exactly its 128 keys (`all_eq_of_sum`). |
| C113 | `Overflow/ArrayDebug`: `array_overflow` with its assertions, those of `plain_bucket`, and those of the tables that directly follow an insertion into it; `m_length` of the two arrays is computed from the arrays, as it is assigned wherever they are allocated or freed. | `lawful_ideal_dbg`: `arrIdeal` with the assertions satisfies the demands on overflow tables and no assertion fails; `OvAgree.dbg`: the assertions preserve agreement of two overflow tables; then as C106, with the debug tables of C77 and C81 (`Laws.setOv`). Witnesses for the false part. |
| C114 | `Sep/DebugSerialOv`: `serialize`/`deserialize` of `separate_chaining_table` with `array_overflow` in a debug build; `resize_buckets` is executed last, as in C109. | `dbg_arr_bare`: without the overflow table and its elements the table is one of C95; the bytes differ only in the number of elements (`dbgSer_elems`), and a file with another number of elements fails the last assertion of `deserialize` (`dbgDeser_elems`). |
| C115 | `Group/SerialOv`: `serialize`/`deserialize` of `group_chaining_table` with `array_overflow`; `resize_buckets` is executed last, as in C109. | `grp_bare_file`: without the overflow table the file is one of C45, whatever the number of elements; reading it restores all groups, and the overflow table is the one of C97. `C115_group_find_false`: the arrays are allocated with as many cells as there are elements, but `find` scans 256 cells. `C115_file_ex`: a table with 256 keys of one group; that its overflow table is in use is proved, not evaluated (`group_spill`: a group holds at most 255 elements; `arr_inserts_keep`: insertions do not rehash while the overflow table has room). |
| C116 | the tables of C15, C37, C43 without overflow table | `HashKind.coarse`: keys that fall into the same of `2^s` buckets do so with fewer buckets; a bucket (a group) holds at most `max_bucket_size()` (255) elements, so there must be more buckets (`Sem.crowd`, from the invariant). `HashKind.collide`: by the inverse of the hash function (C01, C02) there are `2^(w-s)` such keys. The upper bound is C111. |
| C117 | `array_overflow` in the heap of `Own/Heap` (`Own/Ao`): two pointers and `m_elements`; generated destructor, move constructor and move assignment, `std::swap` as three moves; `.new` is the object before the body of the constructor, `renew` is `x = array_overflow(…)`. Fresh blocks have arbitrary contents. Not modelled: `m_bucketfull` | as C75: `ObjLaws` for one object and any rest of the heap, then induction over the program; values are lists of pairs with the number of cells (`Spec/AoSpec`). Negations: evaluation of the model on witnesses (leak of `deserialize`, objects that were moved from or cleared) |
| C118 | `Table/Files`: the objects of C86 and the bytes of each stream; `serialize` appends, `deserialize` reads from the front and replaces `m_hash`. Release builds, `dummy_overflow`. `compact_chaining_map` has no `serialize`. | specification `Spec/Files`: finite maps with widths and queues of them, and which objects exist. `Queue`: the bytes of a stream are the concatenation of files, each of which can be read into any object whatever follows (C32, C45); induction over programs. Tables that were read may have less memory than their resize strategy gives, so the class is that of C32 and not that of C86 (`classy_sep_read`, `classy_grp_read`). |
| C119 | `Overflow/MapSerial`: `map_overflow::serialize`/`deserialize` (overflow.hpp:211-231) and the functions of both tables that call them; the order of iteration and the bytes at an address, or that reading there ends the process, are parameters (`MapFileEnv`). `resize_buckets` is executed last, as in C109. Release builds. | `sep_map_file`, `grp_map_file`: an empty overflow table is eight bytes, the rest is a file of C32 or C45, and any empty overflow table can be put into the table read, whatever its bits are. False otherwise: `spilled_write` overwrites the value of an element in the overflow table, which changes `find` but neither keys nor order, so not the file (`MapOv.serialize_congr`); for all reachable tables, witness for the separate table by evaluation, for the group table by proof (`map_spill_ex`). |
| C120 | `Table/Cost`: `find_or_insert`, `reserve`, the loops that move buckets and overflow table, and all calls by a user, each with a counter that `find_or_insert` increments. The time of one execution (search in a bucket, `realloc`) is not modelled. | `findOrInsertC_forget`, `runC_forget`: for all inputs, also faulty ones, the functions without counter are those of `Table/Tab` and `Table/Run`. `ins_cost` (induction over the depth of the recursion): one insertion into a table with `n` pairs costs at most 1 plus `n + 1` for each doubling; `insAllC` for a rehash, whose insertions may rehash again. `run_cost`: potential method, the potential is the number of bits of the table times the number of insertions since `clear`. |
| C121 | `separate_chaining_table` as in C15, with `maxBucket` (`SEPARATE_MAX_BUCKET_SIZE`) from 1 on; the debug build as in C77. Not covered: `varwidth_bucket` for keys (broadword search with width 0), SplitMix (would need up to 2^64 buckets), 64-bit keys. | `Table/Pad`: a table does the same as one (`Cfg.pad`) whose quotients have at least one bit, as long as assertions are off (`run_pad`); key buckets with cells of a fixed type ignore the width (`via_qw`), so the laws of the store apply; with as many buckets as keys the bijection puts at most one key into each (`bij_bucket_bound`). Witness for debug builds by evaluation. |
| C122 | tables with `map_overflow` as in C50; the navigator of a key is what `find` returns | `Table/StableOv`: an invariant about places (`KeepQ` for buckets, `KeepO` for the overflow table) under each call; the law of insertion into an overflow table says that the stored triples of position, key and value stay, and `steady_map` that erasing changes no other position (the number of buckets of the `std::unordered_map` stays, and it never rehashes, because an element is inserted into an empty bucket only). Witness for `reserve` by evaluation. |
| C123 | `separate_chaining_table` and `compact_chaining_map` as in C15 and C37, without overflow table | `Table/Tight`: `find_or_insert` and the rehashes it causes (induction over their depth) enlarge the table only if more than `max_bucket_size()` keys fall into one bucket (`ins_tight`). `Table/Bits`: the specification `BitsAfter` speaks of the keys stored and the hash function only and determines the number (`BitsAfter.unique`); `run_bits` is the induction over the history; that a smaller table would be too small follows because keys that share a bucket share it in every smaller table (`Coarse`). `BucketsSpec.order`: the order of insertions is irrelevant. |
| C124 | `separate_chaining_table` with `map_overflow` as in C50, beside the same table without | `run_bits_ov`: simultaneous induction over both tables; with overflow table, too, only a crowded bucket enlarges the table, and the table without has no crowded bucket. |
| C125 | `group_chaining_table` as in C43, without overflow table | `Table/TightG`: as `Table/Tight`, but for the group that is full (`Grouped`: a full group has 255 keys in its existing buckets, no group has more); a table is rebuilt only if a group is crowded (`ins_tightG`). `Table/BitsG`: the specification `GroupAfter` describes both numbers by the keys stored and the hash function and determines them (`GroupAfter.unique`); `run_group` is the induction over the history. That a smaller table would be too small uses that 64 is a power of two (`UncrowdedG.mono`); the size 3 of the first groups is not, so crowdedness of these is only tested at the current number of buckets, as the code does. |
| C126 | `Sep/SizeOv`: `map_overflow::size_in_bytes` (`bit_size()` of the external bit vector is any function not below its length) and its use in `size_in_bytes()` of `separate_chaining_table`; tables with `map_overflow` as in C50 | `sep_ov_occupancy`: from the invariant of C50, bucket sizes and overflow table add up to `size()`, and the map has a bucket for each of its elements (`MapRep.length_le`); then the sums are bounded bucket by bucket. |
| C127 | `map_overflow::deserialize` of `Overflow/MapSerial` on files of the intended format (`mapFile`, independent of `serialize`, which does not write them) | `readPairs_ok`: induction over the pairs of the file; a stored key is found iff it is the first of its bucket (`head_alone`, `find_stored`). False: `C127_overflow_file_false`, a valid overflow table whose two elements share a bucket after reading. |
| C128 | `group_chaining_table` with `map_overflow` as in C50, beside the same table without | `run_group_ov`: simultaneous induction over both tables with the invariant `Behind` about numbers of buckets and sizes of groups; also with overflow table only a crowded group enlarges the table (`ins_tightG`), and the table without has no crowded group. |
| C129 | `capacity()` and `max_size()` of tables with `map_overflow`, as in C27, C72 and C50 | false: `C129_overflow_capacity_false` (five insertions).  The partial theorems follow from `sep_ov_occupancy` and, for groups, `grp_sizes`: every pair is in exactly one of the buckets or groups and the overflow table. |
| C130 | `Sep/SizeOv`: `array_overflow::size_in_bytes` (release builds) and its use in `size_in_bytes()` of `separate_chaining_table`; tables with `array_overflow` on junk memory as in C106 | `sep_arr_occupancy` from the invariant of C106 (`live_occupancy`, shared with C126), then the bounds of `size_core`. |
| C131 | `Sep/DebugSerialMap`: `serialize`/`deserialize` of `separate_chaining_table` with `map_overflow` in a debug build; memory at the addresses given by keys as in C119 (`MapFileEnv`); `resize_buckets` is executed last, as in C109. | `setOv_bare`, `setOv_dress`: without the overflow table and its elements the table is one of C95, and an empty overflow table can be put back; further calls by the refinement of C107. `C131_debug_read_false`: reading takes exactly the bytes written for the overflow table if keys and values are equally wide (`MapOv.serialize_consumed`), and a file with another number of elements fails the last assertion (`dbgDeser_elems`). `C131_debug_foreign_memory_false`: as in C119. |
| C132 | `Group/DebugSerialMap`: `serialize`/`deserialize` of `group_chaining_table` with `map_overflow` in a debug build; memory at the addresses given by keys as in C119 (`MapFileEnv`); `resize_buckets` is executed last, as in C115. | As for C131, with the round trip of C100. `C132_group_debug_read_false`: `grpDbgRead_exc`, all assertions but the last one hold when a file with another number of elements is read. The witness `C132_group_debug_file_false` is reasoned about: 256 keys of one group cannot all be in it (`group_crowd_gen`), and the table does not grow as long as the overflow table is empty (`map_inserts_keep`). |
| C133 | the debug builds of C77, C79, C81 and, with `map_overflow`, of C107 (`Props/DebugStable`); specifications `StableSpec` and `StableOvSpec` of C91, C122 | the generic proofs of C91 and C122 need only the laws of the table, which C77, C79, C81, C107 establish for debug builds; `steady_map_dbg`: the assertion of `erase` in the overflow table holds and nothing else moves. |
| C134 | the debug builds of C77, C79, C81 and the loops of C73, C74, C105 (`Props/DebugSweep`) | the generic proofs about the loops ask only that the values assigned can be stored (`ActFits`); `Table/LoopFit`: a loop depends on its body only for the visited pairs (`sweep_congr`, `forward_congr`, `update_congr`), so that a body which fits for the elements of the table can be replaced by one that always fits (`clip`). |
| C135 | `Props/OverflowLoops`: `begin()` and `rbegin_nav()` of `group_chaining_table` with an overflow table as they are written (`grpBeginOv`, `grpRbeginOv`; in debug builds of this table the equivalent loop over the buckets); the tables with `map_overflow` of C50 and C107; the assertions of `next_position` and `previous_position` are implied by the tests before the calls (see the file) | the proofs of C52 and C64 need only that positions are found as by `mapOverflow` (`SameMoves`); `Inv.grpBeginOv`: the loop over the groups gives the navigator of the loop over the buckets. |
| C136 | the loop of C74 (`Tab.update`) on the tables with `map_overflow` of C50 and C107; specification `UpdateOvSpec` in `Table/UpdateOv` | `update_ok_over` (induction over the rest of the loop in the buckets; writing there leaves the overflow table alone) and `update_over` (in the overflow table; a write keeps the positions, `OvWalk.rest`); the contents are followed as a finite map (`FMap.putAll`). For group tables the theorem also says that the loop over the groups in `begin()` gives the same start. |
| C137 | loops (`Tab.pairs`, `Tab.pairsBack`; `begin()` and `rbegin_nav()` of `group_chaining_table` as written, in release builds) on the tables with `array_overflow` of C106 and C113; the assertions of `next_position` and `previous_position` are not modelled, they hold by the argument in `Props/ArrayLoops` | `Inv.pairs_first`: the first position is always 0, so the walk through the overflow table is complete; the functions used by the loops are the same in the model with fresh memory and in the ideal array (`OvAgree`), lifted by `pairs_withOv`; the backward loop starts at an invalid navigator |
| C138 | the loop of C74 (`Tab.update`) on the tables with `array_overflow` of C106 and C113; specification `UpdateArrSpec` in `Props/ArrayUpdate` | `Inv.update_first` from the induction of C136 (`update_over`), with a complete walk through the overflow table; `update_withOv` carries the loop over from the ideal array to the array on fresh memory, and keeps the invariant of the latter for the calls that follow |
| C139 | the tables with `array_overflow` of C106 and C113; the navigator of a key is what `find` returns, as in C122; specification `StableArrSpec` in `Props/ArrayStable`. Erasures are not covered, as C106 and C113 exclude them. | the places of C122 (`Table/StableOv`) are followed in the table with the ideal array; `placed_withOv` and `run_same` carry the result over to the array on fresh memory |
| C140 | the objects and programs of C86 with the debug builds of C77, C79 and C81 (`Props/DebugSeveral`); the additional members are part of the store and move with it. Contents only, without overflow table. | values must fit the width of the table, so the arguments allowed depend on both widths (`Tables.ValidArgs`); induction over programs as in C86, the calls by the refinement of single calls, everything else by the lemma of C86 (`TObjs.cmd_ok`) |
