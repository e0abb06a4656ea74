# Formal model of CommonC: design

Source: `/repo/CommonC` (C).  Model and proofs: `/verif/lean/Verif/*.lean` (Lean 4.33.0, core + single Mathlib modules).
Nothing in `/repo` was built or run; the model was written by reading the text.

## 1. Trusted base

* Lean's kernel (and the elaborator only in so far as it produces the statement one reads).
* Axioms: every property theorem depends at most on `propext`, `Classical.choice`, `Quot.sound`
  (each `Verif/Prop*.lean` file ends with `#print axioms`).  No own axioms, no `sorry`, no `native_decide`, no `bv_decide`.
* The model's fidelity: each definition cites the file and lines of the C function it models.  The translation itself is by hand
  and is trusted.
* The C semantics we assume: LP64 target (`size_t`, `uintptr_t` 64 bit), little endian for the bit sets, two's complement,
  atomics are sequentially consistent.  The library mostly uses `memory_order_relaxed/acquire/release`;
  weak-memory reorderings are **not** modelled.
* `size_t` counters that count objects in memory are modelled as `Nat` (no machine can hold 2^64 of them); everything whose
  meaning is about bits or wrap-around (bit tricks, hashes, generators, tagged values, carries, 32-bit pool counters)
  uses `BitVec`/explicit modulus.

## 2. Modelling conventions

* Element payloads are an arbitrary type `α`; memory blocks are lists of cells `Option α` (`none` = uninitialised), so reading
  uninitialised memory or leaving the block is visible as failure.
* Sequential functions are total Lean functions; C undefined behaviour / failed assertion is a distinct outcome (`none`
  or a constructor `ub`), never silently totalised.
* Allocation failure, where the code handles it, is an explicit Boolean input chosen by the environment.
* Concurrent code: a state machine whose transitions are the individual atomic operations; threads are arbitrary
  (indexed by `Nat`), schedules arbitrary: properties are proved for every reachable state by invariants.
* Disagreements: where the code violates the property in `properties.jsonl`, there is a theorem `..._refuted` giving a concrete witness run of
  the model, and the strongest true part is proved as `..._partial`.

## 3. Plan per property

| id | model | proof |
|----|-------|-------|
| C01-C03 | `Array.c` with block capacity, chunk size, failing reallocations | refinement to `List α`; invariant count/capacity; failure branch leaves state equal |
| C04 | `List.c`: list of pages, each a `CCArray` | refinement to flattened list; invariant "all pages but last full"; append-many refuted |
| C05, C06 | `LinkedList.c` over a heap of nodes, `Queue.c` on top | representation predicate heap/chain, refinement to lists |
| C07-C11 | `HashMapSeparateChainingArray.c` buckets of slots | abs map refinement, codec arithmetic on `BitVec`/`Nat` |
| C12-C14 | atomic-step machines | ownership invariants over all interleavings |
| C15-C20 | atomic-step machines of the templates and collectors | inductive invariants, history variables |
| C21 | `BitTricks.h` on `BitVec 64` | bit-level specification (`getLsbD`), popcount by arithmetic |
| C22-C24 | `BitsTemplate.h` over byte lists | pointwise bit specification; refutations by witnesses |
| C25 | enumerator state machines | index induction |
| C26 | `Random.c` on `BitVec 32` | injectivity by triangular xor argument; range by integer arithmetic |
| C27 | `Hash.c` loops over chunks | chunk decomposition lemma |
| C28-C30 | `BigInt.c`, `BigIntFast.h` on lists of `Nat < 2^64` / `BitVec 64` | value function, carry induction; refutations |
| C31 | `Decimal.h` with explicit mod 2^64 / 2^128 | loop invariants; saturation refuted |
| C32, C33 | `Data.c` | chunk induction; hash cache machine, refuted for unmap |
| C34, C35 | `Task.c`, `TaskQueue.c` machines | invariants |
| C36-C38 | allocators | invariants over histories |
| C39-C41 | collections and dictionary | refinement, ghost destructor log |
| C42 | `ConcurrentIndexMap.c` sequential | refinement |
| C43 | shared resource machine | invariant |
| C44, C45 | numeric helpers, `Swap.h` | direct |
| C46 | `BitTricks.h` float test on IEEE bit patterns | value of the pattern as a rational, case split on exponent and fraction |
| C47 | `BitsTemplate.h` listing of common bits | pointwise specification; refutations |
| C48 | `BigIntFast.h` arithmetic on tagged words | values of both representations, per overload |
| C49 | idle bookkeeping of `TaskQueue.c` | invariant of the atomic-step machine |
| C50 | `Alignment.h` `CC_ALIGN` on `BitVec 64` | arithmetic modulo a power of two |
| C51 | `MemoryZone.h` byte lookup | induction over the chain of blocks |
| C52 | `UTF8` functions of `CCString.c` | codec round trip over all Unicode scalar values |
| C53 | tagged 64-bit strings of `CCString.c` | positional arithmetic of the packed word |
| C54-C58 | `CCString.c`, `CCStringEnumerator.h` over a memory of buffers | value function of strings, refinement to lists of characters; refutations |
| C59 | zone enumerable of `MemoryZone.c` | invariant of the cached batch against the list of items; refutations |
| C60 | `HeapAlloc`: a `malloc` block is an address and its bytes; accesses outside it are undefined behaviour; `realloc` may move or fail as the environment says | simulation of the client's byte list over all histories |
| C61 | `ZoneAlloc`: the zone of C37 with the bytes of its blocks; `memcpy` is undefined when it leaves a block or overlaps | reachable zones, exact domain of definedness |
| C62 | `HashLayout`: hash words, keys and values in arrays of their own (or keys with values), bucket arrays NULL until used; every function of the interface | refinement: a view of the plain map as split map commutes with every function, with no hypotheses |
| C63 | `FileHandle`: a stream is its bytes and a position, `fseek` fails outside `long`, the loops run on fuel and "returns" means for all sufficient fuel | refinement to a byte list over all histories, exact result of insertion, divergence |
| C64 | `VirtualFile`: the handle code over the array model of C01-C03, so that assertions and accesses outside the array are outcomes; many handles, one file | refinement to a byte list with one offset per handle |
| C65 | `VirtualLock`: the 32-bit lock word, threads that read or write arbitrary data in any number of steps | inductive invariant over interleavings, variant for deadlock freedom |
| C66 | `Path`: the reader as state machine over the characters with the look back of the code, out of bounds as an outcome; `PathSpec`: the grammar of well formed component lists and a segment wise reading | `parse_eq`: the state machine equals the segment wise reading for every text; everything else follows from it |
| C67 | `PathText`: size computation, writing loop and offsets, strings kept until a change, identities of allocations | size bound by induction, freshness invariant over call sequences, witnesses |
| C68 | `PathMatch`: components with address and bytes of their names, option word as bit vector, `tolower` partial | exact characterisation against `Agree`, symmetry, reflexivity, witnesses; bit lemmas for the tagged pointer |
| C69 | `DefaultPath`: any number of threads, one step per shared access | invariant over schedules; schedules built by induction on the number of threads |
| C70 | `VirtualTree`: the tree, the walk along a path with its stack of 128 entries, undefined steps as `none` | refinement of a function from locations to entries; invariant of the stack over the walk; induction over histories |
| C71 | `FileCopy` (system files over the handle model of C63), `VirtualCopy` (over the tree of C70): open, read, create, write | induction over the blocks; case analysis of the destination; `C71_over` ties the bytes to the handle model of C64 |
| C72 | `VirtualCopy`: listing, the recursion over children with fuel for its depth | induction over the depth, inner invariant over the names copied so far |
| C73 | `VirtualList` on the tree of C70: the loop over the keys, the recursion with fuel for its depth, the filters; the answer of `FSPathMatch` is a parameter | induction over the depth, inner induction over the names; the list is compared with a set of paths, and `Nodup` |
| C74 | `Rle`: writer and reader over a list of bytes, undefined shifts and missing input as `none` | the calls are taken apart into bytes; the reader is related to the writer by the length the pending run will have |
| C75 | `VarInt`: the byte loops of both codecs over lists of bytes, the masks as `UInt8` operations; a buffer overflow or an assertion as `none` | a simulation between the two loops: the reader holds the bytes with the carried bits of the last one missing; per byte facts for all 256 bytes |
| C76 | `Reflect`: memory as bytes by address, types by number, recursion with fuel, `oom`, `fault` and `loop` as outcomes | induction over the data as an inductive predicate; a frame condition (`Put`) carried through the loops over fields and elements |
| C77 | the same, `copy` with the list of retained pointers | the same induction, with the original data kept apart from the destination |
| C78 | the same, `check` mutually with `copy` | decision logic, the copy by C77 |
| C79 | `Limit`: bytes with the index arithmetic of `size_t`, the comparison of floats as a parameter | induction over the bytes from the highest; two's complement by weights |
| C80 | `Vec`: vectors over any arithmetic (a class of operations without laws), each function at each level of instructions, the intrinsics lane by lane | equality of terms, laws as hypotheses; refutations in a 24 bit rounding arithmetic |
| C81 | the same at the real numbers | reduction to Mathlib's `EuclideanSpace`, `crossProduct` |
| C82 | `Ulps`: floats as their 32 bits, comparisons by sign and magnitude | order of the bit patterns against stepping with `nextafter` |
| C83 | `Mat4`: matrices by columns, at the real numbers | Mathlib's `Matrix`, `linear_combination`, Rodrigues' formula |
| C84 | `TypeGraph`: descriptors as a graph, the writer with its list of numbered types, the reader with its zone and list of types | one induction on the number of types not yet numbered, writer and reader side by side; bytes of lookup IDs exhaustively |
| C85 | `LogFormat`: the scanner state by state, overflow of `int` undefined | the grammar of specifiers, one lemma for each part, any text after it |
| C86 | `LogFormat`: the digits, `#` by the bit tricks of C21, padding twenty at a time | value and length of binary digits; padding by strong induction |
| C87 | `LogMsg`: memory of the message, size and length as the code keeps them | representation of a text, induction on operations |
| C88 | `LogMsg`: prefix, the loop over specifiers, filters as functions; `vsnprintf` a parameter with a law | format as a list of pieces, induction on the pieces |
| C89 | `ConcIndexMap`: one step per atomic operation, data numbered, collector as its contract, ghost sequence of changes | invariant over all steps; a copy is right as long as `mutate` is unchanged and no change is half done; changes counted once |
| C90 | `MemTemplate`: the byte loops of the templates over cells, with `size_t` wrap-around, on memory and on the data objects of C32 | a loop of stores is determined by the last store to each place; the mapped part of the ring contains every byte accessed |
| C91 | `TypeKeys`: the hashers and comparators of `TypeCallbacks.c` over the models of C28, C30, C54 | equal comparisons mean equal representations or equal numbers; the two's complement trick is the absolute value |
| C92 | `HashCache`: one step per access to the lock or the dictionary, the dictionary as a finite map whose values may move | invariant: lock = readers − 2³¹·writers, at most one writer and then no reader inside |
| C93 | `SimdShuffle`: every case of the ARM swizzle, interleave and merge tables as an expression over lane moving instructions, and the general paths | lane moves are natural in the lane values, so a table entry is checked once on lane numbers by kernel evaluation and holds for all values; the general paths by induction over lists |
| C94 | `SimdLane`: one lane as a bit vector of width 8, 16, 32 or 64, with the shifts as partial functions; the 64-bit leading zeros on the whole vector | bit positions: smearing doubles the run below the highest one; Gray code injectivity for `CCSimdHighestSet`; sums of bytes for the count of ones; uniqueness of the count of leading zeros |
| C95 | `SimdHoriz`: the tables of two lanes and the merging of 4 and 8 lanes over the operations of C93, a shift by too many bits as undefined behaviour | every merge is a vector of lanes gated by a bit of the mask; sums over lane numbers, shifted by the first selected lane for subtractions |
| C96 | `DebugAlloc`: threads as program counters over the context, the index maps and the heap, with the address the C library gives as a choice; the dump as nested lists of keys and values | one invariant per thread about the addresses its call is about, framed by the disjointness of those addresses; a count of entries against allocations begun |
| C97 | `LastComp`: the two backward loops over distances from the start of the path, negative before it | every path is separators only or a last component with what is around it; the loops run over a stretch of characters |
| C98 | `InputFilter`: the logger and the filter calling each other, with the depth of calls as fuel, running out as an outcome | removals shorten the name; a cancelled message prints nothing; with an empty path every depth is exceeded |
| C99 | `PtrMap`: the buffer holds addresses of counted elements; collector as a set of items freed in any order between calls; outcomes of allocations as input | the count of an element is the number of places that hold it (buffers not freed, items of the collector); each loop changes the counts by the pointers it goes over |
| C100 | `Mapped`: the arrays that the mappers hand to the stream, the stream number by number (C75), the unmappers | mapping shifts by one bit and unmapping shifts back; the numbers of an array of given length determine it |
| C101 | `CopyCont`: objects with counts; copying by recursion on the type, the handlers of opaque types inlined | the counts of all objects change by what the copy holds less what is destroyed, by induction on the type; contents are kept by all additions to memory |
| C102 | `AllocDispatch`: raw blocks with the family of functions that made them, byte by byte with the headers and what the custom, callback and static allocators store in front; the table, groups, the client's pointers | an invariant that ties each object to its block (family, header, front, bytes), preserved by every call |
| C103 | `ReadEnum.lean` on top of the zone (C37) and its enumerable (C59): reading elements one by one with the state saved and restored around each, the enumerable made from the place reached before, the loop of the unmappers; what reading an element does is any list of allocations and paired saves and restores | a frame leaves the blocks as they were or adds one empty block (`Ext`, `Framed`); the blocks after reading are whole numbers of elements with at most the newest one empty (`Lay`); the cursor keeps the list of the elements still to come (`At`, `fut`) |
| C104 | `StreamCont.lean`: writing data with containers as tokens and reading it back, on the memory of `CopyCont.lean` | induction on the type; what was read does not change when memory is added; loops over elements by induction |
| C105 | `MapStream.lean`: the hash map enumerators, writing a map as two enumerables and filling a new map from two enumerables, on the map of `HashMap.lean` | the enumerators walk the live places in order (C11's lemmas); filling is a history of edits, so the invariant of C07 gives the new map |
| C106 | `ImplChoice`: the linked list of implementations (on the heap of `LinkedList`), registering and deregistering with static nodes, the loop choosing the greatest weight, the weight function with checked `int` arithmetic | the chain of nodes stands for the list of registrations (invariant over histories, from the linked list lemmas); the loop picks the first maximum; popcount = number of common bits |
| C107 | the same, with the tables of the array, the list and the hash map | weights as linear functions of the hint bits; the difference has a sign decided by four bits; a witness for the overlap of constants |
| C108 | `ListEnum.lean`: the enumerables of linked lists and queues over the node heap of `LinkedList.lean` | the pointer is at a position of the chain and the remembered last node is absent or right; by induction over the calls |
| C109 | `GCDestroy.lean`: the destructors of both collectors on top of `EpochGC.lean` and `LazyGC.lean`; the states of threads kept under the key | the counting invariant of C18 and C19: an item is in one place, and no thread holds any; induction over the events of the key |
| C110 | `GCNested.lean`: the lazy collector in one thread with its nodes, sections may contain sections | chain of the thread's own nodes going down; lost nodes are led to only by lost nodes, which every call preserves |
| C111 | `TaskOwn.lean`: reference counts of tasks and queue nodes through push, pop, reclaiming and destruction | counts equal the number of owners (user, nodes, last task); lists of freed blocks and blocks in use add up to all blocks |
| C112 | `TaskLife.lean`: task, input and output blocks in a memory with other blocks, and failing allocations | the task's blocks are above everything in use and distinct; every function keeps this |
| C113 | `CustomFmt`: the array specifier as a filter of `LogMsg`, `snprintf` of one element a parameter, `NULL` as a buffer a fault | reading by C85, the loop by induction on the elements still to print, composed by C88 |
| C114 | `CustomFmt`: deletion, strings and characters as filters | one lemma for each; filters decline each other's specifiers |
| C115 | `BigIntStr`: the string operands of big integers and fast big integers, the text, sign and copy of fast ones | composition of C29 (text names one normal form) with C28, C30 and C48 |
| C116 | `BigIntAlias`: addition, subtraction, comparison and assignment of an integer with itself, on one shared list | the in-place loops equal the loops on two lists (induction over the components); assignment characterised exactly |
| C117 | `ListMem.lean`: the blocks held by a CCList (list, page arrays, page nodes) next to the list of `PList.lean`; giving back a block not held is a fault | invariant: held blocks are a permutation of the reachable and the lost ones; number of pages from the number of elements; refutation and exact count of losses |
| C118 | `PListFail.lean`: `CCListAppendElement(s)` with an environment that grants or refuses each request, and the rollback | loop induction with failure outcome, pages up to a full page are never touched, rollback restores the old last page; an empty trailing page makes every removal fault |
| C119 | `PrintInt.lean`: byte positions in `size_t` arithmetic, the word filled byte by byte in the order of the machine, `%jd`, `%ju`, `%.2hhx` | the filled word is the bytes followed by copies of the sign, case split on the 8 sizes, digits read back; refutation for every size below 8 on big endian machines |
| C120 | `PrintData.lean`: `CCReflectDetailedPrint` over type trees with an environment for the targets of pointers, memory as a partial function, `ShouldIndent` as state | unambiguity: equal texts followed by delimiters come from equal data (mutual induction over types and fields, induction over levels); converse likewise; a brace walk |
| C121 | `PrintType.lean`: `CCReflectTypeName` and `CCReflectDetailedPrintType` over a table of types, run with fuel | fuel monotonicity; lexicographic induction on levels left and a rank; an infinite chain of parts uses up every fuel; a decoder of integer names; the brace walk of C120 |
| C122 | `Verif/KnownVal.lean`: the chain of conditions and the cases of the switch made by the macros, over any list of values; `strncmp` with names; the lists of the library; descriptors of opaque types as members by name, copied member by member | the number written is the first index, the case taken the same index if it fits; `strncmp` is 0 exactly if one string is a start of the other; member by member for the descriptors |
| C123 | `Trig.lean`: one lane as a real number with exact operations; the reduction of the argument, the signs, the masks and the constants of SimdFallbackTrig.h | Taylor polynomials of the cosine above and below it in turn (induction, derivatives); a polynomial close to the arc tangent; polynomial inequalities by nonnegative coefficients on parts of the interval (`TrigCert.lean`, generated); whole numbers of half turns |
| C124 | `Expo.lean`: one lane as a real number with exact operations; floats made from bits and taken apart into exponent and fraction; the polynomials of SimdFallbackTrig.h 238-318 and 473-678 | Taylor polynomials of the exponential on both sides of it (induction, derivatives); polynomials close to logarithm and arc sine; polynomial inequalities by nonnegative coefficients on parts of the interval (`ExpoCert.lean`, generated); bounds of ln 2 |
| C125 | `CircWeak`: the circular buffer with its memory orders; histories of the stores to head and tail, views, happens-before stamps, races recorded; loads of items that may be carried out late | invariants over all steps for orders as parameters; the orders of the file and the repaired ones as instances; witness executions for the race and the late read |
| C126 | `SwapWeak`: the swap buffer with its memory orders; the modification order of `index` with stores and exchanges taking any place coherence and atomicity allow | invariant: a store with the flag is followed only by exchanges, so every exchange and store lands at the end; the three buffers stay distinct; stamps for the races; witnesses |
| C127 | `HashFail`: `AddValue` of the three hash map layouts with each allocation allowed to fail | the plain map by cases; for the data oriented ones a relation `Keeps` (every filled cell of another key stays) closed under each call, induction over the calls; witnesses by evaluation |
| C128 | the models of C12, C13, C15 and C16 | executions through which a thread stays in its call (`During`); a number that goes down with each of its steps, and a step always being possible |
| C129 | the model of C89 (`ConcIndexMap`) | a number for each place of a thread that goes down with each of its steps (`within_of'`); for what waits, `modify` counts the threads between its increment and decrement (invariant of C89), so the exchange of `pointer` fails |
| C130 | the model of C43 (`SharedRes`) | `Get`: a number that goes down with each step.  `Set` alone: by the accounts of C43 each thread and `current` keep at most one node in use, so one of more than `n` nodes is free; the distance to it goes down.  Refuted: two executions, one of them for all `Tmax` |
| C131 | the model of C20 (`ConcQueue`) | as long as no push or pop takes effect `head` and `tail` stay the same; a number that depends on whether what the thread has loaded is still there goes down with each of its steps |
| C132 | `EpochGC.lean`, `LazyGC.lean` with the rounds of the exchange loops added back by `LockFree.lean` (a number of changes for each shared pair; a thread that has loaded one remembers the number; an exchange fails only if it differs) | potential: (2n+3) times the moves each thread still makes while the epoch stays, plus at most 2 for its rounds; every step in which no call returns lowers it |
| C133 | `TaskWeak.lean`: stores to the state of a task in their order, each carrying the runs it makes known; exchanges read the last store, loads any store not older than the last one seen; memory orders are parameters. The default queue likewise | invariant by induction over the steps; counterexample executions with two threads |
| C134 | `HandoverWeak.lean`: one atomic variable each (count, flag, lock word) whose stores carry what they make known; read-modify-writes see the last store and hand on what it carries; the loads of a waiting reader see any store not older than its own; memory orders are parameters | invariants by induction over the steps for the orders of the code; a counterexample execution for each order left out |
| C135 | `GCWeak.lean`: the lazy collector as exchanges of one pair, and a happens-before overlay on the steps of `EpochGC.lean`; memory orders are parameters | lazy: every use is carried by the pair or known to a thread inside; epoch: what precedes the handing over of an item is carried by the pair whose list has it or known to the thread that holds it; scripts run by a sound simulator for the negations |
| C136 | `QueueWeak.lean`: a happens-before overlay on the steps of `ConcQueue.lean`; memory orders are parameters | with the invariant of C20: the link of a node in the queue carries what preceded the push of the next node, and a thread that loaded it knows it; one execution for the negation |
| C137 | `SysInfo.lean`: the parsing loop with bounds as faults, the literals with 32-bit arithmetic, the stripping loop | induction over the digits; induction over the characters for the exact condition of the fault; arithmetic for the literals |
| C138 | `SharedWeak.lean`: the steps of `SharedRes.lean` with what each store carries and each thread knows; six memory orders as parameters | invariant: every access to a node is known by its `refs`, by whoever uses or owns it, or by `current` if it is the current node; runs for each missing order |
| C139 | `PoolWeak.lean`: the exchange of the buffer; the steps of `ConcPool.lean`; what each store carries and each thread knows, orders as parameters | invariants: what is in the buffer is carried by it, the committed items are carried by the pointer; runs for missing orders |
| C140 | `PoolCommit.lean`: the steps of `ConcPool.lean` with each attempt of the commit as a step, and the pointer kept in the stage | invariant: the stage has the pointer of `m` pops ago, failures are at most the pops up to then plus one; refinement of `ConcPool` |
| C141 | `SlotWeak.lean`: one slot of a map of large elements, the steps of the pointer operations, what each store carries and each thread knows, orders as parameters | invariant: the slot carries the writing of each element that may be loaded from it; runs for each missing order |
| C142 | `SerialStuck.lean`: a serial queue, states of the tasks and references of the users; runs overlap | invariant: whoever runs a task has it; a lost last task stays lost; otherwise running it to its end lets the next pop succeed |
| C143 | `RandomPoint.lean`: the points and ranges as functions of the random fractions, over the reals | change of variables: polar coordinates of Mathlib, the root, a turn of the angle, scaling; the ellipse is the image of the disc |
| C144 | `ResizeWeak.lean`: `pointer` with all values it had, the values of one place, what is known of them; replaces and appends in steps, resizes that load any value of `pointer` and copy any value not older than known; orders as parameters | invariant: unless someone has written and not yet increased `mutate`, every value of `pointer` with the present `mutate` carries the last write; runs for each missing order |
| C145 | `Tolerance.lean`: floats as numbers, infinities and not-a-number; rounding a parameter with three laws | the laws; for binary32 the roundings to nearest (any rule for ties) and toward zero are built and shown to have them |
| C146 | `TermArray.lean`: memory as bytes, reads and writes past the end undefined | induction over the memory: the count is that of the specification of the first terminator; refuted without one |
| C147 | `TempMem.lean`: the variables the macros declare, the outcome of the allocation a parameter | cases; repeated frees by induction |
| C148 | `DataOwner.lean`: memory as blocks, outcomes of allocations parameters, undefined and asserted as outcomes | invariant over the operations: apart from the three blocks of the data memory is what it was, without them |
| C149 | `FileStream.lean`: streams on the file handles of `FileHandle.lean`, the number of bytes `fwrite` manages a parameter | round trip by induction over the blocks |
| C150 | `VirtualBytes.lean`: the direct accesses to a virtual file, on the array of C01 | refinement to the files of C63 by induction over the calls |
| C151 | `RangeCheck.lean`: the assertions about ranges with wrapping and signed offsets, and the ranges touched | exact characterisation by linear arithmetic |
| C152 | `ArrayBytes.lean`: the sizes of an array with wrapping sums and products, outcomes of allocations parameters | invariant: whole chunks, enough for the count |
| C153 | `FastArrayChoice.lean`: the table of the fast array on the registry of `ImplChoice.lean` | membership in the list of registered tables; exact comparison of the weights |
| C154 | `ContainerOwner.lean`: references to containers and data, outcomes of allocations parameters | invariant: references = own + data alive, against a ledger of the program |
| C155 | `AllocError.lean`: the allocating functions, the callbacks of the library and the two macros; callbacks are arbitrary functions, what the allocator gives is a parameter | case analysis; induction on the attempts |

## 4. Results

Every theorem named here is listed with its full name in `MANIFEST.json`.  "proved" is the whole statement of `properties.jsonl`; "partial" means that
the code violates a part of the statement (refuted by a theorem with a concrete run) or that a part is outside the model; the theorems
with the suffix `_partial` or `_exact` say exactly what holds.

| id | property | status | remark |
|----|----|----|----|
| C01 | CCArray behaves as a sequence | proved | CCArray, all chunk sizes and histories; element size multiplication overflow not modelled |
| C02 | CCArray never touches memory outside its allocation | partial | The code violates the claim: CCArrayReplaceElementsAtIndex asserts only the first index (refuted by a witness). Proved for all other calls and for in-range replace-many calls. |
| C03 | CCArray growth failure is atomic | proved | exact equality of the array after a refused growth |
| C04 | CCList (paged list) behaves as a sequence | partial | Proved for all histories except append-many calls that start on a full last page with a count that is not a multiple of the page size, or that pass NULL for elements spanning pages; on those the code reads outside the caller's buffer (refuted theorems). Allocation failure not modelled for CCList. |
| C05 | CCLinkedList editing keeps chains well formed | proved |  |
| C06 | CCQueue is first-in first-out | proved |  The two refuted theorems show why the property is about single nodes. |
| C07 | HashMap behaves as a finite map | proved | For every history storing at most L keys at once, L*2*(bucketCount+1) <= 2^64 (slots beyond have no handle). CCArray replaced by lists (C01). The data-oriented variants: C62. |
| C08 | HashMap entry handles decode to the place they were made for | proved | For bucket counts below 2^63-1; beyond, the code shifts by 64 (undefined behaviour), modelled as none. |
| C09 | HashMap entry handles stay valid until their key is removed | proved |  |
| C10 | HashMap rehash preserves the mapping | partial | Values and absence are preserved. Disagreement: a key created without a value is reported as initialised after a rehash. |
| C100 | Strings and big integers are read back as they were serialised | partial | Big integers are read back exactly when they are not zero and the stream keeps the 64-bit digits of twice the magnitude plus the sign (all of them, when 64-bit numbers have a fixed width in the stream); zero becomes an integer without components (refuted). Strings are read back when all characters are ASCII; otherwise they are cut, since the count written is that of the characters, not of the bytes (refuted). What happens when the cut is within a character is not covered. |
| C101 | Copying reflected data with containers | partial | Proved for containers whose elements have no pointers themselves (numbers, strings, containers, structures of these); the references are right exactly then. The code frees every pointer in the elements of the copied container: owned targets dangle in the copy, weak targets lose a reference of somebody else (refuted). Copying an empty array fails an assertion (refuted). |
| C102 | Memory is reallocated and freed by whoever made it | partial | Proved for histories that keep to the rules. Refuted outside them: sizes near 2^64 wrap in the custom and callback allocators, replacing an allocator with memory alive, freeing static memory, callbacks that shrink sizes, custom allocators without a function. The insides of allocators 4 to 9 are other properties. |
| C103 | Elements that are read back are handed out each once and in order | partial | Forwards, as all the containers of the library go through the elements, the property holds without conditions on the layout. Going backwards is refuted: elements that start at an odd place and go on in another block are missed. A sequence that is itself an element of a sequence is refuted: its elements are given back to the zone at once. Elements larger than a block of the zone are not read (assertion). |
| C104 | Data with containers is read back as it was written | partial | Equal data, nothing else changed, one reference each, for data without empty arrays; empty arrays are refuted. Tokens instead of bytes; hash maps, dictionaries, queues and static pointers are missing. |
| C105 | A hash map is read back as it was written | partial | Round trip for maps whose keys all have a value; refuted for keys without a value. How a single key or value is written is a parameter; the description of the mapped type is left out. |
| C106 | A collection or dictionary uses the registered implementation that suits the hints best | proved | Weight functions of other implementations are arbitrary functions answering with an int. Registering NULL is an assertion and excluded. |
| C107 | A hint an implementation lists as fast speaks for it | partial | Refuted for the library's own array and list, whose lists of hints overlap through the ordered constants; proved for hints listed only as fast, and the exact choice between array and list is proved for every hint. |
| C108 | Enumerables of linked lists and queues walk every node once in order | proved | For lists and queues that do not change while the enumerable is in use. Elements are identified with their nodes. |
| C109 | Destroying a garbage collector reclaims everything left and frees its memory | partial | Items: proved for both collectors. Memory: false; the states of threads that used the collector and have not ended are leaked (deleting the key runs no destructors), proved exactly. |
| C11 | HashMap enumeration visits each entry exactly once | proved |  |
| C110 | Sections of a garbage collector in one thread | partial | True for sections one after the other, at the level of nodes. False for nested sections: what was handed over before an inner section is lost forever whatever follows, and what is handed over in an inner one is put in the list twice and used after it was freed. Lazy collector only; the epoch collector resets its thread state in the same way. |
| C111 | Tasks in a task queue are freed exactly when nobody has them any more | proved | One call after the other; allocations succeed; the collector reclaims nodes at any time. |
| C112 | The life of a task: creation, runs, result, destruction | partial | Proved when the allocations succeed. False for failures: when the input or the output cannot be allocated the address of the freed task is returned instead of NULL (exact characterisation proved). |
| C113 | The array format specifier writes every element and takes its own arguments | partial | Proved for at least one element, the first of which has some text, while memory can be had.  Refuted: with no elements the array stays among the arguments and the next specifier takes it; a first element without text makes snprintf write through NULL (exactly then); a format that ends before the conversion is read past its end; without memory terminators get into the message. |
| C114 | Deletion, string and character format specifiers, alone and together | partial | Proved except: the deletion filter takes the argument of a width * (without flags) although it declines the specifier (exactly then); a string with a terminator inside is cut there. |
| C115 | Big integers and their text | partial | Comparison, setting, getting, sign and refusal are proved in full. A text operand is proved to act exactly as a big integer operand of that number; the sums themselves inherit the defects of C28 and C48. A text never restores the tagged form. |
| C116 | Big integers combined with themselves | partial | Doubling, cancelling and comparing hold. Assigning an integer to itself empties it, and a negative integer minus itself is a negative zero; both are characterised exactly. |
| C117 | A list gives back the memory it has taken | partial | False as stated: CCListRemoveElementAtIndex destroys the node of an emptied page but not its array, so one array is lost by each removal that leaves a positive multiple of the page size (exact count proved). No block is given back twice; without such removals everything is given back. Memory always granted; appends that misread their source (C04) excluded. |
| C118 | An append to a list that runs out of memory leaves the list as it was | partial | False as stated; characterised exactly: a failure is undone iff the elements fit on the last page, or some were copied and the last page had room. Otherwise an empty page is left behind the list and every later removal aborts. Missing: memory failure inside insertion and removal; page nodes and array headers are assumed granted. |
| C119 | A printed integer is the integer that is stored | partial | On little endian machines it holds for all byte orders, sizes and signs (a signed integer needs a byte). On big endian machines integers of fewer than 8 bytes are printed wrong, which is proved for every such size; 8 bytes and more are right. |
| C12 | Concurrently assigned IDs are unique | proved | Any number of threads, every interleaving (sequentially consistent atomics). Also: a try fails only if no ID was free throughout the call, the smallest such ID is handed out, no access outside the pool, assertions hold. |
| C120 | Printed data tells exactly what is stored | partial | Proved for little endian machines and types made of integers, pointers, structs, arrays and validators. Left out: floating point numbers (%f is not injective), opaque types (their mapper is a function of the user) and enumerables. The texts of types and of %p are parameters; different pointers are assumed to have different texts. |
| C121 | Every type is printed, and its text says what it is | partial | Printing ends when no cycle of types avoids all structs, and never ends on such a cycle without names (refuted). Texts of integer types without names tell the types apart, but the word _nonfixed is printed exactly for fixed sizes (refuted). The text of a floating point type without a name depends on padding (refuted). |
| C122 | Functions and type descriptors written as numbers or names are read back | partial | All default lists are read back, by number and by name; exact conditions for any list and base. Refuted: more than 256 values (one is read as another), parts of names are accepted, the typeSize of a container's descriptor is not read back (it is left out of the members that are copied), terminated arrays and descriptors that have been read are not written. |
| C123 | The approximations of the trigonometric functions are close to them for every argument | proved | About one lane holding a real number with exact operations: rounding, overflow, NaN and the negative zero are not modelled. The three refuted theorems show what the statement says is not kept. |
| C124 | Exponentials, logarithms, powers and the inverse sine are close to what they stand for | partial | Error bounds proved for every argument of the ranges given, in exact arithmetic; refuted outside of the range of CCSimdPow2, for negative arguments of the logarithm, cube root and arc sine, and for the default exponential and the power and arc sine built on it. The more accurate CCSimdExp2 is not modelled. |
| C125 | The memory orders of the circular buffer order what its two threads do to the items | partial | Loads see any store allowed by coherence; happens-before is followed with stamps, and conflicting accesses that it does not order are recorded as races. Everything but the writer's race holds with the orders of the file where loads are not carried out after later stores. Release uses only a compiler fence and a relaxed store: every reuse of a slot the consumer has looked at is a data race, and where loads may be late a visit can see a later item. With a release store of head and an acquire load by the producer everything holds. |
| C126 | The memory orders of the swap buffer order the filling and the reading of its buffers | partial | The stores to index are kept in modification order; loads, stores and exchanges take any place coherence and atomicity allow; memory_order_consume is taken as ordering the dependent accesses. Everything but the writer's race holds with the orders of the file where loads are not carried out after later stores. Read's exchange is no release and Apply has no acquire: every filling of a buffer that was looked at is a data race, and where loads may be late a look can find the buffer half filled. With these orders added everything holds, and each of them is needed. |
| C127 | A hash map survives running out of memory while an entry is added | partial | The plain layout either stops at an assertion or does what it does with plenty of memory (C127_plain). In the data oriented layouts keys that have a value keep it (C127_others_keep_partial), but a failed append is not noticed: the next key's value is returned for the key (C127_wrong_value_refuted), or both keys are counted and not found (C127_lost_refuted). Removal and rehash after such a failure are not covered. |
| C128 | Calls on the wait free structures finish whatever the other threads do | proved | Steps are accesses to shared memory (writing an item counts as two); sequentially consistent interleavings. CCConcurrentIDGeneratorAssign, which tries again until there is an ID, is not bounded and not claimed. |
| C129 | Which calls on the index map finish, and which wait | proved | As the header documents it. Steps are those of the model of C89: each access to the map is one; the garbage collector is its contract. |
| C13 | ConcurrentBuffer conserves its data | partial | Conservation proved in full under any number of threads. Partial because destroying an empty buffer calls the destructor with NULL (refuted part). Sequentially consistent interleavings. |
| C130 | Which calls on the shared resource finish | partial | Get holds. Set is not as documented: with as many nodes as threads a thread stopped inside a get can keep another's set looking for a node for ever, and with any number of nodes from 2 on a set can be overtaken without bound. With more nodes than threads (limited form, fewer than 2^16 gets between sets) a set that runs alone finishes with its Tmax + 4-th step, wherever the others have stopped. |
| C131 | The concurrent queue is lock-free | proved | 8 own steps from any moment on; 3 from the beginning of a push, 5 from that of a pop. Uses the invariant of C20; each access to the queue and its nodes is a step, sequentially consistent. |
| C132 | The garbage collectors are lock-free | proved | The rounds of the exchange loops, single steps in the models of C18 and C19, are added back: a load, then an exchange that fails only if the value changed since. Exchanges that fail without cause (the weak ones may) are left aside; sequentially consistent; failing allocations not modelled. |
| C133 | What a task did is known to whoever waits for it | partial | Runs are ordered. The result is not: CCTaskIsFinished loads the state relaxed (Task.c 150), so nothing orders reading the output after the function that wrote it; and CCTaskQueueDefault loads Init relaxed (TaskQueue.c 78), so nothing orders the use of the queue after its creation by another thread. Both are refuted for the orders of the code, and shown to hold exactly if these loads are acquires (and the stores releases, which they are). The function of a task is one step; exchange loops are one step. |
| C134 | What was done before letting go is known to whoever comes next | proved | Each theorem is an equivalence: the property holds in every execution exactly for the memory orders of the code (two or more threads). Passing a reference to another thread is by means that order what was before; the recycler of an identifier is its owner. Counts are natural numbers (fewer than 2^31 references or readers; for more readers see C65). |
| C135 | What was done in a section happens before the reclaiming | partial | Lazy: exact condition on the orders of End, which the code does not meet (refuted). Epoch: what precedes the handing over is ordered, exactly with the code's release/acquire/release; uses in other sections are not, for any choice of those orders (refuted). Missing: orders for the epoch collector that would suffice for other sections. |
| C136 | What was done before a push is seen after the pop | partial | Exact condition on the memory orders of prev (release store, acquire load); the code loads relaxed, so the property fails (refuted). What precedes a pop precedes later pops, exactly with the code's orders of head. Missing: in the positive direction only executions in which loads see the last store are considered. |
| C137 | The system version and the process name are read as they are | partial | Version strings: round trip and the exact condition of the out-of-bounds write. Literal: right on iOS, wrong for macOS 11 and later with a minor version below 10 (refuted). Stripped name: exact for ASCII; undefined otherwise where char is signed. |
| C138 | A shared resource is not replaced while it is being read | partial | Both claims are characterised exactly by the memory orders; with the orders of the file the first is proved and the second refuted. Loads see the last store; unlimited resources (which already fail without reorderings, C43) are not covered. |
| C139 | What was put into a concurrent buffer or pool is complete when it is taken out | partial | Buffer: exact characterisation, the code has the orders. Pool: exact characterisation under the size condition of C17 (without which the pool already fails, C17); the code has the orders if consume is taken as acquire, and not by the letter (refuted). Not proved: pools whose size does not divide the number of indexes once they have held that many items. |
| C14 | ConcurrentIndexBuffer indexes have one owner | proved | Any number of threads, every capacity; the index buffer is simulated by the ID generator of C12. Sequentially consistent interleavings; threads stage and discard only indexes they hold. |
| C140 | The commit of a concurrent pool finishes whatever the consumers do | partial | The bound on the failures and the refinement of the pool model of C17 are proved under the size condition of C17; that nothing bounds the spurious failures is shown. Sequentially consistent. |
| C141 | A large element of an index map is complete when it is read | partial | Exact condition on the orders; the orders of the file do not meet it (refuted, also with address dependencies). One slot; the pointer of the map and the resizes are not in this model. |
| C142 | A serial task queue goes on handing out tasks | partial | Exact condition; without the care of the users it fails (refuted: a task popped and destroyed unrun, or popped and pushed again, blocks the queue for ever). A pop is one step, a pop that does not get the lock returns NULL. |
| C143 | Random points and ranges cover the shape asked for evenly | proved | Over the reals, for ideal random fractions; the rounding of floats and that the fractions are finitely many are not modelled. |
| C144 | A resize of an index map loses nothing that was written | partial | Exact condition on the orders; the file does not meet it (refuted; with address dependencies it holds exactly with strict compliance). One place; mutate does not wrap; the first value of new data is taken as seen. |
| C145 | Comparing floats with a tolerance accepts what is within it and rejects what is clearly beyond it | partial | All of it is proved for numbers. For the infinities it is refuted: an infinity is not equal to itself under either comparison, and with a tolerance of infinity zero is not equal to itself under the relative one. The roundings of binary32 to nearest and toward zero are shown to meet the laws assumed. An infinite relative tolerance accepts every pair of numbers but two zeros. |
| C146 | An array that ends at a terminator is taken and copied up to and with the first terminator | partial | Proved for arrays that have a terminator within their memory. Refuted for those that fill it: the mapper does not look at the size of the type and reads on, and the unmapper writes any number of elements. Elements that are copied byte by byte. |
| C147 | Temporary memory is taken from the stack within its limits and from the heap otherwise, and freed once | partial | Proved for sizes whose expression gives the same when evaluated twice and limits in order. Refuted otherwise: with the limits the other way round sizes in between get no memory, with a size that changes there can be less memory than asked for; and the array of the macro has length zero whenever the heap is used, which the standard leaves undefined. |
| C148 | A data buffer frees what it owns once, and nothing else | partial | Proved for copies and buffers taken over, for failed creation and for the state of the random numbers. For buffers that are lent proved as long as the size is not set, and refuted if it is: the buffer of the caller is freed and the new one lost. CCRandomGetState loses its buffer if the data cannot be created. |
| C149 | A file stream of the reflection counts every failure | partial | Round trip for every sequence of blocks at every offset. Only calls on a handle of the wrong kind are counted. Refuted: a read past the end of the file and a write the system takes only in part are reported as successes; the memory keeps its old contents, the file gets a gap. |
| C15 | Swap buffer: reader and writer never share a buffer | proved | One writer, one reader, every interleaving of the atomic steps (sequentially consistent; the memory orders are C126). |
| C150 | Direct accesses to a virtual file read and edit a sequence of bytes | partial | Proved for every history without the calls the code gets wrong: inserting more than follows, writing behind the end, writing nothing in the file, removing nothing at the start or behind the end. What those do is proved; removing SIZE_MAX bytes behind the end makes the file longer. The helpers are not called by the code at this commit; the handles are C64. |
| C151 | The assertions stop every access outside an array, a string or data | partial | Holds for offsets that are not negative and sums that do not wrap. Refuted, with the exact set of calls: negative offsets of data whose range ends within the data, sums that wrap, replacements longer than the rest of the array. |
| C152 | An array has memory for all the elements it counts | partial | Holds as long as the bytes asked for fit a size_t. Refuted otherwise: the product wraps, and an array can count 2^61 - 1 elements of 8 bytes and have no memory. |
| C153 | A collection becomes a fast array only if the program names it | proved | The choice after the registration is given for a program that registers nothing else; other histories are covered by C106_choice. |
| C154 | The container behind data lives exactly as long as it is needed | proved | Counts of references are unbounded numbers here (the model of the allocator has the 32-bit counts); the destructor of the user does nothing. |
| C155 | A failed allocation is told to the callback, whose answer is the result | partial | CCReallocBlock tells the callback that CCRealloc failed (refuted); everything else is proved. CCErrorLogAndExit ends the program with status 0. |
| C16 | Concurrent circular buffer is a single-producer single-consumer FIFO | proved | One producer, one consumer, every size, every interleaving; SetStartIndex is not modelled (its macro refers to an undefined function). Sequentially consistent; the memory orders are C125. |
| C17 | Concurrent pool hands out each item once, in order | partial | Proved for sizes dividing 2^32 (or up to 2^32 items); refuted for every other size: after 2^32 items an unpopped item is overwritten. |
| C18 | Lazy garbage collector reclaims safely and exactly once | proved | All interleavings of any number of threads (fewer than 2^32-1 values of the participant count) under sequential consistency; weak memory orders are not modelled. |
| C19 | Epoch garbage collector reclaims safely and exactly once | proved | All interleavings of any number of threads below the range of the 32-bit counts, any number of epoch advances, under sequential consistency; the wrap of the epoch counter after 2^64 advances and weak memory orders are not modelled. |
| C20 | Concurrent queue is a linearizable FIFO | partial | Order, uniqueness, no loss and memory safety (with reuse of freed addresses, on the collectors' contract) hold in every interleaving. The claim about empty fails: a pop can return null although a push completed before it began and nothing was popped (C20_false_empty_refuted). Sequential consistency. |
| C21 | Bit manipulation primitives meet their arithmetic meaning | proved | Portable branch of CCBitCountLowestUnset modelled; the compiler builtin branch is trusted to agree. |
| C22 | Bit set: single-bit operations | partial | Holds for every index in 8 and 16 bit blocks and whenever the position in the block is below 31; for 32/64 bit blocks the code shifts an int by 31 or more (undefined, C22_refuted). |
| C23 | Bit set: range operations touch exactly the range | partial | The seven range operations act exactly on the range when it ends on a byte boundary or stays in one byte; otherwise the code also changes the rest of the last byte (refuted). CCBitsAnd of a short aligned range uses \|= (refuted). |
| C24 | Bit set: counting a range | partial | Counting is proved in full. The any query is right whenever defined, but shifts an int by more than 56 on some ranges (refuted). |
| C25 | Enumerators visit each element exactly once in order | proved | Every sequence of calls on plain and circular enumerables refines a cursor in the list of element addresses. |
| C26 | Random generators never get stuck and stay in range | proved | Both generators, all states and step counts; ranged integers for all bounds with representable range size. CCRandomi gives exactly 0 to RAND_MAX. |
| C27 | Hashes depend only on the bytes | proved | Both hashes equal the hash of the whole byte string for every data and map size; the Jenkins hash needs a positive preferred map size (divides by zero otherwise). The two hashes are the published one-at-a-time hash and MurmurHash3 (x86, 32 bits, seed 0), stated in natural numbers. |
| C28 | Big integers implement integer arithmetic | partial | False as stated ([5,7]-1 gives [4]); the operands on which the code is exact are characterised, and it is proved wrong on all others. |
| C29 | Big integer text round-trips | proved | Text shorter than 2^64 characters. |
| C30 | Fast (tagged) big integers represent what was stored | partial | False as stated: the range tests use \|\| and accept every integer, so 64-bit integers outside 63 bits are lost; exact for all 63-bit integers. |
| C31 | Decimal scaling is exact when representable and saturates otherwise | partial | Representable results are exact (but for 0 * 10^20); saturation is false as stated and characterised by iff for 64-bit decimals and negative exponents; for 32-bit decimals with positive exponents under an explicit bound. |
| C32 | Data containers read and write exactly the requested bytes | partial | Proved for every implementation that satisfies the map/unmap law (plain memory and CCDataBuffer without conditions) and every preferred map size. False for CCDataContainer: writes covering part of an element leave uninitialised bytes, zero-size reads overrun the staging block; proved for whole elements and for reads of at least one byte. There are no other implementations in the code. |
| C33 | Data hash is never stale | partial | False as stated: ending a read-only map (also inside a read through maps) clears the modified flag, and a resize does not set it, so the next hash is stale. Proved for all histories that avoid both. |
| C34 | A finished task is not running | partial | Proved for up to 2^32 threads; with more the 32-bit counter wraps and the property is false. |
| C35 | Serial task queue runs one task at a time in order | proved | The concurrent queue below is taken as an atomic FIFO that may spuriously report empty. |
| C36 | Pool allocator never hands out a block twice | partial | All histories of a contract-abiding client. Refuted in three places: sizes in the last 32 bytes of the address range pass the size check, the last block can end beyond the allocation (exactly when alignment slack exceeds size padding), and the byte count of the pool can wrap. |
| C37 | Memory zone allocations do not overlap and restore undoes | proved | All histories, all block sizes. C37_aligned_refuted is about the documented size limit of aligned allocations (an assertion trips below it), not about the property. Addresses are assumed not to reach the top of the address range. |
| C38 | Reference counted memory is destroyed exactly once | partial | All interleavings of any number of threads while fewer than 2^31 references exist; refuted beyond that because the count is a 32-bit integer. Sequentially consistent atomics; the destructor does not itself retain or free the memory. |
| C39 | Collections behave as bags with stable entries | partial | Proved for every history of the list implementation (allocations failing at any time), of the array implementation when its array can grow (refuted otherwise: a failed insertion returns an entry), and of the fast array with positional entries, which last under calls at the end (refuted for other removals). |
| C40 | Ordered collections keep positional order | partial | All calls by position agree with a list on all three implementations, for every history; replace-at on the list implementation removes the following element when its allocation fails (refuted). |
| C41 | Container element destructors run exactly once | partial | Collections and dictionaries: every element, key and value put in is either held or was destroyed exactly once, and destroying the container destroys the rest. Refuted: the fast array's remove-all skips the destructor; a dictionary that grows while a key has no value runs the value destructor on bytes never stored, or a second time on a removed value. |
| C42 | Concurrent index map behaves as a sequence | proved | Sequential refinement to a list for every chunk size and call sequence, with allocation failure of append; out-of-range and uninitialised slot accesses are faults and proved absent. One thread: interleavings are not covered here. Insert at the end is refused by the code (and in the specification). |
| C43 | Shared resource readers never see a destroyed value | partial | Holds in every interleaving when Tunlimited is false and fewer than 2^16 gets begin between two sets. With Tunlimited (the default) a get can share a value that was already destroyed, and current can get an index that does not exist; 2^16 gets between two sets break the limited form too. Sequential consistency. With Tunlimited and one thread at a time a get leaves current and the counts as they were (C43_unlimited_alone). |
| C44 | Ranges, clamping and intersections | partial | Integer types; holds for ranges with representable ends. The code is wrong for the intersection of disjoint ranges and for wrapping ranges (refutations). Floating point and vector instantiations not modelled. |
| C45 | Byte swapping is an involution that reverses bytes | proved |  |
| C46 | Floating point power-of-two test | partial | True for positive normal numbers; the code accepts infinities and negatives and rejects subnormal powers of two. |
| C47 | Bit set: listing common bits | partial | Proved outside three defects of the code, each refuted with a witness: shift by 64, misplaced trailing byte, order. |
| C48 | Fast big integer arithmetic | partial | False as stated: adding a tagged fast integer doubles the first operand. Exact cases of the other overloads proved. |
| C49 | An idle task queue reports empty exactly when it holds no task | proved | Serial queue model; fewer than 2^64 tasks. |
| C50 | Aligning gives the least multiple that is not smaller | proved | For all words and powers of two. C50_refuted shows the wrap at the top of the range, which the quantifier excludes. |
| C51 | Bytes of a memory zone can be found again | proved | All histories; the second theorem assumes that distinct blocks have disjoint addresses, which the underlying allocator provides. |
| C52 | UTF-8 text survives being written and read | proved | Codec of CCString.c; the reader also accepts overlong forms (second theorem), which are not UTF-8. |
| C53 | Short strings are packed into a word without loss | proved | Maps as a parameter with the hypothesis GoodMaps (right sizes, NUL first, no repetition), proved for the default maps. |
| C54 | A string is its characters | partial | All proved except that CCStringEqual of an empty untagged ASCII string and an empty tagged string is false (C54_equal_refuted; C54_equal_exact says exactly when). Hash and equality of an ASCII string in an external buffer read the byte before it: hypothesis Safe. |
| C55 | Editing strings gives the edited text | proved | For strings of any representation; allocations succeed. |
| C56 | Searching finds the first occurrence | partial | Refuted by the code in the cases named; the exact theorems say what the code does for all arguments that are not empty. |
| C57 | Replacing and splitting treat every occurrence once | partial | Refuted where the search of C56 misses an occurrence; proved otherwise for strings to find that are not empty. |
| C58 | A string enumerator can be moved back and forth | partial | Moves inside proved for all; leaving an untagged ASCII string returns the byte before the buffer instead of 0. |
| C59 | Enumerating a memory zone visits its items in order | partial | Proved for aligned starts, non-empty later blocks and histories in which a block is added only after the client has seen the end; the remaining cases are refuted with concrete histories (pointer behind the allocated memory, more items than asked for, skipped items, an enumerable that never continues). |
| C60 | The aligned and the bounds checking allocator keep the contents | partial | Proved for all sizes whose block fits the address space; refuted for sizes near 2^64, where the size of the block wraps. |
| C61 | Reallocation in a memory zone keeps the contents | partial | Whenever reallocation is defined all of the claim holds. It is not always defined: moving copies the new size from the old place, which reads behind the block whenever the last allocation outgrows its block, and can overlap the destination; C61_exact says exactly when. Reallocating into another zone is not modelled. |
| C62 | The three hash map layouts are interchangeable | proved | Equality of all answers without hypotheses, undefined behaviour included. CCArray replaced by lists (C01), allocation does not fail. |
| C63 | A file handle edits the file as a list of bytes | partial | Proved for every history whose insertions are at least a block long or have at most a chunk behind them; C63_insert_exact gives the (wrong) result of the other insertions, the refutations the remaining defects of the code. Errors of the C library other than a bad offset are not modelled. |
| C64 | Handles of a virtual file edit one list of bytes | partial | Proved for every history without the calls the code gets wrong: overwriting up to exactly the end, inserting at or behind the end (exact result proved), removing nothing at the start, refused allocations. The lock is C65. |
| C65 | The virtual file lock makes reads and writes atomic | proved | Sequentially consistent interleavings. The last two theorems show that the bound on the threads is needed and that writers are not served fairly. |
| C66 | Reading a path text and writing it back agree | partial | Write-then-read holds for all well formed component lists; which texts read-then-write reproduces is characterised exactly. Hidden directories and dots in odd places are lost: witnesses given. |
| C67 | The strings of a path are those of its components and stay valid | partial | Holds while the current path is unchanged (strings) and for paths with a file name (pointers); the code breaks both claims otherwise, witnesses given. |
| C68 | Two paths match exactly when their components agree from the end | partial | Exact for ASCII names or case sensitive options; without case, other bytes reach tolower outside its domain (witness). |
| C69 | The default path is initialised before any call returns, but not only once | partial | The first claim holds in every interleaving; the lock is inverted, so the claim that initialisation happens once is refuted for every number of threads above one. |
| C70 | The virtual file system behaves as a tree of names | partial | Asking, sizes, creating and histories are proved for all trees and paths from the root. Removing is proved except for the root, where the code dereferences NULL (proved). Relative paths are characterised exactly for asking and removing: the first '..' leaving the current directory is ignored. Refuted: paths of 128 components overflow the stack, /x/../x is created but not there, a failing creation can leave directories, names lose a leading dot, and the kind of a path is not looked at. Creating with a relative path is modelled but nothing is proved about it. |
| C71 | Copying, moving and renaming a file keep its bytes | partial | Proved for new destinations; exact for existing ones, where the code keeps the end of a longer file, aborts for one of the same length (virtual), and loses an empty file moved onto itself. Copying a file to the path of a directory fails but makes the directory. Memory is available. |
| C72 | Copying and moving a directory take everything in it | partial | Proved for directories without empty directories in them, with file names that are read back as paths, to new places outside. Empty directories abort; failures of children are ignored, so moving onto an existing directory or with odd names loses files; copying a directory into itself runs until an array overflows. |
| C73 | Listing a directory of a virtual volume | partial | Proved for every tree whose file names are read back and whose paths have at most 127 components, for directories named from the root. The code disagrees: a blacklist of nothing lists nothing (no_matches_exact says when), the option to skip hidden entries has no effect, and names such as a..b are listed under other paths. |
| C74 | Run length encoded streams | partial | Without continuing calls proved for all data; with them when no byte is repeated more than 256^size times in a row (beyond that the code loses bytes: continue_refuted). Counts of 64 bits are undefined from the first write, and changing the size after a continuing call, which the header allows, breaks a pending run. Little endian machine, a stream below that does not fail. |
| C75 | Binary encoding of integers | partial | Proved for every fixed length number, every number of up to six bytes, unsigned numbers below 2^56 and signed numbers from -2^48 to below 2^48. Unsigned 64 bit numbers from 2^56 on are all read as 2^64 - 1 and signed ones are read back exactly when their byte 6 is the sign only; both are proved as exact characterisations. A number of 64 bytes may overflow the buffer. |
| C76 | Serialising and deserialising reflected data | partial | Proved for structures, arrays, numbers, dynamic pointers, void and validators that accept the data without replacing it. Missing: static pointers, opaque types and enumerables, numbers that the variable length encoding does not read back (C75). Data with cycles, also through weak pointers, is followed without end. |
| C77 | Copying reflected data | partial | Proved for structures, arrays, numbers, dynamic pointers, void and validators that accept the data without replacing it. Missing: static pointers, opaque types and enumerables. Transferring with weak references copied duplicates owned data instead of transferring it. |
| C78 | Validators of reflected data | partial | Proved for validators whose base type is not a validator, with results of the modelled types that have no result of their own. A result larger than the data overwrites what follows it. |
| C79 | Validators of maximum and minimum | proved | Integers of at least one byte (an integer of no bytes reads outside of it). The comparison of floating point numbers itself is a parameter. |
| C80 | Vectorised functions agree with the plain ones | partial | Vectors of two agree to the bit (with SSE 4.1 given that adding zero changes nothing). Refuted for the inner products of three and four, whose lanes are summed in different orders and so round differently (proved where sums may be regrouped), and for CCVectorize2Normalize, which aborts on every vector without SSE and with SSE 4.1. |
| C81 | Vector functions are Euclidean geometry | partial | Over the real numbers. Refuted for being parallel: the tolerance is absolute, so that short vectors are parallel and ortho at once, and CCVector4Parallel ignores the fourth component. |
| C82 | Comparison by units in the last place | partial | Proved for numbers of the same sign and, of vectors, without SSE 2 or for non-negative components. Refuted around zero (numbers of different signs are only equal if both are zero), for not-a-number (equals infinity), and with SSE 2 for negative components (any two are equal) and for components of different signs beside others of the same sign. |
| C83 | Matrices transform as named | proved | Over the real numbers: rounding is not modelled. |
| C84 | Descriptions of types are read back | partial | Proved for graphs whose numbers are below 2^56 (counts of enumerables within 2^48, or unknown), given that the mapped parts of pointer and opaque types are read back. Refuted for the offset of the default lookups: the reader adds it a second time. |
| C85 | Format specifiers are read as C writes them | proved | ASCII; more than four l or h in a row (not in C's grammar) not modelled as overflow. |
| C86 | %B writes numbers in binary | partial | Proved for arguments within the length and numbers written out. Refuted: with # a negative char or short (passed as an int) makes it read before its digits; a negative width argument pads with almost 2^64 characters; 0 is not ignored with a precision. |
| C87 | A log message buffer is a text | partial | Proved while memory can be had. Refuted: after a failed write the size is taken to be greater than the allocation; exactly when the next write is then out of bounds is proved. |
| C88 | A log message is what its format stands for | partial | vsnprintf is assumed to format specifier by specifier. Refuted: * takes an argument that is not passed over; without filters of specifiers the writes of message filters go beyond the allocation (exact condition proved). Outputs (files, system log) are not modelled. |
| C89 | Concurrent index map is linearisable | partial | Linearisable for get, replace, replace-exact, append, insert and remove that succeed, and memory safe; the count (and with it an index refused by remove or insert) can lag behind an append of another thread that has stored its element but not counted it, so that after an append returned index 1 the count can be 1: refuted with a concrete execution, and the theorem says by exactly how much. Elements stored in place, default build, sequentially consistent; elements stored by pointer and the strict build are not modelled. |
| C90 | Wrapping reads and writes of typed values | partial | Proved for offsets with Offset + Count at most 2^64; beyond, the offset wraps around and leaves the ring (refuted). Swapped accesses to a part of a value run out of a buffer of Count bytes (shown). Writing a data object made of a container overwrites the elements behind with uninitialised memory, as the map is for writing only (refuted); writing one made of memory, and reading any, is proved. |
| C91 | Keys that compare equal hash equal | partial | Proved for big integers and fast big integers. For strings the hashes agree, but the comparator calls two empty strings equal or not depending on their order (refuted with a witness). |
| C92 | Hash cache of tagged strings shared by threads | partial | All parts proved except the last: the value found is read after the lock has been given back, so a thread that sets another value in between may move it (refuted with an execution of two threads; it is the only way a call goes wrong). Sequential consistency; the dictionary is taken as a finite map whose values may move when one is set. |
| C93 | Moving vector lanes puts every lane where it was asked for | proved | All tables of the ARM implementation are correct, for every argument tuple and every lane value. |
| C94 | Integer operations on vector lanes compute the documented bit operations | partial | The code breaks the property in three places, each characterised by an equivalence and refuted by a witness: rotating negative signed lanes, the mask family of 64-bit lanes with 48 zeros in a row, and the leading zeros of 64-bit lanes. Everything else holds. CCSimdCountSet, CCSimdCountLowestUnset and CCSimdMod of 64-bit lanes do not exist (no 64-bit CCSimdMul). |
| C95 | Horizontal additions, subtractions and dot products combine exactly the lanes selected | partial | Proved for sums, dot products and subtractions of two lanes. Subtractions of 4 and 8 lanes hold exactly when no mask is zero: with a zero mask the code shifts an int by 64 bits (refuted with the documented example). The variants of 16 lanes have no implementation; floats are not modelled. |
| C96 | The debug allocator tracks exactly what is allocated | partial | Holds if the C library does not hand out the old address of a reallocation before it is replaced in the map; refuted otherwise (the reallocator gives the address back first). Reallocating with another allocator named dereferences null and a failing realloc aborts (refuted, with exact conditions). The map never reuses entries (exact count). |
| C97 | CCLastComponent finds the last component | partial | Exact result for every path; right exactly if no separator follows, or two or more characters precede the component, or none precedes it and it has two or more characters. Refuted for a/ (null) and /last/ (gives /last). |
| C98 | The filter that strips paths from file names | partial | Holds if no added path is empty and the file name is not null; with the empty path the logger calls itself without end, with a null name strncmp is called with null (both refuted). |
| C99 | Large elements of an index map are neither lost nor used after they are freed | partial | Proved for one thread, all outcomes of allocations and all orders of collection. False in one case: an insertion whose buffer can be allocated but not its element frees a buffer with a slot that was never set. C99_fault_exact shows that this is the only case. Not modelled: failing allocations in CCConcurrentIndexMapCreate; several threads (C89 has them for small elements). |

## 5. Disagreements found

Defects of the code that a theorem of the model exhibits (the theorem is in brackets) or that reading for the model turned up (marked "read").

* `CCArrayReplaceElementsAtIndex` checks only the first index and writes behind the array (C02).
* `CCListAppendElements` reads outside the caller's buffer when the last page is full (C04).  The page array of a list leaks on destruction (read).
* A hash map key created without a value is reported initialised after a rehash, and a dictionary then runs the value destructor on bytes that were never
  stored (C10, C41).
* `CCConcurrentBufferDestroy` of an empty buffer calls the destructor with NULL (C13).
* `CCConcurrentPool` sizes that do not divide 2^32 lose items when the 32-bit counters wrap (C17).
* `CCConcurrentQueuePop` can report empty although a push completed before it began (C20).
* `CCBits*`: shifts of `int` by 31 or more, range operations that touch bits beyond the range, `|=` for and (C22, C23, C24, C47).
* `CCBigInt` subtraction that empties the top limb of a longer operand, self assignment asserts (C28); `CCBigIntFast` range tests with `||` accept every
  integer, tagged addition doubles the first operand (C30, C48).
* `CCDecimal` saturation (C31).
* `CCData`: unmapping a read-only map clears the modified flag, resizing does not set it (C33); `CCDataContainer` partial element writes and zero-size
  reads (C32).
* `CCPoolAllocator` size computations wrap and the last block can leave the allocation (C36).
* Collections: failed insertions return an entry, remove-all of the fast array skips the destructor, replace-at on failure removes a neighbour (C39, C40, C41).
* `CCConcurrentSharedResource` without a limit shares destroyed values (C43).
* `Range`: intersection of disjoint and wrapping ranges (C44).  `CC_IS_POW2`-like test of floats (C46).
* UTF-8: overlong forms are accepted (C52).
* Strings: search misses a match at the end of a tagged string of maximal length, empty patterns shift by 64, longer suffixes shift by huge amounts, the ASCII
  enumerator reads the byte before the buffer, equality of empty strings is not symmetric (C54-C58).  `CCStringGetHash` follows the cached value after
  releasing the lock (read).
* The zone enumerable leaves the allocated memory, exceeds its count, skips items or never continues (C59).
* The aligned and bounds checking allocators do not test their size computation for overflow (C60).  Growing zone memory that has to move copies the new size
  from the old place: it reads behind the block or overlaps the destination (C61).
* `FSHandleInsert` of less than a block in front of more than a block corrupts the rest of the file, past the end it never returns; removing `SIZE_MAX` bytes
  moves the offset back; failed calls with an offset of their own leave the handle moved (C63).
* Virtual files: overwriting up to exactly the end and removing nothing at the start fail assertions, inserting at or behind the end adds unknown bytes and the data
  again, writes without memory clear memory outside the file (C64); two readers can keep a writer out for ever (C65).
* Reading a path drops a hidden directory (`/h/.c/x` reads as `/h/`) and everything behind it, reads `./.` as a parent and `a..b` as `a`, and keeps a pointer
  before the text (C66). A relative path returns its old full string after `FSPathSetCurrent`, asking a directory for its file name frees the
  strings handed out before, and a relative current path makes the getters call themselves for ever (C67).
* `FSPathMatch` calls `tolower` with negative characters, takes a name that merely starts with the wildcard as matching everything, and is not
  transitive (C68). The lock of `FSPathDefault` is inverted (`while (!test_and_set)`): it keeps nobody out (C69).
* In the virtual file system a relative path starting with `..` stays in the current directory, removing the root dereferences `NULL`, paths of
  128 components overflow a stack array, `/x/../x` can be created without being there afterwards, a failing creation can leave directories, a
  leading dot of a name is lost, and a file path removes a directory of that name (C70).
* Copying a file onto a longer one keeps the end of the old contents (system and virtual), onto a virtual one of the same length
  aborts; moving an empty virtual file onto itself deletes it (C71). Copying an empty virtual directory aborts; failures while copying
  children are ignored, so `FSManagerMove` onto an existing directory can report success and lose files (C72).
* Listing a virtual directory with a blacklist of nothing gives nothing, and `FSMatchSkipHidden` is ignored (C73).  The listing of system directories on unix
  asserts against `NULL` for the paths to match, which its header allows, and leaks the paths that match but are skipped for their kind (read).
* Run length encoded streams: `CCReflectStreamRLEWriteContinue` loses what repeats beyond the longest run, the 64 bit variants shift by 64, and the size may not
  be changed after every continuing call although the header says so (C74).
* The variable length encoding repeats its masks every eight bytes, so the reader takes bits for flags: every unsigned 64 bit
  number from 2^56 on is read back as 2^64 - 1, the signed number 2^48 as 0, and a signed 64 bit number is read back exactly when
  its byte 6 is the sign only; 64 byte numbers may overflow the buffer of the writer (C75).
* Serialising follows every pointer, weak ones too: data with a cycle makes it recurse without end (C76).
* `CCReflectAssignmentTransfer | CCReflectAssignmentCopyWeakRefs` is not zero, so `CCReflectCopy` copies owned data too instead of
  transferring it (C77).
* A validator's result may be larger than the data it replaces; what follows is overwritten (C78).
* Read, not modelled: `CCReflectCopy` reads the destructor of static pointers, which have none (past the end of their descriptor); an enumerable of fixed count writes as many elements as it
  has and reads as many as its type says.
* The lanes of `CCVectorize3Dot` and `CCVectorize4Dot` are summed in different orders and so may differ from one another by rounding
  (C80); `CCVectorize2Normalize` asserts on every vector when built without SSE or with SSE 4.1, and on every vector made by
  `CCVectorizeVector2DWithZero` (C80).
* `CCVector2Parallel` and the like compare with an absolute tolerance, so short vectors are parallel and ortho at once;
  `CCVector4Parallel` ignores the fourth component (C81). The functions named `Angle` return the cosine.
* `CCFloatEqualUlps` never finds numbers of different signs equal other than the zeros, and takes not-a-number for a number beyond
  infinity. With SSE 2 the functions on vectors find any two negative numbers equal, and 1 equal to -1 if another component has
  equal signs (C82).
* `CCReflectDeserializeBinaryTypeLookupDefaults` adds the offset that `CCReflectSerializeBinaryTypeLookupDefaults` has added already,
  instead of subtracting it: with any offset but 0 (and 128) the types are mistaken for others (C84).
* `%#hhB`/`%#hB` of a number with bits above the length (a negative `char`, passed as an `int`) reads before the digits (C86); a negative width or precision of an argument pads
  with almost `2^64` characters; `0` is not ignored with a precision.
* A failed `MessageBufferWrite` leaves `bufferSize` greater than the allocation: the next write goes beyond it (C87).  Without specifier filters `bufferSize` stays `0`: the
  difference to the length wraps and a message filter's write goes beyond the allocation (C88).  `%*d` passes only one argument over, so later specifiers get wrong ones.
* `CCConcurrentIndexMapGetCount` can be too small (C89): an append stores its element (147) before it counts it (581), and another append may store the next one and return its index in between; `RemoveElementAtIndex` and `InsertElementAtIndex` then refuse that index (647, 682).
* `CCMemoryWrite` and its variants on a data object made of a container map the rest of the data for writing only and write just `Count` bytes of it; unmapping stores uninitialised memory over the elements behind (C90). The swapped variants access whole values, also if `Count` is not a multiple of the size of a value.
* `CCStringComparator` is not symmetric: for two empty strings of different representations it says equal one way and invalid the other (`C91_string_refuted`), so a dictionary may or may not find such a key.
* `CCStringGetHash` of a tagged string reads the cached value after giving back the lock (`CCString.c` 1209-1214); a thread that sets another value in between may have moved it, so freed memory is read (`C92_moved_refuted`).
* C94: `CCSimdRotateLeft` and `CCSimdRotateRight` (SimdFallback.h lines 254-302) shift signed lanes right arithmetically, so negative lanes come out with copies of
  the sign above the seam (`C94_rotate_exact`, `C94_rotate_refuted`).
* C94: `CCSimdMask` of 64-bit lanes (SimdFallback.h line 352) shifts by 16 last and not by 32, so that a run of 48 zeros below the highest one is not filled;
  `CCSimdHighestSet`, `CCSimdMaskHighestUnset` and `CCSimdNextPow2` inherit this (`C94_mask64_exact`, `C94_mask64_refuted`).
* C94: `CCSimdCountHighestUnset` of 64-bit lanes (Simd128_arm.h lines 711-720) has the lanes of its two swizzles the wrong way around: it gives 32 for 1
  (`C94_count_highest64_exact`, `C94_count_highest64_refuted`).
* C95: `CCSimdHsub` of 4 and 8 lanes (SimdFallback.h lines 807-815 and 835-851) shifts a mask of 0 right by `CCBitCountLowestUnset(0)` = 64 bits, which is undefined
  behaviour; the documentation allows masks of 0 and its own examples use them (`C95_hsub_partial`, `C95_hsub_refuted`).
* `DebugReallocator` (Allocator.c 240-247) calls `realloc` before it replaces the old address in the map: another thread can be given the old address
  and free it, both find the same entry, and in the end the new address is not tracked and the freed one is (C96_tracked_refuted).  Its condition
  `(NewPtr) || (Data)` should be `&&`: with another allocator named (`CCArray` grows with `CC_STD_ALLOCATOR`) it dereferences null, and when memory
  runs out it aborts (C96_realloc_refuted).  `CCDebugAllocatorUntrack` never pushes the index on `availableIndexes`, so the map keeps an entry for every
  allocation ever made (C96_entries); the thread that loses the race for the first map leaks its map and queue.
* `CCLastComponent` (File.c 36-70) stops its loops at the first character of the path without looking at it: "a/" gives null and "/last/" gives "/last"
  (C97_last_refuted).  It also forms pointers before the path (not counted as a fault in the model; they are not dereferenced).
* `CCFileFilterInput` (CustomInputFilters.c 52-68) never ends once the empty path has been added (C98_empty_refuted) and compares a null file name, which
  `CCLogv` allows (C98_null_refuted).
* `CCConcurrentIndexMapInsertElementAtIndex` with large elements: if the buffer can be allocated but the element cannot, the buffer is freed while the slot of the element was never set (`ConcurrentIndexMap.c` 684-696), so an arbitrary pointer is freed (`C99_insert_refuted`, `C99_fault_exact`).
* `CCStringMapper` (ReflectedTypes.c 520-528) writes as many bytes of a string as it has characters, so strings that are not all ASCII are cut
  (C100_string_written_exact, C100_string_refuted).  `CCBigIntUnmapper` (628-655) drops a top component of zero, so zero is read back without any component
  (C100_big_zero_refuted) and cannot be stored again.  With the default preference for variable-length numbers 64-bit digits from `2 ^ 56` on are lost,
  as in C75 (C100_big_refuted).
* `CCReflectCopyHandler` (Reflect.c 806-813) destroys the copied elements after the unmapper has put them into the new container: `CCReflectDestroy` (2069-2074) frees
  every dynamic pointer in them, whether it owns its target or not.  A copied container of owning pointers has only freed targets, and copying a container of
  weak pointers takes a reference away from every target (C101_owned_refuted, C101_weak_refuted, C101_right_exact).  Copying an empty `CCArray` fails the
  assertion of `CCArrayAppendElements` that there are elements (C101_empty_refuted).
* The custom and callback allocators (Allocator.c 58, 93) add to the size after the overflow check of `CCMemoryAllocate`: near 2^64 the sum wraps and
  what is stored in front leaves the block (C102_wrap_refuted).  Their memory starts 40 and 24 bytes into the raw block, so it is only aligned to 8
  bytes (C102_align_exact).  `CCAllocatorAdd` says it cannot replace standard allocators and accepts 4 to 9 (C102_add_exact); replacing an allocator while
  its memory lives hands that memory to the new functions (C102_replaced_refuted).  Static memory starts with no reference, `CCFree` of it fails
  an assertion (C102_static_free_refuted).
* The enumerable of elements that were read into a zone goes wrong backwards when the elements start at a place that is not a multiple of their size and continue in another block (`C103_backwards_refuted`); the elements of an enumerable that is itself the element of an enumerable lie in a part of the zone that is given back at once (`C103_nested_refuted`); an element larger than a block of the zone makes reading abort (`C103_defined`).
* An empty `CCArray` is serialised, but reading it back appends 0 elements, which fails an assertion (`C104_empty_refuted`); memory read for weak pointers and unretained pointers to `void` is held by nothing (`C104_held_exact`).
* A hash map entry that was created and not given a value is serialised with whatever bytes its slot has, and is read back as initialised with them (`C105_unset_refuted`).
* `CCCollectionArrayHintWeight` lists `HeavyInserting` and `Ordered` as fast, but `CCOrderedCollectionHintHeavyInserting`,
  `HeavyPrepending` and `HeavySorting`, listed as slow, contain the same bits, so asking for them counts -90 instead of +10
  (`C107_fast_refuted`); a collection asked only for heavy inserting is kept as a linked list (`C107_builtin`).
* Destroying a garbage collector deletes its thread-specific key, which runs no destructors: the state of every thread that used it and still runs, usually including the destroying one, is leaked (C109).
* A section of a garbage collector begun inside another one loses the items handed over before, and items handed over in the inner one are put in the list twice, which leads to the use of freed nodes (C110).  The documentation does not forbid nesting.
* The array specifier `%[count]format` with no elements leaves the array among the arguments (C113_empty_refuted); when the first element has no text, `snprintf` is given `NULL` with a size of 1 (C113_null_exact); after `%[2]` at the end of a format it returns more than there is, and the format is read past its end (C113_end_refuted).
* `CCDeletionFormatSpecifier` takes the argument of `*` before it looks for `DEL`, so with it `%*d` gets the wrong arguments (C114_others_exact).
* `CCBigIntSet(x, x)` removes the components before it reads them: the integer is left without components
  (`C116_assign_exact`). `CCBigIntFastSet(&x, x)` does the same for integers of `2^63` or more.
* A negative big integer minus itself is a zero with a negative sign, which compares as less than zero
  (`C116_zero_refuted`).
* `CCBigIntFastSetString` never gives the tagged form, also where the number fits it (`C115_tagged_refuted`).
* `CCListRemoveElementAtIndex` destroys the node of a page it has emptied but not the array of the page, which is lost
  (`C117_destroy_refuted`, `C117_destroy_exact`). A `CCListAppendElement(s)` that runs out of memory can leave an empty page behind the list, after which
  every removal aborts (`C118_refuted`, `C118_rollback_refuted`, `C118_append_many_exact`).
* Reflected integers of fewer than 8 bytes are printed wrong on big endian machines: the bytes are put at the wrong end of the word and the
  sign is taken from the least significant byte (`C119_big_refuted`). A signed integer of size 0 reads a byte that is not its own (`C119_empty_refuted`).
* Printing a type never ends when a cycle of pointers, arrays, validators or enumerables avoids all structs, as the level is raised by structs only
  (`C121_ends_refuted`). `_nonfixed` is printed for integers whose size is fixed (`C121_nonfixed_refuted`). For floating point types without a name the
  member `sign` of an integer description is read from padding (`C121_float_refuted`).
* The members `CC_REFLECT_VALUE_TO_STRUCT` describes leave out `typeSize` (ReflectedTypes.h 945-949): the descriptor of a container read from
  a stream has in it whatever was in the memory, and writing it again writes that (`C122_container_refuted`).
* Descriptors of terminated arrays cannot be written (they are in neither list of opaque types), nor can descriptors of strings, big integers and
  so on that have been read: they are known by their address (`C122_others_refuted`).
* With names instead of numbers, `strncmp` is given the count read: part of a name is taken for the first value that starts with it
  (`C122_name_refuted`).
* C123: `CCSimdPiRadSin` is no sine outside of its range (`C123_range_refuted`), the default sine errs by more than 0.001 (`C123_sin_accuracy_refuted`), the
  more accurate cosine is not even (`C123_cos_even_refuted`), and the polynomial A&S 4.4.47 of the more accurate arc tangent errs by up to 0.0000115, more than the
  0.00001 its source gives. The two optional branches of `CCSimdArcTan2` name a macro that is not defined (`CCSimdMaskCompareNotEqual`), and are not modelled.
* C124: `CCSimdPow2` lets the exponent run into the sign bit: minus infinity for -128, a small negative number for 130 (`C124_pow2_refuted`). `CCSimdLog2` of a
  negative number takes the sign bit for part of the exponent and is 256 too large (`C124_log_negative`). The default `CCSimdExp` is 0 for every argument
  from -1.6 down (`C124_exp_refuted`), so the default `CCSimdPow` of 4 and 2 is below 12 (`C124_pow_refuted`) and the default `CCSimdArcSin` of 0.96 is π/2
  (`C124_arcsin_default_refuted`). `CCSimdArcSin` does not use its odd symmetry (A&S 4.4.45 is for 0 to 1): it is wrong for negative arguments at every accuracy
  (`C124_arcsin_negative_refuted`), as is `CCSimdCbrt` (`C124_cbrt_refuted`). `CCSimdExp2` of accuracy 2 or more is not modelled.
* `CCConcurrentCircularBufferRelease` (ConcurrentCircularBufferTemplate.h:121-128) has only a compiler fence and a relaxed store, and the producer loads `head` relaxed (132, 150): nothing the
  consumer did is known to happen before the reuse of a slot. Every reuse of a slot that was looked at is a data race (`C125_race_refuted`), and on a machine that may carry out a load after a later
  store a visit can see a later item (`C125_late_read_refuted`).
* `CCConcurrentSwapBufferRead` exchanges with `memory_order_consume` only and `Apply` has no acquire (ConcurrentSwapBufferTemplate.h:76-97): every filling of a buffer the reader has looked at is a data
  race (`C126_race_refuted`), and on such a machine a look may find the buffer half filled (`C126_late_read_refuted`).
* The data oriented hash maps do not look at what `CCArrayAppendElement` returns (…DataOrientedAll.c:159, 175, …DataOrientedHash.c:181): when memory runs out there, the arrays get out of step, and
  the value of a later key is returned for the key (`C127_wrong_value_refuted`) or both keys are counted but not found (`C127_lost_refuted`).
* `CCConcurrentSharedResourceSet` is documented wait-free if `Tmax` is at least the number of threads, and lock-free otherwise.  With `Tmax` equal to it (two threads, two nodes) a thread stopped inside a get makes another's set look
  for a node for ever; and for every `Tmax` from 2 on a set can be overtaken without bound by another thread's sets (C130).
* `CCTaskIsFinished` loads the state of the task relaxed (`Task.c` 150), and `CCTaskQueueDefault` loads `Init` relaxed (`TaskQueue.c` 78): under the C11 memory model neither the output of a finished task nor the default queue is known to the thread that asks for it (C133). With acquire loads both are.
* The garbage collectors do not order the uses made in sections before the reclaiming (C135).  `CCLazyGarbageCollectorEnd` exchanges relaxed if the section handed over nothing (236), and is never an acquire (227, 236): the thread that drains has not even synchronised with those that wrote the nodes.  `CCEpochGarbageCollectorEnd` exchanges relaxed if the section handed over nothing (265), and looks at the next pair with a relaxed load (272).
* `CCConcurrentQueuePop` loads the link to the node it returns relaxed (156); the acquire two lines below (158) is on `head`, which the push does not store to.  So the data written into a node before it is pushed is not ordered before the pop (C136); processors that order dependent loads hide this.
* `CCSystemVersionLiteral` on macOS 11 and later with a minor version below 10 takes the branch for versions before 10.10 (SystemInfo.c 108-110): 11.6 is 1160, below 101500 for 10.15, so a check for a minimum version fails (C137).  `CCSystemVersion` writes outside of `Values` for a version with a fourth number (76).
* `CCConcurrentSharedResource`: a get gives up a node with a relaxed addition (106, the fence before it is for signals only) and a set with a relaxed subtraction (90), so that a later set may overwrite and destroy the data of the node while, for the memory model, it is still being shared (C138).
* `CCConcurrentPoolPop`: the exchange is `memory_order_consume`, but the reference returned is computed from the value of the relaxed load, so that by the letter nothing orders the writing of the item before the use of it (C139).
* Large elements of an index map: the exact replace publishes the new element with a relaxed exchange (`ConcurrentIndexMap.c` 259), and the address is loaded relaxed everywhere (202, 233, 246): by the letter every reading of an element races with the writing of it, and where the address dependency orders them, those of elements put there by an exact replace still do (C141).
* A serial task queue whose last task was destroyed without being run, or was pushed again instead of being run, hands out no task ever again (`TaskQueue.c` 130-136): the queue holds the only reference and waits for the task to finish (C142).
* `CCConcurrentIndexMapRemoveElementAtIndex` and `CCConcurrentIndexMapInsertElementAtIndex` load `pointer` relaxed (644, 679) and replaces add to `mutate` relaxed (483, 524, 584): a resize may copy the old value of an element although it has seen the count of the replace, its exchange succeeds, and the replace is undone (C144).  Where address dependencies are respected the strict compliance variant is right, the other is not.
* `CCFloatEqualRelative` and `CCFloatEqualAbsolute` do not find an infinity equal to itself, whatever the tolerance (`C145_infinite_refuted`).
* `CCReflectTerminatedArrayMapper` reads beyond an array that has no terminator, whatever the size of its type (`C146_full_refuted`).
* `CC_TEMP_Malloc_explicit` evaluates the size twice, gives no memory for sizes between the limits if they are the other way round, and declares an array of length zero whenever it uses the heap (`C147_refuted`).
* `CCDataSetSize` of a data buffer that was created with neither `CCDataBufferHintCopy` nor `CCDataBufferHintFree` frees the buffer of the caller and loses the new one; it does not ask for `CCDataHintResize` (`C148_lent_refuted`). `CCRandomGetState` does not free its buffer when the data cannot be created (`C148_state_refuted`).
* A file stream (`CCReflectStreamFileRead`, `CCReflectStreamFileWrite`) takes a read past the end of the file, and a write the system takes only in part, for a success: `FSHandleRead` reports a short count only through `Count`, which the stream does not look at, and `FSHandleWrite` ignores what `fwrite` returns and moves the offset by the whole size (`C149_short_read_refuted`, `C149_short_write_refuted`).
* The direct accesses to a virtual file (`FSVirtualFileWrite`, `FSVirtualFileRemove`; declared in the private header, not called by the code at this commit): inserting more than follows the place puts the surplus at the end of the file (`C150_insert_refuted`), writing behind the end leaves no gap (`C150_behind_refuted`), writing nothing in the file, or removing behind its end, fails an assertion (`C150_nothing_refuted`, `C150_remove_refuted`), or, for a count near `SIZE_MAX`, makes the file longer (`C150_remove_all_refuted`).
* The assertions about ranges let ranges outside through: the `Offset` of the data calls is signed, and a negative one is accepted if the range ends within the data, so that what lies in front of it is read or written (`C151_data_refuted`); sums that wrap are accepted by data, strings and arrays (`C151_string_refuted`, `C151_remove_refuted`); the count of `CCArrayReplaceElementsAtIndex` is not checked (`C151_replace_refuted`).
* The bytes an array asks for wrap: appending `2^61 - 1` elements of 8 bytes without giving them (NULL) to an array of chunks of one element succeeds with no memory behind them (`C152_room_refuted`).
* `CCReallocBlock` tells its callback that `CCRealloc` failed (`C155_indicator_refuted`); `CCErrorLogAndExit` ends the program with
  status 0 (`C155_library`).
* `CCTaskCreate` returns a freed pointer when its second allocation fails (`C112_failure_refuted`). `CCQueuePush` of a node that has
  others linked to it loses them, or leaves the count too low (`C06_chain_refuted`, `C06_chain_count_refuted`).

## 6. What is modelled and what is not

Modelled, function by function (the doc comment of every definition cites file and lines): `Array`, `List`, `LinkedList`, `Queue`, `HashMap` with its three separate chaining
implementations and their enumerator, `ConsecutiveIDGenerator`, `ConcurrentBuffer`, `ConcurrentIndexBuffer`, `ConcurrentSwapBuffer`,
`ConcurrentCircularBuffer`, `ConcurrentPool`, `ConcurrentQueue`, `ConcurrentSharedResource`, `LazyGarbageCollector`, `EpochGarbageCollector`, `BitTricks`, `Bits`,
`Enumerable`, `CircularEnumerable`, `Random`, `Hash`, `BigInt`, `BigIntFast`, `Decimal`, `Data` with `DataBuffer` and `DataContainer`, `Task`, `TaskQueue`,
`PoolAllocator`, `MemoryZone`, `Allocator` (reference counts, aligned, bounds checking, zone and autorelease allocators), `Alignment`, `Collection` (list, array, fast array), `Dictionary`, the sequential index map,
`Range`, `Swap`, the system and virtual file handles of `FileHandle`, the lock of virtual files, the reader, the strings and the matching of `Path`, `FSPathDefault`, the tree of virtual volumes with copying, moving, renaming and listing, the copying of system files, run length encoded streams, the binary encoding of numbers, the lists of functions and opaque types known by number or name, reflected data (copying, validating with maximum and minimum, binary serialisation; without static pointers, opaque types and enumerables), `CCString` with its UTF-8 functions and enumerator, the hash cache of tagged strings, the vector and matrix types, type descriptions, the parsing of format specifiers, `CCLogv` and the custom specifiers, the memory access templates, the type callbacks of keys, the concurrent index map, the debug allocator, the choice of allocators with the custom, callback and static ones and groups, `CCLastComponent`, the filter of file names, the mappers of strings and big integers, copying with containers, the printing of reflected data and types, the choice of implementations of collections and dictionaries, and the ARM versions of moving vector lanes and of the integer lane operations and the horizontal operations on integer lanes.

Not modelled: the file system calls, the system conversions and list edits of paths, the mapper of allocators, the outputs of the log, rounding of floating point
arithmetic (vectors and matrices are over the reals, or over any arithmetic), the SIMD instructions for floats and x86, Objective-C bridging, weak memory orders other than in the `*Weak.lean` modules, signal handlers, and the
preprocessor machinery (`Template.h`, `Generics.h`): templates are modelled at one instantiation with an arbitrary element type.
