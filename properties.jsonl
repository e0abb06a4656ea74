{"id": "C01", "title": "CCArray behaves as a sequence", "statement": "Starting from a fresh array of any chunk size, after any history of append / append-many / replace / copy / insert / remove / remove-all calls that respect the documented index bounds, reading every index of the array gives exactly the sequence obtained by performing the same edits on a mathematical list; each append or insert call returns the index at which the (first) element can be read back, and the count is the length of that list.", "quantifier": "every element type, every chunk size >= 1, every finite history of valid calls of any length", "why_tests_cant": "A unit test exercises a handful of histories and chunk sizes; growth happens only at particular count/chunk coincidences and the claim covers unboundedly many histories.", "anchors": ["CommonC/Array.c: CCArrayAppendElement, CCArrayAppendElements, CCArrayReplaceElementAtIndex, CCArrayReplaceElementsAtIndex, CCArrayCopyElementAtIndex, CCArrayCopyElementsAtIndex, CCArrayInsertElementAtIndex, CCArrayInsertElementsAtIndex, CCArrayRemoveElementAtIndex, CCArrayRemoveElementsAtIndex, CCArrayRemoveAllElements", "CommonC/Array.h: CCArrayGetElementAtIndex, CCArrayGetCount"]}
{"id": "C02", "title": "CCArray never touches memory outside its allocation", "statement": "In every history of CCArray calls that passes the functions' own assertions, each element read or written lies inside the block currently allocated for the array's data (no call reads or writes past the allocated capacity).", "quantifier": "every chunk size, every history of calls passing the assertions, including reallocation failures at arbitrary points", "why_tests_cant": "An out-of-bounds write of a few bytes is usually silent in a test; the bound must hold for all growth patterns and all failure points.", "anchors": ["CommonC/Array.c: CCArrayAppendElement, CCArrayAppendElements, CCArrayInsertElementAtIndex, CCArrayInsertElementsAtIndex, CCArrayReplaceElementsAtIndex"]}
{"id": "C03", "title": "CCArray growth failure is atomic", "statement": "If the allocator refuses to grow the array, the append or insert call reports SIZE_MAX and the array (its count and every element) is exactly as before the call; later calls behave as if the failed one had never been made.", "quantifier": "every history of calls with an arbitrary subset of the growth requests refused", "why_tests_cant": "The set of possible failure points grows with the history; tests rarely inject allocator failures at all.", "anchors": ["CommonC/Array.c: CCArrayAppendElement, CCArrayAppendElements, CCArrayInsertElementAtIndex, CCArrayInsertElementsAtIndex"]}
{"id": "C04", "title": "CCList (paged list) behaves as a sequence", "statement": "For any page and chunk size, after any history of append / append-many / replace / insert / remove / remove-all calls within bounds, reading index i of the paged list returns the i-th element of the mathematical list produced by the same edits, the count is its length, and enumeration forwards or backwards visits exactly these elements in order.", "quantifier": "every page size, chunk size and finite history of valid calls; every requested count of appended elements", "why_tests_cant": "Page-boundary carries (insert into a full page, removal pulling elements back, append spanning several pages) combine in unboundedly many ways.", "anchors": ["CommonC/List.c: CCListCreate, CCListAppendElement, CCListAppendElements, CCListReplaceElementAtIndex, CCListInsertElementAtIndex, CCListRemoveElementAtIndex, CCListRemoveAllElements, CCListGetEnumerable", "CommonC/List.h: CCListGetPage, CCListGetElementAtIndex"]}
{"id": "C05", "title": "CCLinkedList editing keeps chains well formed", "statement": "Starting from separately created nodes, any sequence of insert / insert-before / insert-after / append / prepend / remove operations keeps every chain doubly linked and acyclic (the next of a node's previous is the node, and conversely), and the order of nodes in each chain is the order obtained by performing the same edits on mathematical lists; no node is lost or appears twice.", "quantifier": "every collection of nodes and chains of any length, every operation at every position", "why_tests_cant": "Pointer splicing bugs show only for particular shapes (head, tail, singleton, adjacent nodes, mid-chain arguments).", "anchors": ["CommonC/LinkedList.c: CCLinkedListInsert, CCLinkedListInsertAfter, CCLinkedListInsertBefore, CCLinkedListAppend, CCLinkedListPrepend, CCLinkedListRemoveNode, CCLinkedListRemove"]}
{"id": "C06", "title": "CCQueue is first-in first-out", "statement": "For every history of push, pop and peek calls with single nodes, pops return the pushed nodes in exactly the order they were pushed, each once; pop and peek on an empty queue return nothing; the reported count is the number of nodes pushed and not yet popped.", "quantifier": "every finite history of push/pop/peek calls", "why_tests_cant": "The order and count claim is over unbounded histories and every interleaving of pushes and pops through the empty state.", "anchors": ["CommonC/Queue.c: CCQueuePush, CCQueuePop, CCQueuePeek, CCQueueGetCount"]}
{"id": "C07", "title": "HashMap behaves as a finite map", "statement": "For every hash function and key comparator that are consistent with each other, and every bucket count, after any history of set-value / get-entry-or-create / set-entry / remove operations, looking up a key returns the value most recently stored under an equal key that has not since been removed, and nothing for other keys; the count equals the number of distinct stored keys. (Entry handles encode bucket and slot in one word; the claim is for maps in which at most L keys are stored at once with L * 2 * (bucketCount + 1) <= 2^64, so that every slot has a handle.)", "quantifier": "every key and value type, every hash function (including heavily colliding ones), every bucket count, every finite history", "why_tests_cant": "Correctness depends on collisions, slot reuse after removal and the interplay of entry handles, which tests sample only for a few key sets.", "anchors": ["CommonC/HashMap.c", "CommonC/HashMapSeparateChainingArray.c"]}
{"id": "C08", "title": "HashMap entry handles decode to the place they were made for", "statement": "An entry handle returned for a key (by find or create) can be turned back into exactly that key's bucket and slot: for every bucket count and every bucket and slot that is representable, decoding an encoded entry returns the same bucket and slot, a handle is never the null entry, and different places never share a handle; places that cannot be represented are reported as failure rather than as a wrong handle.", "quantifier": "every bucket count, bucket index and slot index up to the 64-bit limits", "why_tests_cant": "The encoding packs two indexes with a width that depends on the bucket count; the boundary cases are at sizes no test allocates.", "anchors": ["CommonC/HashMapSeparateChainingArray.c: GetEntryBucketIndex, GetEntryItemIndex, CreateEntry", "CommonC/BitTricks.h: CCBitMaskForValue, CCBitCountSet"]}
{"id": "C09", "title": "HashMap entry handles stay valid until their key is removed", "statement": "A handle obtained for a key keeps denoting that key (same key, current value) through any number of later insertions, updates and removals of other keys, as long as the map is not rehashed.", "quantifier": "every history between obtaining the handle and using it", "why_tests_cant": "Slot reuse by later insertions is what could break it; the interleavings are unbounded.", "anchors": ["CommonC/HashMapSeparateChainingArray.c: FindKey, EntryForKey, RemoveEntry, AddValue"]}
{"id": "C10", "title": "HashMap rehash preserves the mapping", "statement": "Changing the bucket count of a map, at any point and to any new bucket count, leaves every key's association unchanged: a key that had a value keeps it, a key that was absent stays absent.", "quantifier": "every map contents, every old and new bucket count", "why_tests_cant": "Rehash moves every entry; the claim covers all contents and all sizes.", "anchors": ["CommonC/HashMap.c: CCHashMapRehash", "CommonC/HashMapSeparateChainingArray.c: Rehash"]}
{"id": "C11", "title": "HashMap enumeration visits each entry exactly once", "statement": "Walking a map with the first/next entry functions visits every stored key exactly once, no removed slot, and then stops.", "quantifier": "every map contents, bucket count, and pattern of removals before the walk", "why_tests_cant": "Removed slots may sit anywhere in any bucket, in unboundedly many patterns.", "anchors": ["CommonC/HashMapSeparateChainingArray.c: EnumeratorEntry, key/value enumerators, GetFirstEntry, GetNextEntry", "CommonC/HashMap.c"]}
{"id": "C12", "title": "Concurrently assigned IDs are unique", "statement": "However the assign and recycle calls of any number of threads interleave, an ID handed out by the consecutive ID generator is never handed out again until it has been recycled, and every ID lies in the generator's range.", "quantifier": "every pool size, every number of threads, every interleaving of the individual atomic operations", "why_tests_cant": "A duplicate appears only under specific schedules; tests observe only a few schedules.", "anchors": ["CommonC/ConsecutiveIDGenerator.c: CCConsecutiveIDGeneratorTryAssign, CCConsecutiveIDGeneratorRecycle", "CommonC/ConcurrentIDGenerator.c"]}
{"id": "C13", "title": "ConcurrentBuffer conserves its data", "statement": "However any number of writers, swappers and readers interleave, every datum written into a concurrent buffer is in exactly one place: still in the buffer, returned to exactly one reader or swapper, or destroyed exactly once by the write that replaced it (or by the buffer's own destruction).", "quantifier": "every number of threads, every interleaving, every history length", "why_tests_cant": "Double delivery or double destruction depends on the schedule.", "anchors": ["CommonC/ConcurrentBuffer.c: CCConcurrentBufferWriteData, CCConcurrentBufferWriteDataSwap, CCConcurrentBufferReadData"]}
{"id": "C14", "title": "ConcurrentIndexBuffer indexes have one owner", "statement": "At every moment of every interleaving each index of a concurrent index buffer is in exactly one of the states: free, being written by exactly one writer, staged for reading, or held by exactly one reader; so a writer and a reader (or two writers) never use the same slot at the same time, and no index is lost as long as users stage/discard what they acquire.", "quantifier": "every capacity, any number of threads, every interleaving of atomic steps", "why_tests_cant": "Sharing a slot requires a particular race between stage, acquire and discard.", "anchors": ["CommonC/ConcurrentIndexBuffer.c: CCConcurrentIndexBufferWriteAcquire, CCConcurrentIndexBufferReadAcquire, CCConcurrentIndexBufferStage, CCConcurrentIndexBufferDiscard"]}
{"id": "C15", "title": "Swap buffer: reader and writer never share a buffer", "statement": "For one writer and one reader interleaved in any way, the three internal buffers are always assigned as one for the writer, one for the reader and one spare, so the reader never sees a buffer that is being written; a read that reports new data returns the most recently applied write.", "quantifier": "every interleaving of apply/read atomic steps and every history length", "why_tests_cant": "The property is about all schedules of an index exchange protocol.", "anchors": ["CommonC/ConcurrentSwapBufferTemplate.h: CCConcurrentSwapBufferApply, CCConcurrentSwapBufferRead"]}
{"id": "C16", "title": "Concurrent circular buffer is a single-producer single-consumer FIFO", "statement": "With one producer and one consumer interleaved arbitrarily, the consumer receives exactly the items the producer successfully added, in order, without loss, duplication or an item being read before it was written or overwritten while still enumerable; an add fails only when the buffer really held max-1 unreleased items at that moment.", "quantifier": "every capacity, every interleaving of producer and consumer steps, every history length including wrap-around", "why_tests_cant": "Index wrap-around with concurrent head/tail movement gives unboundedly many schedules.", "anchors": ["CommonC/ConcurrentCircularBufferTemplate.h: CCConcurrentCircularBufferAddItem, AddItems, GetEnumerable, Release"]}
{"id": "C17", "title": "Concurrent pool hands out each item once, in order", "statement": "With one staging producer and any number of popping consumers interleaved arbitrarily, every committed item is popped by exactly one consumer, in commit order, and no uncommitted item is ever popped, provided the producer never has more than max items outstanding.", "quantifier": "every capacity, every number of consumers, every interleaving, every total number of items pushed (including beyond 2^32)", "why_tests_cant": "Counter wrap after 2^32 items and multi-consumer races cannot be reached by tests.", "anchors": ["CommonC/ConcurrentPoolTemplate.h: CCConcurrentPoolPop, CCConcurrentPoolStageBegin, CCConcurrentPoolStagePush, CCConcurrentPoolStageCommit"]}
{"id": "C18", "title": "Lazy garbage collector reclaims safely and exactly once", "statement": "In every interleaving of begin / manage / end calls, an item given to the lazy collector is reclaimed at most once and only at a moment when no participant that was inside a begin/end section when the item was handed over is still inside it; if all participants leave and the last end completes, everything handed over has been reclaimed.", "quantifier": "every number of threads, every interleaving of atomic steps", "why_tests_cant": "A use-after-free needs a precise race between the last leaver and a new participant.", "anchors": ["CommonC/LazyGarbageCollector.c: CCLazyGarbageCollectorBegin, CCLazyGarbageCollectorEnd, CCLazyGarbageCollectorManage"]}
{"id": "C19", "title": "Epoch garbage collector reclaims safely and exactly once", "statement": "In every interleaving of begin / manage / end calls, an item handed to the epoch collector is reclaimed at most once and only when every participant that was inside a begin/end section at the moment the item was handed over has left that section.", "quantifier": "every number of threads, every interleaving of atomic steps, any number of epoch advances", "why_tests_cant": "Epoch-based reclamation errors need several threads stalled at particular instructions across several epochs.", "anchors": ["CommonC/EpochGarbageCollector.c: CCEpochGarbageCollectorBegin, CCEpochGarbageCollectorEnd, CCEpochGarbageCollectorManage"]}
{"id": "C20", "title": "Concurrent queue is a linearizable FIFO", "statement": "In every interleaving of any number of pushes and pops, nodes are popped in the order their pushes took effect, each at most once, no pushed node is lost, and a pop reports an empty queue only if the queue was empty at some moment during that pop.", "quantifier": "every number of threads, every interleaving of the atomic steps", "why_tests_cant": "Lock-free queue errors require particular pre-emption points.", "anchors": ["CommonC/ConcurrentQueue.c: CCConcurrentQueuePush, CCConcurrentQueuePop, CCConcurrentQueueFixList"]}
{"id": "C21", "title": "Bit manipulation primitives meet their arithmetic meaning", "statement": "For every 64-bit word: lowest-set returns the lowest set bit as a word, lowest-unset the lowest clear bit, highest-set the highest set bit, count-set the number of one bits, count-lowest-unset the number of trailing zeros (64 for zero), mask-for-value the least all-ones mask covering the value, next-power-of-2 the least power of two not below the value (when representable), is-power-of-2 exactly the powers of two.", "quantifier": "all 2^64 values of the argument", "why_tests_cant": "2^64 inputs cannot be enumerated.", "anchors": ["CommonC/BitTricks.h: CCBitLowestUnset, CCBitLowestSet, CCBitHighestSet, CCBitNextPowerOf2, CCBitMaskForValue, CCBitMaskForLowerPowerOf2, CCBitMaskForUnsetValue, CCBitCountSet, CCBitCountLowestUnset, CCBitSet, CCBitIsPowerOf2"]}
{"id": "C22", "title": "Bit set: single-bit operations", "statement": "Setting, clearing or assigning bit i of a bit set of any block width changes bit i to the requested value and no other bit; reading bit i returns the last value given to it.", "quantifier": "every bit set length, block width 8/16/32/64 and index", "why_tests_cant": "Wide blocks and large indexes hit C shift-width rules which a few sample indexes miss.", "anchors": ["CommonC/BitsTemplate.h: CCBitsGet, CCBitsSet, CCBitsClear, CCBitsAssign"]}
{"id": "C23", "title": "Bit set: range operations touch exactly the range", "statement": "Setting, clearing, inverting a range of bits or combining it with another set (or, and, xor, copy) gives every bit inside the range the documented value and leaves every bit outside the range unchanged.", "quantifier": "every index, count and contents of the sets", "why_tests_cant": "Behaviour depends on index and count modulo 8 and 64 in combination; only a few combinations are sampled by tests.", "anchors": ["CommonC/BitsTemplate.h: CCBitsSetRange, CCBitsClearRange, CCBitsNot, CCBitsOr, CCBitsAnd, CCBitsXor, CCBitsCopy"]}
{"id": "C24", "title": "Bit set: counting a range", "statement": "Counting a range returns exactly the number of set bits whose index lies in the range, and the any-bit-set query is true exactly when that number is not zero.", "quantifier": "every index, count and contents", "why_tests_cant": "The implementation folds partial bytes, bytes and 64-bit words in index-dependent ways.", "anchors": ["CommonC/BitsTemplate.h: CCBitsCount, CCBitsAny"]}
{"id": "C25", "title": "Enumerators visit each element exactly once in order", "statement": "Starting an enumerator over a buffer of n elements (plain or circular with any start) and repeatedly asking for the next element yields each element exactly once in order and then reports the end; walking backwards from the tail yields them in reverse; next after previous returns to the same element.", "quantifier": "every element count, stride, capacity and start offset, every walk", "why_tests_cant": "Walks of arbitrary length and direction changes at the ends.", "anchors": ["CommonC/Enumerable.h: CCEnumerableNext, CCEnumerablePrevious, CCEnumerableGetHead, CCEnumerableGetTail, CCEnumerableGetCurrent", "CommonC/Enumerable.c", "CommonC/CircularEnumerable.c", "CommonC/CircularEnumerable.h"]}
{"id": "C26", "title": "Random generators never get stuck and stay in range", "statement": "From every non-zero seed the xorshift generator never reaches the all-zero state and distinct states have distinct successors (so it never enters a cycle it did not start on); a ranged random integer always lies within the requested inclusive bounds whenever the range size is representable.", "quantifier": "all 2^32 states / 2^160 xorwow states, every number of steps, every pair of bounds", "why_tests_cant": "State spaces and numbers of steps far beyond testing.", "anchors": ["CommonC/Random.c: CCRandomXorshift, CCRandomXorwow, seeds", "CommonC/Random.h: CCRandomRangei"]}
{"id": "C27", "title": "Hashes depend only on the bytes", "statement": "The Jenkins and Murmur hashes of a data object depend only on its bytes, not on the chunk size in which the data object prefers to be mapped.", "quantifier": "every byte string and every positive chunk size", "why_tests_cant": "Chunk boundaries can fall anywhere relative to the 4-byte blocks; all combinations of length and chunk size are needed.", "anchors": ["CommonC/Hash.c: CCHashJenkins32, CCHashMurmur32"]}
{"id": "C28", "title": "Big integers implement integer arithmetic", "statement": "Adding or subtracting big integers (and 64-bit integers) stores exactly the mathematical sum or difference of the represented integers, comparison returns the mathematical order, and results are again in normal form so that comparison and hashing of equal values agree.", "quantifier": "all pairs of big integers of any size and sign, all 64-bit operands, every history of operations", "why_tests_cant": "Carry and borrow chains, component removal and sign changes interact over unboundedly many sizes.", "anchors": ["CommonC/BigInt.c: CCBigIntApplyAdd, CCBigIntApplySub, CCBigIntAddBigInt, CCBigIntSubBigInt, CCBigIntAddInt, CCBigIntSubInt, CCBigIntCompareBigInt, CCBigIntSetInt"]}
{"id": "C29", "title": "Big integer text round-trips", "statement": "Printing any big integer in normal form and parsing the printed text gives back the same big integer; parsing any hexadecimal text yields the integer that text denotes, in normal form.", "quantifier": "every big integer and every hexadecimal string of any length", "why_tests_cant": "Digit grouping (16 digits per component), leading zeros and lengths not divisible by 16.", "anchors": ["CommonC/BigInt.c: CCBigIntParse, CCBigIntParseHex, CCBigIntGetString"]}
{"id": "C30", "title": "Fast (tagged) big integers represent what was stored", "statement": "Storing any 64-bit integer in a fast big integer and reading it back (by comparison or conversion) gives that integer.", "quantifier": "all 2^64 integers and every history of stores", "why_tests_cant": "The tagged representation has one bit less than the integer type; only boundary values reveal errors.", "anchors": ["CommonC/BigIntFast.h: CCBigIntFastSetInt, CCBigIntFastTaggedValue, CCBigIntFastGetTaggedValue, CCBigIntFastCompareBigIntFast"]}
{"id": "C31", "title": "Decimal scaling is exact when representable and saturates otherwise", "statement": "Multiplying an unsigned 64-bit value by a decimal (coefficient and power of ten) returns the mathematically exact product rounded down whenever that fits in 64 bits, and the maximum 64-bit value when it does not.", "quantifier": "every value, coefficient and exponent", "why_tests_cant": "Overflow of intermediate products and the digit-carry recurrence need all inputs.", "anchors": ["CommonC/Decimal.h: CCDecimal32MultiplyU64, CCDecimal64MultiplyU64"]}
{"id": "C32", "title": "Data containers read and write exactly the requested bytes", "statement": "For any data object, reading, writing, filling or copying a byte range transfers exactly that range irrespective of the object's preferred mapping size: a read after a write returns the written bytes inside the range and the previous bytes outside it.", "quantifier": "every contents, offset, size and preferred map size", "why_tests_cant": "Chunked transfer has a remainder step whose behaviour depends on the size modulo the map size.", "anchors": ["CommonC/Data.c: CCDataReadBuffer, CCDataWriteBuffer, CCDataFillBuffer, CCDataCopyBuffer"]}
{"id": "C33", "title": "Data hash is never stale", "statement": "After any history of writes, maps, unmaps and reads, asking a data object for its hash returns the hash of its current contents.", "quantifier": "every history of operations on the data object", "why_tests_cant": "Staleness depends on the order of operations between hash requests.", "anchors": ["CommonC/Data.c: CCDataGetHash, CCDataUnmapBuffer, CCDataWriteBuffer, CCDataFillBuffer, CCDataModifiedRange"]}
{"id": "C34", "title": "A finished task is not running", "statement": "However runs of a task on any number of threads interleave, the task reports finished exactly when at least one run has completed and no run is in progress.", "quantifier": "every number of threads and runs, every interleaving", "why_tests_cant": "Needs all schedules of concurrent runs.", "anchors": ["CommonC/Task.c: CCTaskRun, CCTaskIsFinished"]}
{"id": "C35", "title": "Serial task queue runs one task at a time in order", "statement": "From a serial task queue a task is handed out only when the task handed out before it has finished, tasks are handed out in push order, and each at most once, whatever the interleaving of poppers.", "quantifier": "any number of popping threads, every interleaving, every history", "why_tests_cant": "Requires every schedule of try-lock, pop and finish events.", "anchors": ["CommonC/TaskQueue.c: CCTaskQueuePush, CCTaskQueuePop"]}
{"id": "C36", "title": "Pool allocator never hands out a block twice", "statement": "For every history of allocations and frees, two simultaneously live allocations from a pool are different blocks inside the pool, at most max are live, an allocation fails exactly when max are live (or the size does not fit), and a freed block can be allocated again.", "quantifier": "every pool capacity and every history of allocate/free", "why_tests_cant": "Free-list reuse depends on the history.", "anchors": ["CommonC/Allocator.c: PoolAllocator, PoolDeallocator, PoolReallocator", "CommonC/PoolAllocator.c", "CommonC/PoolAllocator.h"]}
{"id": "C37", "title": "Memory zone allocations do not overlap and restore undoes", "statement": "Regions returned by a memory zone (aligned or not) are inside a block, correctly aligned, and disjoint from every region allocated earlier and not deallocated; restoring after a save deallocates exactly what was allocated since the save, at any nesting.", "quantifier": "every block size, every history of allocate / aligned-allocate / save / restore", "why_tests_cant": "Block boundaries and nested saves combine without bound.", "anchors": ["CommonC/MemoryZone.c: CCMemoryZoneAllocate, CCMemoryZoneAlignedAllocate, CCMemoryZoneDeallocate, CCMemoryZoneSave, CCMemoryZoneRestore"]}
{"id": "C38", "title": "Reference counted memory is destroyed exactly once", "statement": "In every interleaving of retain and free calls in which a thread only retains or frees memory it holds a reference to, the destructor and the deallocation of the memory run exactly once, after the last reference was given up and never while a reference is held.", "quantifier": "any number of threads and references, every interleaving", "why_tests_cant": "Schedules and reference histories are unbounded.", "anchors": ["CommonC/Allocator.c: CCMemoryRetain, CCMemoryDeallocate, CCMemoryAllocate"]}
{"id": "C39", "title": "Collections behave as bags with stable entries", "statement": "For each collection implementation, after any history of insertions and removals through entries, the collection holds exactly the elements inserted and not removed; an entry returned by an insertion keeps denoting its element until that element is removed, whatever else is inserted or removed; enumeration yields each held element exactly once.", "quantifier": "every implementation (array, fast array with removals from the end, list), every history", "why_tests_cant": "Removal compacts storage and must keep unboundedly many outstanding entries in step.", "anchors": ["CommonC/CollectionArray.c", "CommonC/CollectionFastArray.c", "CommonC/CollectionList.c", "CommonC/Collection.c"]}
{"id": "C40", "title": "Ordered collections keep positional order", "statement": "For every ordered collection implementation, insert-at, append, prepend, replace-at, remove-at, remove-last and index/entry conversions agree with the same operations on a mathematical list, so all implementations give identical observable results.", "quantifier": "every implementation, every history, every index in bounds", "why_tests_cant": "Implementations use different representations and optional fallbacks; equivalence is over all histories.", "anchors": ["CommonC/OrderedCollection.c", "CommonC/CollectionList.c", "CommonC/CollectionArray.c"]}
{"id": "C41", "title": "Container element destructors run exactly once", "statement": "When a collection or dictionary was created with element (key/value) destructors, each stored element is passed to the destructor exactly once over its life: when it is removed, replaced, or the container is cleared or destroyed; never while it is still stored.", "quantifier": "every history of operations followed by destruction", "why_tests_cant": "Leaks and double destruction depend on which of several code paths removes an element.", "anchors": ["CommonC/Collection.c: CCCollectionRemoveElement, CCCollectionRemoveAllElements, CCCollectionDestructor", "CommonC/Dictionary.c: CCDictionarySetEntry, CCDictionaryRemoveEntry, CCDictionarySetValue, CCDictionaryRemoveValue", "CommonC/OrderedCollection.c"]}
{"id": "C42", "title": "Concurrent index map behaves as a sequence", "statement": "Any history of get / replace / replace-exact / append / insert / remove calls on a concurrent index map gives the results of the same operations on a mathematical list, and storage is always large enough for the elements it holds.", "quantifier": "every chunk size, every history", "why_tests_cant": "Growth and copy-on-write at chunk boundaries over unbounded histories.", "anchors": ["CommonC/ConcurrentIndexMap.c"]}
{"id": "C43", "title": "Shared resource readers never see a destroyed value", "statement": "In every interleaving of set and get calls on a concurrent shared resource, a get returns a value that was current at some moment during the call, the value is not destroyed before the get has taken its own share of it, and each replaced value is destroyed exactly once.", "quantifier": "every number of readers and writers, every interleaving", "why_tests_cant": "Use-after-free needs a reader pre-empted between two atomic operations.", "anchors": ["CommonC/ConcurrentSharedResourceTemplate.h"]}
{"id": "C44", "title": "Ranges, clamping and intersections", "statement": "Clamp returns a value within the limits and the value itself when already inside; range containment and intersection agree with the sets of points the ranges denote.", "quantifier": "all numeric arguments", "why_tests_cant": "All combinations of bounds including wrap-around.", "anchors": ["CommonC/ExtremaTemplate.h: CCMin, CCMax, CCClamp", "CommonC/RangeTemplate.h: CCRangeContains, CCRangeIntersects, CCRangeGetIntersection"]}
{"id": "C45", "title": "Byte swapping is an involution that reverses bytes", "statement": "Swapping the byte order of a buffer reverses its bytes, and swapping twice restores the original.", "quantifier": "every buffer length and contents", "why_tests_cant": "All lengths, odd and even, and all contents.", "anchors": ["CommonC/Swap.h: CCSwap"]}
{"id": "C46", "title": "Floating point power-of-two test", "statement": "The float and double power-of-two tests return true exactly for the values that are powers of two.", "quantifier": "all bit patterns of float and double", "why_tests_cant": "2^32 and 2^64 patterns; the special classes (infinities, negatives, subnormals) are easily forgotten.", "anchors": ["CommonC/BitTricks.h: CCBitFloat32IsPowerOf2, CCBitFloat64IsPowerOf2"]}
{"id": "C47", "title": "Bit set: listing common bits", "statement": "Listing the bits that two sets have in common inside a range returns every index in the range at which both sets have a one, each exactly once and in increasing order.", "quantifier": "every index, count and contents of the two sets", "why_tests_cant": "The indexes are collected from words, partial bytes and whole bytes in separate passes; order and position of the partial bytes matter only for particular residues.", "anchors": ["CommonC/BitsTemplate.h: CCBitsMask"]}
{"id": "C48", "title": "Fast big integer arithmetic", "statement": "Adding or subtracting a 64-bit integer, a big integer or another fast big integer to a fast big integer leaves in it exactly the mathematical sum or difference of the integers they held, whichever representation (tagged or allocated) each of them had.", "quantifier": "all pairs of fast big integers, big integers and 64-bit integers", "why_tests_cant": "The result depends on which of several representations each operand and the result use; the boundaries at 63 and 64 bits cannot be covered by samples.", "anchors": ["CommonC/BigIntFast.h: CCBigIntFastAdd, CCBigIntFastSub"]}
{"id": "C49", "title": "An idle task queue reports empty exactly when it holds no task", "statement": "While no push or pop is under way on any thread, a task queue reports empty exactly when every task pushed to it has been popped.", "quantifier": "any number of threads, every interleaving and history before the queue became idle", "why_tests_cant": "The count is updated separately from the queue and temporarily wraps below zero; a test sees a few interleavings only.", "anchors": ["CommonC/TaskQueue.c: CCTaskQueueIsEmpty, CCTaskQueuePush, CCTaskQueuePop"]}
{"id": "C50", "title": "Aligning gives the least multiple that is not smaller", "statement": "CC_ALIGN(x, a) for a power of two a is a multiple of a, is not below x, and is the smallest such value; block sizes, block addresses and zone addresses computed with it have the requested alignment.", "quantifier": "For all 64-bit x and all powers of two a such that x + a - 1 does not exceed the largest 64-bit value.", "why_tests_cant": "The value space is 2^64 by 64 alignments; a unit test can only try a handful of addresses.", "anchors": ["CommonC/Alignment.h:29", "CommonC/PoolAllocator.c:31-40", "CommonC/MemoryZone.c:111-127"]}
{"id": "C51", "title": "Bytes of a memory zone can be found again", "statement": "CCMemoryZoneGetPointer(zone, k) is the k-th byte in use in allocation order (NULL exactly when fewer bytes are in use) and as many bytes as it reports can be read from there; CCMemoryZoneGetBlockForPointer maps the address of a byte in use back to its block and offset.", "quantifier": "every history of allocations, saves, restores and deallocations, every offset, every byte in use", "why_tests_cant": "The answer depends on how the whole history spread allocations over blocks; tests fix one block size and a few allocations.", "anchors": ["CommonC/MemoryZone.h:229-284"]}
{"id": "C52", "title": "UTF-8 text survives being written and read", "statement": "Writing a character as UTF-8 produces exactly the RFC 3629 encoding, of the size CCCharSize reports and free of NUL bytes; reading it back gives the same character and size whatever bytes follow; the length of a NUL terminated UTF-8 text is its number of characters; and stepping back from the last byte of a character reaches its first byte.", "quantifier": "every Unicode scalar value other than NUL, every text of such characters of any length, every following bytes", "why_tests_cant": "There are 1112063 characters and infinitely many texts; tests try a few strings, and the boundaries between encoding lengths, shifts and table entries can each be wrong for inputs not tried.", "anchors": ["CommonC/CCString.c:289-297", "CommonC/CCString.c:1662-1738"]}
{"id": "C53", "title": "Short strings are packed into a word without loss", "statement": "A text is made a tagged string exactly when it fits one of the three character maps (not longer than the map allows, all characters in the map). Its length, size and characters are then exactly those of the text, and two tagged strings are the same word exactly when they are the same text.", "quantifier": "every text of any length in ASCII or UTF-8, every set of registered maps without repeated characters", "why_tests_cant": "The packing shifts 5, 6 or 7 bit digits into 62 bits; tests try a few strings of a few lengths, while an error would show for one map, one length or one character only.", "anchors": ["CommonC/CCString.c:110-287"]}
{"id": "C54", "title": "A string is its characters", "statement": "However a string was made (copied, from a buffer given away or only used, constant, from a single character, tagged), CCStringGetLength, CCStringGetSize, CCStringGetCharacterAtIndex, CCStringCopyCharacters and CCStringGetHash depend only on its characters and give exactly them; an index outside is an assertion; CCStringEqual is true exactly when the characters are the same.", "quantifier": "every text of any length, every way of making a string, every index and range, every two strings", "why_tests_cant": "There are four representations and two encodings, and comparisons mix them; unit tests compare a few pairs of short strings.", "anchors": ["CommonC/CCString.c:299-404", "CommonC/CCString.c:881-973", "CommonC/CCString.c:975-1330", "CommonC/CCString.c:1370-1403"]}
{"id": "C55", "title": "Editing strings gives the edited text", "statement": "CCStringCreateByCopying / copying a substring / CCStringCreateWithoutRange / CCStringCreateByInsertingString / CCStringCreateByJoiningStrings give strings with exactly the characters of the list operation, never write outside the buffer they allocate, whatever the representations and encodings of the arguments; positions outside are assertions.", "quantifier": "every string, every range and index, every list of strings and separator, as long as the size of the result fits in size_t", "why_tests_cant": "Tagged strings, ASCII and UTF-8 buffers take different paths, with limits at 8, 10 and 12 characters; tests cover a few combinations.", "anchors": ["CommonC/CCString.c:406-490", "CommonC/CCString.c:654-731", "CommonC/CCString.c:817-859"]}
{"id": "C56", "title": "Searching finds the first occurrence", "statement": "CCStringFindSubstring returns the first index, at or after the given one, at which the substring occurs, and SIZE_MAX if there is none; CCStringHasPrefix and CCStringHasSuffix are true exactly if the string begins or ends with the other one.", "quantifier": "every two strings in every representation, every start index", "why_tests_cant": "Tagged strings are searched with shifts and masks of whole words, whose errors show only for particular lengths; the end of an enumeration depends on memory before the string.", "anchors": ["CommonC/CCString.c:1331-1368", "CommonC/CCString.c:1405-1465"]}
{"id": "C57", "title": "Replacing and splitting treat every occurrence once", "statement": "Replacing (a string, or several with their replacements) gives the text in which the occurrences, taken from the left without overlap, the first of the list where several match, are replaced, and the replacements are not searched again; splitting gives what is between these occurrences, so that n occurrences give n + 1 pieces.", "quantifier": "every string, every list of strings to find and of replacements (which may be null)", "why_tests_cant": "The number of turns of the loop and the arithmetic of its indices depend on all texts involved; tests cover few replacements of few lengths.", "anchors": ["CommonC/CCString.c:492-652", "CommonC/CCString.c:733-815"]}
{"id": "C58", "title": "A string enumerator can be moved back and forth", "statement": "From the head or the tail, after any sequence of next and previous that stays in the string, the enumerator returns the character of its position and reports its index; a move that leaves the string returns 0 and the index SIZE_MAX; CC_STRING_FOREACH runs once for each character in order.", "quantifier": "every string, every sequence of moves of any length", "why_tests_cant": "UTF-8 enumerators keep the byte position either before or after the current character depending on the last direction; tests turn round at most once.", "anchors": ["CommonC/CCString.c:1467-1660", "CommonC/CCStringEnumerator.h:50-181"]}
{"id": "C59", "title": "Enumerating a memory zone visits its items in order", "statement": "An enumerable obtained with CCMemoryZoneBlockGetEnumerable from a block, an offset, a stride and a count answers CCEnumerableGetCurrent, GetHead, GetTail, Next and Previous like a cursor in the list of the items of that stride from that place on, block after block, limited to count; every returned pointer is to allocated memory of the zone; and when the zone grows meanwhile the new items follow.", "quantifier": "for all chains of blocks, starting blocks, offsets, strides and counts, and all sequences of calls and allocations", "why_tests_cant": "Tests use one zone of three blocks with aligned items and never extend a block between calls. Whether the cached batch count, the start offset and the limit agree in every block layout and after every growth is a statement about all chains and all interleavings.", "anchors": ["CommonC/MemoryZone.c:245-352", "CommonC/MemoryZone.h:190-203", "CommonC/MemoryZone.h:236-267", "CommonC/Enumerable.h:141-221"]}
{"id": "C60", "title": "The aligned and the bounds checking allocator keep the contents", "statement": "Memory from the aligned allocator has its data aligned to the power of two asked for, and keeps the client's bytes, up to the smaller of the two sizes, across every reallocation, also when the block moves to an address of other alignment and when reallocation fails; deallocation frees the block that was allocated. The same contents hold for the bounds checking allocator, whose assertions never fail for a client that stays in its memory and always fail at the next reallocation or deallocation once one of the eight bytes on either side has changed.", "quantifier": "for all alignments 2^k, sizes, contents, block addresses, and all sequences of writes, reallocations, moves and failures", "why_tests_cant": "Where a block lands after realloc is the platform's choice; whether the shifted copy is right for every pair of addresses and alignments, and stays inside the new block, cannot be provoked by tests.", "anchors": ["CommonC/Allocator.c:121-168", "CommonC/Allocator.c:170-229"]}
{"id": "C61", "title": "Reallocation in a memory zone keeps the contents", "statement": "Memory from the zone and the autorelease allocator was not in use, and growing it, in place or by moving, keeps its bytes, changes no other byte in use, gives memory of the new size that lies in the zone, and is defined whenever the zone can supply the memory.", "quantifier": "for all reachable zones (any history of allocations, saves and restores), allocations in them, sizes and contents", "why_tests_cant": "In place growth depends on the allocation being the last one of the current block and on what is left in it; tests meet a few layouts, and reading behind the old memory goes unnoticed.", "anchors": ["CommonC/Allocator.c:279-342", "CommonC/Allocator.c:352-407"]}
{"id": "C62", "title": "The three hash map layouts are interchangeable", "statement": "Whatever sequence of calls is made on a new map, the two data oriented hash maps return for every call what the plain separate chaining map returns: the same values, counts, handles, enumerations and results of rehashing, and they are undefined exactly when it is. In particular each is a finite map.", "quantifier": "for all key and value types, hash functions, comparators, bucket counts and finite sequences of calls (any keys, values and handles, valid or not)", "why_tests_cant": "Each layout repeats the logic in its own file; a slip in one parallel array (a slot reused without writing its key, an index off between arrays) shows only for particular collision and removal histories.", "anchors": ["CommonC/HashMapSeparateChainingArrayDataOrientedAll.c", "CommonC/HashMapSeparateChainingArrayDataOrientedHash.c", "CommonC/HashMap.c:80-312"]}
{"id": "C63", "title": "A file handle edits the file as a list of bytes", "statement": "Reading, overwriting, inserting and removing through a file handle, at its offset or at one given, change the file exactly as the same edit changes a list of bytes (overwriting past the end fills with zeros), return the bytes that are there, move the offset past them only if asked to, and fail without changing the file when the handle was not opened for the operation.", "quantifier": "for all contents, block sizes, offsets within the range of long, data and finite sequences of calls; the gaps (insertions of less than a block in front of more than a block, past the end; removal counts that overflow) are proved as exact results or refutations", "why_tests_cant": "Insertion and removal shift the tail in chunks of the file system's block size; whether they are right depends on sizes relative to that block, usually larger than any file of a test.", "anchors": ["CommonC/FileHandle.c:47-358", "CommonC/FileHandle.h:74-230"]}
{"id": "C64", "title": "Handles of a virtual file edit one list of bytes", "statement": "Any number of handles open on a virtual (in memory) file read and change one list of bytes, each at its own offset: what one handle wrote, inserted or removed is what the others then read, bytes skipped by a write past the end are zero, memory is never accessed outside the file's array, and calls a handle was not opened for fail and change nothing.", "quantifier": "for all numbers of handles and modes, contents, offsets, data and finite sequences of calls (with memory available); the calls that fail an assertion, corrupt the file or leave its memory are proved separately", "why_tests_cant": "The defects sit at boundaries between the handle code and the array below it (writes that end exactly at the end of the file, insertions at the end, refused allocations).", "anchors": ["CommonC/FileHandle.c:362-581", "CommonC/SystemPath.m:568-810", "CommonC/FileSystem_Private.h:157-177"]}
{"id": "C65", "title": "The virtual file lock makes reads and writes atomic", "statement": "A thread that has the lock of a virtual file (or of the virtual volume) for writing excludes all readers and other writers; writes take effect one after the other and none is lost; a reader sees one complete state however often it looks; the lock's assertions never fail; the threads cannot deadlock; and a reader waits for at most one writer.", "quantifier": "for all data and changes, any number of threads below 2^31, and every interleaving of their atomic steps (sequentially consistent)", "why_tests_cant": "Interleavings of a counter that readers increment before they know whether they may enter; no test enumerates them.", "anchors": ["CommonC/FileSystem_Private.h:129-155"]}
{"id": "C66", "title": "Reading a path text and writing it back agree", "statement": "Every well formed list of path components, written as text and read by FSPathCreate, gives back the same components; reading never touches memory outside the text and, unless a directory is called '.', the components it returns spell a prefix of the text. Refuted for hidden directories ('.x/'), where the reader drops the directory and everything after it, and for '.' and '..' in the middle of names.", "quantifier": "all component lists, all path texts of any length", "why_tests_cant": "The reader is a state machine over an unbounded text with look back into earlier characters; tests try some texts, the claim is about every text.", "anchors": ["CommonC/Path.c:42-218", "CommonC/PathComponent.h:31-92"]}
{"id": "C67", "title": "The strings of a path are those of its components and stay valid", "statement": "FSPathGetFullPathString, FSPathGetPathString and FSPathGetFilenameString return, whatever was asked or changed before, the strings of the present components: the full string is the text behind the current path or volume, the path string is the text, the file name string its file part. The strings always fit the memory allocated for them. A returned pointer stays valid and unchanged across further getters. Refuted for relative paths after FSPathSetCurrent (stale full string) and for directories (asking the file name frees the strings handed out before).", "quantifier": "all component lists, all current paths, all sequences of getters and changes", "why_tests_cant": "The claim is over call sequences of any length and over the size computation agreeing with the writing loop for every component list.", "anchors": ["CommonC/Path.c:229-236", "CommonC/Path.c:388-564"]}
{"id": "C68", "title": "Two paths match exactly when their components agree from the end", "statement": "FSPathMatch does not depend on the order of its arguments, lets every path match itself, and otherwise answers TRUE exactly when the components agree pairwise from the last one, as far as both paths have components: same type and same name (up to ASCII case unless case sensitive), or one name starting with the wildcard, or one of them the relative root. Options other than the name options have no effect. A component keeps its type and its name apart in one word. Refuted: transitivity, wildcards inside a name, and names outside ASCII without case (tolower outside its domain).", "quantifier": "all component lists, all names, all 2^32 option words", "why_tests_cant": "Quantifies over all pairs of paths of any length and every option word; tests sample a few options.", "anchors": ["CommonC/Path.c:567-615", "CommonC/Path.h:45-73", "CommonC/PathComponent.h:84-92", "CommonC/PathComponent.c:33-63"]}
{"id": "C69", "title": "The default path is initialised before any call returns, but not only once", "statement": "However many threads call FSPathDefault at once and however their steps interleave, a call that has returned finds components in the default path. The spin loop meant to let one thread initialise at a time does not: a thread in it is through after at most two steps of its own, for every number of threads all can be behind it at once, and each can replace the components of the others (refuted: initialised once).", "quantifier": "all numbers of threads, all interleavings", "why_tests_cant": "A data race between threads; a test run sees one schedule and the window is a few instructions.", "anchors": ["CommonC/SystemPath.m:133-169"]}
{"id": "C70", "title": "The virtual file system behaves as a tree of names", "statement": "On a virtual volume, FSManagerExists says exactly whether the path is there, FSManagerGetSize gives the size of files, FSManagerCreate keeps everything that was there, adds only the file or the directories asked for and makes the path exist when it reports success, and FSManagerRemove removes exactly what the path leads to with everything below it. Relative paths mean the current path followed by them. This holds through every history of such calls.", "quantifier": "All trees, all paths from the root (directories, parents, file names) of at most 127 components, all current paths, all histories of calls.", "why_tests_cant": "Trees, paths and histories are unbounded; the tests create a few fixed files.", "anchors": ["CommonC/FileSystem.c:477-742", "CommonC/FileSystem.c:831-847", "CommonC/FileSystem_Private.h:56-76"]}
{"id": "C71", "title": "Copying, moving and renaming a file keep its bytes", "statement": "FSManagerCopy of a file onto a path where nothing is (in a directory that is there) makes a file with exactly the bytes of the source and changes nothing else; FSManagerMove does the same and the source is gone; FSManagerRename is a move to the new name in the same directory. A copy that fails changes nothing. This holds for virtual files and, for files of the system, whatever the block size. What happens when the destination is there is stated exactly.", "quantifier": "All trees, all paths from the root, all contents, all block sizes; induction over the blocks.", "why_tests_cant": "Sizes relative to the block size and to an older destination are unbounded; the tests copy small files to new places.", "anchors": ["CommonC/FileSystem.c:60-100", "CommonC/FileSystem.c:367-427", "CommonC/FileSystem.c:849-932"]}
{"id": "C72", "title": "Copying and moving a directory take everything in it", "statement": "FSManagerCopy of a virtual directory to a new entry of a directory outside of it makes everything in it, at every depth, appear there with the same bytes, and changes nothing else; FSManagerMove additionally leaves nothing at the old place. Nothing is lost when success is reported.", "quantifier": "All trees of any shape, all locations; induction over the depth and over the entries of each directory.", "why_tests_cant": "Trees are unbounded in width and depth, and empty directories, existing destinations or odd names only go wrong in combination.", "anchors": ["CommonC/FileSystem.c:749-829", "CommonC/FileSystem.c:849-932"]}
{"id": "C73", "title": "Listing a directory of a virtual volume", "statement": "Getting the contents of a directory of a virtual volume gives the path of every entry of the directory exactly once and nothing else; searched recursively also of every entry at every depth below it. An entry is given exactly when its kind is not to be skipped and its path matches one of the given paths (for a blacklist: none of them); without paths to match everything is given, and hidden entries are left out when asked to.", "quantifier": "for every tree, directory, set of options, list of paths to match and match predicate", "why_tests_cant": "The entries of a directory, their depth and the combinations of filters are unbounded; a test lists a few sample trees. That nothing is listed twice or left out at any depth needs an induction.", "anchors": ["CommonC/FileSystem.c:749-829", "CommonC/Path.h:45-72", "CommonC/FileSystem.h:89-105"]}
{"id": "C74", "title": "Run length encoded streams", "statement": "Whatever sequence of writing and continuing calls is made on a run length encoded stream, with a flush at the end, the same sequence of reading and continuing calls on what was written below returns to each call exactly the data its counterpart wrote, leaves what follows in the stream below, and has no run pending. A run of a masked byte of up to 256^size bytes takes 1 + size bytes.", "quantifier": "for every mask, size of the counts from 1 to 7, sequence of calls and data of any length", "why_tests_cant": "Runs of any length cross calls, reach the longest count and are split; the kinds of calls alternate in any order. Tests use short data.", "anchors": ["CommonC/ReflectStream.c:53-192", "CommonC/ReflectStream.h:80-151"]}
{"id": "C75", "title": "Binary encoding of integers", "statement": "An integer of any size, sign and byte order that is serialised, with fixed or variable length, is deserialised to the same number in any byte order of the destination, and exactly the bytes that were written are read. An unsigned number below 2^(7m) takes at most m bytes with variable length.", "quantifier": "for every size from 1 to 64 bytes, every value, byte orders of source, stream and destination, fixed or variable length, and whatever follows in the stream", "why_tests_cant": "There are 2^64 values of eight bytes and the layout of the bits changes with every byte; tests take samples, and the values above 2^56 or 2^48 go wrong.", "anchors": ["CommonC/Reflect.c:984-1381", "CommonC/Reflect.h:93-97"]}
{"id": "C76", "title": "Serialising and deserialising reflected data", "statement": "Serialising data of a reflected type and deserialising what was written gives data of the same type that is alike: the same numbers, null pointers where they were, other pointers to newly allocated data that is alike. Exactly what was written is read, and nothing but the destination and newly allocated memory is written.", "quantifier": "for every set of types (structures, arrays, numbers, dynamic pointers, validators, recursive ones too), every finite data of them, byte orders, preference for variable length, and whatever follows in the stream", "why_tests_cant": "Types nest and data is linked to any depth; tests serialise a few structures. That no byte outside is written and no pointer is shared needs an induction over the data.", "anchors": ["CommonC/Reflect.c:1953-2063", "CommonC/Reflect.c:2128-2278", "CommonC/Reflect.c:32-62"]}
{"id": "C77", "title": "Copying reflected data", "statement": "Copying data of a reflected type gives data that is alike at the destination: pointers stay the same when the data is transferred, for pointers to void, for weak ones unless their copy is asked for, and for retained ones that are shared; all others point to newly allocated copies. Nothing but the destination and newly allocated memory is written, and exactly the pointers that get one more owner are retained.", "quantifier": "for every set of types, every finite data of them that does not overlap the destination, every assignment and with or without validation", "why_tests_cant": "The ownership of every pointer at every depth times the kinds of assignments cannot be enumerated; tests copy single values.", "anchors": ["CommonC/Reflect.c:815-980", "CommonC/Reflect.h:377-383"]}
{"id": "C78", "title": "Validators of reflected data", "statement": "Validating data calls the function of the validator; a copy of the result for success or failure, if there is one, replaces the data and its type is answered, otherwise the data stays as it is and the base type is answered. The rest of the memory is left alone.", "quantifier": "for every validator, function, data and result of any type", "why_tests_cant": "The function and the types of the results are arbitrary; tests use a few validators of numbers.", "anchors": ["CommonC/Reflect.c:64-89"]}
{"id": "C79", "title": "Validators of maximum and minimum", "statement": "Data is accepted by the validator of a maximum (minimum) exactly when the number it is is at most (at least) the limit. With the limit as the result for failure validating clamps the data. Floating point numbers of the machine's sizes are compared as the machine does, whatever their byte orders; anything else is an assertion.", "quantifier": "for every two integers of any sizes, byte orders and signs; all data", "why_tests_cant": "Sizes, signs and byte orders of data and limit are independent and unbounded; tests compare a few numbers of the usual sizes.", "anchors": ["CommonC/ValidateMaximum.c:39-229", "CommonC/ValidateMinimum.c:39-229"]}
{"id": "C80", "title": "Vectorised functions agree with the plain ones", "statement": "The results of the vector functions do not depend on the instruction set the library is built for: adding, multiplying, comparing, inner products, lengths, cosines, cross products, interpolation and normalising give the textbook formula of the components, in every lane that counts, whether built without SSE, with SSE, SSE 3 or SSE 4.1.", "quantifier": "for all vectors of two, three and four components over any arithmetic (rounding included: no law of arithmetic is assumed but those a theorem names), at every instruction set", "why_tests_cant": "Every build exercises one instruction set only; agreement of the builds on all inputs, to the bit, is not observable in one of them.", "anchors": ["CommonC/Vector2D.h:100-1100", "CommonC/Vector3D.h:100-640", "CommonC/Vector4D.h:100-640"]}
{"id": "C81", "title": "Vector functions are Euclidean geometry", "statement": "Lengths, distances, inner products, cosines (the functions named Angle), projections, cross products, perpendiculars and normals are those of Euclidean space; normalising yields a vector of length one of the same direction and fails exactly on the zero vector. Vectors are parallel exactly when one is a multiple of the other and ortho exactly when their inner product vanishes, up to the tolerance.", "quantifier": "for all real vectors (rounding aside), all instruction sets", "why_tests_cant": "A continuum of inputs, including degenerate ones; tests check a few vectors with tolerances.", "anchors": ["CommonC/Vector2D.h:200-400", "CommonC/Vector3D.h:130-330", "CommonC/Vector4D.h:130-330"]}
{"id": "C82", "title": "Comparison by units in the last place", "statement": "Two numbers are equal within n units in the last place exactly if at most n steps from one representable number to the next lead from one to the other. The functions on vectors say so of each component, whatever the instruction set.", "quantifier": "for all pairs of 32 bit float bit patterns, all n, all instruction sets", "why_tests_cant": "2^96 combinations of inputs for each lane, with signs, zeros and not-a-numbers interacting across lanes.", "anchors": ["CommonC/Maths.h:140-150", "CommonC/Vector2D.h:382-385", "CommonC/Vector2D.h:759-769", "CommonC/Vector3D.h:541-551", "CommonC/Vector4D.h:547-557"]}
{"id": "C83", "title": "Matrices transform as named", "statement": "Multiplying matrices composes the transformations they stand for, the right one first. Translations move positions and leave directions; scales multiply components; rotations turn by the angle about the axis (Rodrigues), keep lengths, angles and orientation and fail exactly on the zero axis; ortho, frustum and perspective take the viewed volume to the cube from -1 to 1 with near at -1 and far at 1.", "quantifier": "for all real matrices, vectors, axes, angles and planes for which the projection is defined (rounding aside)", "why_tests_cant": "A continuum of inputs; a transposed or swapped entry can be invisible for the symmetric values tests like to use.", "anchors": ["CommonC/Matrix4.h"]}
{"id": "C84", "title": "Descriptions of types are read back", "statement": "A type description written to a stream is read back as the same graph of descriptors: sharing and cycles are kept, different types stay different, types known to the lookup are the ones they were, all members but the names of fields are equal, each type is written once, and what follows in the stream is left. Strings are read back. The default lookups are inverse to one another with whatever offset.", "quantifier": "for every finite graph of descriptors (any size, any cycles), every pair of matching lookups, all offsets", "why_tests_cant": "Graphs are unbounded and cyclic; a wrong back reference shows only in particular shapes, and the bytes of the lookup IDs must be disjoint from all first bytes of descriptions.", "anchors": ["CommonC/Reflect.c:1383-1944", "CommonC/ReflectedTypes.c:195-348"]}
{"id": "C85", "title": "Format specifiers are read as C writes them", "statement": "CCGetFormatSpecifierInfo of a format that begins with a specifier %[flags][width][.precision][length]conversion returns the number of characters before the conversion and exactly the flags, width, precision and length that are written, whatever follows. It is undefined exactly if a width or precision does not fit in an int. Of no string is a character beyond the terminator asked for.", "quantifier": "for every specifier of C's grammar, every text after it; for every string", "why_tests_cant": "The grammar has unboundedly many specifiers, and the states of the scanner fall through into one another.", "anchors": ["CommonC/Logging.c:942-1073", "CommonC/Logging.h:179-202"]}
{"id": "C86", "title": "%B writes numbers in binary", "statement": "The %B specifier is taken as a whole, and writes its argument in binary with as many digits as the length has bits (with # the shortest way), padded with zeros to the precision, in a field of the width, on the left with -, with zeros with 0. Other conversions are left alone. Arguments with more bits than the length are cut off, and negative widths from the arguments are taken as C does.", "quantifier": "for every specifier, every argument, every width and precision", "why_tests_cant": "The number of arguments times specifiers is beyond enumeration; the failing arguments (negative characters with #) look ordinary.", "anchors": ["CommonC/CustomFormatSpecifiers.c:35-176"]}
{"id": "C87", "title": "A log message buffer is a text", "statement": "Whatever is written to a log message and removed from it by a filter, the message is the text that results, terminated, and nothing outside its allocation is accessed; a failing write leaves the message usable.", "quantifier": "for every message and every sequence of writes and removals of any length", "why_tests_cant": "Growth happens only at particular lengths; allocation failures are rare.", "anchors": ["CommonC/Logging.c:379-412"]}
{"id": "C88", "title": "A log message is what its format stands for", "statement": "The message is the tag, the file and line, the function, and the text the format stands for: as printf makes it without filters of specifiers; with filters, each filter sees the message so far and the arguments that are left, and all other specifiers are formatted as printf does with the arguments that are left. Filters of messages may write to it. Nothing outside the allocations is accessed.", "quantifier": "for every tag, place, line, format of any number of specifiers and texts, all arguments, every list of filters", "why_tests_cant": "Formats are unbounded and any split of them into chunks must agree with what printf does with the whole.", "anchors": ["CommonC/Logging.c:418-702"]}
{"id": "C89", "title": "Concurrent index map is linearisable", "statement": "When any number of threads get, replace, replace-exactly, append, insert and remove elements of one concurrent index map, every call appears to take effect at one moment between its beginning and its return, on one list common to all of them: no update is lost or made twice, an index an append returned is that of its element, a removed element is the one that was there, and no call touches data that was already freed. The count agrees with the list as well.", "quantifier": "every chunk size, every number of threads below 2^32, every interleaving of their atomic steps and of the collector, with fewer than 2^32 changes during one try of a call", "why_tests_cant": "The interleavings of an optimistic copy with in-place changes are endless; a test hits few of them, and the bad ones need a thread to be stopped between two adjacent instructions.", "anchors": ["CommonC/ConcurrentIndexMap.c"]}
{"id": "C90", "title": "Wrapping reads and writes of typed values", "statement": "The memory access templates treat the first Size bytes of a memory block or data object as a ring: reading Count bytes at an offset gives the bytes of the ring from that offset on, writing puts them there and changes nothing else, what was written is read back, the swapping variants reverse the bytes of every value, and the Big and Little variants mean the same numbers on every machine.", "quantifier": "all memory contents, sizes, offsets, value sizes and counts of whole values, both byte orders, memory and data objects", "why_tests_cant": "Wrap-around, byte order, unaligned value sizes and the choice of the mapped part combine to far more cases than the few buffers of a test, and the tests only use one machine.", "anchors": ["CommonC/MemoryTemplate.h", "CommonC/DataMemoryTemplate.h"]}
{"id": "C91", "title": "Keys that compare equal hash equal", "statement": "For the key callbacks the library provides for dictionaries, the comparator says equal for exactly the keys of the same value, keys of the same value have the same hash, also when one is a tagged fast integer and the other a big one or one a tagged string and the other a constant, and comparing the other way round gives the other order.", "quantifier": "all big integers, fast big integers (tagged or not) and strings in any representation", "why_tests_cant": "A dictionary loses a key when two representations of the same value hash differently; there are unboundedly many values and every representation of each, and a test only tries a few.", "anchors": ["CommonC/TypeCallbacks.c", "CommonC/Comparator.h"]}
{"id": "C92", "title": "Hash cache of tagged strings shared by threads", "statement": "While any number of threads ask for hashes of tagged strings, the dictionary that caches them is changed by at most one thread at a time and not looked up in meanwhile, every value in it is the hash of its key, every call that returns gives the hash of its string, the lock is free when no call is in progress, no thread waits for ever for one that cannot go on, and a call does not read memory that is no longer the dictionary's.", "quantifier": "all numbers of threads below 2^31, all strings, all interleavings, any number of calls", "why_tests_cant": "The lock is a counter two kinds of holders share, and the read of the value found comes after it is given back; which interleaving goes wrong depends on timing a test does not control.", "anchors": ["CommonC/CCString.c"]}
{"id": "C93", "title": "Moving vector lanes puts every lane where it was asked for", "statement": "CCSimdSwizzle, CCSimdInterleave and CCSimdMerge on vectors of 2, 4, 8 or 16 lanes in a 128-bit register and 2, 4 or 8 lanes in a 64-bit register, as implemented for ARM by large case tables that pick one to three shuffling instructions: lane j of a swizzle is the lane of a whose number is argument j; lane j of an interleave is lane j of a when argument j is 0 and of b when it is 1; lane j of a merge is the lane of a or b named by argument j (CC_SIMD_An or CC_SIMD_Bn). An argument outside these ranges fails the assertion. Cases without a table entry take the general path with the same result.", "quantifier": "for all lane values, all argument tuples (up to 32^16 for merges), every lane count and both register widths", "why_tests_cant": "A test can only try a few of the 4^4, 2^8, 2^16, 8^4 and more argument tuples, each of which may select a different instruction sequence; one wrong table entry affects a single tuple.", "anchors": ["CommonC/Simd128_arm.h:877-1811", "CommonC/Simd64_arm.h:612-1218", "CommonC/Simd128.h:7927-7938", "CommonC/Simd128.h:8086-8097", "CommonC/Simd128.h:8247-8259"]}
{"id": "C94", "title": "Integer operations on vector lanes compute the documented bit operations", "statement": "On every lane of a vector of 8, 16, 32 or 64-bit integers: CCSimdRotateLeft/Right and their constant forms rotate the bits of the lane by the amount modulo the width; CCSimdLowestSet/LowestUnset/HighestSet give that bit on its own, or 0; CCSimdMask has ones from bit 0 to the highest one, CCSimdMaskHighestUnset above it, CCSimdMaskLowerPow2 below a power of two; CCSimdNextPow2 is the least power of two no less than the lane; CCSimdCountSet, CCSimdCountLowestUnset and CCSimdCountHighestUnset count one bits, trailing and leading zeros; the comparisons, CCSimdMin, CCSimdMax, CCSimdClamp, CCSimdDiv and CCSimdMod follow the numbers of the lane type.", "quantifier": "for all lane values and amounts, all lane widths, signed and unsigned lanes", "why_tests_cant": "The operations are bit tricks over up to 2^64 lane values; the wrong cases (negative lanes, 48 zeros in a row, a zero half) are not met by small test values.", "anchors": ["CommonC/SimdFallback.h:254-647", "CommonC/SimdFallback.h:932-936", "CommonC/Simd128_arm.h:371-760", "CommonC/Simd128.h:2912-4186", "CommonC/Simd128.h:7159-7355"]}
{"id": "C95", "title": "Horizontal additions, subtractions and dot products combine exactly the lanes selected", "statement": "CCSimdHadd, CCSimdHsub and CCSimdDot on vectors of 2, 4 or 8 integer lanes take one lane mask per lane of the result. Lane j of CCSimdHadd is the sum (modulo 2^w) of the lanes of a selected by mask j, of CCSimdDot the sum of the products of the selected lanes, of CCSimdHsub the first selected lane less all other selected lanes. A mask of 0 leaves the value of that lane of the result open and has no other effect. A mask with a bit for a lane that does not exist fails the assertion.", "quantifier": "for all lane values and all tuples of masks (up to 2^64), every lane count and both register widths", "why_tests_cant": "Each tuple of masks takes another path through the merging tables; tests try a handful of tuples, and undefined behaviour on zero masks usually shows nothing.", "anchors": ["CommonC/SimdFallback.h:654-930", "CommonC/Simd128.h:6009-6586"]}
{"id": "C96", "title": "The debug allocator tracks exactly what is allocated", "statement": "However many threads allocate, reallocate and deallocate memory with CC_DEBUG_ALLOCATOR at the same time, the pointers tracked are the pointers allocated: a pointer no call is about is tracked once, with the file and line of the call that allocated or last reallocated it, if it is allocated and not otherwise, CCDebugAllocatorIsTracking says so, and CCDebugAllocatorPrint prints each under its file and line once; reallocating replaces the pointer or, if memory runs out, returns null; the bookkeeping is of the size of what is allocated.", "quantifier": "All numbers of threads, all interleavings, all addresses the C library may give", "why_tests_cant": "The race between the old address of a reallocation and its reuse, and the race for the first map, need particular interleavings; tests use one thread", "anchors": ["CommonC/DebugAllocator.c:51-195", "CommonC/Allocator.c:231-253", "CommonC/Allocator.c:554-592"]}
{"id": "C97", "title": "CCLastComponent finds the last component", "statement": "For every path and separator, CCLastComponent returns the last component of the path: null if the path has none; the component up to the terminator with length 0 if nothing follows it; and the component with its length if separators follow it, whatever and however many separators are around it.", "quantifier": "All paths and separators other than the terminator", "why_tests_cant": "The wrong results depend on whether one or two characters precede the component, which the listed examples all miss", "anchors": ["CommonC/File.c:36-70"]}
{"id": "C98", "title": "The filter that strips paths from file names", "statement": "With CCFileFilterInput added, with whatever other filters of inputs that only look, every message that is not cancelled is printed exactly once, with its file name from which added paths have been removed, the last added first, until no added path begins it; without the filter or without paths, the file name is as given.", "quantifier": "All lists of paths and filters, all file names, unbounded depth of calls", "why_tests_cant": "The filter calls the logger that calls the filter: that this ends and prints once needs an induction over the names; the empty path and null names are not in any test", "anchors": ["CommonC/CustomInputFilters.c:31-68", "CommonC/Logging.c:289-303", "CommonC/Logging.c:415-449"]}
{"id": "C99", "title": "Large elements of an index map are neither lost nor used after they are freed", "statement": "An index map whose elements are too large to be stored in its buffer allocates each element. Every call returns what it returns for a list, whichever allocations fail (a call that runs out of memory fails and changes nothing; removing and inserting go on until there is memory) and whenever the garbage collector frees what it was given. No element or buffer is used after it is freed or freed twice. Once the collector has freed all it was given, exactly the elements in the map and one buffer are allocated, and destroying the map frees everything it allocated.", "quantifier": "for all chunk sizes, all sequences of calls with any outcomes of their allocations, and all orders in which the collector frees; one thread", "why_tests_cant": "Ownership of elements is spread over the map, old buffers waiting for the collector and elements waiting for it, shared by reference counts; failures of allocations at each step and each order of collection multiply the cases", "anchors": ["CommonC/ConcurrentIndexMap.c:171-301", "CommonC/ConcurrentIndexMap.c:354-366", "CommonC/ConcurrentIndexMap.c:452-702"]}
{"id": "C100", "title": "Strings and big integers are read back as they were serialised", "statement": "Serialising a CCString, CCBigInt or CCBigIntFast with CCReflectSerialize and deserialising the stream yields a string with the same characters or an integer with the same value, leaving the rest of the stream for the next reader.", "quantifier": "all strings and big integers, all contents of the rest of the stream, all preferences for variable-length numbers", "why_tests_cant": "The values are unbounded (any number of 64-bit components, any text); which ones survive depends on every digit of the integer and every character of the string.", "anchors": ["CommonC/ReflectedTypes.c:482-546", "CommonC/ReflectedTypes.c:573-777", "CommonC/Reflect.c:1946-2278"]}
{"id": "C101", "title": "Copying reflected data with containers", "statement": "Copying data of a reflected type that has containers (CCArray, CCList, CCLinkedList), strings and pointers gives data with the same contents that is independent of the original: it holds exactly one more reference to every string, retained pointer, container and copied target in it, and nothing it holds is freed; a container that is shared is retained, one that is transferred stays the same.", "quantifier": "for every type of finite depth, every data of it and every state of the memory", "why_tests_cant": "Types nest containers, pointers and structures without bound; whether a reference is dropped once too often shows only when the counts of all objects at every depth are added up.", "anchors": ["CommonC/Reflect.c:789-980", "CommonC/Reflect.c:2065-2121", "CommonC/ReflectedTypes.c:482-546", "CommonC/ReflectedTypes.c:1410-1560"]}
{"id": "C102", "title": "Memory is reallocated and freed by whoever made it", "statement": "Memory from CCMalloc with any mix of the standard, custom, callback and added allocators and of groups of them, and static memory, is reallocated and freed by functions that belong to the one that made it, on the raw block it got, whatever allocator type CCRealloc is given; the bytes, the reference count and the destructor are kept; a reallocation that fails leaves the memory as it was; callbacks get their events; when the last reference is gone the raw block is freed, and no raw block is lost; a group's allocators are used in turn, staying on the last.", "quantifier": "for every history of calls of CCAllocatorAdd, CCMalloc, CCRealloc, CCRetain, CCFree, CCMemorySetDestructor and writes that keeps to the rules, every outcome of the raw allocations", "why_tests_cant": "Tests try one allocator at a time; which functions get a block depends on the whole history of the table, of groups and of reallocations with other types.", "anchors": ["CommonC/Allocator.c:35-118", "CommonC/Allocator.c:256-276", "CommonC/Allocator.c:460-683", "CommonC/Allocator.h:34-60", "CommonC/Allocator.h:84-98", "CommonC/Allocator.h:194-247"]}
{"id": "C103", "title": "Elements that are read back are handed out each once and in order", "statement": "When a serialised sequence of elements is read (the contents of a list, linked list, collection, queue, map or big integer), its elements are put one after the other into the memory zone, with the state of the zone saved and restored around reading each of them.  Whatever the zone held before, however the elements are spread over its blocks and whatever reading each element allocated meanwhile, the enumerable made afterwards hands out exactly the places of the elements, each once and in the order they were read, and then ends; the memory used meanwhile is gone, and no element shares memory with another or with anything older.  The zone may grow while it is gone through.", "quantifier": "for all reachable zones, element sizes, numbers of elements, nested allocations and saved states made while each is read, and allocations made while the elements are gone through", "why_tests_cant": "the outcome depends on where each block of the zone happens to end: whether the element or the record of the saved state crosses into a new block, and whether an empty block is left behind; tests see a few layouts", "anchors": ["CommonC/Reflect.c:2233-2278", "CommonC/MemoryZone.c:129-352", "CommonC/ReflectedTypes.c:1512-1523", "CommonC/ReflectedTypes.c:1571"]}
{"id": "C104", "title": "Data with containers is read back as it was written", "statement": "Data of a reflected type made of numbers, dynamic pointers, strings, structures, CCArray, CCList and CCLinkedList that is written with CCReflectSerializeBinary is read back with CCReflectDeserializeBinary as equal data, reading stops behind it, no object that was there before is changed, and every object allocated for it has one reference and is led to exactly once (sharing is lost). The references equal what the new data holds exactly when it has no weak pointer or unretained pointer to void that is not null. An empty CCArray is written but reading it aborts. A list can be read as a linked list and the other way round.", "quantifier": "for all types of any depth, all data of any size and sharing, all memories it is read into and anything that follows in the stream", "why_tests_cant": "Tests read back a few literal values; nested types, sharing and the ownership of what is read are unbounded.", "anchors": ["CommonC/Reflect.c:1946-2063", "CommonC/Reflect.c:2123-2278", "CommonC/ReflectedTypes.c:1445-1580"]}
{"id": "C105", "title": "A hash map is read back as it was written", "statement": "After any history of edits in which every stored key was given a value, the key enumerable and the value enumerable of a hash map hand out the keys and the values of the same entries in the same order; serialising the map writes them, and reading it back - as a map of any number of buckets and any consistent hash - gives a map of the same count in which every key has the value it had, and stops behind it. A key that has an entry but was not given a value may be read back with the value of a key removed before.", "quantifier": "for all histories of edits, all key and value types whose elements are read back as written (keys: as keys that compare equal), all bucket counts and consistent hashes, anything that follows in the stream", "why_tests_cant": "Tests read back one literal map; they do not cover reused slots, collisions or other bucket counts.", "anchors": ["CommonC/ReflectedTypes.c:1685-1737", "CommonC/HashMapSeparateChainingArray.c:607-645", "CommonC/HashMap.c:276-313"]}
{"id": "C106", "title": "A collection or dictionary uses the registered implementation that suits the hints best", "statement": "After any sequence of registering and deregistering implementations, allocations failing at any time, the list of implementations is well formed, holds one node per registration in force (newest first), leaks nothing and frees nothing of the library's own. CCCollectionCreate and CCDictionaryCreate pick, among the registered implementations that can keep an order if CCCollectionHintOrdered is given, the one with the greatest weight, the newest among equals; they stop on an assertion exactly if none answers more than INT_MIN. CCCollectionHintWeightCreate never overflows and never exceeds CCCollectionHintWeightMax, so a suitable registered implementation answering more is preferred to all the library's own.", "quantifier": "all histories of calls, all tables of weight functions, all 32-bit hints and sets of fast, moderate and slow hints", "why_tests_cant": "histories of registrations, weight functions and the 2^32 hints cannot be enumerated", "anchors": ["CommonC/Collection.c:40-127", "CommonC/Dictionary.c:34-119", "CommonC/CollectionInterface.h:316-346", "CommonC/LinkedList.c:47-91"]}
{"id": "C107", "title": "A hint an implementation lists as fast speaks for it", "statement": "The hints an implementation passes to CCCollectionHintWeightCreate as fast raise its weight when asked for, so the array and the linked list are chosen according to what they list as fast. (Refuted: the constant CCOrderedCollectionHintHeavyInserting, listed as slow by the array, contains the bits of HeavyInserting and Ordered, so both count against the array although it lists them as fast; the same happens to Ordered in the list. What holds: a hint listed only as fast adds ten times the size factor; and which of the two is chosen for every hint.)", "quantifier": "all 32-bit hints and sets of hints", "why_tests_cant": "the 2^32 hints and 2^96 listings cannot be enumerated", "anchors": ["CommonC/CollectionArray.c:162-178", "CommonC/CollectionList.c:86-101", "CommonC/CollectionTypes.h:35-81", "CommonC/Collection.c:54-64", "CommonC/DictionaryHashMap.c:84-94"]}
{"id": "C108", "title": "Enumerables of linked lists and queues walk every node once in order", "statement": "An enumerable of a linked list, made from any node of the list, behaves as a cursor over the nodes of the list from its first to its last: head, tail, next, previous and current hand out the node at that place, moving off an end hands out NULL, and looping from the current node with next visits every node exactly once in order. An enumerable of a queue does the same over the waiting nodes in the order in which they will be popped. Only moving on from behind an end, without setting the position anew, is an error.", "quantifier": "every heap of lists, or queue, that any series of calls can produce; every node the enumerable is made from; every series of head, tail, next, previous and current calls", "why_tests_cant": "The last node is remembered lazily at two places and the queue walks the list backwards, so the answers depend on the whole series of calls made before; tests try a few walks over short lists.", "anchors": ["CommonC/LinkedList.c:201-252", "CommonC/Queue.c:108-152"]}
{"id": "C109", "title": "Destroying a garbage collector reclaims everything left and frees its memory", "statement": "Once all threads have left their sections, destroying an epoch or lazy garbage collector leaves every item that was ever handed over reclaimed exactly once and nothing else reclaimed, and all memory of the collector is freed.", "quantifier": "every interleaving of any number of threads beginning and ending sections and handing over items before the destruction; every set of threads that used the collector and have or have not ended", "why_tests_cant": "What is left in the three lists at destruction depends on the interleaving of all sections before; a test sees few of them, and leaks of thread-specific memory are not observable through the API.", "anchors": ["CommonC/EpochGarbageCollector.c:164-179", "CommonC/EpochGarbageCollector.c:228-240", "CommonC/LazyGarbageCollector.c:157-169", "CommonC/ConcurrentGarbageCollector.c:37-40"]}
{"id": "C110", "title": "Sections of a garbage collector in one thread", "statement": "For every well-bracketed series of sections of one thread, in which any items are handed over, each item is reclaimed exactly once when no section is in progress any more, and no freed node is used.", "quantifier": "every series of begin, manage and end calls in which sections follow or contain one another, handing over any number of items", "why_tests_cant": "A nested section only misbehaves when items were handed over at particular points; tests of the containers never nest sections.", "anchors": ["CommonC/LazyGarbageCollector.c:171-255"]}
{"id": "C111", "title": "Tasks in a task queue are freed exactly when nobody has them any more", "statement": "Pushing a task gives the user's reference to the queue and popping it gives one back; in every history of a serial or concurrent task queue no freed task or node is used, a task is freed once exactly when neither the user nor the queue has a reference, the queue says it is empty exactly when no task waits, and destroying the queue frees every node once and every task the user does not hold once.", "quantifier": "every series of creating, retaining, releasing, running, pushing and popping tasks; every time and order in which the garbage collector reclaims nodes; both kinds of queue", "why_tests_cant": "Ownership passes between tasks, queue nodes, the last task and the garbage collector; a wrong count only shows as a leak or a use after free under particular orders of events.", "anchors": ["CommonC/TaskQueue.c:49-172", "CommonC/ConcurrentQueue.c:39-99", "CommonC/ConcurrentQueue.c:112-184"]}
{"id": "C112", "title": "The life of a task: creation, runs, result, destruction", "statement": "A new task has a copy of its input and an output of zeros; after any number of runs its result is what the function made of these one run after the other; destroying it calls the destructors of input and output once each and gives back all its memory. If an allocation fails, NULL is returned and nothing stays allocated.", "quantifier": "all sizes, inputs, destructors and functions; any number of runs; any pattern of failing allocations; any other memory in use", "why_tests_cant": "Functions, inputs and failure patterns are unbounded, and failing allocations are not injected by tests.", "anchors": ["CommonC/Task.c:68-126", "CommonC/Task.c:128-178"]}
{"id": "C113", "title": "The array format specifier writes every element and takes its own arguments", "statement": "For a log format with %[count{separator}]format, where the count is a number or *, the separator absent, a text or *, and the format a standard conversion with flags, width, precision and length: exactly count elements of the array argument are formatted, each with that format, and written to the message with the separator between each and the next. Exactly the arguments of the specifier are taken from the argument list and exactly its characters from the format, so that everything after it is formatted as if it stood alone.", "quantifier": "all well-formed array specifiers, all arrays, all separators, all messages before it and formats after it, any function for the formatting of one element", "why_tests_cant": "Specifiers, counts, separators, element types and arrays combine without bound; the cases that fail (no elements, a first element without text, a format that ends early, failing allocation) are easily missed by samples", "anchors": ["CommonC/CustomFormatSpecifiers.c:178-363", "CommonC/CustomFormatSpecifiers.h:43", "CommonC/Logging.c:505-645"]}
{"id": "C114", "title": "Deletion, string and character format specifiers, alone and together", "statement": "%DEL, %nDEL and %*DEL remove one, n, or as many characters as an argument says from the end of the message composed so far, never more than there are; %S writes the characters of a CCString whether it is tagged or not, or (null); %C writes a character, or its number when it cannot be encoded. A specifier that a filter does not know is left alone together with its arguments, so that the filters can be registered in any order.", "quantifier": "all messages, counts, strings, characters, other specifiers, orders and subsets of the filters", "why_tests_cant": "The interplay of filters with every possible specifier and argument list cannot be enumerated; a filter that takes an argument before it declines shows only with particular specifiers", "anchors": ["CommonC/CustomFormatSpecifiers.c:365-464", "CommonC/CustomFormatSpecifiers.h:44-46", "CommonC/Logging.c:520-528"]}
{"id": "C115", "title": "Big integers and their text", "statement": "Comparing a CCBigInt or CCBigIntFast with the text of a number orders the two numbers. Adding or subtracting a text is adding or subtracting the number it names. Setting an integer from a text stores the number. The text of a fast big integer, tagged or not, names its number, so two integers are equal exactly when comparing one with the text of the other says so. The sign and the copy of a fast integer are those of its number. Text without 0x and a digit is refused by every operation.", "quantifier": "for all integers in normal form, tagged or not, and all texts of any length", "why_tests_cant": "The number of components, the length and leading zeros of the text, and the form (tagged or big) of the operand combine without bound.", "anchors": ["CommonC/BigInt.c:189-197, 286-296, 409-417, 467-475", "CommonC/BigIntFast.h:298-308, 332-337, 400-435, 473-487, 563-577, 653-667"]}
{"id": "C116", "title": "Big integers combined with themselves", "statement": "Passing an integer as its own operand behaves as passing an equal integer: adding doubles it, subtracting leaves zero, comparing says equal, assigning leaves it unchanged.", "quantifier": "for all big integers and fast big integers in normal form, with any number of components", "why_tests_cant": "The loops read and write the same list; whether a write disturbs a later read has to hold for every number of components and every carry pattern.", "anchors": ["CommonC/BigInt.c:62-76, 249-265, 298-385, 419-443", "CommonC/BigIntFast.h:339-380, 489-524, 579-614"]}
{"id": "C117", "title": "A list gives back the memory it has taken", "statement": "Every block a CCList takes for itself, its pages and their arrays is given back: pages emptied by removals are given back at once or at the latest when the list is destroyed, after which nothing the list has taken is still held, and no block is given back twice. While in use the list holds itself and, for each page its elements need, an array and a node.", "quantifier": "for all chunk and page sizes, element types and all histories of documented calls", "why_tests_cant": "The leak depends on removals falling on page boundaries and leaves all contents right; unit tests compare contents and do not account for blocks over arbitrary histories.", "anchors": ["CommonC/List.c:30-72", "CommonC/List.c:224-269", "CommonC/LinkedList.c:47-67"]}
{"id": "C118", "title": "An append to a list that runs out of memory leaves the list as it was", "statement": "When CCListAppendElement or CCListAppendElements reports failure (SIZE_MAX) because memory could not be had, the list still holds exactly the elements it held before the call, and every further call works as it would have without the failed call.", "quantifier": "for all lists reachable by documented calls, all numbers of elements, and every choice of which memory requests are granted", "why_tests_cant": "Memory failure cannot be provoked at a chosen request by an ordinary test, and the damage depends on how many elements were copied and how full the last page was.", "anchors": ["CommonC/List.c:74-153"]}
{"id": "C119", "title": "A printed integer is the integer that is stored", "statement": "Printing reflected data shows an integer of up to 8 bytes as the decimal text of its stored value, for every byte order and sign; an integer with more bytes is shown as 0x and two hexadecimal digits per byte that read back as the stored bytes.", "quantifier": "for all machines, byte orders, signs, sizes and contents of the bytes", "why_tests_cant": "The values, sizes and byte orders cannot be enumerated, and the byte order of the machine cannot be changed by a test.", "anchors": ["CommonC/Reflect.c:459-550"]}
{"id": "C120", "title": "Printed data tells exactly what is stored", "statement": "CCReflectPrint ends for all data, cyclic ones too, and the texts of two objects of a type are the same exactly when the objects have the same integers, the same pointers are NULL and the same is found behind the other pointers, up to 20 pointers deep, from where on the addresses are the same. The braces of the text are balanced.", "quantifier": "for all types (structs, arrays, pointers, integers, validators), recursive ones too, all memory contents and all addresses", "why_tests_cant": "The claim compares the texts of all pairs of objects of all types, and data may be cyclic.", "anchors": ["CommonC/Reflect.c:198-209", "CommonC/Reflect.c:420-785"]}
{"id": "C121", "title": "Every type is printed, and its text says what it is", "statement": "CCReflectPrintType ends for every type, recursive ones too. Its braces are balanced. The text of an integer type without a name of its own tells its sign, size, whether the size is fixed and whether its byte order is that of the machine, and text that says nonfixed stands for a size that is not fixed.", "quantifier": "for all tables of types (cyclic ones too), names and indentations", "why_tests_cant": "The graph of types is arbitrary and possibly cyclic; that printing never ends cannot be observed by a test.", "anchors": ["CommonC/Reflect.c:114-196", "CommonC/Reflect.c:198-413"]}
{"id": "C122", "title": "Functions and type descriptors written as numbers or names are read back", "statement": "The destructors, comparators, hashers, mappers, interfaces and opaque types the library knows are written as their number in a list (or their name) and read back as the same; others are refused, as are numbers out of the list. The descriptors of containers are read back with all their members.", "quantifier": "for every list of known values, every value, every base and width of the numbers, every name, every array of bytes read, every kind of container and all its members", "why_tests_cant": "Lists, names and what is read are unbounded; wrong pairs show only for particular positions, and a member left out shows only by what was in the memory before.", "anchors": ["CommonC/ReflectedTypes.h:770-1075", "CommonC/ReflectedTypes.c:832-920, 1117-1345, 1639-1680, 1741-1815, 1865-1945"]}
{"id": "C123", "title": "The approximations of the trigonometric functions are close to them for every argument", "statement": "In exact arithmetic the default CCSimdSin and CCSimdPosSin differ from the sine by at most 0.0017 for every argument, CCSimdCos from the cosine by at most 0.0017 (0.0006 with accuracy 1 or more), CCSimdArcTan from the arc tangent by at most 0.005 (0.000012 with accuracy 2 or more) for every argument, and CCSimdArcTan2 from the polar angle of the point by as much, in every direction and at any distance from the origin. CCSimdPosPiRadSin, CCSimdPiRadSin, CCSimdHalfPiRadCos and CCSimdQtrPiArcTan keep the same bounds on the ranges they are documented for. The sine is odd, repeats after a turn, stays between -1 and 1 and is exact at the multiples of a twelfth of a turn where the sine is 0, 1/2 or 1; the default cosine is the sine a quarter turn on. Away from their poles the tangent, cotangent, secant and cosecant are close to the functions they stand for. Not kept: CCSimdPiRadSin outside of -pi to pi (-3/2 at 3 pi / 2), an error of 0.001 (12/17 at pi/4), evenness of the more accurate cosine.", "quantifier": "All real arguments, all radii and angles, all accuracies; no bound on the argument.", "why_tests_cant": "A test compares finitely many arguments with a tolerance; whether the reduction of the argument, the signs and the masks are right for every argument, and what the largest error is, is a statement about a continuum.", "anchors": ["CommonC/SimdFallbackTrig.h:104-471", "CommonC/SimdFallback.h:602-611", "CommonC/SimdFallback.h:649-651", "CommonC/Simd.h:700-747", "CommonC/Simd64.h:5157-5280"]}
{"id": "C124", "title": "Exponentials, logarithms, powers and the inverse sine are close to what they stand for", "statement": "In exact arithmetic CCSimdPow2 is exactly the power of two of the exponent without its fraction for every exponent between -127 and 128; CCSimdLog2 is within 0.00015 of the logarithm to base 2 and CCSimdLog within 0.00011 of the natural logarithm for every positive normal float; CCSimdExp of accuracy below 4 is never negative and differs from the exponential by at most the next term of the Taylor series (times the exponential where that exceeds 1), and of accuracy 4 or more is right to one part in ten million from -87 to 88; the default CCSimdExp2 is right to 13 parts in ten thousand for arguments from 0 to 128 and to 43 for negative ones down to -127; with the accurate exponential CCSimdPow errs by about 0.00011 of the result per unit of the exponent, CCSimdCbrt by 0.00004 of the result, CCSimdArcSin and CCSimdArcCos by at most 0.0002 from 0 to 1. Not kept: exponents outside of the range of CCSimdPow2 (minus infinity for 2^-128), logarithms of negative numbers (256 is added), the default exponential (0 for everything from -1.6 down) and what is built on it (4^2 is less than 12, the arc sine is pi/2 from 0.96), roots and arc sines of negative numbers.", "quantifier": "All real arguments in the ranges given, all accuracies.", "why_tests_cant": "A test compares finitely many arguments with a tolerance; the largest error over a continuum, and the exact range of arguments for which it holds, are statements about every argument.", "anchors": ["CommonC/SimdFallbackTrig.h:238-318", "CommonC/SimdFallbackTrig.h:473-678", "CommonC/Simd.h:700-760"]}
{"id": "C125", "title": "The memory orders of the circular buffer order what its two threads do to the items", "statement": "With one producer and one consumer, whatever the loads of head and tail see within the rules of the C11 memory model: the producer never adds more than there is room for nor fewer than the room it sees, every enumerable covers only items that have been completely added, each item visited through it (before Release) is the one added at that place of the sequence, and neither the reading nor the writing of an item is a data race with the other thread.", "quantifier": "every capacity, every interleaving, every value the loads may see, with the orders of the file as written and machines that do or do not carry out loads after later stores", "why_tests_cant": "A missing release or acquire shows only on some machines, under some compilers and timings; on the machine a test runs on it usually never shows, and a data race has no observable effect until it has any", "anchors": ["CommonC/ConcurrentCircularBufferTemplate.h:112-169"]}
{"id": "C126", "title": "The memory orders of the swap buffer order the filling and the reading of its buffers", "statement": "With one writer and one reader, whatever the loads of index see within the rules of the C11 memory model: the buffer being filled is never the one being read, every exchange of Read finds the modified flag and takes the buffer applied last, every look at the buffer Read returned (before the next Read that takes another) sees the complete content it had when it was applied, and neither the filling nor the reading of a buffer is a data race with the other thread.", "quantifier": "every sequence of fills, applies, reads and looks, every interleaving and every value the loads may see, with the orders of the file as written and machines that do or do not carry out loads after later stores", "why_tests_cant": "Which store a relaxed load sees is up to the machine; tests on a strongly ordered processor never see the stale values or the late reads, and the data race has no visible effect there", "anchors": ["CommonC/ConcurrentSwapBufferTemplate.h:69-103"]}
{"id": "C127", "title": "A hash map survives running out of memory while an entry is added", "statement": "When memory runs out while a key is added to a hash map (CCHashMapSetValue, CCHashMapEntryForKey), no key that had a value loses it or gets another, and the added key is afterwards either present with its value or absent; the map never returns the value of one key for another, and its count is the number of keys found.", "quantifier": "for every map, equality and hash that agree, every sequence of adding calls and every pattern of allocations that fail in them, in the three layouts", "why_tests_cant": "the failing allocations can fall on any of the up to six allocations of a call and any later call may meet the damage; the arrays of a data oriented layout only disagree after a particular append fails", "anchors": ["CommonC/HashMapSeparateChainingArray.c:154-198", "CommonC/HashMapSeparateChainingArrayDataOrientedAll.c:124-192", "CommonC/HashMapSeparateChainingArrayDataOrientedHash.c:144-203", "CommonC/Array.c:64-83"]}
{"id": "C128", "title": "Calls on the wait free structures finish whatever the other threads do", "statement": "A call of CCConcurrentCircularBuffer (add, add many, get the enumerable), CCConcurrentSwapBuffer (apply, read), CCConcurrentBuffer (write) or of the ID generator (try to assign, recycle) is never held up by other threads and ends after a number of its own steps that depends only on the number of items added or of IDs, whatever the other threads do meanwhile.", "quantifier": "for every reachable state, every interleaving with any number of other threads, every size", "why_tests_cant": "a call that starves or spins needs a particular schedule that goes on for ever; no finite run shows that none exists", "anchors": ["CommonC/ConcurrentCircularBufferTemplate.h:112-168", "CommonC/ConcurrentSwapBufferTemplate.h:69-102", "CommonC/ConcurrentBuffer.c:69-90", "CommonC/ConsecutiveIDGenerator.c:117-165"]}
{"id": "C129", "title": "Which calls on the index map finish, and which wait", "statement": "On a concurrent index map (default build, elements stored in the map), leaving aside the calls into the garbage collector: GetCount, GetElementAtIndex, ReplaceElementAtIndex and ReplaceExactElementAtIndex finish within a fixed number of steps of their own thread, whatever other threads do; AppendElement, within a number of its own steps that depends only on the chunk size, has returned or found no slot, so that new data is needed; no thread in a call is ever without a step to make; and while some thread is inside a replacement or an append, even if it has stopped there for ever, no other thread removes or inserts an element or replaces the data.", "quantifier": "every number of threads below 2^32, every interleaving, every chunk size", "why_tests_cant": "Whether a call can be held up depends on the interleaving, and that something never happens however long the others run cannot be seen in any run.", "anchors": ["CommonC/ConcurrentIndexMap.h:29", "CommonC/ConcurrentIndexMap.h:104", "CommonC/ConcurrentIndexMap.h:118", "CommonC/ConcurrentIndexMap.c:414", "CommonC/ConcurrentIndexMap.c:551", "CommonC/ConcurrentIndexMap.c:635"]}
{"id": "C130", "title": "Which calls on the shared resource finish", "statement": "Get on a concurrent shared resource without Tunlimited finishes within a fixed number of steps of its own thread, whatever other threads do; and Set is wait-free if Tmax is at least the number of threads, that is it finishes within a number of its own steps that does not depend on what the others do, and it is lock-free otherwise, so that a thread that has stopped holds up no other.", "quantifier": "every number of threads and of nodes, every interleaving", "why_tests_cant": "A call that can be overtaken for ever, or that waits for a thread that has stopped, does so in particular interleavings only, and a run shows only that it has not finished yet.", "anchors": ["CommonC/ConcurrentSharedResourceTemplate.h:27", "CommonC/ConcurrentSharedResourceTemplate.h:56", "CommonC/ConcurrentSharedResourceTemplate.h:67", "CommonC/ConcurrentSharedResourceTemplate.h:77"]}
{"id": "C131", "title": "The concurrent queue is lock-free", "statement": "Leaving aside the calls into the garbage collector and exchanges that fail without cause: a thread inside a push or a pop of a concurrent queue is never held up by others, not even by threads that have stopped, and after a fixed number of its own steps it has returned or some push or pop, its own or another thread's, has taken effect.", "quantifier": "every number of threads, every interleaving", "why_tests_cant": "That no interleaving of retries goes on without any operation taking effect is a statement about all executions, of unbounded length.", "anchors": ["CommonC/ConcurrentQueue.h:30", "CommonC/ConcurrentQueue.c:112", "CommonC/ConcurrentQueue.c:147"]}
{"id": "C132", "title": "The garbage collectors are lock-free", "statement": "Both concurrent garbage collectors are documented as lock-free. With n threads (fewer than the reference count has values) and m items handed over so far, in every interleaving: among any n*((2n+3)*(m+10)+2)+1 consecutive steps of the epoch collector, and among any n*((2n+3)*(m+2)+2)+1 of the lazy one, some call of Begin, Manage or End returns (a step being a load, an exchange, the reclaiming of one item; exchanges that fail without cause left aside). And no thread ever waits: in every state each thread has a step it can take.", "quantifier": "all numbers of threads, all interleavings, all reachable states, all numbers of items", "why_tests_cant": "Lock-freedom is about every schedule, including ones where a thread is stopped for good in the worst place; tests see a few schedules and cannot show that none of them runs forever without a call returning.", "anchors": ["CommonC/EpochGarbageCollector.h:29", "CommonC/EpochGarbageCollector.c:182-327", "CommonC/LazyGarbageCollector.h:29", "CommonC/LazyGarbageCollector.c:171-255"]}
{"id": "C133", "title": "What a task did is known to whoever waits for it", "statement": "Under the C11 memory model, for any number of threads and every execution: a run of a task happens after all runs that had ended when it began; after CCTaskGetResult returned the output, everything the runs did that had been begun when the task was completed happened before (so that reading the output is no data race); and whoever got the default task queue from CCTaskQueueDefault can use it: its creation happened before.", "quantifier": "any number of threads, every execution allowed by the memory orders, any number of runs", "why_tests_cant": "Data races and stale reads depend on the compiler and the machine: on x86 a relaxed load of the finished flag happens to be enough, and tests pass although nothing orders the reading of the result.", "anchors": ["CommonC/Task.c:130-178", "CommonC/TaskQueue.c:56-81"]}
{"id": "C134", "title": "What was done before letting go is known to whoever comes next", "statement": "Under the C11 memory model, for any number of threads and every execution: when the destructor of reference counted memory is called, all uses of the memory by all former owners of a reference happened before; whoever is assigned an identifier by the consecutive generator knows all uses earlier owners made of what belongs to it; and of two uses of what the virtual file lock protects, one of them a write, the earlier happened before the later, so there are no data races. Each of the memory orders in the code is needed for this.", "quantifier": "any number of threads, every execution allowed by the memory orders", "why_tests_cant": "A missing acquire or release shows only on some machines, with some compilers, in some interleavings; tests on x86 cannot tell a relaxed decrement from a release.", "anchors": ["CommonC/Allocator.c:594-666", "CommonC/ConsecutiveIDGenerator.c:91-166", "CommonC/FileSystem_Private.h:129-156"]}
{"id": "C135", "title": "What was done in a section happens before the reclaiming", "statement": "When a garbage collector reclaims an item, everything done in the sections that were in progress when the item was handed over, and everything done by the thread that handed it over, happened before in the sense of the C memory model, so that the reclaimer may free the memory without a data race. (In the code: the epoch collector orders what preceded the handing over, but neither collector orders the uses made in other sections; the lazy collector orders nothing.)", "quantifier": "all numbers of threads, all executions, all choices of the memory orders", "why_tests_cant": "Tests on common hardware do not show reorderings that the relaxed accesses permit, and the order must hold in all interleavings.", "anchors": ["CommonC/LazyGarbageCollector.c:213", "CommonC/EpochGarbageCollector.c:242", "CommonC/EpochGarbageCollector.c:228"]}
{"id": "C136", "title": "What was done before a push is seen after the pop", "statement": "Everything a thread did before it pushed a node on a concurrent queue (for instance writing the data of the node) happened, in the sense of the C memory model, before the pop that returns the node returns. (In the code: not so, the link to the node is loaded relaxed; it would be so with an acquire there.)", "quantifier": "all numbers of threads, all interleavings, all choices of the memory orders of the links and of the head", "why_tests_cant": "Tests on common hardware do not show reorderings that the relaxed load permits.", "anchors": ["CommonC/ConcurrentQueue.c:112", "CommonC/ConcurrentQueue.c:147"]}
{"id": "C137", "title": "The system version and the process name are read as they are", "statement": "CCSystemVersion reads a version string of up to three numbers as those numbers, numbers left out being 0, and never writes outside of its array; the literals of CCSystemVersionLiteral compare as the versions do, as the check for a minimum version requires; CCProcessCurrentStrippedName returns the letters and digits of the name. (In the code: a fourth number is written outside of the array, and macOS versions from 11 on with a minor version below 10 have a literal below those of 10.10 to 10.99.)", "quantifier": "all version strings, all pairs of versions, all names", "why_tests_cant": "Which versions and names there will be is not known when the tests are written.", "anchors": ["CommonC/SystemInfo.c:36", "CommonC/SystemInfo.c:102", "CommonC/ProcessInfo.c:84"]}
{"id": "C138", "title": "A shared resource is not replaced while it is being read", "statement": "When CCConcurrentSharedResourceGet shares the data of a node, the writing of that data happened before, in the sense of the C memory model; and when CCConcurrentSharedResourceSet replaces the data of a node, and then destroys what was there, every earlier reading and writing of the data of that node happened before, so that nothing is destroyed or overwritten while it is being shared. (In the code: the first holds; the second does not, for a get gives a node up with a relaxed addition, and a set with a relaxed subtraction after an exchange that is not an acquire. It would hold with releases there and an acquire at that exchange, and with nothing less.)", "quantifier": "all numbers of threads and nodes, all executions with fewer than 65536 gets between two sets of a resource that is not unlimited, all choices of the six memory orders", "why_tests_cant": "Reorderings permitted by the relaxed operations do not show on common hardware, and no test ranges over all interleavings and all choices of orders.", "anchors": ["CommonC/ConcurrentSharedResourceTemplate.h:75", "CommonC/ConcurrentSharedResourceTemplate.h:98"]}
{"id": "C139", "title": "What was put into a concurrent buffer or pool is complete when it is taken out", "statement": "When CCConcurrentBufferReadData, CCConcurrentBufferWriteDataSwap or the destructor call of CCConcurrentBufferWriteData receives data, everything done by the thread that put the data into the buffer happened before, in the sense of the C memory model; and when CCConcurrentPoolPop returns a reference to an item, the writing of that item by the producer happened before. (In the code: so for the buffer, and for the pool if memory_order_consume is taken as an acquire, as compilers do; by the letter of the standard it orders nothing, for the reference is not computed from what the exchange read.)", "quantifier": "all numbers of threads, all executions, all choices of the memory orders; for the pool, sizes that divide the number of indexes or pools that never hold more than that many items", "why_tests_cant": "Missing orders do not show on common hardware, and compilers that treat consume as acquire hide the difference.", "anchors": ["CommonC/ConcurrentBuffer.c:69", "CommonC/ConcurrentBuffer.c:80", "CommonC/ConcurrentPoolTemplate.h:278", "CommonC/ConcurrentPoolTemplate.h:340"]}
{"id": "C140", "title": "The commit of a concurrent pool finishes whatever the consumers do", "statement": "Without mixed size atomics CCConcurrentPoolStageCommit attempts an exchange until it succeeds. However the consumers interleave, an attempt fails only spuriously, because an item was popped since the attempt before, or once because the stage was used before; so that there are at most Max + 1 failures besides the spurious ones, and the exchange that succeeds publishes exactly what was staged without losing or repeating a pop. (The exchange is a weak one: the spurious failures are not bounded by anything in the code.)", "quantifier": "all sizes, all numbers of consumers, all interleavings; sizes that divide the number of indexes or pools that never hold more than that many items", "why_tests_cant": "No test bounds the number of retries over all interleavings, or shows that a reused stage cannot succeed with an outdated pointer.", "anchors": ["CommonC/ConcurrentPoolTemplate.h:27", "CommonC/ConcurrentPoolTemplate.h:320", "CommonC/ConcurrentPoolTemplate.h:340"]}
{"id": "C141", "title": "A large element of an index map is complete when it is read", "statement": "Elements of an index map wider than an atomic are kept in memory of their own, and the map holds the address. Under the C11 memory model, each reading of the bytes of an element (by a get, by a replace that returns the old element, by the comparison of an exact replace) happens after the writing of them by whoever put it there, exactly if append, replace and exact replace store the address with a release and get, replace and exact replace load it with an acquire. (Not so for the orders of the file: the loads are relaxed, and the exact replace stores relaxed, so that even where the address dependency orders the loads an element put there by an exact replace may be read before it is written.)", "quantifier": "all memory orders, all numbers of threads, all interleavings, all sequences of appends, replaces and exact replaces on an index", "why_tests_cant": "A race on relaxed atomics depends on the machine and the compiler; tests on x86 cannot show it, and no test covers all executions.", "anchors": ["CommonC/ConcurrentIndexMap.c:200", "CommonC/ConcurrentIndexMap.c:223", "CommonC/ConcurrentIndexMap.c:244", "CommonC/ConcurrentIndexMap.c:278"]}
{"id": "C142", "title": "A serial task queue goes on handing out tasks", "statement": "In a serial task queue in which tasks wait, the users can always get the first of them by running the task handed out before to its end, as long as they do not give up their last reference to that task (by destroying it or pushing it again) before it was run to its end. If they do, every later pop returns NULL whatever is done, so that exactly then the tasks that wait are never handed out.", "quantifier": "all sequences of creations, retains, destructions, pushes, pops and (overlapping) runs of any number of tasks", "why_tests_cant": "That a queue is stuck for ever, or never is, is about all continuations; a test shows one.", "anchors": ["CommonC/TaskQueue.c:122", "CommonC/Task.c:130", "CommonC/Task.c:146"]}
{"id": "C143", "title": "Random points and ranges cover the shape asked for evenly", "statement": "In exact arithmetic, with random fractions that are independent and even over 0 to 1: CCRandomPointInRect, CCRandomPointInEllipse, CCRandomPointInCircle and CCRandomRanged/CCRandomRangef return the points of the rectangle, ellipse, circle or range and no others, and every (measurable) part of the shape is hit with the probability of its share of the area. A ranged number is within the bounds whatever fraction it is made from.", "quantifier": "all rectangles, ellipses, circles and ranges of positive size, all measurable parts of them", "why_tests_cant": "A sampling test shows a bias only statistically, for the parts it counts; a missing square root or half a turn passes the test that the points are inside.", "anchors": ["CommonC/Random.h:355", "CommonC/Random.h:371", "CommonC/Random.h:376", "CommonC/Random.h:382"]}
{"id": "C144", "title": "A resize of an index map loses nothing that was written", "statement": "Under the C11 memory model: when an insert, a remove or an append to full data of a concurrent index map copies the elements and exchanges the data, the copy has the last value every replace and append has written, in every execution, exactly if the load of pointer before the copy is an acquire and the addition to mutate is a release (with strict compliance: the exchange that ends the replace or append is a release). (Not so for the orders of the file: the load is relaxed, and without strict compliance so is the addition to mutate, so that even where the address dependency orders the reads a replaced element may come back.)", "quantifier": "all memory orders, any number of threads, all executions in which the copying loads return any value not older than one known to the thread", "why_tests_cant": "Stale values of relaxed loads depend on the machine; a test on x86 never sees them, and no test covers all executions.", "anchors": ["CommonC/ConcurrentIndexMap.c:453", "CommonC/ConcurrentIndexMap.c:533", "CommonC/ConcurrentIndexMap.c:551", "CommonC/ConcurrentIndexMap.c:635", "CommonC/ConcurrentIndexMap.c:670"]}
{"id": "C145", "title": "Comparing floats with a tolerance accepts what is within it and rejects what is clearly beyond it", "statement": "CCFloatEqualAbsolute accepts any two numbers at most Diff apart and rejects any two between whose distance and Diff there is a further float; CCFloatEqualRelative accepts any two numbers at most RelativeDiff times the greater magnitude apart and rejects them if two floats lie between. The order of the arguments does not matter, a greater tolerance accepts no less, everything but not-a-number, infinities included, is equal to itself, and not-a-number is equal to nothing.", "quantifier": "For all floats, tolerances and all roundings that keep the order, keep floats and treat both signs alike (nearest with any rule for ties, toward zero).", "why_tests_cant": "The pairs of floats and tolerances are too many to try, and the rounding mode is the environment's.", "anchors": ["CommonC/Maths.h:152-160 CCFloatEqualRelative", "CommonC/Maths.h:162-165 CCFloatEqualAbsolute"]}
{"id": "C146", "title": "An array that ends at a terminator is taken and copied up to and with the first terminator", "statement": "CCReflectTerminatedArrayMapper hands over exactly the elements up to and with the first that equals the terminator (one that straddles elements does not count), without reading beyond the memory of the type; copying such an array with CCReflectCopy gives a destination with the same elements that ends at the same place, and leaves what lies beyond them as it was.", "quantifier": "For all element sizes, terminators, contents and destinations.", "why_tests_cant": "The contents and sizes are unbounded, and a read beyond the array need not show in a test.", "anchors": ["CommonC/ReflectedTypes.c:458-466 CCReflectTerminatedArrayMapper", "CommonC/ReflectedTypes.c:468-471 CCReflectTerminatedArrayUnmapper", "CommonC/Reflect.c:788-812 CCReflectSetHandler", "CommonC/Reflect.c:905-934 CCReflectCopy"]}
{"id": "C147", "title": "Temporary memory is taken from the stack within its limits and from the heap otherwise, and freed once", "statement": "CC_TEMP_Malloc gives memory of the size asked for: on the stack if it is no larger than CC_SHOULD_ALLOC_ON_STACK, else on the heap, else on the stack again if it is no larger than CC_ALLOC_ON_STACK_MAX; only otherwise is the error branch taken. No more than the greatest size is ever taken from the stack. CC_TEMP_Free, however often used, frees the block of the heap once, never the memory on the stack, and leaves a null pointer.", "quantifier": "For all sizes, limits and outcomes of the allocation.", "why_tests_cant": "The limits can be set by the user and allocations hardly fail in tests; a macro is tested only where it is expanded.", "anchors": ["CommonC/MemoryAllocation.h:184-193 CC_TEMP_Malloc_explicit", "CommonC/MemoryAllocation.h:179-180 CC_TEMP_Malloc", "CommonC/MemoryAllocation.h:197 CC_TEMP_Free"]}
{"id": "C148", "title": "A data buffer frees what it owns once, and nothing else", "statement": "Data created with CCDataBufferCreate with CCDataBufferHintCopy have the bytes of the buffer given and leave it alone; with CCDataBufferHintFree they take the buffer over; with neither it stays the caller's. Whatever is written to the data and however often their size is set, with whatever allocations failing, nothing freed is used, and once they are destroyed all that was allocated for them is freed and nothing else. If they cannot be created memory is as before. CCRandomSetState sets the state CCRandomGetState got.", "quantifier": "For all memories, buffers, hints, sequences of operations and outcomes of allocations.", "why_tests_cant": "Failing allocations and sequences of operations are not tried, and leaks do not show.", "anchors": ["CommonC/DataBuffer.c:79-108 CCDataBufferConstructor", "CommonC/DataBuffer.c:110-118 CCDataBufferDestroy", "CommonC/DataBuffer.c:139-150 CCDataBufferResize", "CommonC/Data.c:41-74 CCDataCreate", "CommonC/Random.h:312-338 CCRandomGetState"]}
{"id": "C149", "title": "A file stream of the reflection counts every failure", "statement": "Blocks written one after the other through a CCReflectStreamFile are read back unchanged, in order, by a stream that starts at the same offset and asks for the same sizes. Every read or write that does not transfer the whole block is counted in failure.count and leaves a result other than success; a call that fails touches neither the file nor the memory.", "quantifier": "for all files, offsets, sequences of blocks, previous contents of the memory, kinds of handle, and numbers of bytes the system manages to write", "why_tests_cant": "A test reads back what it has written to a healthy file; truncated files and short writes are never exercised, and the round trip is only seen for a few block sequences.", "anchors": ["CommonC/ReflectStream.c:32-50", "CommonC/ReflectStream.h:44-53", "CommonC/FileHandle.c:119-139", "CommonC/FileHandle.c:163-229"]}
{"id": "C150", "title": "Direct accesses to a virtual file read and edit a sequence of bytes", "statement": "FSVirtualFileRead gives the bytes of the file at the offset, as many as there are; FSVirtualFileWrite puts the bytes at the offset, in place of those there or in front of them; FSVirtualFileRemove takes out the bytes there are of those named. Every other byte of the file keeps its value and order, and no call aborts or touches memory outside the file.", "quantifier": "for all histories of calls from an empty file, all offsets, counts and data", "why_tests_cant": "The helpers have no tests; a few sample files would not show for which combinations of offset, count and size the result is another.", "anchors": ["CommonC/FileSystem_Private.h:204-215", "CommonC/FileSystem_Private.h:217-235", "CommonC/FileSystem_Private.h:237-242", "CommonC/FileSystem_Private.h:244-247"]}
{"id": "C151", "title": "The assertions stop every access outside an array, a string or data", "statement": "A call that names a range of an array (replace, copy, remove), of a string (substring) or of data (map, read, write, copy, fill, modified range) is stopped by an assertion or touches only elements inside; a call whose range is inside is let through.", "quantifier": "for all sizes, offsets (signed for data), counts and lengths of their C types", "why_tests_cant": "The assertions are only tested with ranges that are inside; which of the 2^128 pairs of offset and length pass cannot be tested.", "anchors": ["CommonC/Array.c:119-126", "CommonC/Array.c:137-145", "CommonC/Array.c:205-212", "CommonC/CCString.c:828-847", "CommonC/Data.c:155-314", "CommonC/DataBuffer.c:130-188"]}
{"id": "C152", "title": "An array has memory for all the elements it counts", "statement": "After every sequence of additions and removals, whichever allocations were refused, the memory of a CCArray has at least count times the size of an element bytes. A refused allocation leaves the array as it was and is reported.", "quantifier": "for all element sizes, chunk sizes, sequences of calls, counts and outcomes of the allocations", "why_tests_cant": "Tests never ask for counts whose bytes approach 2^64, nor for all patterns of growth, removal and refusal.", "anchors": ["CommonC/Array.c:37-56", "CommonC/Array.c:64-83", "CommonC/Array.c:85-109", "CommonC/Array.c:147-168", "CommonC/Array.c:170-195", "CommonC/Array.c:205-212"]}
{"id": "C153", "title": "A collection becomes a fast array only if the program names it", "statement": "CCCollectionCreate never chooses CCCollectionFastArray unless the program has registered it, whatever other implementations were registered or deregistered and whatever the hints. Once the program registers it, the array implementation is never chosen again; the linked list is chosen exactly if heavy inserting, prepending or inserting at places is asked for with a meaningful size hint, and the fast array otherwise, also for heavy deleting.", "quantifier": "for all hints, histories of registrations and weights of the other implementations", "why_tests_cant": "Hints are 2^32 values and histories are unbounded; tests create a few collections with single hints and register nothing.", "anchors": ["CommonC/CollectionFastArray.h:26-50", "CommonC/CollectionFastArray.c:65-80", "CommonC/CollectionFastArray.c:95-110", "CommonC/Collection.c:54-127"]}
{"id": "C154", "title": "The container behind data lives exactly as long as it is needed", "statement": "Data created with CCDataContainerCreate hold one reference to their container. A program that gives back only the references it has may give up its own reference to the container and go on using the data: nothing freed is used. The container is freed exactly when the program has neither references to it nor data on it, and the data leave no memory behind. Data that could not be created take neither a reference nor memory.", "quantifier": "for all programs (sequences of creations, retains, releases, uses), numbers of containers and data, and outcomes of the allocations", "why_tests_cant": "Tests destroy the data and the container in one fixed order with allocations that succeed.", "anchors": ["CommonC/DataContainer.c:60-91", "CommonC/Data.c:35-81", "CommonC/MemoryAllocation.c:72-80"]}
{"id": "C155", "title": "A failed allocation is told to the callback, whose answer is the result", "statement": "CCMalloc, CCRealloc and their variants for blocks call the error callback exactly if the allocator has no memory, telling it the function called, the place of the call and the arguments; what the callback returns is the result, NULL without a callback. Callbacks that try again give the first memory any attempt gets. CCErrorLog logs once and gives NULL, CCErrorLogAndExit logs once and ends the program. CC_SAFE_Malloc and CC_SAFE_Realloc run the statements for the failure exactly if there is no memory, and the second keeps the old memory then.", "quantifier": "for all arguments, callbacks, outcomes of the allocator and numbers of attempts", "why_tests_cant": "Tests cannot make the allocator fail at will, and callbacks are arbitrary functions.", "anchors": ["CommonC/MemoryAllocation.c:33-70", "CommonC/MemoryAllocation.c:88-125", "CommonC/MemoryAllocation.h:36-53", "CommonC/MemoryAllocation.h:128-149", "CommonC/DebugTypes.c:31-48"]}
