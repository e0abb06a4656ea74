{
 "claims": [
  {
   "property": "C01",
   "status": "proved",
   "theorems": [
    "Verif.Array.C01_array_sequence",
    "Verif.Array.C01_returned_index_readable"
   ],
   "note": "CCArray, all chunk sizes and histories; element size multiplication overflow not modelled"
  },
  {
   "property": "C02",
   "status": "partial",
   "theorems": [
    "Verif.Array.C02_memory_safety_partial",
    "Verif.Array.C02_memory_safety_refuted"
   ],
   "note": "The code violates the claim: CCArrayReplaceElementsAtIndex asserts only the first index (refuted by a witness). Proved for all other calls and for in-range replace-many calls."
  },
  {
   "property": "C03",
   "status": "proved",
   "theorems": [
    "Verif.Array.C03_growth_failure_atomic"
   ],
   "note": "exact equality of the array after a refused growth"
  },
  {
   "property": "C04",
   "status": "partial",
   "theorems": [
    "Verif.PList.C04_list_sequence_partial",
    "Verif.PList.C04_list_sequence_refuted",
    "Verif.PList.C04_list_null_source_refuted",
    "Verif.PList.C04_create"
   ],
   "note": "Proved for all histories except append-many calls that start on a full last page with a count that is not a multiple of the page size, or that pass NULL for elements spanning pages; on those the code reads outside the caller's buffer (refuted theorems). Allocation failure not modelled for CCList."
  },
  {
   "property": "C05",
   "status": "proved",
   "theorems": [
    "Verif.LinkedList.C05_linked_list_chains"
   ],
   "note": ""
  },
  {
   "property": "C06",
   "status": "proved",
   "theorems": [
    "Verif.LinkedList.C06_queue_fifo",
    "Verif.LinkedList.C06_chain_refuted",
    "Verif.LinkedList.C06_chain_count_refuted"
   ],
   "note": " The two refuted theorems show why the property is about single nodes."
  },
  {
   "property": "C07",
   "status": "proved",
   "theorems": [
    "Verif.HashMap.C07_finite_map"
   ],
   "note": "For every history storing at most L keys at once, L*2*(bucketCount+1) <= 2^64 (slots beyond have no handle). CCArray replaced by lists (C01). The data-oriented variants: C62."
  },
  {
   "property": "C08",
   "status": "proved",
   "theorems": [
    "Verif.HashEntry.C08_entry_codec"
   ],
   "note": "For bucket counts below 2^63-1; beyond, the code shifts by 64 (undefined behaviour), modelled as none."
  },
  {
   "property": "C09",
   "status": "proved",
   "theorems": [
    "Verif.HashMap.C09_handles_stay_valid"
   ],
   "note": ""
  },
  {
   "property": "C10",
   "status": "partial",
   "theorems": [
    "Verif.HashMap.C10_rehash_partial",
    "Verif.HashMap.C10_rehash_refuted"
   ],
   "note": "Values and absence are preserved. Disagreement: a key created without a value is reported as initialised after a rehash."
  },
  {
   "property": "C100",
   "status": "partial",
   "theorems": [
    "Verif.Mapped.C100_big_written",
    "Verif.Mapped.C100_big_map_exact",
    "Verif.Mapped.C100_big_exact",
    "Verif.Mapped.C100_big_partial",
    "Verif.Mapped.C100_big_small_partial",
    "Verif.Mapped.C100_big_zero",
    "Verif.Mapped.C100_big_zero_refuted",
    "Verif.Mapped.C100_big_refuted",
    "Verif.Mapped.C100_fast_exact",
    "Verif.Mapped.C100_string_written_exact",
    "Verif.Mapped.C100_string_exact_partial",
    "Verif.Mapped.C100_string_partial",
    "Verif.Mapped.C100_string_cut_refuted",
    "Verif.Mapped.C100_string_refuted"
   ],
   "note": "Big integers are read back exactly when they are not zero and the stream keeps the 64-bit digits of twice the magnitude plus the sign (all of them, when 64-bit numbers have a fixed width in the stream); zero becomes an integer without components (refuted). Strings are read back when all characters are ASCII; otherwise they are cut, since the count written is that of the characters, not of the bytes (refuted). What happens when the cut is within a character is not covered."
  },
  {
   "property": "C101",
   "status": "partial",
   "theorems": [
    "Verif.CopyCont.C101_count_exact",
    "Verif.CopyCont.C101_right_exact",
    "Verif.CopyCont.C101_copy_partial",
    "Verif.CopyCont.C101_fresh",
    "Verif.CopyCont.C101_owned_refuted",
    "Verif.CopyCont.C101_weak_refuted",
    "Verif.CopyCont.C101_empty_refuted",
    "Verif.CopyCont.C101_share"
   ],
   "note": "Proved for containers whose elements have no pointers themselves (numbers, strings, containers, structures of these); the references are right exactly then. The code frees every pointer in the elements of the copied container: owned targets dangle in the copy, weak targets lose a reference of somebody else (refuted). Copying an empty array fails an assertion (refuted)."
  },
  {
   "property": "C102",
   "status": "partial",
   "theorems": [
    "Verif.AllocDispatch.C102_history_partial",
    "Verif.AllocDispatch.C102_no_leak",
    "Verif.AllocDispatch.C102_align_exact",
    "Verif.AllocDispatch.C102_type_ignored",
    "Verif.AllocDispatch.C102_group_turns",
    "Verif.AllocDispatch.C102_group_empty",
    "Verif.AllocDispatch.C102_wrap_refuted",
    "Verif.AllocDispatch.C102_replaced_refuted",
    "Verif.AllocDispatch.C102_add_exact",
    "Verif.AllocDispatch.C102_static_free_refuted",
    "Verif.AllocDispatch.C102_shrink_refuted",
    "Verif.AllocDispatch.C102_missing_refuted"
   ],
   "note": "Proved for histories that keep to the rules. Refuted outside them: sizes near 2^64 wrap in the custom and callback allocators, replacing an allocator with memory alive, freeing static memory, callbacks that shrink sizes, custom allocators without a function. The insides of allocators 4 to 9 are other properties."
  },
  {
   "property": "C103",
   "status": "partial",
   "theorems": [
    "Verif.ReadEnum.C103_forward",
    "Verif.ReadEnum.C103_memory",
    "Verif.ReadEnum.C103_defined",
    "Verif.ReadEnum.C103_backwards_refuted",
    "Verif.ReadEnum.C103_nested_refuted"
   ],
   "note": "Forwards, as all the containers of the library go through the elements, the property holds without conditions on the layout. Going backwards is refuted: elements that start at an odd place and go on in another block are missed. A sequence that is itself an element of a sequence is refuted: its elements are given back to the zone at once. Elements larger than a block of the zone are not read (assertion)."
  },
  {
   "property": "C104",
   "status": "partial",
   "theorems": [
    "Verif.StreamCont.C104_roundtrip_partial",
    "Verif.StreamCont.C104_held_exact",
    "Verif.StreamCont.C104_empty_refuted",
    "Verif.StreamCont.C104_convert"
   ],
   "note": "Equal data, nothing else changed, one reference each, for data without empty arrays; empty arrays are refuted. Tokens instead of bytes; hash maps, dictionaries, queues and static pointers are missing."
  },
  {
   "property": "C105",
   "status": "partial",
   "theorems": [
    "Verif.MapStream.C105_enumerables",
    "Verif.MapStream.C105_roundtrip_partial",
    "Verif.MapStream.C105_unset_refuted"
   ],
   "note": "Round trip for maps whose keys all have a value; refuted for keys without a value. How a single key or value is written is a parameter; the description of the mapped type is left out."
  },
  {
   "property": "C106",
   "status": "proved",
   "theorems": [
    "Verif.ImplChoice.C106_registry",
    "Verif.ImplChoice.C106_choice",
    "Verif.ImplChoice.C106_weight",
    "Verif.ImplChoice.C106_above"
   ],
   "note": "Weight functions of other implementations are arbitrary functions answering with an int. Registering NULL is an assertion and excluded."
  },
  {
   "property": "C107",
   "status": "partial",
   "theorems": [
    "Verif.ImplChoice.C107_builtin",
    "Verif.ImplChoice.C107_fast_partial",
    "Verif.ImplChoice.C107_fast_refuted"
   ],
   "note": "Refuted for the library's own array and list, whose lists of hints overlap through the ordered constants; proved for hints listed only as fast, and the exact choice between array and list is proved for every hint."
  },
  {
   "property": "C108",
   "status": "proved",
   "theorems": [
    "Verif.ListEnum.C108_list",
    "Verif.ListEnum.C108_queue"
   ],
   "note": "For lists and queues that do not change while the enumerable is in use. Elements are identified with their nodes."
  },
  {
   "property": "C109",
   "status": "partial",
   "theorems": [
    "Verif.GCDestroy.C109_epoch",
    "Verif.GCDestroy.C109_lazy",
    "Verif.GCDestroy.C109_order",
    "Verif.GCDestroy.C109_states_exact",
    "Verif.GCDestroy.C109_states_refuted"
   ],
   "note": "Items: proved for both collectors. Memory: false; the states of threads that used the collector and have not ended are leaked (deleting the key runs no destructors), proved exactly."
  },
  {
   "property": "C11",
   "status": "proved",
   "theorems": [
    "Verif.HashMap.C11_enumeration"
   ],
   "note": ""
  },
  {
   "property": "C110",
   "status": "partial",
   "theorems": [
    "Verif.GCNested.C110_sections_partial",
    "Verif.GCNested.C110_nested_loses",
    "Verif.GCNested.C110_lost_refuted",
    "Verif.GCNested.C110_fault_refuted",
    "Verif.GCNested.C110_twice_refuted"
   ],
   "note": "True for sections one after the other, at the level of nodes. False for nested sections: what was handed over before an inner section is lost forever whatever follows, and what is handed over in an inner one is put in the list twice and used after it was freed. Lazy collector only; the epoch collector resets its thread state in the same way."
  },
  {
   "property": "C111",
   "status": "proved",
   "theorems": [
    "Verif.TaskOwn.C111_owned",
    "Verif.TaskOwn.C111_destroyed"
   ],
   "note": "One call after the other; allocations succeed; the collector reclaims nodes at any time."
  },
  {
   "property": "C112",
   "status": "partial",
   "theorems": [
    "Verif.TaskLife.C112_life",
    "Verif.TaskLife.C112_failure_exact",
    "Verif.TaskLife.C112_failure_refuted"
   ],
   "note": "Proved when the allocations succeed. False for failures: when the input or the output cannot be allocated the address of the freed task is returned instead of NULL (exact characterisation proved)."
  },
  {
   "property": "C113",
   "status": "partial",
   "theorems": [
    "Verif.CustomFmt.C113_array_partial",
    "Verif.CustomFmt.C113_message_partial",
    "Verif.CustomFmt.C113_empty_exact",
    "Verif.CustomFmt.C113_null_exact",
    "Verif.CustomFmt.C113_empty_refuted",
    "Verif.CustomFmt.C113_null_refuted",
    "Verif.CustomFmt.C113_end_refuted",
    "Verif.CustomFmt.C113_memory_refuted"
   ],
   "note": "Proved for at least one element, the first of which has some text, while memory can be had.  Refuted: with no elements the array stays among the arguments and the next specifier takes it; a first element without text makes snprintf write through NULL (exactly then); a format that ends before the conversion is read past its end; without memory terminators get into the message."
  },
  {
   "property": "C114",
   "status": "partial",
   "theorems": [
    "Verif.CustomFmt.C114_deletion",
    "Verif.CustomFmt.C114_others_exact",
    "Verif.CustomFmt.C114_string_exact",
    "Verif.CustomFmt.C114_string_partial",
    "Verif.CustomFmt.C114_char",
    "Verif.CustomFmt.C114_any_order",
    "Verif.CustomFmt.C114_star_refuted",
    "Verif.CustomFmt.C114_string_refuted"
   ],
   "note": "Proved except: the deletion filter takes the argument of a width * (without flags) although it declines the specifier (exactly then); a string with a terminator inside is cut there."
  },
  {
   "property": "C115",
   "status": "partial",
   "theorems": [
    "Verif.BigIntFast.C115_compare",
    "Verif.BigIntFast.C115_fast_compare",
    "Verif.BigIntFast.C115_operand_exact",
    "Verif.BigIntFast.C115_fast_operand_exact",
    "Verif.BigIntFast.C115_add_partial",
    "Verif.BigIntFast.C115_fast_small_partial",
    "Verif.BigIntFast.C115_set",
    "Verif.BigIntFast.C115_get",
    "Verif.BigIntFast.C115_text_equal",
    "Verif.BigIntFast.C115_sign",
    "Verif.BigIntFast.C115_copy_exact",
    "Verif.BigIntFast.C115_refuse",
    "Verif.BigIntFast.C115_tagged_refuted"
   ],
   "note": "Comparison, setting, getting, sign and refusal are proved in full. A text operand is proved to act exactly as a big integer operand of that number; the sums themselves inherit the defects of C28 and C48. A text never restores the tagged form."
  },
  {
   "property": "C116",
   "status": "partial",
   "theorems": [
    "Verif.BigInt.C116_double",
    "Verif.BigInt.C116_cancel_exact",
    "Verif.BigInt.C116_cancel_partial",
    "Verif.BigInt.C116_compare",
    "Verif.BigInt.C116_assign_exact",
    "Verif.BigInt.C116_assign_refuted",
    "Verif.BigInt.C116_zero_refuted",
    "Verif.BigIntFast.C116_fast_double_partial",
    "Verif.BigIntFast.C116_fast_cancel",
    "Verif.BigIntFast.C116_fast_assign_exact",
    "Verif.BigIntFast.C116_fast_assign_refuted"
   ],
   "note": "Doubling, cancelling and comparing hold. Assigning an integer to itself empties it, and a negative integer minus itself is a negative zero; both are characterised exactly."
  },
  {
   "property": "C117",
   "status": "partial",
   "theorems": [
    "Verif.ListMem.C117_destroy_exact",
    "Verif.ListMem.C117_in_use",
    "Verif.ListMem.C117_no_fault",
    "Verif.ListMem.C117_destroy_partial",
    "Verif.ListMem.C117_destroy_refuted"
   ],
   "note": "False as stated: CCListRemoveElementAtIndex destroys the node of an emptied page but not its array, so one array is lost by each removal that leaves a positive multiple of the page size (exact count proved). No block is given back twice; without such removals everything is given back. Memory always granted; appends that misread their source (C04) excluded."
  },
  {
   "property": "C118",
   "status": "partial",
   "theorems": [
    "Verif.PListFail.C118_append_many_exact",
    "Verif.PListFail.C118_append_one_exact",
    "Verif.PListFail.C118_history_partial",
    "Verif.PListFail.C118_refuted",
    "Verif.PListFail.C118_rollback_refuted"
   ],
   "note": "False as stated; characterised exactly: a failure is undone iff the elements fit on the last page, or some were copied and the last page had room. Otherwise an empty page is left behind the list and every later removal aborts. Missing: memory failure inside insertion and removal; page nodes and array headers are assumed granted."
  },
  {
   "property": "C119",
   "status": "partial",
   "theorems": [
    "Verif.PrintInt.C119_little_partial",
    "Verif.PrintInt.C119_big_partial",
    "Verif.PrintInt.C119_wide",
    "Verif.PrintInt.C119_big_refuted",
    "Verif.PrintInt.C119_empty_refuted"
   ],
   "note": "On little endian machines it holds for all byte orders, sizes and signs (a signed integer needs a byte). On big endian machines integers of fewer than 8 bytes are printed wrong, which is proved for every such size; 8 bytes and more are right."
  },
  {
   "property": "C12",
   "status": "proved",
   "theorems": [
    "Verif.IDGen.C12_ids_unique"
   ],
   "note": "Any number of threads, every interleaving (sequentially consistent atomics). Also: a try fails only if no ID was free throughout the call, the smallest such ID is handed out, no access outside the pool, assertions hold."
  },
  {
   "property": "C120",
   "status": "partial",
   "theorems": [
    "Verif.PrintData.C120_printed_partial",
    "Verif.PrintData.C120_text_partial",
    "Verif.PrintData.C120_braces_partial"
   ],
   "note": "Proved for little endian machines and types made of integers, pointers, structs, arrays and validators. Left out: floating point numbers (%f is not injective), opaque types (their mapper is a function of the user) and enumerables. The texts of types and of %p are parameters; different pointers are assumed to have different texts."
  },
  {
   "property": "C121",
   "status": "partial",
   "theorems": [
    "Verif.PrintType.C121_ends_partial",
    "Verif.PrintType.C121_ends_refuted",
    "Verif.PrintType.C121_one_text",
    "Verif.PrintType.C121_braces",
    "Verif.PrintType.C121_integers",
    "Verif.PrintType.C121_nonfixed_refuted",
    "Verif.PrintType.C121_float_refuted"
   ],
   "note": "Printing ends when no cycle of types avoids all structs, and never ends on such a cycle without names (refuted). Texts of integer types without names tell the types apart, but the word _nonfixed is printed exactly for fixed sizes (refuted). The text of a floating point type without a name depends on padding (refuted)."
  },
  {
   "property": "C122",
   "status": "partial",
   "theorems": [
    "Verif.KnownVal.C122_number_exact",
    "Verif.KnownVal.C122_number_partial",
    "Verif.KnownVal.C122_number_refuted",
    "Verif.KnownVal.C122_unknown",
    "Verif.KnownVal.C122_read",
    "Verif.KnownVal.C122_defaults",
    "Verif.KnownVal.C122_name_exact",
    "Verif.KnownVal.C122_name",
    "Verif.KnownVal.C122_name_refuted",
    "Verif.KnownVal.C122_default_names",
    "Verif.KnownVal.C122_stateless",
    "Verif.KnownVal.C122_container_partial",
    "Verif.KnownVal.C122_container_refuted",
    "Verif.KnownVal.C122_others_refuted"
   ],
   "note": "All default lists are read back, by number and by name; exact conditions for any list and base. Refuted: more than 256 values (one is read as another), parts of names are accepted, the typeSize of a container's descriptor is not read back (it is left out of the members that are copied), terminated arrays and descriptors that have been read are not written."
  },
  {
   "property": "C123",
   "status": "proved",
   "theorems": [
    "Verif.Trig.C123_sin",
    "Verif.Trig.C123_pos_sin",
    "Verif.Trig.C123_pos_pi_rad_sin",
    "Verif.Trig.C123_pi_rad_sin",
    "Verif.Trig.C123_range_refuted",
    "Verif.Trig.C123_sin_shape",
    "Verif.Trig.C123_sin_exact",
    "Verif.Trig.C123_sin_accuracy_refuted",
    "Verif.Trig.C123_half_pi_rad_cos",
    "Verif.Trig.C123_cos",
    "Verif.Trig.C123_cos_shape",
    "Verif.Trig.C123_cos_even_refuted",
    "Verif.Trig.C123_quotients",
    "Verif.Trig.C123_qtr_pi_arctan",
    "Verif.Trig.C123_arctan",
    "Verif.Trig.C123_arctan2",
    "Verif.Trig.C123_arctan2_origin"
   ],
   "note": "About one lane holding a real number with exact operations: rounding, overflow, NaN and the negative zero are not modelled. The three refuted theorems show what the statement says is not kept."
  },
  {
   "property": "C124",
   "status": "partial",
   "theorems": [
    "Verif.Expo.C124_pow2",
    "Verif.Expo.C124_log2",
    "Verif.Expo.C124_log",
    "Verif.Expo.C124_log_negative",
    "Verif.Expo.C124_exp",
    "Verif.Expo.C124_exp_accurate",
    "Verif.Expo.C124_exp2",
    "Verif.Expo.C124_pow",
    "Verif.Expo.C124_cbrt",
    "Verif.Expo.C124_arcsin",
    "Verif.Expo.C124_pow2_refuted",
    "Verif.Expo.C124_exp_refuted",
    "Verif.Expo.C124_pow_refuted",
    "Verif.Expo.C124_cbrt_refuted",
    "Verif.Expo.C124_arcsin_negative_refuted",
    "Verif.Expo.C124_arcsin_default_refuted"
   ],
   "note": "Error bounds proved for every argument of the ranges given, in exact arithmetic; refuted outside of the range of CCSimdPow2, for negative arguments of the logarithm, cube root and arc sine, and for the default exponential and the power and arc sine built on it. The more accurate CCSimdExp2 is not modelled."
  },
  {
   "property": "C125",
   "status": "partial",
   "theorems": [
    "Verif.CircWeak.C125_publication_partial",
    "Verif.CircWeak.C125_with_release",
    "Verif.CircWeak.C125_nothing_known",
    "Verif.CircWeak.C125_reuse_races",
    "Verif.CircWeak.C125_race_refuted",
    "Verif.CircWeak.C125_late_read_refuted",
    "Verif.CircWeak.C125_tail_orders_needed"
   ],
   "note": "Loads see any store allowed by coherence; happens-before is followed with stamps, and conflicting accesses that it does not order are recorded as races. Everything but the writer's race holds with the orders of the file where loads are not carried out after later stores. Release uses only a compiler fence and a relaxed store: every reuse of a slot the consumer has looked at is a data race, and where loads may be late a visit can see a later item. With a release store of head and an acquire load by the producer everything holds."
  },
  {
   "property": "C126",
   "status": "partial",
   "theorems": [
    "Verif.SwapWeak.C126_swapping_partial",
    "Verif.SwapWeak.C126_with_release",
    "Verif.SwapWeak.C126_nothing_known",
    "Verif.SwapWeak.C126_reuse_races",
    "Verif.SwapWeak.C126_race_refuted",
    "Verif.SwapWeak.C126_late_read_refuted",
    "Verif.SwapWeak.C126_orders_needed",
    "Verif.SwapWeak.C126_load_needed",
    "Verif.SwapWeak.C126_exchange_needed"
   ],
   "note": "The stores to index are kept in modification order; loads, stores and exchanges take any place coherence and atomicity allow; memory_order_consume is taken as ordering the dependent accesses. Everything but the writer's race holds with the orders of the file where loads are not carried out after later stores. Read's exchange is no release and Apply has no acquire: every filling of a buffer that was looked at is a data race, and where loads may be late a look can find the buffer half filled. With these orders added everything holds, and each of them is needed."
  },
  {
   "property": "C127",
   "status": "partial",
   "theorems": [
    "Verif.HashFail.C127_plain",
    "Verif.HashFail.C127_plenty",
    "Verif.HashFail.C127_others_keep_partial",
    "Verif.HashFail.C127_wrong_value_refuted",
    "Verif.HashFail.C127_lost_refuted"
   ],
   "note": "The plain layout either stops at an assertion or does what it does with plenty of memory (C127_plain). In the data oriented layouts keys that have a value keep it (C127_others_keep_partial), but a failed append is not noticed: the next key's value is returned for the key (C127_wrong_value_refuted), or both keys are counted and not found (C127_lost_refuted). Removal and rehash after such a failure are not covered."
  },
  {
   "property": "C128",
   "status": "proved",
   "theorems": [
    "Verif.WaitFree.C128_circular",
    "Verif.WaitFree.C128_swap",
    "Verif.WaitFree.C128_buffer",
    "Verif.WaitFree.C128_ids"
   ],
   "note": "Steps are accesses to shared memory (writing an item counts as two); sequentially consistent interleavings. CCConcurrentIDGeneratorAssign, which tries again until there is an ID, is not bounded and not claimed."
  },
  {
   "property": "C129",
   "status": "proved",
   "theorems": [
    "Verif.IndexMapProgress.C129_wait_free",
    "Verif.IndexMapProgress.C129_append",
    "Verif.IndexMapProgress.C129_no_deadlock",
    "Verif.IndexMapProgress.C129_resize_waits"
   ],
   "note": "As the header documents it. Steps are those of the model of C89: each access to the map is one; the garbage collector is its contract."
  },
  {
   "property": "C13",
   "status": "partial",
   "theorems": [
    "Verif.ConcBuffer.C13_buffer_conserves",
    "Verif.ConcBuffer.C13_buffer_conserves_no_destructor",
    "Verif.ConcBuffer.C13_one_place",
    "Verif.ConcBuffer.C13_destructor_argument_partial",
    "Verif.ConcBuffer.C13_destructor_null_refuted"
   ],
   "note": "Conservation proved in full under any number of threads. Partial because destroying an empty buffer calls the destructor with NULL (refuted part). Sequentially consistent interleavings."
  },
  {
   "property": "C130",
   "status": "partial",
   "theorems": [
    "Verif.SharedProgress.C130_get",
    "Verif.SharedProgress.C130_set_partial",
    "Verif.SharedProgress.C130_stuck_refuted",
    "Verif.SharedProgress.C130_overtaken_refuted"
   ],
   "note": "Get holds. Set is not as documented: with as many nodes as threads a thread stopped inside a get can keep another's set looking for a node for ever, and with any number of nodes from 2 on a set can be overtaken without bound. With more nodes than threads (limited form, fewer than 2^16 gets between sets) a set that runs alone finishes with its Tmax + 4-th step, wherever the others have stopped."
  },
  {
   "property": "C131",
   "status": "proved",
   "theorems": [
    "Verif.QueueProgress.C131_lock_free"
   ],
   "note": "8 own steps from any moment on; 3 from the beginning of a push, 5 from that of a pop. Uses the invariant of C20; each access to the queue and its nodes is a step, sequentially consistent."
  },
  {
   "property": "C132",
   "status": "proved",
   "theorems": [
    "Verif.GCProgress.C132_epoch",
    "Verif.GCProgress.C132_lazy",
    "Verif.GCProgress.C132_epoch_no_waiting",
    "Verif.GCProgress.C132_lazy_no_waiting"
   ],
   "note": "The rounds of the exchange loops, single steps in the models of C18 and C19, are added back: a load, then an exchange that fails only if the value changed since. Exchanges that fail without cause (the weak ones may) are left aside; sequentially consistent; failing allocations not modelled."
  },
  {
   "property": "C133",
   "status": "partial",
   "theorems": [
    "Verif.TaskWeak.C133_runs",
    "Verif.TaskWeak.C133_result_partial",
    "Verif.TaskWeak.C133_result_refuted",
    "Verif.TaskWeak.C133_default_queue_partial",
    "Verif.TaskWeak.C133_default_queue_refuted"
   ],
   "note": "Runs are ordered. The result is not: CCTaskIsFinished loads the state relaxed (Task.c 150), so nothing orders reading the output after the function that wrote it; and CCTaskQueueDefault loads Init relaxed (TaskQueue.c 78), so nothing orders the use of the queue after its creation by another thread. Both are refuted for the orders of the code, and shown to hold exactly if these loads are acquires (and the stores releases, which they are). The function of a task is one step; exchange loops are one step."
  },
  {
   "property": "C134",
   "status": "proved",
   "theorems": [
    "Verif.HandoverWeak.Ref.C134_references",
    "Verif.HandoverWeak.Id.C134_identifiers",
    "Verif.HandoverWeak.Lock.C134_lock"
   ],
   "note": "Each theorem is an equivalence: the property holds in every execution exactly for the memory orders of the code (two or more threads). Passing a reference to another thread is by means that order what was before; the recycler of an identifier is its owner. Counts are natural numbers (fewer than 2^31 references or readers; for more readers see C65)."
  },
  {
   "property": "C135",
   "status": "partial",
   "theorems": [
    "Verif.GCWeak.Lazy.C135_lazy",
    "Verif.GCWeak.Lazy.C135_lazy_refuted",
    "Verif.GCWeak.Lazy.C135_lazy_nodes_refuted",
    "Verif.GCWeak.Epoch.C135_epoch_handover",
    "Verif.GCWeak.Epoch.C135_epoch_handover_code",
    "Verif.GCWeak.Epoch.C135_epoch_sections_refuted"
   ],
   "note": "Lazy: exact condition on the orders of End, which the code does not meet (refuted). Epoch: what precedes the handing over is ordered, exactly with the code's release/acquire/release; uses in other sections are not, for any choice of those orders (refuted). Missing: orders for the epoch collector that would suffice for other sections."
  },
  {
   "property": "C136",
   "status": "partial",
   "theorems": [
    "Verif.QueueWeak.C136_orders_partial",
    "Verif.QueueWeak.C136_refuted",
    "Verif.QueueWeak.C136_repaired_partial",
    "Verif.QueueWeak.C136_pops",
    "Verif.QueueWeak.C136_distinct"
   ],
   "note": "Exact condition on the memory orders of prev (release store, acquire load); the code loads relaxed, so the property fails (refuted). What precedes a pop precedes later pops, exactly with the code's orders of head. Missing: in the positive direction only executions in which loads see the last store are considered."
  },
  {
   "property": "C137",
   "status": "partial",
   "theorems": [
    "Verif.SysInfo.C137_version",
    "Verif.SysInfo.C137_version_fault",
    "Verif.SysInfo.C137_literal_ios",
    "Verif.SysInfo.C137_literal_mac_partial",
    "Verif.SysInfo.C137_literal_mac_refuted",
    "Verif.SysInfo.C137_stripped",
    "Verif.SysInfo.C137_stripped_refuted"
   ],
   "note": "Version strings: round trip and the exact condition of the out-of-bounds write. Literal: right on iOS, wrong for macOS 11 and later with a minor version below 10 (refuted). Stripped name: exact for ASCII; undefined otherwise where char is signed."
  },
  {
   "property": "C138",
   "status": "partial",
   "theorems": [
    "Verif.SharedWeak.C138_reads",
    "Verif.SharedWeak.C138_writes",
    "Verif.SharedWeak.C138_code_reads",
    "Verif.SharedWeak.C138_code_refuted",
    "Verif.SharedWeak.C138_repairs"
   ],
   "note": "Both claims are characterised exactly by the memory orders; with the orders of the file the first is proved and the second refuted. Loads see the last store; unlimited resources (which already fail without reorderings, C43) are not covered."
  },
  {
   "property": "C139",
   "status": "partial",
   "theorems": [
    "Verif.PoolWeak.Buffer.C139_buffer",
    "Verif.PoolWeak.Buffer.C139_buffer_code",
    "Verif.PoolWeak.Pool.C139_pool_partial",
    "Verif.PoolWeak.Pool.C139_pool_code_partial",
    "Verif.PoolWeak.Pool.C139_pool_letter_refuted",
    "Verif.PoolWeak.Buffer.C139_buffer_numbers",
    "Verif.PoolWeak.Pool.C139_pool_letter_repaired"
   ],
   "note": "Buffer: exact characterisation, the code has the orders. Pool: exact characterisation under the size condition of C17 (without which the pool already fails, C17); the code has the orders if consume is taken as acquire, and not by the letter (refuted). Not proved: pools whose size does not divide the number of indexes once they have held that many items."
  },
  {
   "property": "C14",
   "status": "proved",
   "theorems": [
    "Verif.IndexBuffer.C14_one_owner"
   ],
   "note": "Any number of threads, every capacity; the index buffer is simulated by the ID generator of C12. Sequentially consistent interleavings; threads stage and discard only indexes they hold."
  },
  {
   "property": "C140",
   "status": "partial",
   "theorems": [
    "Verif.PoolCommit.C140_commit_partial",
    "Verif.PoolCommit.C140_commit_refines",
    "Verif.PoolCommit.C140_spurious_refuted"
   ],
   "note": "The bound on the failures and the refinement of the pool model of C17 are proved under the size condition of C17; that nothing bounds the spurious failures is shown. Sequentially consistent."
  },
  {
   "property": "C141",
   "status": "partial",
   "theorems": [
    "Verif.SlotWeak.C141_elements",
    "Verif.SlotWeak.C141_code_refuted",
    "Verif.SlotWeak.C141_dependent_refuted",
    "Verif.SlotWeak.C141_repaired",
    "Verif.SlotWeak.C141_numbers"
   ],
   "note": "Exact condition on the orders; the orders of the file do not meet it (refuted, also with address dependencies). One slot; the pointer of the map and the resizes are not in this model."
  },
  {
   "property": "C142",
   "status": "partial",
   "theorems": [
    "Verif.SerialStuck.C142_pop",
    "Verif.SerialStuck.C142_goes_on",
    "Verif.SerialStuck.C142_stuck",
    "Verif.SerialStuck.C142_careful",
    "Verif.SerialStuck.C142_refuted"
   ],
   "note": "Exact condition; without the care of the users it fails (refuted: a task popped and destroyed unrun, or popped and pushed again, blocks the queue for ever). A pop is one step, a pop that does not get the lock returns NULL."
  },
  {
   "property": "C143",
   "status": "proved",
   "theorems": [
    "Verif.RandomPoint.C143_rect_points",
    "Verif.RandomPoint.C143_rect_even",
    "Verif.RandomPoint.C143_ellipse_points",
    "Verif.RandomPoint.C143_ellipse_even",
    "Verif.RandomPoint.C143_circle",
    "Verif.RandomPoint.C143_range_inside",
    "Verif.RandomPoint.C143_range_points",
    "Verif.RandomPoint.C143_range_even"
   ],
   "note": "Over the reals, for ideal random fractions; the rounding of floats and that the fractions are finitely many are not modelled."
  },
  {
   "property": "C144",
   "status": "partial",
   "theorems": [
    "Verif.ResizeWeak.C144_resizes",
    "Verif.ResizeWeak.C144_code_refuted",
    "Verif.ResizeWeak.C144_dependent"
   ],
   "note": "Exact condition on the orders; the file does not meet it (refuted; with address dependencies it holds exactly with strict compliance). One place; mutate does not wrap; the first value of new data is taken as seen."
  },
  {
   "property": "C145",
   "status": "partial",
   "theorems": [
    "Verif.Tolerance.C145_absolute",
    "Verif.Tolerance.C145_absolute_exact",
    "Verif.Tolerance.C145_relative",
    "Verif.Tolerance.C145_relative_all",
    "Verif.Tolerance.C145_nan",
    "Verif.Tolerance.C145_symmetric",
    "Verif.Tolerance.C145_reflexive",
    "Verif.Tolerance.C145_monotone",
    "Verif.Tolerance.C145_infinite_refuted",
    "Verif.Tolerance.C145_relative_infinite"
   ],
   "note": "All of it is proved for numbers. For the infinities it is refuted: an infinity is not equal to itself under either comparison, and with a tolerance of infinity zero is not equal to itself under the relative one. The roundings of binary32 to nearest and toward zero are shown to meet the laws assumed. An infinite relative tolerance accepts every pair of numbers but two zeros."
  },
  {
   "property": "C146",
   "status": "partial",
   "theorems": [
    "Verif.TermArray.C146_count",
    "Verif.TermArray.C146_map",
    "Verif.TermArray.C146_copy",
    "Verif.TermArray.C146_full_refuted"
   ],
   "note": "Proved for arrays that have a terminator within their memory. Refuted for those that fill it: the mapper does not look at the size of the type and reads on, and the unmapper writes any number of elements. Elements that are copied byte by byte."
  },
  {
   "property": "C147",
   "status": "partial",
   "theorems": [
    "Verif.TempMem.C147_place",
    "Verif.TempMem.C147_room",
    "Verif.TempMem.C147_none",
    "Verif.TempMem.C147_free",
    "Verif.TempMem.C147_temp",
    "Verif.TempMem.C147_refuted"
   ],
   "note": "Proved for sizes whose expression gives the same when evaluated twice and limits in order. Refuted otherwise: with the limits the other way round sizes in between get no memory, with a size that changes there can be less memory than asked for; and the array of the macro has length zero whenever the heap is used, which the standard leaves undefined."
  },
  {
   "property": "C148",
   "status": "partial",
   "theorems": [
    "Verif.DataOwner.C148_copy",
    "Verif.DataOwner.C148_free",
    "Verif.DataOwner.C148_failure",
    "Verif.DataOwner.C148_lent_partial",
    "Verif.DataOwner.C148_lent_refuted",
    "Verif.DataOwner.C148_state",
    "Verif.DataOwner.C148_state_refuted"
   ],
   "note": "Proved for copies and buffers taken over, for failed creation and for the state of the random numbers. For buffers that are lent proved as long as the size is not set, and refuted if it is: the buffer of the caller is freed and the new one lost. CCRandomGetState loses its buffer if the data cannot be created."
  },
  {
   "property": "C149",
   "status": "partial",
   "theorems": [
    "Verif.FileStream.C149_round_trip",
    "Verif.FileStream.C149_counted",
    "Verif.FileStream.C149_short_read_refuted",
    "Verif.FileStream.C149_short_write_refuted"
   ],
   "note": "Round trip for every sequence of blocks at every offset. Only calls on a handle of the wrong kind are counted. Refuted: a read past the end of the file and a write the system takes only in part are reported as successes; the memory keeps its old contents, the file gets a gap."
  },
  {
   "property": "C15",
   "status": "proved",
   "theorems": [
    "Verif.SwapBuffer.C15_swap_buffer"
   ],
   "note": "One writer, one reader, every interleaving of the atomic steps (sequentially consistent; the memory orders are C126)."
  },
  {
   "property": "C150",
   "status": "partial",
   "theorems": [
    "Verif.VirtualBytes.C150_history_partial",
    "Verif.VirtualBytes.C150_remove_end",
    "Verif.VirtualBytes.C150_insert_exact",
    "Verif.VirtualBytes.C150_insert_refuted",
    "Verif.VirtualBytes.C150_behind_refuted",
    "Verif.VirtualBytes.C150_nothing_refuted",
    "Verif.VirtualBytes.C150_remove_refuted",
    "Verif.VirtualBytes.C150_remove_all_refuted"
   ],
   "note": "Proved for every history without the calls the code gets wrong: inserting more than follows, writing behind the end, writing nothing in the file, removing nothing at the start or behind the end. What those do is proved; removing SIZE_MAX bytes behind the end makes the file longer. The helpers are not called by the code at this commit; the handles are C64."
  },
  {
   "property": "C151",
   "status": "partial",
   "theorems": [
    "Verif.RangeCheck.C151_plain_partial",
    "Verif.RangeCheck.C151_accepted",
    "Verif.RangeCheck.C151_data_refuted",
    "Verif.RangeCheck.C151_string_refuted",
    "Verif.RangeCheck.C151_replace_refuted",
    "Verif.RangeCheck.C151_remove_refuted"
   ],
   "note": "Holds for offsets that are not negative and sums that do not wrap. Refuted, with the exact set of calls: negative offsets of data whose range ends within the data, sums that wrap, replacements longer than the rest of the array."
  },
  {
   "property": "C152",
   "status": "partial",
   "theorems": [
    "Verif.ArrayBytes.C152_room_partial",
    "Verif.ArrayBytes.C152_counts",
    "Verif.ArrayBytes.C152_refused",
    "Verif.ArrayBytes.C152_room_refuted"
   ],
   "note": "Holds as long as the bytes asked for fit a size_t. Refuted otherwise: the product wraps, and an array can count 2^61 - 1 elements of 8 bytes and have no memory."
  },
  {
   "property": "C153",
   "status": "proved",
   "theorems": [
    "Verif.FastArrayChoice.C153_explicit",
    "Verif.FastArrayChoice.C153_registered"
   ],
   "note": "The choice after the registration is given for a program that registers nothing else; other histories are covered by C106_choice."
  },
  {
   "property": "C154",
   "status": "proved",
   "theorems": [
    "Verif.ContainerOwner.C154_owned",
    "Verif.ContainerOwner.C154_failure"
   ],
   "note": "Counts of references are unbounded numbers here (the model of the allocator has the 32-bit counts); the destructor of the user does nothing."
  },
  {
   "property": "C155",
   "status": "partial",
   "theorems": [
    "Verif.AllocError.C155_callback",
    "Verif.AllocError.C155_indicator_partial",
    "Verif.AllocError.C155_indicator_refuted",
    "Verif.AllocError.C155_library",
    "Verif.AllocError.C155_safe",
    "Verif.AllocError.C155_again"
   ],
   "note": "CCReallocBlock tells the callback that CCRealloc failed (refuted); everything else is proved. CCErrorLogAndExit ends the program with status 0."
  },
  {
   "property": "C16",
   "status": "proved",
   "theorems": [
    "Verif.CircBuffer.C16_circular_fifo"
   ],
   "note": "One producer, one consumer, every size, every interleaving; SetStartIndex is not modelled (its macro refers to an undefined function). Sequentially consistent; the memory orders are C125."
  },
  {
   "property": "C17",
   "status": "partial",
   "theorems": [
    "Verif.ConcPool.C17_pool_partial",
    "Verif.ConcPool.C17_pool_refuted"
   ],
   "note": "Proved for sizes dividing 2^32 (or up to 2^32 items); refuted for every other size: after 2^32 items an unpopped item is overwritten."
  },
  {
   "property": "C18",
   "status": "proved",
   "theorems": [
    "Verif.LazyGC.C18_lazy_reclaims"
   ],
   "note": "All interleavings of any number of threads (fewer than 2^32-1 values of the participant count) under sequential consistency; weak memory orders are not modelled."
  },
  {
   "property": "C19",
   "status": "proved",
   "theorems": [
    "Verif.EpochGC.C19_epoch_reclaims"
   ],
   "note": "All interleavings of any number of threads below the range of the 32-bit counts, any number of epoch advances, under sequential consistency; the wrap of the epoch counter after 2^64 advances and weak memory orders are not modelled."
  },
  {
   "property": "C20",
   "status": "partial",
   "theorems": [
    "Verif.ConcQueue.C20_queue_partial",
    "Verif.ConcQueue.C20_pop_progress",
    "Verif.ConcQueue.C20_false_empty_refuted"
   ],
   "note": "Order, uniqueness, no loss and memory safety (with reuse of freed addresses, on the collectors' contract) hold in every interleaving. The claim about empty fails: a pop can return null although a push completed before it began and nothing was popped (C20_false_empty_refuted). Sequential consistency."
  },
  {
   "property": "C21",
   "status": "proved",
   "theorems": [
    "Verif.BitTricks.C21_lowest_set",
    "Verif.BitTricks.C21_lowest_unset",
    "Verif.BitTricks.C21_highest_set",
    "Verif.BitTricks.C21_count_set",
    "Verif.BitTricks.C21_mask_for_value",
    "Verif.BitTricks.C21_mask_for_unset_value",
    "Verif.BitTricks.C21_next_power_of_2",
    "Verif.BitTricks.C21_next_power_of_2_unrepresentable",
    "Verif.BitTricks.C21_is_power_of_2",
    "Verif.BitTricks.C21_mask_for_lower_power_of_2",
    "Verif.BitTricks.C21_count_lowest_unset",
    "Verif.BitTricks.C21_set_low"
   ],
   "note": "Portable branch of CCBitCountLowestUnset modelled; the compiler builtin branch is trusted to agree."
  },
  {
   "property": "C22",
   "status": "partial",
   "theorems": [
    "Verif.Bits.C22_set_partial",
    "Verif.Bits.C22_clear_partial",
    "Verif.Bits.C22_assign_partial",
    "Verif.Bits.C22_get_partial",
    "Verif.Bits.C22_narrow_blocks",
    "Verif.Bits.C22_refuted"
   ],
   "note": "Holds for every index in 8 and 16 bit blocks and whenever the position in the block is below 31; for 32/64 bit blocks the code shifts an int by 31 or more (undefined, C22_refuted)."
  },
  {
   "property": "C23",
   "status": "partial",
   "theorems": [
    "Verif.Bits.C23_range_partial",
    "Verif.Bits.C23_range_exact_partial",
    "Verif.Bits.C23_refuted",
    "Verif.Bits.C23_refuted_exactly",
    "Verif.Bits.C23_refuted_and"
   ],
   "note": "The seven range operations act exactly on the range when it ends on a byte boundary or stays in one byte; otherwise the code also changes the rest of the last byte (refuted). CCBitsAnd of a short aligned range uses |= (refuted)."
  },
  {
   "property": "C24",
   "status": "partial",
   "theorems": [
    "Verif.Bits.C24_count",
    "Verif.Bits.C24_any_partial",
    "Verif.Bits.C24_any_defined_partial",
    "Verif.Bits.C24_any_undefined_only",
    "Verif.Bits.C24_refuted_any"
   ],
   "note": "Counting is proved in full. The any query is right whenever defined, but shifts an int by more than 56 on some ranges (refuted)."
  },
  {
   "property": "C25",
   "status": "proved",
   "theorems": [
    "Verif.Enumerable.C25_batch_walk",
    "Verif.Enumerable.C25_circular_walk",
    "Verif.Enumerable.C25_visits_all",
    "Verif.Enumerable.C25_distinct",
    "Verif.Enumerable.C25_there_and_back"
   ],
   "note": "Every sequence of calls on plain and circular enumerables refines a cursor in the list of element addresses."
  },
  {
   "property": "C26",
   "status": "proved",
   "theorems": [
    "Verif.Random.C26_xorshift_injective",
    "Verif.Random.C26_xorshift_never_zero",
    "Verif.Random.C26_xorshift_periodic",
    "Verif.Random.C26_xorwow_injective",
    "Verif.Random.C26_xorwow_never_zero",
    "Verif.Random.C26_xorwow_periodic",
    "Verif.Random.C26_range",
    "Verif.Random.C26_range_onto",
    "Verif.Random.C26_range_overflow",
    "Verif.Random.C26_global_state",
    "Verif.Random.C26_range_defined",
    "Verif.Random.C26_randomi"
   ],
   "note": "Both generators, all states and step counts; ranged integers for all bounds with representable range size. CCRandomi gives exactly 0 to RAND_MAX."
  },
  {
   "property": "C27",
   "status": "proved",
   "theorems": [
    "Verif.Hash.C27_jenkins",
    "Verif.Hash.C27_murmur",
    "Verif.Hash.C27_chunk_independent",
    "Verif.Hash.C27_jenkins_zero",
    "Verif.Hash.C27_jenkins_published",
    "Verif.Hash.C27_murmur_published"
   ],
   "note": "Both hashes equal the hash of the whole byte string for every data and map size; the Jenkins hash needs a positive preferred map size (divides by zero otherwise). The two hashes are the published one-at-a-time hash and MurmurHash3 (x86, 32 bits, seed 0), stated in natural numbers."
  },
  {
   "property": "C28",
   "status": "partial",
   "theorems": [
    "Verif.BigInt.C28_compare",
    "Verif.BigInt.C28_compare_int",
    "Verif.BigInt.C28_set_int",
    "Verif.BigInt.C28_copy_iff",
    "Verif.BigInt.C28_add_partial",
    "Verif.BigInt.C28_add_only",
    "Verif.BigInt.C28_sub_partial",
    "Verif.BigInt.C28_sub_only",
    "Verif.BigInt.C28_add_int_partial",
    "Verif.BigInt.C28_add_int_only",
    "Verif.BigInt.C28_sub_int_partial",
    "Verif.BigInt.C28_sub_int_only",
    "Verif.BigInt.C28_history_partial",
    "Verif.BigInt.C28_refuted",
    "Verif.BigInt.C28_add_zero_refuted",
    "Verif.BigInt.C28_negative_zero_refuted",
    "Verif.BigInt.C28_int_min_refuted",
    "Verif.BigInt.C28_copy_refuted"
   ],
   "note": "False as stated ([5,7]-1 gives [4]); the operands on which the code is exact are characterised, and it is proved wrong on all others."
  },
  {
   "property": "C29",
   "status": "proved",
   "theorems": [
    "Verif.BigInt.C29_parse",
    "Verif.BigInt.C29_print",
    "Verif.BigInt.C29_round_trip",
    "Verif.BigInt.C29_normal_unique",
    "Verif.BigInt.C29_same_number"
   ],
   "note": "Text shorter than 2^64 characters."
  },
  {
   "property": "C30",
   "status": "partial",
   "theorems": [
    "Verif.BigIntFast.C30_set_int_partial",
    "Verif.BigIntFast.C30_set_int_only",
    "Verif.BigIntFast.C30_refuted",
    "Verif.BigIntFast.C30_refuted_value",
    "Verif.BigIntFast.C30_compare",
    "Verif.BigIntFast.C30_compare_int",
    "Verif.BigIntFast.C30_compare_big",
    "Verif.BigIntFast.C30_set_big_partial"
   ],
   "note": "False as stated: the range tests use || and accept every integer, so 64-bit integers outside 63 bits are lost; exact for all 63-bit integers."
  },
  {
   "property": "C31",
   "status": "partial",
   "theorems": [
    "Verif.Decimal.C31_fits32_partial",
    "Verif.Decimal.C31_fits64_partial",
    "Verif.Decimal.C31_negative32",
    "Verif.Decimal.C31_negative64",
    "Verif.Decimal.C31_positive32_partial",
    "Verif.Decimal.C31_positive64",
    "Verif.Decimal.C31_large_partial",
    "Verif.Decimal.C31_saturates64_iff",
    "Verif.Decimal.C31_saturates64_negative_iff",
    "Verif.Decimal.C31_saturates32_negative_iff",
    "Verif.Decimal.C31_refuted",
    "Verif.Decimal.C31_refuted32",
    "Verif.Decimal.C31_refuted64"
   ],
   "note": "Representable results are exact (but for 0 * 10^20); saturation is false as stated and characterised by iff for 64-bit decimals and negative exponents; for 32-bit decimals with positive exponents under an explicit bound."
  },
  {
   "property": "C32",
   "status": "partial",
   "theorems": [
    "Verif.Data.C32_read",
    "Verif.Data.C32_write",
    "Verif.Data.C32_fill",
    "Verif.Data.C32_copy",
    "Verif.Data.C32_write_read",
    "Verif.Data.C32_buffer",
    "Verif.Data.C32_container_read_partial",
    "Verif.Data.C32_container_write_partial",
    "Verif.Data.C32_container_refuted"
   ],
   "note": "Proved for every implementation that satisfies the map/unmap law (plain memory and CCDataBuffer without conditions) and every preferred map size. False for CCDataContainer: writes covering part of an element leave uninitialised bytes, zero-size reads overrun the staging block; proved for whole elements and for reads of at least one byte. There are no other implementations in the code."
  },
  {
   "property": "C33",
   "status": "partial",
   "theorems": [
    "Verif.Data.C33_partial",
    "Verif.Data.C33_stale",
    "Verif.Data.C33_refuted",
    "Verif.Data.C33_resize_refuted"
   ],
   "note": "False as stated: ending a read-only map (also inside a read through maps) clears the modified flag, and a resize does not set it, so the next hash is stale. Proved for all histories that avoid both."
  },
  {
   "property": "C34",
   "status": "partial",
   "theorems": [
    "Verif.Task.C34_partial",
    "Verif.Task.C34_runs",
    "Verif.Task.C34_refuted"
   ],
   "note": "Proved for up to 2^32 threads; with more the 32-bit counter wraps and the property is false."
  },
  {
   "property": "C35",
   "status": "proved",
   "theorems": [
    "Verif.TaskQueue.C35_order",
    "Verif.TaskQueue.C35_serial",
    "Verif.TaskQueue.C35_seen",
    "Verif.TaskQueue.C35_step"
   ],
   "note": "The concurrent queue below is taken as an atomic FIFO that may spuriously report empty."
  },
  {
   "property": "C36",
   "status": "partial",
   "theorems": [
    "Verif.PoolAlloc.C36_partial",
    "Verif.PoolAlloc.C36_live",
    "Verif.PoolAlloc.C36_reuse",
    "Verif.PoolAlloc.C36_lifetime",
    "Verif.PoolAlloc.C36_index",
    "Verif.PoolAlloc.C36_blocks",
    "Verif.PoolAlloc.C36_inside_iff",
    "Verif.PoolAlloc.C36_inside_refuted",
    "Verif.PoolAlloc.C36_size_refuted",
    "Verif.PoolAlloc.C36_request_refuted"
   ],
   "note": "All histories of a contract-abiding client. Refuted in three places: sizes in the last 32 bytes of the address range pass the size check, the last block can end beyond the allocation (exactly when alignment slack exceeds size padding), and the byte count of the pool can wrap."
  },
  {
   "property": "C37",
   "status": "proved",
   "theorems": [
    "Verif.Zone.C37_bytes",
    "Verif.Zone.C37_alloc",
    "Verif.Zone.C37_aligned",
    "Verif.Zone.C37_aligned_defined",
    "Verif.Zone.C37_aligned_refuted",
    "Verif.Zone.C37_restore_bytes",
    "Verif.Zone.C37_dealloc"
   ],
   "note": "All histories, all block sizes. C37_aligned_refuted is about the documented size limit of aligned allocations (an assertion trips below it), not about the property. Addresses are assumed not to reach the top of the address range."
  },
  {
   "property": "C38",
   "status": "partial",
   "theorems": [
    "Verif.RefCount.C38_partial",
    "Verif.RefCount.C38_destroyed",
    "Verif.RefCount.C38_order",
    "Verif.RefCount.C38_progress",
    "Verif.RefCount.C38_ref_count",
    "Verif.RefCount.C38_refuted",
    "Verif.RefCount.C38_wrap_refuted"
   ],
   "note": "All interleavings of any number of threads while fewer than 2^31 references exist; refuted beyond that because the count is a 32-bit integer. Sequentially consistent atomics; the destructor does not itself retain or free the memory."
  },
  {
   "property": "C39",
   "status": "partial",
   "theorems": [
    "Verif.Collection.C39_array",
    "Verif.Collection.C39_list",
    "Verif.Collection.C39_fast_array",
    "Verif.Collection.C39_fast_array_stable",
    "Verif.Collection.C39_array_failed_insert_refuted",
    "Verif.Collection.C39_fast_array_unstable_refuted",
    "Verif.Collection.C39_fast_array_unsorted_refuted"
   ],
   "note": "Proved for every history of the list implementation (allocations failing at any time), of the array implementation when its array can grow (refuted otherwise: a failed insertion returns an entry), and of the fast array with positional entries, which last under calls at the end (refuted for other removals)."
  },
  {
   "property": "C40",
   "status": "partial",
   "theorems": [
    "Verif.Collection.C40_array_replies",
    "Verif.Collection.C40_list_replies",
    "Verif.Collection.C40_fast_array_replies",
    "Verif.Collection.C40_same_as_list",
    "Verif.Collection.C40_list_failed_replace_refuted"
   ],
   "note": "All calls by position agree with a list on all three implementations, for every history; replace-at on the list implementation removes the following element when its allocation fails (refuted)."
  },
  {
   "property": "C41",
   "status": "partial",
   "theorems": [
    "Verif.Collection.C41_array",
    "Verif.Collection.C41_list",
    "Verif.Collection.C41_fast_array_partial",
    "Verif.Collection.C41_fast_array_clear_refuted",
    "Verif.Dictionary.C41_dictionary_partial",
    "Verif.Dictionary.C41_dictionary_refuted",
    "Verif.Dictionary.C41_dictionary_double_refuted"
   ],
   "note": "Collections and dictionaries: every element, key and value put in is either held or was destroyed exactly once, and destroying the container destroys the rest. Refuted: the fast array's remove-all skips the destructor; a dictionary that grows while a key has no value runs the value destructor on bytes never stored, or a second time on a removed value."
  },
  {
   "property": "C42",
   "status": "proved",
   "theorems": [
    "Verif.IndexMap.C42_index_map"
   ],
   "note": "Sequential refinement to a list for every chunk size and call sequence, with allocation failure of append; out-of-range and uninitialised slot accesses are faults and proved absent. One thread: interleavings are not covered here. Insert at the end is refused by the code (and in the specification)."
  },
  {
   "property": "C43",
   "status": "partial",
   "theorems": [
    "Verif.SharedRes.C43_shared_partial",
    "Verif.SharedRes.C43_unlimited_refuted",
    "Verif.SharedRes.C43_unlimited_index_refuted",
    "Verif.SharedRes.C43_limit_refuted",
    "Verif.SharedProgress.C43_unlimited_alone"
   ],
   "note": "Holds in every interleaving when Tunlimited is false and fewer than 2^16 gets begin between two sets. With Tunlimited (the default) a get can share a value that was already destroyed, and current can get an index that does not exist; 2^16 gets between two sets break the limited form too. Sequential consistency. With Tunlimited and one thread at a time a get leaves current and the counts as they were (C43_unlimited_alone)."
  },
  {
   "property": "C44",
   "status": "partial",
   "theorems": [
    "Verif.Range.C44_clamp",
    "Verif.Range.C44_min_max",
    "Verif.Range.C44_ranges_partial",
    "Verif.Range.C44_disjoint_intersection_refuted",
    "Verif.Range.C44_wrapping_contains_refuted",
    "Verif.Range.C44_types"
   ],
   "note": "Integer types; holds for ranges with representable ends. The code is wrong for the intersection of disjoint ranges and for wrapping ranges (refutations). Floating point and vector instantiations not modelled."
  },
  {
   "property": "C45",
   "status": "proved",
   "theorems": [
    "Verif.Swap.C45_swap"
   ],
   "note": ""
  },
  {
   "property": "C46",
   "status": "partial",
   "theorems": [
    "Verif.BitTricks.C46_float32_partial",
    "Verif.BitTricks.C46_float64_partial",
    "Verif.BitTricks.C46_float32_refuted"
   ],
   "note": "True for positive normal numbers; the code accepts infinities and negatives and rejects subnormal powers of two."
  },
  {
   "property": "C47",
   "status": "partial",
   "theorems": [
    "Verif.Bits.C47_mask_partial",
    "Verif.Bits.C47_mask_order_partial",
    "Verif.Bits.C47_refuted_undefined",
    "Verif.Bits.C47_refuted_tail",
    "Verif.Bits.C47_refuted_order"
   ],
   "note": "Proved outside three defects of the code, each refuted with a witness: shift by 64, misplaced trailing byte, order."
  },
  {
   "property": "C48",
   "status": "partial",
   "theorems": [
    "Verif.BigIntFast.C48_add_int_partial",
    "Verif.BigIntFast.C48_add_int_only",
    "Verif.BigIntFast.C48_sub_int_partial",
    "Verif.BigIntFast.C48_add_big_partial",
    "Verif.BigIntFast.C48_sub_big_partial",
    "Verif.BigIntFast.C48_small_big_partial",
    "Verif.BigIntFast.C48_add_fast_refuted",
    "Verif.BigIntFast.C48_refuted"
   ],
   "note": "False as stated: adding a tagged fast integer doubles the first operand. Exact cases of the other overloads proved."
  },
  {
   "property": "C49",
   "status": "proved",
   "theorems": [
    "Verif.TaskQueue.C49_is_empty"
   ],
   "note": "Serial queue model; fewer than 2^64 tasks."
  },
  {
   "property": "C50",
   "status": "proved",
   "theorems": [
    "Verif.Align.C50_align",
    "Verif.Align.C50_refuted"
   ],
   "note": "For all words and powers of two. C50_refuted shows the wrap at the top of the range, which the quantifier excludes."
  },
  {
   "property": "C51",
   "status": "proved",
   "theorems": [
    "Verif.Zone.C51_get_pointer",
    "Verif.Zone.C51_block_for_pointer"
   ],
   "note": "All histories; the second theorem assumes that distinct blocks have disjoint addresses, which the underlying allocator provides."
  },
  {
   "property": "C52",
   "status": "proved",
   "theorems": [
    "Verif.Utf8.C52_utf8",
    "Verif.Utf8.C52_overlong_refuted"
   ],
   "note": "Codec of CCString.c; the reader also accepts overlong forms (second theorem), which are not UTF-8."
  },
  {
   "property": "C53",
   "status": "proved",
   "theorems": [
    "Verif.Str.C53_tagged",
    "Verif.Str.C53_canonical",
    "Verif.Str.goodMaps_default"
   ],
   "note": "Maps as a parameter with the hypothesis GoodMaps (right sizes, NUL first, no repetition), proved for the default maps."
  },
  {
   "property": "C54",
   "status": "partial",
   "theorems": [
    "Verif.Str.C54_observe",
    "Verif.Str.C54_unique",
    "Verif.Str.C54_create",
    "Verif.Str.C54_create_with_size",
    "Verif.Str.C54_constant",
    "Verif.Str.C54_character",
    "Verif.Str.C54_equal_exact",
    "Verif.Str.C54_equal_partial",
    "Verif.Str.C54_equal_refuted"
   ],
   "note": "All proved except that CCStringEqual of an empty untagged ASCII string and an empty tagged string is false (C54_equal_refuted; C54_equal_exact says exactly when). Hash and equality of an ASCII string in an external buffer read the byte before it: hypothesis Safe."
  },
  {
   "property": "C55",
   "status": "proved",
   "theorems": [
    "Verif.Str.C55_edit",
    "Verif.Str.C55_edit_none",
    "Verif.Str.C55_join"
   ],
   "note": "For strings of any representation; allocations succeed."
  },
  {
   "property": "C56",
   "status": "partial",
   "theorems": [
    "Verif.Str.C56_find_exact",
    "Verif.Str.C56_find_partial",
    "Verif.Str.C56_find_empty",
    "Verif.Str.C56_prefix_exact",
    "Verif.Str.C56_suffix_exact",
    "Verif.Str.C56_prefix_suffix_partial",
    "Verif.Str.C56_find_refuted",
    "Verif.Str.C56_prefix_refuted",
    "Verif.Str.C56_suffix_refuted",
    "Verif.Str.C56_suffix_undefined"
   ],
   "note": "Refuted by the code in the cases named; the exact theorems say what the code does for all arguments that are not empty."
  },
  {
   "property": "C57",
   "status": "partial",
   "theorems": [
    "Verif.Str.C57_replace_partial",
    "Verif.Str.C57_replace_grouped_partial",
    "Verif.Str.C57_split_partial",
    "Verif.Str.C57_split_grouped_partial",
    "Verif.Str.C57_missed",
    "Verif.Str.C57_split_refuted",
    "Verif.Str.C57_replace_refuted"
   ],
   "note": "Refuted where the search of C56 misses an occurrence; proved otherwise for strings to find that are not empty."
  },
  {
   "property": "C58",
   "status": "partial",
   "theorems": [
    "Verif.Str.C58_walk",
    "Verif.Str.C58_leave_partial",
    "Verif.Str.C58_foreach_partial",
    "Verif.Str.C58_end_refuted",
    "Verif.Str.C58_end_undefined"
   ],
   "note": "Moves inside proved for all; leaving an untagged ASCII string returns the byte before the buffer instead of 0."
  },
  {
   "property": "C59",
   "status": "partial",
   "theorems": [
    "Verif.ZoneEnum.C59_enumerate_partial",
    "Verif.ZoneEnum.C59_static_partial",
    "Verif.ZoneEnum.C59_items_allocated",
    "Verif.ZoneEnum.C59_alloc_events",
    "Verif.ZoneEnum.C59_past_end_refuted",
    "Verif.ZoneEnum.C59_limit_refuted",
    "Verif.ZoneEnum.C59_skip_refuted",
    "Verif.ZoneEnum.C59_stuck_refuted",
    "Verif.ZoneEnum.C59_tail_undefined",
    "Verif.ZoneEnum.C59_empty_block_refuted",
    "Verif.ZoneEnum.C59_unaligned_refuted"
   ],
   "note": "Proved for aligned starts, non-empty later blocks and histories in which a block is added only after the client has seen the end; the remaining cases are refuted with concrete histories (pointer behind the allocated memory, more items than asked for, skipped items, an enumerable that never continues)."
  },
  {
   "property": "C60",
   "status": "partial",
   "theorems": [
    "Verif.HeapAlloc.C60_aligned",
    "Verif.HeapAlloc.C60_aligned_fail",
    "Verif.HeapAlloc.C60_bounds",
    "Verif.HeapAlloc.C60_bounds_detect",
    "Verif.HeapAlloc.C60_aligned_overflow_refuted",
    "Verif.HeapAlloc.C60_bounds_overflow_refuted"
   ],
   "note": "Proved for all sizes whose block fits the address space; refuted for sizes near 2^64, where the size of the block wraps."
  },
  {
   "property": "C61",
   "status": "partial",
   "theorems": [
    "Verif.ZoneAlloc.C61_alloc",
    "Verif.ZoneAlloc.C61_keeps",
    "Verif.ZoneAlloc.C61_exact",
    "Verif.ZoneAlloc.C61_last_refuted",
    "Verif.ZoneAlloc.C61_overlap_refuted"
   ],
   "note": "Whenever reallocation is defined all of the claim holds. It is not always defined: moving copies the new size from the old place, which reads behind the block whenever the last allocation outgrows its block, and can overlap the destination; C61_exact says exactly when. Reallocating into another zone is not modelled."
  },
  {
   "property": "C62",
   "status": "proved",
   "theorems": [
    "Verif.HashLayout.C62_layouts_interchangeable",
    "Verif.HashLayout.C62_layouts_finite_map"
   ],
   "note": "Equality of all answers without hypotheses, undefined behaviour included. CCArray replaced by lists (C01), allocation does not fail."
  },
  {
   "property": "C63",
   "status": "partial",
   "theorems": [
    "Verif.FileHandle.C63_file_handle_partial",
    "Verif.FileHandle.C63_insert_exact",
    "Verif.FileHandle.C63_insert_refuted",
    "Verif.FileHandle.C63_insert_past_end_refuted",
    "Verif.FileHandle.C63_remove_all_offset_refuted",
    "Verif.FileHandle.C63_modes",
    "Verif.FileHandle.C63_read_write_modes",
    "Verif.FileHandle.C63_failed_call_offset_refuted"
   ],
   "note": "Proved for every history whose insertions are at least a block long or have at most a chunk behind them; C63_insert_exact gives the (wrong) result of the other insertions, the refutations the remaining defects of the code. Errors of the C library other than a bad offset are not modelled."
  },
  {
   "property": "C64",
   "status": "partial",
   "theorems": [
    "Verif.VirtualFile.C64_virtual_file_partial",
    "Verif.VirtualFile.C64_insert_at_end_exact",
    "Verif.VirtualFile.C64_modes",
    "Verif.VirtualFile.C64_overwrite_to_end_refuted",
    "Verif.VirtualFile.C64_remove_none_refuted",
    "Verif.VirtualFile.C64_write_without_memory_refuted",
    "Verif.VirtualFile.C64_insert_without_memory_refuted"
   ],
   "note": "Proved for every history without the calls the code gets wrong: overwriting up to exactly the end, inserting at or behind the end (exact result proved), removing nothing at the start, refused allocations. The lock is C65."
  },
  {
   "property": "C65",
   "status": "proved",
   "theorems": [
    "Verif.VirtualLock.C65_exclusion",
    "Verif.VirtualLock.C65_atomic",
    "Verif.VirtualLock.C65_reader_waits_for_one",
    "Verif.VirtualLock.C65_no_deadlock",
    "Verif.VirtualLock.C65_too_many_readers_refuted",
    "Verif.VirtualLock.C65_writer_starves_refuted"
   ],
   "note": "Sequentially consistent interleavings. The last two theorems show that the bound on the threads is needed and that writers are not served fairly."
  },
  {
   "property": "C66",
   "status": "partial",
   "theorems": [
    "Verif.Path.C66_write_then_read",
    "Verif.Path.C66_create",
    "Verif.Path.C66_read_then_write_exact",
    "Verif.Path.C66_read_safe_prefix",
    "Verif.Path.C66_hidden_directory_exact",
    "Verif.Path.C66_hidden_directory_refuted",
    "Verif.Path.C66_dots_refuted",
    "Verif.Path.C66_pointer_before_text_refuted"
   ],
   "note": "Write-then-read holds for all well formed component lists; which texts read-then-write reproduces is characterised exactly. Hidden directories and dots in odd places are lost: witnesses given."
  },
  {
   "property": "C67",
   "status": "partial",
   "theorems": [
    "Verif.Path.C67_buffer_suffices",
    "Verif.Path.C67_strings_of_text",
    "Verif.Path.C67_strings_current_partial",
    "Verif.Path.C67_pointers_stable_partial",
    "Verif.Path.C67_directory_pointers_refuted",
    "Verif.Path.C67_stale_after_current_refuted",
    "Verif.Path.C67_relative_current_refuted"
   ],
   "note": "Holds while the current path is unchanged (strings) and for paths with a file name (pointers); the code breaks both claims otherwise, witnesses given."
  },
  {
   "property": "C68",
   "status": "partial",
   "theorems": [
    "Verif.PathMatch.C68_match_exact_partial",
    "Verif.PathMatch.C68_symmetric",
    "Verif.PathMatch.C68_reflexive",
    "Verif.PathMatch.C68_other_options",
    "Verif.PathMatch.C68_front_ignored",
    "Verif.PathMatch.C68_tagged_pointer",
    "Verif.PathMatch.C68_transitive_refuted",
    "Verif.PathMatch.C68_wildcard_refuted",
    "Verif.PathMatch.C68_non_ascii_refuted"
   ],
   "note": "Exact for ASCII names or case sensitive options; without case, other bytes reach tolower outside its domain (witness)."
  },
  {
   "property": "C69",
   "status": "partial",
   "theorems": [
    "Verif.DefaultPath.C69_returned_has_components",
    "Verif.DefaultPath.C69_loop_does_not_wait",
    "Verif.DefaultPath.C69_once_refuted",
    "Verif.DefaultPath.C69_single_thread"
   ],
   "note": "The first claim holds in every interleaving; the lock is inverted, so the claim that initialisation happens once is refuted for every number of threads above one."
  },
  {
   "property": "C70",
   "status": "partial",
   "theorems": [
    "Verif.VirtualTree.C70_exists",
    "Verif.VirtualTree.C70_size",
    "Verif.VirtualTree.C70_create",
    "Verif.VirtualTree.C70_remove_partial",
    "Verif.VirtualTree.C70_remove_root_refuted",
    "Verif.VirtualTree.C70_history",
    "Verif.VirtualTree.C70_relative_exact",
    "Verif.VirtualTree.C70_relative_partial",
    "Verif.VirtualTree.C70_parent_refuted",
    "Verif.VirtualTree.C70_long_path_refuted",
    "Verif.VirtualTree.C70_through_itself_refuted",
    "Verif.VirtualTree.C70_failed_create_refuted",
    "Verif.VirtualTree.C70_dot_refuted",
    "Verif.VirtualTree.C70_kind_refuted"
   ],
   "note": "Asking, sizes, creating and histories are proved for all trees and paths from the root. Removing is proved except for the root, where the code dereferences NULL (proved). Relative paths are characterised exactly for asking and removing: the first '..' leaving the current directory is ignored. Refuted: paths of 128 components overflow the stack, /x/../x is created but not there, a failing creation can leave directories, names lose a leading dot, and the kind of a path is not looked at. Creating with a relative path is modelled but nothing is proved about it."
  },
  {
   "property": "C71",
   "status": "partial",
   "theorems": [
    "Verif.FileCopy.C71_system_copy_exact",
    "Verif.FileCopy.C71_system_copy_partial",
    "Verif.FileCopy.C71_system_copy_refuted",
    "Verif.FileCopy.C71_block_size_refuted",
    "Verif.FileCopy.C71_system_self_copy",
    "Verif.VirtualCopy.C71_over",
    "Verif.VirtualCopy.C71_virtual_copy_exact",
    "Verif.VirtualCopy.C71_virtual_copy_missing",
    "Verif.VirtualCopy.C71_virtual_move_exact",
    "Verif.VirtualCopy.C71_rename_file",
    "Verif.VirtualCopy.C71_rename_directory",
    "Verif.VirtualCopy.C71_kind_refuted",
    "Verif.VirtualCopy.C71_virtual_copy_refuted",
    "Verif.VirtualCopy.C71_move_self_refuted"
   ],
   "note": "Proved for new destinations; exact for existing ones, where the code keeps the end of a longer file, aborts for one of the same length (virtual), and loses an empty file moved onto itself. Copying a file to the path of a directory fails but makes the directory. Memory is available."
  },
  {
   "property": "C72",
   "status": "partial",
   "theorems": [
    "Verif.VirtualCopy.C72_copy_partial",
    "Verif.VirtualCopy.C72_move_partial",
    "Verif.VirtualCopy.C72_empty_directory_exact",
    "Verif.VirtualCopy.C72_move_loses_refuted",
    "Verif.VirtualCopy.C72_names_refuted",
    "Verif.VirtualCopy.C72_into_itself_refuted"
   ],
   "note": "Proved for directories without empty directories in them, with file names that are read back as paths, to new places outside. Empty directories abort; failures of children are ignored, so moving onto an existing directory or with odd names loses files; copying a directory into itself runs until an array overflows."
  },
  {
   "property": "C73",
   "status": "partial",
   "theorems": [
    "Verif.VirtualList.C73_listing_partial",
    "Verif.VirtualList.C73_no_matches_exact",
    "Verif.VirtualList.C73_blacklist_refuted",
    "Verif.VirtualList.C73_hidden_refuted",
    "Verif.VirtualList.C73_names_refuted"
   ],
   "note": "Proved for every tree whose file names are read back and whose paths have at most 127 components, for directories named from the root. The code disagrees: a blacklist of nothing lists nothing (no_matches_exact says when), the option to skip hidden entries has no effect, and names such as a..b are listed under other paths."
  },
  {
   "property": "C74",
   "status": "partial",
   "theorems": [
    "Verif.Rle.C74_roundtrip_partial",
    "Verif.Rle.C74_write_read",
    "Verif.Rle.C74_run_length",
    "Verif.Rle.C74_continue_refuted",
    "Verif.Rle.C74_64_refuted",
    "Verif.Rle.C74_reconfigure_refuted"
   ],
   "note": "Without continuing calls proved for all data; with them when no byte is repeated more than 256^size times in a row (beyond that the code loses bytes: continue_refuted). Counts of 64 bits are undefined from the first write, and changing the size after a continuing call, which the header allows, breaks a pending run. Little endian machine, a stream below that does not fail."
  },
  {
   "property": "C75",
   "status": "partial",
   "theorems": [
    "Verif.VarInt.C75_unsigned_partial",
    "Verif.VarInt.C75_signed_partial",
    "Verif.VarInt.C75_unsigned64_exact",
    "Verif.VarInt.C75_signed64_exact",
    "Verif.VarInt.C75_signed64_roundtrip_iff",
    "Verif.VarInt.C75_fixed",
    "Verif.VarInt.C75_integer_partial",
    "Verif.VarInt.C75_compact",
    "Verif.VarInt.C75_unsigned64_refuted",
    "Verif.VarInt.C75_signed64_refuted",
    "Verif.VarInt.C75_buffer_refuted"
   ],
   "note": "Proved for every fixed length number, every number of up to six bytes, unsigned numbers below 2^56 and signed numbers from -2^48 to below 2^48. Unsigned 64 bit numbers from 2^56 on are all read as 2^64 - 1 and signed ones are read back exactly when their byte 6 is the sign only; both are proved as exact characterisations. A number of 64 bytes may overflow the buffer."
  },
  {
   "property": "C76",
   "status": "partial",
   "theorems": [
    "Verif.Reflect.C76_roundtrip_partial",
    "Verif.Reflect.C76_cycle_refuted"
   ],
   "note": "Proved for structures, arrays, numbers, dynamic pointers, void and validators that accept the data without replacing it. Missing: static pointers, opaque types and enumerables, numbers that the variable length encoding does not read back (C75). Data with cycles, also through weak pointers, is followed without end."
  },
  {
   "property": "C77",
   "status": "partial",
   "theorems": [
    "Verif.Reflect.C77_copy_partial",
    "Verif.Reflect.C77_transfer_weak_refuted"
   ],
   "note": "Proved for structures, arrays, numbers, dynamic pointers, void and validators that accept the data without replacing it. Missing: static pointers, opaque types and enumerables. Transferring with weak references copied duplicates owned data instead of transferring it."
  },
  {
   "property": "C78",
   "status": "partial",
   "theorems": [
    "Verif.Reflect.C78_no_result",
    "Verif.Reflect.C78_result_partial",
    "Verif.Reflect.C78_size_refuted"
   ],
   "note": "Proved for validators whose base type is not a validator, with results of the modelled types that have no result of their own. A result larger than the data overwrites what follows it."
  },
  {
   "property": "C79",
   "status": "proved",
   "theorems": [
    "Verif.Limit.C79_integers",
    "Verif.Limit.C79_floats",
    "Verif.Limit.C79_clamp"
   ],
   "note": "Integers of at least one byte (an integer of no bytes reads outside of it). The comparison of floating point numbers itself is a parameter."
  },
  {
   "property": "C80",
   "status": "partial",
   "theorems": [
    "Verif.Vec.C80_two_componentwise",
    "Verif.Vec.C80_two_products",
    "Verif.Vec.C80_two_cross",
    "Verif.Vec.C80_two",
    "Verif.Vec.C80_packed",
    "Verif.Vec.C80_three_cross",
    "Verif.Vec.C80_three_products_partial",
    "Verif.Vec.C80_four_products_partial",
    "Verif.Vec.C80_three_products_refuted",
    "Verif.Vec.C80_four_products_refuted",
    "Verif.Vec.C80_two_normalize_refuted",
    "Verif.Vec.C80_normalize_partial"
   ],
   "note": "Vectors of two agree to the bit (with SSE 4.1 given that adding zero changes nothing). Refuted for the inner products of three and four, whose lanes are summed in different orders and so round differently (proved where sums may be regrouped), and for CCVectorize2Normalize, which aborts on every vector without SSE and with SSE 4.1."
  },
  {
   "property": "C81",
   "status": "partial",
   "theorems": [
    "Verif.Vec.C81_two",
    "Verif.Vec.C81_three",
    "Verif.Vec.C81_four",
    "Verif.Vec.C81_cross",
    "Verif.Vec.C81_normal",
    "Verif.Vec.C81_perp",
    "Verif.Vec.C81_parallel_partial",
    "Verif.Vec.C81_parallel_refuted"
   ],
   "note": "Over the real numbers. Refuted for being parallel: the tolerance is absolute, so that short vectors are parallel and ortho at once, and CCVector4Parallel ignores the fourth component."
  },
  {
   "property": "C82",
   "status": "partial",
   "theorems": [
    "Verif.Ulps.C82_number_partial",
    "Verif.Ulps.C82_number_laws",
    "Verif.Ulps.C82_zero_refuted",
    "Verif.Ulps.C82_nan_refuted",
    "Verif.Ulps.C82_lane_partial",
    "Verif.Ulps.C82_lane_negative_refuted",
    "Verif.Ulps.C82_lane_signs_refuted",
    "Verif.Ulps.C82_vectors_partial"
   ],
   "note": "Proved for numbers of the same sign and, of vectors, without SSE 2 or for non-negative components. Refuted around zero (numbers of different signs are only equal if both are zero), for not-a-number (equals infinity), and with SSE 2 for negative components (any two are equal) and for components of different signs beside others of the same sign."
  },
  {
   "property": "C83",
   "status": "proved",
   "theorems": [
    "Verif.Mat4.C83_product",
    "Verif.Mat4.C83_compose",
    "Verif.Mat4.C83_translation_scale",
    "Verif.Mat4.C83_rotation",
    "Verif.Mat4.C83_rotation_axes",
    "Verif.Mat4.C83_ortho",
    "Verif.Mat4.C83_frustum",
    "Verif.Mat4.C83_perspective",
    "Verif.Mat4.C83_applied"
   ],
   "note": "Over the real numbers: rounding is not modelled."
  },
  {
   "property": "C84",
   "status": "partial",
   "theorems": [
    "Verif.TypeGraph.C84_types",
    "Verif.TypeGraph.C84_once",
    "Verif.TypeGraph.C84_assert",
    "Verif.TypeGraph.C84_lookup_codes",
    "Verif.TypeGraph.C84_head",
    "Verif.TypeGraph.C84_string",
    "Verif.TypeGraph.C84_defaults",
    "Verif.TypeGraph.C84_defaults_exact",
    "Verif.TypeGraph.C84_defaults_refuted"
   ],
   "note": "Proved for graphs whose numbers are below 2^56 (counts of enumerables within 2^48, or unknown), given that the mapped parts of pointer and opaque types are read back. Refuted for the offset of the default lookups: the reader adds it a second time."
  },
  {
   "property": "C85",
   "status": "proved",
   "theorems": [
    "Verif.LogFormat.C85_read",
    "Verif.LogFormat.C85_inside"
   ],
   "note": "ASCII; more than four l or h in a row (not in C's grammar) not modelled as overflow."
  },
  {
   "property": "C86",
   "status": "partial",
   "theorems": [
    "Verif.LogFormat.C86_binary_partial",
    "Verif.LogFormat.C86_wide",
    "Verif.LogFormat.C86_negative_refuted",
    "Verif.LogFormat.C86_others",
    "Verif.LogFormat.C86_star",
    "Verif.LogFormat.C86_zero_refuted"
   ],
   "note": "Proved for arguments within the length and numbers written out. Refuted: with # a negative char or short (passed as an int) makes it read before its digits; a negative width argument pads with almost 2^64 characters; 0 is not ignored with a precision."
  },
  {
   "property": "C87",
   "status": "partial",
   "theorems": [
    "Verif.LogMsg.C87_buffer_partial",
    "Verif.LogMsg.C87_failed_exact",
    "Verif.LogMsg.C87_failed_refuted"
   ],
   "note": "Proved while memory can be had. Refuted: after a failed write the size is taken to be greater than the allocation; exactly when the next write is then out of bounds is proved."
  },
  {
   "property": "C88",
   "status": "partial",
   "theorems": [
    "Verif.LogMsg.C88_plain",
    "Verif.LogMsg.C88_plain_write_exact",
    "Verif.LogMsg.C88_plain_write_refuted",
    "Verif.LogMsg.C88_filters_partial",
    "Verif.LogMsg.C88_star_refuted"
   ],
   "note": "vsnprintf is assumed to format specifier by specifier. Refuted: * takes an argument that is not passed over; without filters of specifiers the writes of message filters go beyond the allocation (exact condition proved). Outputs (files, system log) are not modelled."
  },
  {
   "property": "C89",
   "status": "partial",
   "theorems": [
    "Verif.ConcIndexMap.C89_linearisable_partial",
    "Verif.ConcIndexMap.C89_memory",
    "Verif.ConcIndexMap.C89_settled",
    "Verif.ConcIndexMap.C89_count_refuted"
   ],
   "note": "Linearisable for get, replace, replace-exact, append, insert and remove that succeed, and memory safe; the count (and with it an index refused by remove or insert) can lag behind an append of another thread that has stored its element but not counted it, so that after an append returned index 1 the count can be 1: refuted with a concrete execution, and the theorem says by exactly how much. Elements stored in place, default build, sequentially consistent; elements stored by pointer and the strict build are not modelled."
  },
  {
   "property": "C90",
   "status": "partial",
   "theorems": [
    "Verif.MemTemplate.C90_read_partial",
    "Verif.MemTemplate.C90_read_swap_partial",
    "Verif.MemTemplate.C90_write_partial",
    "Verif.MemTemplate.C90_write_swap_partial",
    "Verif.MemTemplate.C90_write_read",
    "Verif.MemTemplate.C90_write_read_swap",
    "Verif.MemTemplate.C90_read_order_partial",
    "Verif.MemTemplate.C90_write_order_partial",
    "Verif.MemTemplate.C90_swap_overrun",
    "Verif.MemTemplate.C90_offset_refuted",
    "Verif.MemTemplate.C90_data_read_partial",
    "Verif.MemTemplate.C90_data_write_partial",
    "Verif.MemTemplate.C90_container_refuted"
   ],
   "note": "Proved for offsets with Offset + Count at most 2^64; beyond, the offset wraps around and leaves the ring (refuted). Swapped accesses to a part of a value run out of a buffer of Count bytes (shown). Writing a data object made of a container overwrites the elements behind with uninitialised memory, as the map is for writing only (refuted); writing one made of memory, and reading any, is proved."
  },
  {
   "property": "C91",
   "status": "partial",
   "theorems": [
    "Verif.TypeKeys.C91_big_int",
    "Verif.TypeKeys.C91_big_int_any",
    "Verif.TypeKeys.C91_fast",
    "Verif.TypeKeys.C91_fast_any",
    "Verif.TypeKeys.C91_big_fast",
    "Verif.TypeKeys.C91_flip",
    "Verif.TypeKeys.C91_string_partial",
    "Verif.TypeKeys.C91_string_refuted"
   ],
   "note": "Proved for big integers and fast big integers. For strings the hashes agree, but the comparator calls two empty strings equal or not depending on their order (refuted with a witness)."
  },
  {
   "property": "C92",
   "status": "partial",
   "theorems": [
    "Verif.HashCache.C92_exclusion",
    "Verif.HashCache.C92_result",
    "Verif.HashCache.C92_cache",
    "Verif.HashCache.C92_rest",
    "Verif.HashCache.C92_progress",
    "Verif.HashCache.C92_deref_partial",
    "Verif.HashCache.C92_fault_only",
    "Verif.HashCache.C92_moved_refuted"
   ],
   "note": "All parts proved except the last: the value found is read after the lock has been given back, so a thread that sets another value in between may move it (refuted with an execution of two threads; it is the only way a call goes wrong). Sequential consistency; the dictionary is taken as a finite map whose values may move when one is set."
  },
  {
   "property": "C93",
   "status": "proved",
   "theorems": [
    "Verif.SimdShuffle.C93_swizzle",
    "Verif.SimdShuffle.C93_interleave",
    "Verif.SimdShuffle.C93_merge"
   ],
   "note": "All tables of the ARM implementation are correct, for every argument tuple and every lane value."
  },
  {
   "property": "C94",
   "status": "partial",
   "theorems": [
    "Verif.SimdLane.C94_rotate_exact",
    "Verif.SimdLane.C94_rotate_partial",
    "Verif.SimdLane.C94_rotate_refuted",
    "Verif.SimdLane.C94_lowest",
    "Verif.SimdLane.C94_mask_partial",
    "Verif.SimdLane.C94_mask64_exact",
    "Verif.SimdLane.C94_mask64_partial",
    "Verif.SimdLane.C94_mask64_refuted",
    "Verif.SimdLane.C94_mask_lower",
    "Verif.SimdLane.C94_count",
    "Verif.SimdLane.C94_count_highest64_exact",
    "Verif.SimdLane.C94_count_highest64_refuted",
    "Verif.SimdLane.C94_compare",
    "Verif.SimdLane.C94_min_max_clamp",
    "Verif.SimdLane.C94_div_mod"
   ],
   "note": "The code breaks the property in three places, each characterised by an equivalence and refuted by a witness: rotating negative signed lanes, the mask family of 64-bit lanes with 48 zeros in a row, and the leading zeros of 64-bit lanes. Everything else holds. CCSimdCountSet, CCSimdCountLowestUnset and CCSimdMod of 64-bit lanes do not exist (no 64-bit CCSimdMul)."
  },
  {
   "property": "C95",
   "status": "partial",
   "theorems": [
    "Verif.SimdHoriz.C95_hadd",
    "Verif.SimdHoriz.C95_dot",
    "Verif.SimdHoriz.C95_hsub_two",
    "Verif.SimdHoriz.C95_hsub_partial",
    "Verif.SimdHoriz.C95_hsub_refuted"
   ],
   "note": "Proved for sums, dot products and subtractions of two lanes. Subtractions of 4 and 8 lanes hold exactly when no mask is zero: with a zero mask the code shifts an int by 64 bits (refuted with the documented example). The variants of 16 lanes have no implementation; floats are not modelled."
  },
  {
   "property": "C96",
   "status": "partial",
   "theorems": [
    "Verif.DebugAlloc.C96_tracked_partial",
    "Verif.DebugAlloc.C96_is_tracking",
    "Verif.DebugAlloc.C96_tracked_refuted",
    "Verif.DebugAlloc.C96_realloc_exact",
    "Verif.DebugAlloc.C96_realloc_refuted",
    "Verif.DebugAlloc.C96_entries",
    "Verif.DebugAlloc.C96_dump"
   ],
   "note": "Holds if the C library does not hand out the old address of a reallocation before it is replaced in the map; refuted otherwise (the reallocator gives the address back first). Reallocating with another allocator named dereferences null and a failing realloc aborts (refuted, with exact conditions). The map never reuses entries (exact count)."
  },
  {
   "property": "C97",
   "status": "partial",
   "theorems": [
    "Verif.LastComp.C97_last_exact",
    "Verif.LastComp.C97_none",
    "Verif.LastComp.C97_cases",
    "Verif.LastComp.C97_last_partial",
    "Verif.LastComp.C97_last_refuted"
   ],
   "note": "Exact result for every path; right exactly if no separator follows, or two or more characters precede the component, or none precedes it and it has two or more characters. Refuted for a/ (null) and /last/ (gives /last)."
  },
  {
   "property": "C98",
   "status": "partial",
   "theorems": [
    "Verif.InputFilter.C98_strip_partial",
    "Verif.InputFilter.C98_strips_unique",
    "Verif.InputFilter.C98_alone",
    "Verif.InputFilter.C98_add",
    "Verif.InputFilter.C98_empty_refuted",
    "Verif.InputFilter.C98_null_refuted"
   ],
   "note": "Holds if no added path is empty and the file name is not null; with the empty path the logger calls itself without end, with a null name strncmp is called with null (both refuted)."
  },
  {
   "property": "C99",
   "status": "partial",
   "theorems": [
    "Verif.PtrMap.C99_calls_partial",
    "Verif.PtrMap.C99_fault_exact",
    "Verif.PtrMap.C99_insert_refuted",
    "Verif.PtrMap.C99_memory",
    "Verif.PtrMap.C99_drain",
    "Verif.PtrMap.C99_destroy"
   ],
   "note": "Proved for one thread, all outcomes of allocations and all orders of collection. False in one case: an insertion whose buffer can be allocated but not its element frees a buffer with a slot that was never set. C99_fault_exact shows that this is the only case. Not modelled: failing allocations in CCConcurrentIndexMapCreate; several threads (C89 has them for small elements)."
  }
 ]
}