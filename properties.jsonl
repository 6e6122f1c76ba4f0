{"id": "C01", "title": "is_power_of_2 recognises exactly the powers of two", "statement": "is_power_of_2(v) returns true if and only if v = 2^k for some k below the word width; in particular it is false for 0.", "quantifier": "every size_t value (proved for every word width w)", "why_tests_cant": "2^64 inputs; the tests check 19 of them.", "anchors": [{"file": "sources/include/utils/common.h", "symbols": ["is_power_of_2"]}]}
{"id": "C02", "title": "next_multiple_of returns the least multiple not below the value", "statement": "For a power-of-two multiple m, next_multiple_of(m, v) is the least multiple of m that is >= v when that multiple is representable, and 0 (wrap-around) exactly when it is not.", "quantifier": "every pair (m, v) of machine words with m a power of two", "why_tests_cant": "two 64-bit arguments; wrap-around near the maximum is never exercised.", "anchors": [{"file": "sources/include/utils/common.h", "symbols": ["next_multiple_of"]}]}
{"id": "C03", "title": "next_multiple_of<PowOf2> on unsigned types, with integral promotion", "statement": "next_multiple_of<PowOf2, U>(v) returns, for every unsigned U, the least multiple of PowOf2 that is >= v whenever it is representable in U, even though for U narrower than int the arithmetic is carried out in int; when PowOf2 itself does not fit U the result is 0 for every v.", "quantifier": "every unsigned width, every power of two, every value", "why_tests_cant": "tests only use int and two powers of two.", "anchors": [{"file": "sources/include/utils/common.h", "symbols": ["next_multiple_of"]}]}
{"id": "C04", "title": "skip_to_align returns the least distance to an aligned address", "statement": "For power-of-two alignment A, skip_to_align(p, A) < A, (p + skip) is a multiple of A (modulo the address space), and no smaller non-negative distance has that property; this holds for every address including those where the rounding wraps.", "quantifier": "every 64-bit address and every power-of-two alignment", "why_tests_cant": "address space times alignments; tests use addresses 0..11.", "anchors": [{"file": "sources/include/utils/common.h", "symbols": ["skip_to_align"]}]}
{"id": "C05", "title": "is_aligned decides divisibility", "statement": "For power-of-two A, is_aligned(p, A) is true iff A divides the address p.", "quantifier": "every address and every power-of-two alignment", "why_tests_cant": "2^64 addresses.", "anchors": [{"file": "sources/include/utils/common.h", "symbols": ["is_aligned"]}]}
{"id": "C06", "title": "greatest_divisor_that_is_power_of_2", "statement": "For v != 0 the result is a power of two that divides v and every power of two dividing v divides the result; for v = 0 it is the most significant bit of T. The integral promotion of narrow types does not change the result.", "quantifier": "every unsigned type width and every value", "why_tests_cant": "tests stop at 12.", "anchors": [{"file": "sources/include/utils/common.h", "symbols": ["greatest_divisor_that_is_power_of_2"]}]}
{"id": "C07", "title": "bits_count and nbits_occupied compute the bit length", "statement": "bits_count(v) = nbits_occupied(v) = the least b with v < 2^b; so b bits always suffice to store v and b-1 never do.", "quantifier": "every value of every unsigned width", "why_tests_cant": "2^64 values.", "anchors": [{"file": "sources/include/utils/common.h", "symbols": ["bits_count", "nbits_occupied"]}]}
{"id": "C08", "title": "kNumBitsTable is the population count table", "statement": "The table has 256 entries and entry i equals the number of one bits of i.", "quantifier": "all 256 bytes", "why_tests_cant": "no test reads the table at all; the claim is about the whole table.", "anchors": [{"file": "sources/include/utils/common.h", "symbols": ["kNumBitsTable", "make_num_bits_table", "numBitSet"]}]}
{"id": "C09", "title": "max_alignment_inside_block is the greatest alignment guaranteed inside a block", "statement": "If the block start is a multiple of the power of two A and the block has S > 0 bytes with A + S <= 2^31, then some address of the block is aligned to max_alignment_inside_block(A,S), and for every larger power of two there is a block start that is a multiple of A whose S bytes contain no address so aligned. Precondition the code relies on: the result is computed with an int shift, so A + S - 1 >= 2^32 is undefined behaviour.", "quantifier": "all power-of-two A, all S, all block start addresses", "why_tests_cant": "tests compare a few values with a table and never look at addresses.", "anchors": [{"file": "sources/include/utils/common.h", "symbols": ["max_alignment_inside_block"]}]}
{"id": "C10", "title": "uint_from_nbits picks the smallest standard unsigned type", "statement": "For 1 <= n <= 64 uint_from_nbits_t<n> has a width w in {8,16,32,64} with n <= w and no smaller such width; for n = 0 or n > 64 it does not compile. Hence enum_properties<E>::SerializeT can hold every value in 0..E::Count.", "quantifier": "every template argument 0..255 and every Count", "why_tests_cant": "the quantifier is over all instantiations.", "anchors": [{"file": "sources/include/utils/common.h", "symbols": ["uint_from_nbits", "uint_from_nbytes_t", "enum_properties", "bits_count"]}]}
{"id": "C11", "title": "clz counts leading zeros for every unsigned type", "statement": "For v != 0 of width w (8,16,32,64), clz(v) = c iff 2^(w-1-c) <= v < 2^(w-c), independent of which intrinsic the dispatcher picks, both with the GCC/Clang and the MSVC lists of intrinsics; narrower types are corrected by the width difference.", "quantifier": "every unsigned type and every non-zero value", "why_tests_cant": "2^64 values per type; the type dispatch is chosen at compile time per platform.", "anchors": [{"file": "sources/include/utils/clz.h", "symbols": ["clz", "crafted_clz", "supported_clz_types"]}, {"file": "sources/include/utils/details/cxz.h", "symbols": ["less_eq_pred"]}]}
{"id": "C12", "title": "ctz counts trailing zeros for every unsigned type", "statement": "For v != 0, 2^ctz(v) divides v and 2^(ctz(v)+1) does not, for every unsigned width and both intrinsic lists.", "quantifier": "every unsigned type and every non-zero value", "why_tests_cant": "2^64 values per type.", "anchors": [{"file": "sources/include/utils/ctz.h", "symbols": ["ctz", "crafted_ctz", "supported_ctz_types"]}]}
{"id": "C13", "title": "constant-evaluated fallbacks agree with the intrinsics", "statement": "crafted_clz and crafted_ctz (used during constant evaluation on MSVC) return the same number as the intrinsic for every non-zero value, so compile-time and run-time results agree.", "quantifier": "every unsigned width and non-zero value", "why_tests_cant": "2^64 values per type.", "anchors": [{"file": "sources/include/utils/clz.h", "symbols": ["crafted_clz"]}, {"file": "sources/include/utils/ctz.h", "symbols": ["crafted_ctz"]}]}
{"id": "C14", "title": "get_alignment is the exact alignment of an address", "statement": "For every non-null address p, get_alignment(p) is a power of two dividing p and the largest such.", "quantifier": "every non-null 64-bit address", "why_tests_cant": "tests check 150 addresses.", "anchors": [{"file": "sources/include/utils/memory/memory.h", "symbols": ["get_alignment"]}]}
{"id": "C15", "title": "div computes quotient and remainder", "statement": "utils::div(n, d) with d != 0 returns q, r with n = q*d + r, and |r| < |d|, truncating toward zero, with the same result at compile time and at run time, for every pair of integral types.", "quantifier": "all pairs of integral types and all values with d != 0", "why_tests_cant": "all values of all type pairs; the compile-time and run-time paths use different arithmetic.", "anchors": [{"file": "sources/include/utils/common.h", "symbols": ["div", "div_t"]}]}
{"id": "C16", "title": "shift_left / shift_right are exact on unsigned types", "statement": "For unsigned T of width w and n < w: shift_right(v,n) = floor(v / 2^n) and shift_left(v,n) = v*2^n mod 2^w, also for types narrower than int, where the shift is done in int.", "quantifier": "all unsigned widths, values and shift amounts below the width", "why_tests_cant": "all values of all types.", "anchors": [{"file": "sources/include/utils/common.h", "symbols": ["shift_left", "shift_right"]}]}
{"id": "C17", "title": "sum_size is the number of bytes needed for the packed bits", "statement": "sum_size<Ts...>() is the least number of bytes whose bits can hold every Ts, bool counting one bit and any other type 8*sizeof bits.", "quantifier": "every non-empty pack of types", "why_tests_cant": "unbounded packs.", "anchors": [{"file": "sources/include/utils/common.h", "symbols": ["sum_size", "num_bits"]}]}
{"id": "C18", "title": "memvcmp is true exactly on uniform buffers", "statement": "memvcmp(p, v, n) returns true iff p is non-null, n > 0 and all n bytes equal v; it reads no byte outside [p, p+n).", "quantifier": "every buffer content, value and length", "why_tests_cant": "unbounded buffers; the memcmp-with-itself trick needs an induction.", "anchors": [{"file": "sources/include/utils/common.h", "symbols": ["memvcmp"]}]}
{"id": "C19", "title": "is_equal compares exactly the requested prefix", "statement": "is_equal(a, b, k) with k <= N is true iff a[i] == b[i] for all i < k; k > N fails the assertion in debug builds.", "quantifier": "every array pair, element type and count", "why_tests_cant": "unbounded arrays.", "anchors": [{"file": "sources/include/utils/common.h", "symbols": ["is_equal"]}]}
{"id": "C20", "title": "make_array<T,N>(v) fills the array with v", "statement": "Every one of the N elements of make_array<T,N>(v) and make_zero_array<T,N>() equals v (respectively T{}).", "quantifier": "every element type, value and N", "why_tests_cant": "all types, including those whose move constructor changes the source.", "anchors": [{"file": "sources/include/utils/common.h", "symbols": ["make_array", "make_array_with_value_impl", "make_zero_array"]}]}
{"id": "C21", "title": "make_array_from_range enumerates the range", "statement": "make_array_from_range<Begin, End, Step>() contains, in order, Begin, Begin+Step, ... and every element lies between Begin and End, with no further element of that progression missing.", "quantifier": "every Begin, End, Step accepted by the static_assert", "why_tests_cant": "all instantiations, including Begin > End.", "anchors": [{"file": "sources/include/utils/common.h", "symbols": ["make_array_from_range", "is_valid_range"]}]}
{"id": "C22", "title": "concatenate_arrays is list concatenation", "statement": "concatenate_arrays(a1,...,ak) has the sum of the sizes and its elements are those of a1, then a2, ..., then ak in order.", "quantifier": "any number of arrays of any sizes", "why_tests_cant": "unbounded arity.", "anchors": [{"file": "sources/include/utils/common.h", "symbols": ["concatenate_arrays", "concatenate_2_arrays", "std_array_sizes_sum"]}]}
{"id": "C23", "title": "type_list lookup: at, index_of, first_index_of_type, count_of", "statement": "at<I> is the I-th type and fails to compile past the end; at<I,Pred> is the I-th type satisfying Pred; index_of<Pred> / first_index_of_type<T> is the least matching index, or size if none; count_of<T> counts occurrences.", "quantifier": "every list of types, every predicate, every index", "why_tests_cant": "unbounded lists.", "anchors": [{"file": "sources/include/utils/type_list.h", "symbols": ["type_list", "at_impl", "at_with_predicate", "index_of_impl", "get_first_index_of", "count_of_impl"]}]}
{"id": "C24", "title": "type_list::contains agrees with count_of", "statement": "contains_v<T> is true iff T occurs in the list (count_of<T> > 0), for every type T; and contains_v<type_list<Us...>> is true iff each of the Us occurs.", "quantifier": "every list and every query type, including queries that are type lists", "why_tests_cant": "unbounded lists; tests do not nest lists.", "anchors": [{"file": "sources/include/utils/type_list.h", "symbols": ["contains", "count_of"]}]}
{"id": "C25", "title": "contains_copies and is_same characterise duplicates", "statement": "type_list/value_list::contains_copies is true iff some element occurs at two positions; is_same is true iff all elements are equal.", "quantifier": "every list", "why_tests_cant": "unbounded lists.", "anchors": [{"file": "sources/include/utils/type_list.h", "symbols": ["contains_copies", "is_same_impl", "more_than_once"]}, {"file": "sources/include/utils/value_list.h", "symbols": ["contains_copies", "is_all_same_impl"]}]}
{"id": "C26", "title": "list_of_predicate_compliant is filter", "statement": "The result contains exactly the types satisfying the predicate, in the original order and multiplicity, and its size equals count_of_predicate_compliant.", "quantifier": "every list and predicate", "why_tests_cant": "unbounded lists.", "anchors": [{"file": "sources/include/utils/type_list.h", "symbols": ["list_of_predicate_compliant", "count_of_predicate_compliant_impl"]}]}
{"id": "C27", "title": "min_sizeof_index / max_sizeof_index return the first extremal index", "statement": "For a non-empty list the returned index is in range, its sizeof is minimal (maximal), and every earlier element is strictly larger (smaller). For the empty list there is no such index and the trait does not compile.", "quantifier": "every list", "why_tests_cant": "unbounded lists.", "anchors": [{"file": "sources/include/utils/type_list.h", "symbols": ["min_sizeof_index", "max_sizeof_index"]}]}
{"id": "C28", "title": "sublist and exclude_at slice the list", "statement": "sublist_t<L,F,C> with C > 0 exists iff F+C <= size and is the slice [F,F+C); exclude_at_t<L,I> exists iff I < size and removes exactly element I, keeping the order.", "quantifier": "every list and index", "why_tests_cant": "unbounded lists.", "anchors": [{"file": "sources/include/utils/type_list.h", "symbols": ["sublist", "exclude_at", "exclude_at_impl"]}]}
{"id": "C29", "title": "sort_sizeof_ascending / descending sort stably", "statement": "The result is a permutation of the input, ordered by sizeof (ascending / descending), and types of equal size keep their relative order.", "quantifier": "every list", "why_tests_cant": "unbounded lists; a permutation/stability claim over all lists.", "anchors": [{"file": "sources/include/utils/type_list.h", "symbols": ["sort_sizeof_ascending", "sort_sizeof_descending"]}]}
{"id": "C30", "title": "concatenate joins lists in order and is associative", "statement": "concatenate_t<L1,...,Lk> (k>=1) is the elements of L1,...,Lk in order; grouping does not matter.", "quantifier": "any number of lists", "why_tests_cant": "unbounded arity.", "anchors": [{"file": "sources/include/utils/cartesian_product.h", "symbols": ["concatenate"]}]}
{"id": "C31", "title": "cartesian_product lists every combination exactly once in lexicographic order", "statement": "For k >= 2 non-empty lists the result has |L1|*...*|Lk| entries; entry number i is the tuple selected by writing i in the mixed radix |L1|,...,|Lk|, most significant first; hence a tuple occurs iff each component is in its list.", "quantifier": "any number k >= 2 of lists of any lengths", "why_tests_cant": "unbounded arity and lengths.", "anchors": [{"file": "sources/include/utils/cartesian_product.h", "symbols": ["cartesian_product", "cartesian_product_impl", "one_element_mult"]}]}
{"id": "C32", "title": "value_list queries respect both type and value", "statement": "index_of, count_of, contains distinguish values of different types; min<T>/max<T> are the extremal elements among the values of type T; list_all_of_t<T> is the ordered sublist of values of type T.", "quantifier": "every list of typed values", "why_tests_cant": "unbounded lists.", "anchors": [{"file": "sources/include/utils/value_list.h", "symbols": ["value_list", "index_of_impl", "count_of_impl", "contains_impl", "min_impl", "max_impl", "all_of"]}]}
{"id": "C33", "title": "function type qualifiers are detected and removed exactly", "statement": "For every function type R(Args...) with any of the 24 qualifier combinations, has_X_qualifier reports exactly qualifier X, remove_X_qualifier clears X and nothing else, remove_all_qualifiers clears all, and return_type / params_list are unchanged.", "quantifier": "every return type, parameter list and qualifier combination", "why_tests_cant": "unbounded parameter lists; the detection compares string lengths.", "anchors": [{"file": "sources/include/utils/function_traits.h", "symbols": ["QUALIFIERS", "remove_const_qualifier", "has_const_qualifier", "return_type", "params_list", "qualifier_size"]}]}
{"id": "C34", "title": "has_padding reports exactly the types with padding bytes", "statement": "For a trivially copyable aggregate of (nested) non-empty members laid out by the usual struct layout rule, has_padding_v<T> is false iff every byte of the object belongs to some scalar member; for non-trivially-copyable types it is true.", "quantifier": "every nesting of aggregates", "why_tests_cant": "unbounded nesting and member counts.", "anchors": [{"file": "sources/include/utils/padding_checker.h", "symbols": ["has_padding", "sum_size_of_all_members"]}]}
{"id": "C35", "title": "secure_zero_memory zeroes exactly the given range", "statement": "After secure_zero_memory(p,n) the bytes of [p,p+n) are 0 and every other byte is unchanged; secure_zero_memory_safe returns -1 for a null pointer (whatever n), -2 for n = 0, otherwise 0 after zeroing, and writes nothing when it fails.", "quantifier": "every memory content, address and length", "why_tests_cant": "unbounded lengths and contents.", "anchors": [{"file": "sources/include/utils/memory/memory.h", "symbols": ["secure_zero_memory", "secure_zero_memory_safe"]}]}
{"id": "C36", "title": "memmove copies as if through a temporary", "statement": "memmove(dst, src, n) leaves in [dst,dst+n) the bytes that were in [src,src+n) before the call, for any overlap, also during constant evaluation, and changes nothing else.", "quantifier": "every memory content, dst, src, n, overlapping or not", "why_tests_cant": "all overlaps; the constant-evaluated path is different code.", "anchors": [{"file": "sources/include/utils/memory/memory.h", "symbols": ["memmove"]}]}
{"id": "C37", "title": "memcpy copies disjoint ranges exactly", "statement": "For disjoint ranges memcpy(dst, src, n) makes [dst,dst+n) equal to [src,src+n) and changes nothing else, at run time and in constant evaluation, for every pair of types that compiles.", "quantifier": "every memory content and disjoint ranges, every pair of pointer types", "why_tests_cant": "unbounded lengths.", "anchors": [{"file": "sources/include/utils/memory/memory.h", "symbols": ["memcpy"]}]}
{"id": "C38", "title": "monotonic_buffer_resource: pointers are in bounds, aligned and pairwise disjoint", "statement": "For every sequence of allocate/deallocate calls between two release() calls, every pointer served from the buffer is aligned as requested, its bytes lie inside the buffer, and ranges handed out are pairwise disjoint and in increasing address order.", "quantifier": "all call histories, sizes, alignments, buffer addresses", "why_tests_cant": "unbounded histories and sizes.", "anchors": [{"file": "sources/include/utils/memory/monotonic_buffer_resource.h", "symbols": ["monotonic_buffer_resource", "allocate_impl"]}]}
{"id": "C39", "title": "monotonic_buffer_resource refuses requests that do not fit", "statement": "A request of n bytes that does not fit in the remaining buffer is never served from the buffer (it goes to upstream or returns null), for every n up to SIZE_MAX.", "quantifier": "every size_t size, alignment and state", "why_tests_cant": "needs sizes near SIZE_MAX where pointer arithmetic wraps.", "anchors": [{"file": "sources/include/utils/memory/monotonic_buffer_resource.h", "symbols": ["allocate_impl"]}]}
{"id": "C40", "title": "monotonic_buffer_resource never gives memory back except by release", "statement": "deallocate changes nothing; release makes the whole buffer available again; memory obtained from upstream is never returned to upstream by deallocate, release or destruction.", "quantifier": "all histories", "why_tests_cant": "a liveness/leak statement over all histories.", "anchors": [{"file": "sources/include/utils/memory/monotonic_buffer_resource.h", "symbols": ["deallocate_impl", "release"]}]}
{"id": "C41", "title": "aligned_malloc / system resource alignment contract", "statement": "If posix_memalign honours its contract then aligned_malloc(n, A) returns null or a pointer aligned to max(A, sizeof(void*)), hence to A; and it never forwards an alignment below sizeof(void*).", "quantifier": "every size and power-of-two alignment", "why_tests_cant": "external allocator; all sizes.", "anchors": [{"file": "sources/include/utils/memory/memory.h", "symbols": ["aligned_malloc", "system_memory_resource"]}]}
{"id": "C42", "title": "set/get_default_resource behave as an atomic register", "statement": "get returns the value of the latest preceding set (or the initial value); each set returns the value it replaced; for any interleaving of any number of threads no resource is lost or duplicated: the values returned by the sets together with the final value are the initial value together with the values set.", "quantifier": "every interleaving of any number of threads' calls", "why_tests_cant": "all schedules.", "anchors": [{"file": "sources/include/utils/memory/memory.h", "symbols": ["set_default_resource", "get_default_resource", "default_resource"]}]}
{"id": "C43", "title": "allocator<T>::allocate(n) yields storage for n objects", "statement": "A non-null result of allocate(n) / allocate_object<U>(n) is aligned for the type and backed by n*sizeof(T) bytes, for every n.", "quantifier": "every n up to SIZE_MAX and every object size", "why_tests_cant": "requires n near SIZE_MAX/sizeof(T).", "anchors": [{"file": "sources/include/utils/memory/allocator.h", "symbols": ["allocate", "allocate_object"]}]}
{"id": "C44", "title": "allocator new_object/delete_object pair construct with destroy", "statement": "new_object allocates once and constructs once iff the allocation succeeded; delete_object destroys once then deallocates once iff the pointer is non-null; two allocators compare equal iff they use the same resource.", "quantifier": "all histories of new/delete on any resource", "why_tests_cant": "all histories, failing allocations included.", "anchors": [{"file": "sources/include/utils/memory/allocator.h", "symbols": ["new_object", "delete_object", "operator=="]}]}
{"id": "C45", "title": "simple_resource geometry", "statement": "For every buffer address and size, the managed area starts at the first BlockSize-aligned address of the buffer, consists of min(MaxBlockCount, number of whole blocks that fit) blocks, and lies inside the buffer; if no whole block fits, data() is null and size() is 0.", "quantifier": "every buffer address, size, BlockSize, MaxBlockCount", "why_tests_cant": "all addresses and sizes.", "anchors": [{"file": "sources/include/utils/memory/simple_resource.h", "symbols": ["origin_and_block_count", "simple_resource"]}]}
{"id": "C46", "title": "simple_resource bookkeeping always tiles the buffer", "statement": "In every state reached by a history of allocate (each scanned safely) and deallocate, walking next_index from 0 visits regions that tile [0, block_count) without gaps or overlaps, prev_index is the inverse walk, in_use is set exactly at heads of busy regions, free_count/busy_count equal the number of free/busy regions and no two free regions are adjacent.", "quantifier": "all histories of any length, all buffer geometries", "why_tests_cant": "unbounded histories; an invariant.", "anchors": [{"file": "sources/include/utils/memory/simple_resource.h", "symbols": ["allocate_blocks", "merge_adjacent_blocks", "set_prev_next"]}]}
{"id": "C47", "title": "simple_resource pool usage: no overlap, alignment, bounds", "statement": "For every history in which all requests fall in the same block class (same number of blocks, size not a multiple of BlockSize, alignment <= BlockSize) with deallocations in any order, every pointer returned from the buffer is aligned, its bytes are inside the buffer, and the byte ranges of live allocations are pairwise disjoint; no assertion fires and no call hangs.", "quantifier": "all histories of any length, all buffers, both NDEBUG and debug", "why_tests_cant": "unbounded histories and geometries.", "anchors": [{"file": "sources/include/utils/memory/simple_resource.h", "symbols": ["allocate_impl", "allocate_blocks", "deallocate_impl"]}]}
{"id": "C48", "title": "simple_resource: live allocations never overlap, for any request mix", "statement": "For every history of allocate and deallocate with arbitrary sizes and alignments, the byte ranges of live allocations served from the buffer are pairwise disjoint.", "quantifier": "all histories with arbitrary sizes and alignments", "why_tests_cant": "unbounded histories; the scan uses stale metadata only in particular histories.", "anchors": [{"file": "sources/include/utils/memory/simple_resource.h", "symbols": ["apply", "allocate_impl"]}]}
{"id": "C49", "title": "simple_resource::allocate always terminates", "statement": "allocate returns for every state and request.", "quantifier": "all reachable states and requests", "why_tests_cant": "non-termination cannot be observed by a finite test.", "anchors": [{"file": "sources/include/utils/memory/simple_resource.h", "symbols": ["apply", "allocate_impl"]}]}
{"id": "C50", "title": "simple_resource serves a request whenever a free region fits", "statement": "If some free region can hold the request at the requested alignment, allocate serves it from the first such region (first fit); it goes to upstream only if none fits.", "quantifier": "all reachable states and requests", "why_tests_cant": "all states.", "anchors": [{"file": "sources/include/utils/memory/simple_resource.h", "symbols": ["allocate_impl", "apply"]}]}
{"id": "C51", "title": "simple_resource exact fit", "statement": "A request that fills a free region exactly (the last byte of the region is the last byte of the request) is served and uses exactly that region.", "quantifier": "all reachable states and requests", "why_tests_cant": "boundary case over all states.", "anchors": [{"file": "sources/include/utils/memory/simple_resource.h", "symbols": ["allocate_blocks", "pointer_to_block_index"]}]}
{"id": "C52", "title": "simple_resource never serves an impossible request", "statement": "allocate(n, A) with n larger than the managed area never returns a pointer into the area.", "quantifier": "every size up to SIZE_MAX and every alignment", "why_tests_cant": "sizes near SIZE_MAX wrap the addition skip + size.", "anchors": [{"file": "sources/include/utils/memory/simple_resource.h", "symbols": ["allocate_impl"]}]}
{"id": "C53", "title": "simple_resource deallocate coalesces and restores", "statement": "Deallocating a live region makes it free and merges it with its free neighbours; allocate followed by deallocate of the result restores the region structure, counters included.", "quantifier": "all reachable states, requests", "why_tests_cant": "all states.", "anchors": [{"file": "sources/include/utils/memory/simple_resource.h", "symbols": ["deallocate_blocks", "merge_if_both_not_in_use", "merge_adjacent_blocks"]}]}
{"id": "C54", "title": "simple_resource detects invalid deallocation", "statement": "deallocate of a pointer not aligned to BlockSize aborts; of an in-range pointer that is not the start of a live allocation (double free, interior pointer) aborts; of an out-of-range pointer with no upstream aborts; deallocate(nullptr) does nothing; and no such call changes the bookkeeping.", "quantifier": "all reachable states and all pointers", "why_tests_cant": "all pointers and states.", "anchors": [{"file": "sources/include/utils/memory/simple_resource.h", "symbols": ["deallocate_impl", "deallocate_blocks"]}]}
{"id": "C55", "title": "simple_resource::release frees everything", "statement": "After release() no region is in use, busy_count() is 0, free_count() is 1 and the whole buffer is one free region.", "quantifier": "all reachable states", "why_tests_cant": "all reachable states; depends on stale metadata.", "anchors": [{"file": "sources/include/utils/memory/simple_resource.h", "symbols": ["release", "apply"]}]}
{"id": "C56", "title": "simple_resource LIFO usage is a correct stack allocator", "statement": "For every history of requests of arbitrary sizes (alignment <= BlockSize) whose deallocations are in LIFO order, allocations are disjoint, in bounds, and a request is served iff it fits (not exactly) in the remaining tail.", "quantifier": "all LIFO histories", "why_tests_cant": "unbounded histories.", "anchors": [{"file": "sources/include/utils/memory/simple_resource.h", "symbols": ["allocate_impl", "deallocate_impl"]}]}
{"id": "C57", "title": "simple_resource routes to upstream faithfully", "statement": "When the buffer cannot serve a request and an upstream exists, upstream receives exactly one allocate with the same size and alignment and its pointer is returned unchanged; an out-of-range BlockSize-aligned pointer is forwarded to upstream's deallocate exactly once; in-range pointers never reach upstream; the local bookkeeping is unchanged by forwarded calls.", "quantifier": "all states, requests, upstream behaviours", "why_tests_cant": "arbitrary upstream.", "anchors": [{"file": "sources/include/utils/memory/simple_resource.h", "symbols": ["allocate_impl", "deallocate_impl"]}]}
{"id": "C58", "title": "memory obtained through simple_resource can be returned through it", "statement": "Every non-null pointer returned by allocate, including those obtained from upstream, may later be passed to deallocate without aborting.", "quantifier": "all histories, any upstream meeting the alignment contract", "why_tests_cant": "depends on the alignment the upstream delivers.", "anchors": [{"file": "sources/include/utils/memory/simple_resource.h", "symbols": ["allocate_impl", "deallocate_impl"]}]}
{"id": "C59", "title": "simple_resource destructor aborts iff regions are in use", "statement": "Destroying the resource aborts iff some allocation served from the buffer is still live.", "quantifier": "all histories", "why_tests_cant": "all histories.", "anchors": [{"file": "sources/include/utils/memory/simple_resource.h", "symbols": ["~simple_resource"]}]}
{"id": "C60", "title": "simple_resource works for buffers of any size and alignment", "statement": "allocate has defined behaviour whatever the size and alignment of the managed buffer.", "quantifier": "all buffers up to the address space", "why_tests_cant": "needs buffers >= 2 GiB or 4 GiB aligned.", "anchors": [{"file": "sources/include/utils/memory/simple_resource.h", "symbols": ["allocate_impl"]}, {"file": "sources/include/utils/common.h", "symbols": ["max_alignment_inside_block"]}]}
{"id": "C61", "title": "timer runs its callback exactly once", "statement": "Each callback given to a timer is invoked exactly once, when the object that finally owns it is destroyed, for every sequence of constructions, moves and destructions; a moved-from timer never invokes anything.", "quantifier": "all histories of construct / move-construct / move-assign / destroy", "why_tests_cant": "unbounded histories.", "anchors": [{"file": "sources/include/utils/timer.h", "symbols": ["timer"]}]}
{"id": "C62", "title": "timer measures from construction or last reset", "statement": "leaked() is the clock difference to the start time set by the construction, the last reset or the moved-from timer; it is non-negative and non-decreasing between resets; the leaked_* conversions are the truncations of such a difference.", "quantifier": "all histories and all monotone clocks", "why_tests_cant": "all clocks and histories.", "anchors": [{"file": "sources/include/utils/timer.h", "symbols": ["leaked", "reset", "start_tp"]}]}
{"id": "C63", "title": "fast_pimpl constructs and destroys its value exactly once", "statement": "Every fast_pimpl object constructs exactly one T and destroys exactly that T once; copies are independent; assignment neither constructs nor destroys.", "quantifier": "all histories of construct/copy/move/assign/destroy", "why_tests_cant": "unbounded histories.", "anchors": [{"file": "sources/include/utils/fast_pimpl.h", "symbols": ["fast_pimpl"]}]}
{"id": "C64", "title": "for_each_arg / for_each_in_tuple visit every element once, in order", "statement": "The callable is invoked once per argument, left to right.", "quantifier": "every argument list and callable state", "why_tests_cant": "unbounded arity.", "anchors": [{"file": "sources/include/utils/common.h", "symbols": ["for_each_arg", "for_each_in_tuple"]}]}
{"id": "C65", "title": "bit_cast preserves the object representation", "statement": "bit_cast<From>(bit_cast<To>(x)) == x for equal-sized trivially copyable types.", "quantifier": "every value and every pair of equal-sized types", "why_tests_cant": "all values.", "anchors": [{"file": "sources/include/utils/common.h", "symbols": ["bit_cast"]}]}
{"id": "C66", "title": "values_in_range enumerates First..Last", "statement": "values_in_range_t<First,Last> with First <= Last is the value_list First, First+1, ..., Last.", "quantifier": "every First <= Last", "why_tests_cant": "all instantiations.", "anchors": [{"file": "sources/include/utils/common.h", "symbols": ["values_in_range", "shifted_sequence"]}]}
{"id": "C67", "title": "detection idiom", "statement": "is_detected_v<Op,Args...> is true iff Op<Args...> is well-formed; detected_or_t yields Op<Args...> or the default; is_detected_exact_v<E,Op,Args...> is true iff Op<Args...> is well-formed and is E.", "quantifier": "every Op, Args, E", "why_tests_cant": "all types, including E = nonesuch.", "anchors": [{"file": "sources/include/utils/detector.h", "symbols": ["detector", "is_detected_exact", "nonesuch"]}]}
{"id": "C68", "title": "make_array(string_view) and sv_to_array pick the right characters", "statement": "make_array<N, V>(sv) with N <= sv.size() is the first N characters converted to V; a shorter view fails the assertion in debug builds; sv_to_array<I...>(sv) is the characters at the positions I....", "quantifier": "every view, N and index list", "why_tests_cant": "all lengths and index lists.", "anchors": [{"file": "sources/include/utils/common.h", "symbols": ["make_array", "make_array_from_sv", "sv_to_array"]}]}
{"id": "C69", "title": "allocator new_object passes its arguments on unchanged", "statement": "allocator<T>::new_object<U>(args...) constructs the U from the values of args..., and lvalue arguments keep their value.", "quantifier": "every allocator value type T, object type U and argument", "why_tests_cant": "depends on the combination of T and the argument type; the tests use T = U.", "anchors": [{"file": "sources/include/utils/memory/allocator.h", "symbols": ["construct", "new_object"]}]}
{"id": "C70", "title": "simple_resource on the system resource", "statement": "With the system resource as upstream, every non-null pointer obtained from a simple_resource can be given back to it without aborting, whatever alignment was requested.", "quantifier": "all histories, block sizes and heaps honouring the posix_memalign contract", "why_tests_cant": "depends on the addresses the operating system returns.", "anchors": [{"file": "sources/include/utils/memory/simple_resource.h", "symbols": ["deallocate_impl"]}, {"file": "sources/include/utils/memory/memory.h", "symbols": ["aligned_malloc", "system_memory_resource"]}]}
{"id": "C71", "title": "is_invocable_v recognises what can be called", "statement": "function_traits::is_invocable_v<T> is true iff T is a function, a pointer to function or to member function, or a class with a call operator.", "quantifier": "every type", "why_tests_cant": "all types, including const pointers, C-variadic functions and overloaded or generic call operators.", "anchors": [{"file": "sources/include/utils/function_traits.h", "symbols": ["is_invocable", "is_simple_functor"]}]}
{"id": "C72", "title": "signature_t, return_type_t and params_list_t describe the call", "statement": "For function types and classes with one call operator signature_t is the type of that function, qualifiers included, and return_type_t / params_list_t of it are the return and parameter types; every other type has no signature.", "quantifier": "every type", "why_tests_cant": "all types and parameter lists.", "anchors": [{"file": "sources/include/utils/function_traits.h", "symbols": ["signature", "member_signature", "return_type", "params_list"]}]}
{"id": "C73", "title": "data member checkers detect exactly the data members", "statement": "has_data_NAME_v<T> is true iff T::NAME is a non-static data member, has_static_data_NAME_v<T> iff it is a static one.", "quantifier": "every kind of member", "why_tests_cant": "all member kinds, including references and bit-fields.", "anchors": [{"file": "sources/include/utils/function_traits.h", "symbols": ["CREATE_MEMBER_DATA_CHECKERS", "CREATE_STATIC_MEMBER_DATA_CHECKERS", "is_member_data_pointer", "is_data_pointer"]}]}
{"id": "C74", "title": "method checkers match exactly the signature", "statement": "has_invocable_r_NAME...<R,T,Args...> is true iff T has a non-static member function NAME with exactly that return type, parameter list and qualifiers, where a noexcept function also answers the question without noexcept; the static checkers likewise for static member functions.", "quantifier": "every overload set", "why_tests_cant": "unbounded overload sets.", "anchors": [{"file": "sources/include/utils/function_traits.h", "symbols": ["CREATE_R_METHOD_CHECKERS", "CREATE_STATIC_METHOD_CHECKERS"]}]}
{"id": "C75", "title": "call checkers decide whether the call compiles", "statement": "is_NAME_invocable_v<Args...> is true iff NAME(args...) compiles, the noexcept form iff it also cannot throw, the _r form iff its type is R; the static-method forms likewise.", "quantifier": "every set of functions and argument types", "why_tests_cant": "all types, including functions returning nonesuch.", "anchors": [{"file": "sources/include/utils/function_traits.h", "symbols": ["CREATE_FREE_FUNCTION_CHECKERS", "CREATE_STATIC_METHOD_CHECKERS"]}]}
{"id": "C76", "title": "has_padding with classes that are no aggregates", "statement": "For every trivially copyable type, also one with non-aggregate members, has_padding_v<T> is false iff every byte of the object belongs to a scalar.", "quantifier": "every nesting of classes, aggregate or not", "why_tests_cant": "unbounded nesting.", "anchors": [{"file": "sources/include/utils/padding_checker.h", "symbols": ["has_padding", "sum_size_of_all_members"]}]}
{"id": "C77", "title": "member type checkers", "statement": "has_type_NAME_v<T> is true iff T::NAME is a type; has_exact_type_NAME_v<T, E> iff it is E; has_convertible_type_NAME_v<T, To> iff it is a type convertible to To.", "quantifier": "every type, expected type and target type", "why_tests_cant": "all types, including targets that nonesuch converts to.", "anchors": [{"file": "sources/include/utils/function_traits.h", "symbols": ["CREATE_MEMBER_TYPE_CHECKERS"]}]}
{"id": "C78", "title": "method checkers by call", "statement": "has_invocable_NAME_v<T, Args...> is true iff calling NAME on a T with these arguments compiles, which for a non-reference T means on a temporary: a method qualified & without const is found for T& but not for T; the noexcept form is true iff the call also cannot throw.", "quantifier": "every combination of qualifiers, constness and value category", "why_tests_cant": "24 qualifier combinations times 8 kinds of objects times all signatures.", "anchors": [{"file": "sources/include/utils/function_traits.h", "symbols": ["CREATE_METHOD_CHECKERS"]}]}
{"id": "C79", "title": "simple_resource::allocate decided on every state", "statement": "In every state whose regions tile the area, allocate decides by the recorded links alone: if the alignment passes the gate, the first block without in-use mark is taken if the region recorded there is large enough; if it is too small and is recorded as last, or no unmarked block is found, upstream is asked; otherwise the search starts once more, at block 1 instead of the following region, and if the second region found is also too small and not the last one, allocate never returns. A taken region yields the first aligned address in it, unless the request fills it to its last byte, which fails an assertion in debug builds.", "quantifier": "all states whose regions tile the area, stale links included, all requests and upstreams", "why_tests_cant": "non-termination and stale links depend on whole histories.", "anchors": [{"file": "sources/include/utils/memory/simple_resource.h", "symbols": ["allocate_impl", "apply", "allocate_blocks"]}]}
{"id": "C80", "title": "what simple_resource::release frees", "statement": "In every state whose regions tile the area release() returns and frees exactly the first busy region and the busy regions whose first block is reached from block 1 along the recorded links; every other region stays busy. In particular it frees everything if the first region has one block or only one region is busy.", "quantifier": "all states whose regions tile the area", "why_tests_cant": "depends on stale links left by earlier splits and merges.", "anchors": [{"file": "sources/include/utils/memory/simple_resource.h", "symbols": ["release", "apply", "deallocate_blocks"]}]}
{"id": "C81", "title": "which requests keep simple_resource right", "statement": "From a state whose bookkeeping is right, a request returns with the bookkeeping right iff it is refused or is given a region that is free and larger than needed; in every other case it does not return, fails an assertion, or leaves a state in which no tiling of the area describes the live allocations. Histories of such requests, with deallocations in any order, keep live allocations inside the area and apart.", "quantifier": "all states whose regions tile the area, all requests, all histories", "why_tests_cant": "an exact criterion over all states, stale links included.", "anchors": [{"file": "sources/include/utils/memory/simple_resource.h", "symbols": ["allocate_impl", "apply", "allocate_blocks", "allocate_matched", "allocate_begin_matched", "allocate_end_matched", "allocate_not_matched"]}]}
{"id": "C82", "title": "simple_resource with the first block held is never corrupted", "statement": "A client that keeps a one-block allocation at the start of the area may make any requests (sizes that are no whole number of blocks if assertions are off) and give back all others in any order: live allocations stay inside the area and apart; the only other ends are a request that never returns and, with assertions, a failed assertion.", "quantifier": "all histories of arbitrary requests", "why_tests_cant": "unbounded histories of mixed sizes.", "anchors": [{"file": "sources/include/utils/memory/simple_resource.h", "symbols": ["allocate_impl", "apply", "deallocate_impl"]}]}
{"id": "C83", "title": "stacked resources never hand out overlapping memory", "statement": "However monotonic_buffer_resources and simple_resources are stacked on the system resource, on static buffers and on each other (buffer taken from any of them, any of them as upstream), and however calls to all of them are interleaved (each simple_resource used as a pool, or for requests of all kinds that leave its bookkeeping right, the condition that C81 shows to be exact), everything held from all of them together is aligned as requested and pairwise disjoint, and every call returns without assertion failure, abort or undefined behaviour.", "quantifier": "every tower of resources of any depth, every interleaving of calls, every heap that meets the contract of posix_memalign", "why_tests_cant": "unboundedly many configurations and histories.", "anchors": [{"file": "sources/include/utils/memory/monotonic_buffer_resource.h", "symbols": ["allocate", "deallocate", "release"]}, {"file": "sources/include/utils/memory/simple_resource.h", "symbols": ["allocate_impl", "deallocate_impl", "release"]}, {"file": "sources/include/utils/memory/memory.h", "symbols": ["aligned_malloc", "null_memory_resource"]}]}
{"id": "C84", "title": "a resource that is not in use can be destroyed", "statement": "In every such tower a resource from which nothing is held and on which no other resource is built can be destroyed; in particular the destructor of simple_resource does not abort. (A monotonic_buffer_resource never gives memory back to its upstream, so the condition on other resources is needed.)", "quantifier": "every tower, every history", "why_tests_cant": "unboundedly many configurations and histories.", "anchors": [{"file": "sources/include/utils/memory/simple_resource.h", "symbols": ["~simple_resource", "deallocate_impl"]}, {"file": "sources/include/utils/memory/monotonic_buffer_resource.h", "symbols": ["deallocate"]}]}
{"id": "C85", "title": "programs using allocators never mix up memory", "statement": "A program that makes, copies and uses allocators on any tower of resources, changes the default resource at any time, and gives back what it got through an allocator that compares equal to the one it got it from, never fails: every call returns, and what it holds is aligned, pairwise disjoint and backed by count*sizeof(T) bytes of the resource of the allocator it came from. An allocator keeps the resource it was made with; one made without argument uses the resource that was the default when it was made, a copy uses the resource of its original.", "quantifier": "every tower of resources, every program history, any number of allocators", "why_tests_cant": "unboundedly many histories and allocators.", "anchors": [{"file": "sources/include/utils/memory/allocator.h", "symbols": ["allocator", "allocate", "deallocate", "operator==", "resource_"]}, {"file": "sources/include/utils/memory/memory.h", "symbols": ["set_default_resource", "get_default_resource"]}]}
{"id": "C86", "title": "type predicates of common.h", "statement": "is_uint_v<T> is true iff T is a possibly qualified unsigned integer type other than bool; is_uint_or_byte_v<T> iff it is one or a possibly qualified std::byte; remove_cvref_t strips exactly reference and qualifiers; is_std_array_v is true iff T is a std::array up to qualifiers and reference; is_ref_wrapper_v and unwrap_reference_t recognise exactly reference wrappers.", "quantifier": "every type", "why_tests_cant": "all types, including qualified bool, byte and reference wrappers.", "anchors": [{"file": "sources/include/utils/common.h", "symbols": ["is_uint", "is_uint_or_byte", "remove_cvref", "is_std_array", "is_ref_wrapper", "unwrap_reference"]}]}
{"id": "C87", "title": "concatenate_arrays accepts arrays of one element type and copies no more than needed", "statement": "concatenate_arrays(a1, ..., ak) compiles iff every argument is a std::array, const or not, lvalue or not, and all have the same element type; the result type has the sum of the sizes. Each element of the result is constructed once from its source, by copy from lvalue or const arrays, which keep their elements, and by move from the others, and is afterwards only moved.", "quantifier": "every number, size, element type and value category of arguments", "why_tests_cant": "unbounded number of arguments, arbitrary copy and move behaviour.", "anchors": [{"file": "sources/include/utils/common.h", "symbols": ["concatenate_arrays", "concatenate_2_arrays", "is_same_data_std_arrays", "std_array_sizes_sum"]}]}
{"id": "C88", "title": "make_array(args...) keeps integer values or does not compile", "statement": "For integer arguments make_array(args...) contains a narrowing conversion iff some argument is signed and some unsigned argument of at least the width of int is not narrower than every signed one; without narrowing every argument value is kept, with narrowing some values are changed; element type and acceptance do not depend on the order of the arguments.", "quantifier": "every list of integer types and values", "why_tests_cant": "unbounded argument lists; all values.", "anchors": [{"file": "sources/include/utils/common.h", "symbols": ["make_array"]}]}
{"id": "C89", "title": "fast_uint_from_nbits_t is wide enough", "statement": "fast_uint_from_nbits_t<n> exists iff 1 <= n <= 64, is the fast version of the narrowest standard type with n bits and holds every n-bit number; FastUInt<n> / fast_uint_from_nbytes_t<n> exist iff 1 <= n <= 8 and have at least 8*n bits.", "quantifier": "every n and every platform choice of the fast types", "why_tests_cant": "all n and platforms.", "anchors": [{"file": "sources/include/utils/common.h", "symbols": ["fast_uint_from_nbits", "fast_uint_from_nbytes_t", "FastUInt"]}]}
{"id": "C90", "title": "NDEBUG changes nothing but the assertions", "statement": "For every modelled function that contains assertions, and for every history of calls on monotonic_buffer_resource and simple_resource, a build with assertions either stops at an assertion or ends exactly as the build without: same results, same state, same abort, same undefined behaviour, same non-termination.", "quantifier": "all arguments, all states, all histories, all upstream resources", "why_tests_cant": "compares two builds on every execution.", "anchors": [{"file": "sources/include/utils/memory/simple_resource.h", "symbols": ["allocate_impl", "deallocate_impl", "merge_if_both_not_in_use", "release"]}, {"file": "sources/include/utils/memory/monotonic_buffer_resource.h", "symbols": ["allocate_impl"]}, {"file": "sources/include/utils/common.h", "symbols": ["skip_to_align", "is_equal", "div"]}, {"file": "sources/include/utils/memory/memory.h", "symbols": ["memcpy", "get_alignment"]}]}
{"id": "C91", "title": "simple_resource can be released and used again", "statement": "However allocate, deallocate and release alternate on a simple_resource, every call returns, live allocations stay inside the area and apart, and release takes back every allocation of the area and none of the upstream, so that the area can be handed out again from the start.", "quantifier": "all histories that include release", "why_tests_cant": "unbounded alternation of calls and releases; stale links left behind.", "anchors": [{"file": "sources/include/utils/memory/simple_resource.h", "symbols": ["release", "allocate_impl", "deallocate_impl", "apply"]}]}
{"id": "C92", "title": "the query functions of simple_resource describe the area", "statement": "After any history of good choices of requests, deallocations and releases, walking the area with block_size_in_bytes() and in_use() shows regions without gaps from data() to data()+size(); the busy ones are exactly the live allocations with the bytes set aside for them, no two free ones are neighbours, and free_count() / busy_count() are the numbers of free and busy regions.", "quantifier": "all histories, all buffers", "why_tests_cant": "needs every reachable layout.", "anchors": [{"file": "sources/include/utils/memory/simple_resource.h", "symbols": ["in_use", "block_size_in_bytes", "free_count", "busy_count", "size", "data"]}]}
{"id": "C93", "title": "a simple_resource without blocks is transparent", "statement": "Over a buffer without room for one aligned block, every history of calls acts on the upstream exactly as if the client called it directly, and no call fails.", "quantifier": "all such buffers, all histories, all upstreams whose addresses are multiples of BlockSize", "why_tests_cant": "all histories and upstreams.", "anchors": [{"file": "sources/include/utils/memory/simple_resource.h", "symbols": ["simple_resource", "allocate_impl", "deallocate_impl", "release"]}]}
{"id": "C94", "title": "fast_pimpl passes exceptions on", "statement": "A caller of fast_pimpl<T> sees exactly the exceptions it would see with plain variables of type T, with the same values afterwards; a constructor that throws leaves nothing to destroy.", "quantifier": "all histories and all types T whose operations may throw", "why_tests_cant": "all combinations of throwing operations and exception specifications.", "anchors": [{"file": "sources/include/utils/fast_pimpl.h", "symbols": ["fast_pimpl"]}]}
{"id": "C95", "title": "copy assignment of resources keeps allocations apart", "statement": "Both resources delete the copy constructor but not the copy assignment, which a = b therefore performs member by member. In every history of calls and assignments over any number of resources, everything held from different resources stays inside its buffer and disjoint, and every resource can be destroyed once everything has been given back.", "quantifier": "all histories of calls and assignments, any number of resources", "why_tests_cant": "unbounded histories over several objects.", "anchors": [{"file": "sources/include/utils/memory/monotonic_buffer_resource.h", "symbols": ["monotonic_buffer_resource"]}, {"file": "sources/include/utils/memory/simple_resource.h", "symbols": ["simple_resource", "~simple_resource"]}]}
{"id": "C96", "title": "simple_resource's answers depend only on what is live", "statement": "Two simple_resources on the same area with the same live allocations, whatever calls were made on each before, answer every further history of calls alike: same addresses, same calls to upstream. In particular a resource that has got everything back behaves like a new one.", "quantifier": "all pairs of past histories and all further histories", "why_tests_cant": "compares two executions with arbitrary different pasts.", "anchors": [{"file": "sources/include/utils/memory/simple_resource.h", "symbols": ["allocate_impl", "apply", "deallocate_impl", "merge_if_both_not_in_use"]}]}
{"id": "C97", "title": "the constructor of timer takes what it can store and call", "statement": "timer<MaxAlign, MaxSize, Clock>(f) compiles iff a copy of f (for a function, a pointer to it) fits into the timer, can be made from f and can be called with the timer as const timer &; a callable that only takes a duration is never accepted.", "quantifier": "every callable of one parameter (function by name, function pointer, object of class type with any qualifiers of the call operator and any value category, member pointer), every size and alignment limit", "why_tests_cant": "a test that does not compile is no test; the constructor checks the call with a duration instead of a timer, which passes only because every duration converts to a timer", "anchors": [{"file": "sources/include/utils/timer.h", "symbols": ["storable", "call_finish_callback", "timer"]}]}
{"id": "C98", "title": "method checkers are named after what they check", "statement": "CREATE_R_METHOD_CHECKERS(NAME) defines exactly 24 checkers, one per combination of qualifiers, each with its own name ending in its qualifiers; the one ending in q is true iff the class has a non-static method NAME of exactly the type R(Args...) q (a noexcept method also passes without _noexcept). The same for static methods with and without _noexcept. Checkers of two methods clash iff one method is named like the other plus such an ending.", "quantifier": "every method name, set of overloads, return type, parameter list and combination of qualifiers", "why_tests_cant": "the table is written twice by hand, as names and as qualifiers; the tests use a few of the 24 rows", "anchors": [{"file": "sources/include/utils/function_traits.h", "symbols": ["SYMBOLIZED_QUALIFIERS", "SYMBOLIZED_STATIC_METHOD_QUALIFIERS", "method_pointer", "CREATE_R_METHOD_CHECKERS"]}]}
{"id": "C99", "title": "the constructors of the resources do what their arguments mean", "statement": "An array of bytes stands for its start and all of its bytes, a pointer or array followed by a number for that many bytes, a missing upstream for the default resource, nullptr or 0 for none; every other call does not compile; simple_resource and monotonic_buffer_resource agree.", "quantifier": "every list of arguments (arrays, pointers, numbers, resources, nullptr, literal 0)", "why_tests_cant": "which constructor is called is decided by overload resolution; a test that does not compile is no test", "anchors": [{"file": "sources/include/utils/memory/simple_resource.h", "symbols": ["simple_resource"]}, {"file": "sources/include/utils/memory/monotonic_buffer_resource.h", "symbols": ["monotonic_buffer_resource"]}]}
{"id": "C100", "title": "allocators can be compared and converted whatever their value types", "statement": "a == b compiles for allocators of any two value types, and for an allocator and a pointer to a resource on either side, and is true iff both use the same resource; != is the opposite; == is symmetric; allocator<T>(b) uses the resource of b, whatever the value type of b.", "quantifier": "every pair of value types, resources and operand kinds", "why_tests_cant": "which operator is called is decided by overload resolution over four friends and templates; a test that does not compile is no test", "anchors": [{"file": "sources/include/utils/memory/allocator.h", "symbols": ["operator==", "operator!=", "allocator"]}]}
{"id": "C101", "title": "calls through memory_resource reach the object's own class", "statement": "Whatever a program does with its resources, allocate and deallocate called through memory_resource & run the implementation of the class of the object.", "quantifier": "every number of objects and classes, every sequence of calls and assignments", "why_tests_cant": "the public implicit assignment of memory_resource copies the function pointers; which functions an object has depends on the whole history", "anchors": [{"file": "sources/include/utils/memory/memory.h", "symbols": ["memory_resource", "allocate", "deallocate"]}]}
{"id": "C102", "title": "simple_resource arena usage", "statement": "As long as requests (alignment <= BlockSize, not filling the area exactly) are made only when the allocations still held from the area lie without a gap at its start - in particular whenever nothing is held -, the resource behaves as an ideal allocator that puts each request right above what is held, in whatever order memory is given back; every call returns and what is held is sound.", "quantifier": "all buffers, all block sizes, all upstreams that meet their contract, all histories that satisfy the condition", "why_tests_cant": "unbounded histories; giving memory back in another order leaves stale links in the area.", "anchors": [{"file": "sources/include/utils/memory/simple_resource.h", "symbols": ["allocate_impl", "deallocate_impl"]}]}
{"id": "C103", "title": "fast_pimpl can be initialised and assigned like the T inside", "statement": "fast_pimpl<T> p(e), fast_pimpl<T> p = e and p = e compile iff T t(e), T t = e and t = e do, and copy or move in the same cases: objects of type T, of a class derived from T or of type fast_pimpl<T> are moved from iff they are non-constant rvalues.", "quantifier": "every T (class or not, whatever it can copy, move, assign or default-construct), every value category and constness, conversions to T, {}", "why_tests_cant": "which of the overloaded constructors and assignments is called is decided by overload resolution; a test sees single calls that compile, not which ones do not.", "anchors": [{"file": "sources/include/utils/fast_pimpl.h", "symbols": ["fast_pimpl"]}]}
{"id": "C104", "title": "until it is set, the default resource is the system resource", "statement": "As long as set_default_resource is not called, get_default_resource() compares equal to system_memory_resource(), wherever it is called from.", "quantifier": "every number of translation units, every order of initialisation, every history without set_default_resource", "why_tests_cant": "tests/src has one file per header and no check across translation units; which definition initialises the inline variable is up to the linker.", "anchors": [{"file": "sources/include/utils/memory/memory.h", "symbols": ["system_memory_resource", "default_resource", "get_default_resource", "set_default_resource"]}]}
{"id": "C105", "title": "static objects can use resources in their destructors", "statement": "A program whose static objects use the system, null and default resources in constructors and destructors has no undefined behaviour: every resource that such a destructor uses is still there.", "quantifier": "every number of translation units and static objects, every history, any changes of the default resource", "why_tests_cant": "static destruction happens after the last test; its order depends on what was called first during the whole run.", "anchors": [{"file": "sources/include/utils/memory/memory.h", "symbols": ["system_memory_resource", "null_memory_resource", "default_resource"]}]}
{"id": "C106", "title": "div_t{a, b} keeps both values", "statement": "For integral a and b, div_t{a, b} compiles and holds the values of a and b at their common type.", "quantifier": "all pairs of integral types, all values, constant expressions or not", "why_tests_cant": "all pairs of types times all values; whether braces accept an argument depends on its being a constant expression.", "anchors": [{"file": "sources/include/utils/common.h", "symbols": ["div_t"]}]}
{"id": "C107", "title": "UTILS_ABORT_IF says where and why, then aborts", "statement": "UTILS_ABORT_IF(cond, format, args...) does nothing if cond is false; otherwise it writes to stderr the file, the line and the function where it stands, followed by the message that printf makes of format and args, and aborts.", "quantifier": "every file name, line, function name, format and list of arguments that fit the format", "why_tests_cant": "the file name becomes a part of the format string; the tests know one file name, whose characters are harmless.", "anchors": [{"file": "sources/include/utils/common.h", "symbols": ["UTILS_ABORT_IF", "UTILS_ABORT_IF_HELPER", "UTILS_FILE_LINE", "abort_if"]}]}
{"id": "C108", "title": "simple_resource explains why it aborts", "statement": "Whenever deallocate or the destructor of simple_resource aborts, the message on stderr gives the true reason: pointer not aligned, pointer before or behind the area, block not allocated, or the number of regions in use, with the right numbers.", "quantifier": "all states, all pointers, all template arguments", "why_tests_cant": "death tests match the text of one case each with a regular expression; whether a conversion fits the type of its argument depends on MaxBlockCount, and mismatches happen to print plausible text.", "anchors": [{"file": "sources/include/utils/memory/simple_resource.h", "symbols": ["~simple_resource", "deallocate_impl", "deallocate_blocks"]}]}
{"id": "C109", "title": "a timer looks after the callable it stores", "statement": "A callable of any class that fits may be stored in a timer: moving the timer moves the callable, the callable is called only where an object of its class is alive, and it is destroyed when the timer is done with it.", "quantifier": "every history of timers and every class of callables", "why_tests_cant": "histories of any length over classes that are not trivially copyable.", "anchors": [{"file": "sources/include/utils/timer.h", "symbols": ["timer", "copy", "copy_impl", "~timer", "call_finish_callback"]}]}
{"id": "C110", "title": "exceptions of a timer's callable", "statement": "An exception thrown when a callable is copied into a timer, or when the destructor of the timer calls it, reaches the code that made or destroyed the timer.", "quantifier": "every history of timers, every class of callables, every way to throw", "why_tests_cant": "histories of any length; std::terminate ends a test.", "anchors": [{"file": "sources/include/utils/timer.h", "symbols": ["timer", "call_finish_callback", "~timer"]}]}
{"id": "C111", "title": "exceptions of array elements", "statement": "An exception thrown by the copy or move constructor of an element reaches the caller of make_array, make_zero_array and concatenate_arrays.", "quantifier": "every element type, every array size, any number of arrays, lvalues and rvalues", "why_tests_cant": "arrays of any length; std::terminate ends a test.", "anchors": [{"file": "sources/include/utils/common.h", "symbols": ["make_array", "make_zero_array", "concatenate_arrays", "concatenate_2_arrays", "make_array_with_value_impl"]}]}
{"id": "C112", "title": "next_multiple_of<PowOf2> on signed types", "statement": "For every signed U, next_multiple_of<PowOf2, U>(v) is the least multiple of PowOf2 that is >= v, for negative v too, whenever U can hold it; PowOf2 is any power of two that U can hold, or any at all when U is narrower than int.", "quantifier": "all signed types, all powers of two, all values", "why_tests_cant": "the tests use int with 8 and values from 0 to 9; overflow is undefined and depends on promotion.", "anchors": [{"file": "sources/include/utils/common.h", "symbols": ["next_multiple_of"]}]}
{"id": "C113", "title": "value_list tells references apart", "statement": "A decltype(auto) parameter also takes references, as in value_list<(x)>. index_of, count_of, contains, is_same and contains_copies take two elements for the same iff they are the same template argument: the same type and value, or references of the same type to the same object or function.", "quantifier": "every list of values and references, every environment of objects and functions", "why_tests_cant": "quantifies over all lists and all objects; the tests use values only.", "anchors": [{"file": "sources/include/utils/value_list.h", "symbols": ["is_same_impl", "count_of_impl", "contains_impl", "index_of_impl", "is_all_same_impl", "more_than_once"]}]}
{"id": "C114", "title": "Which cartesian products compile", "statement": "cartesian_product_t<L1,...,Lk> compiles iff k >= 2, no list but the last is empty, no value list holds a reference, the last two lists are both type lists or both value lists, and so are all the others unless the last list is empty. It is then the list of all combinations in lexicographic order, of type lists or value lists; with an empty last list it is the empty type_list, whatever the kinds.", "quantifier": "any number of lists of both kinds, any lengths", "why_tests_cant": "unbounded arity; a test cannot show that something does not compile.", "anchors": [{"file": "sources/include/utils/cartesian_product.h", "symbols": ["cartesian_product", "cartesian_product_impl", "one_element_mult", "concatenate"]}]}
{"id": "C115", "title": "method checkers choose between overloads", "statement": "If T has several methods NAME, has_invocable_NAME_v<T, Args...> is true iff one of them can be called on a T with arguments of exactly the types Args, and the noexcept form iff the one that is then called is noexcept.", "quantifier": "any number of overloads with any qualifiers, every constness and value category of T", "why_tests_cant": "all sets of qualifiers times all kinds of objects; the test class has one method per parameter list.", "anchors": [{"file": "sources/include/utils/function_traits.h", "symbols": ["CREATE_METHOD_CHECKERS"]}]}
{"id": "C116", "title": "make_array does what its template arguments say", "statement": "No call of make_array is ambiguous. make_array<Ts...>(args...) makes an array of the common type of the Ts from arguments that convert to them, make_array<T>() an empty array of T, make_array<T, N>(v) N copies of v, and make_array<N, V>(s) the first N characters, as V, of whatever converts to a std::basic_string_view.", "quantifier": "every list of explicit template arguments, every list of arguments", "why_tests_cant": "four function templates share one name; a test shows single calls that compile, not which ones do not.", "anchors": [{"file": "sources/include/utils/common.h", "symbols": ["make_array"]}]}
{"id": "C117", "title": "new_object<U>(args...) is U(args...) in new storage", "statement": "new_object<U>(args...) compiles whenever U is nothrow constructible from the arguments; it then never ends the program, makes the object that U(args...) makes, and leaves the arguments as U(args...) leaves them.", "quantifier": "every value type of the allocator, every class U, any number of arguments of any type, constness and value category", "why_tests_cant": "the arguments pass through std::forward with the value type of the allocator; the tests use one class and plain numbers.", "anchors": [{"file": "sources/include/utils/memory/allocator.h", "symbols": ["new_object", "construct"]}]}
{"id": "C118", "title": "method checkers see nothing but methods", "statement": "If T::NAME is no member function, has_invocable_r_NAME...<R,T,Args...> and has_static_invocable_r_NAME...<R,T,Args...> are false for all R and Args.", "quantifier": "every kind of member, every signature asked for", "why_tests_cant": "all kinds of members times all signatures; the tests only have functions.", "anchors": [{"file": "sources/include/utils/function_traits.h", "symbols": ["CREATE_R_METHOD_CHECKERS", "CREATE_STATIC_METHOD_CHECKERS", "method_pointer", "static_method_pointer"]}]}
{"id": "C119", "title": "simple_resource withstands fragmentation", "statement": "However the history has scattered the n allocations that a client holds, there are at most n+1 free regions, and a request of k blocks (alignment <= BlockSize) is served from the area whenever more than (n+1)*(k-1) blocks are free.", "quantifier": "all buffers, block sizes, upstreams, histories and requests", "why_tests_cant": "a bound over all histories of any length; a test builds single layouts.", "anchors": [{"file": "sources/include/utils/memory/simple_resource.h", "symbols": ["allocate_impl", "deallocate_impl", "merge_if_both_not_in_use"]}]}
{"id": "C120", "title": "shift_left and shift_right on signed types", "statement": "For every integral type but bool and every n below its width, shift_left(v, n) is v*2^n whenever the type can hold it, and shift_right(v, n) is v divided by 2^n, rounded down.", "quantifier": "all integral types, all values, all distances", "why_tests_cant": "all types times all values; undefined behaviour depends on promotion and sign.", "anchors": [{"file": "sources/include/utils/common.h", "symbols": ["shift_left", "shift_right"]}]}
{"id": "C121", "title": "for_each is one statement per element", "statement": "for_each_arg(f, x1, ..., xn) does what the statements f(x1); ...; f(xn); do, with every xi as it was passed, and for_each_in_tuple(f, t) the same with the elements of t: they compile if the statements do, ignore the results, and an exception ends them and reaches the caller.", "quantifier": "every callable (any overloads, results and exceptions), any number of arguments of any constness and value category, any tuple", "why_tests_cant": "what a result's destructor or comma operator does, and which overload a temporary callable uses, does not show with lambdas that return nothing.", "anchors": [{"file": "sources/include/utils/common.h", "symbols": ["for_each_arg", "for_each_in_tuple"]}]}
{"id": "C122", "title": "make_array_from_range with an element type", "statement": "make_array_from_range<Begin, End, Step, CommonT>() compiles whenever make_array_from_range<Begin, End, Step>() does and CommonT can hold every element, and is then the array of the same values as CommonT.", "quantifier": "all integer types of the ends and the step, all arithmetic element types, all ranges", "why_tests_cant": "all pairs of types; a test cannot show that something does not compile.", "anchors": [{"file": "sources/include/utils/common.h", "symbols": ["make_array_from_range"]}]}
{"id": "C123", "title": "sum_size does not depend on qualifiers", "statement": "sum_size<Ts...>() is sum_size<remove_cvref_t<Ts>...>().", "quantifier": "every pack of types, with any qualifiers, and references to them", "why_tests_cant": "unbounded packs; the tests use plain types.", "anchors": [{"file": "sources/include/utils/common.h", "symbols": ["sum_size", "num_bits"]}]}
{"id": "C124", "title": "member checkers see inherited members", "statement": "For a class T with base classes, each member checker is true of T iff T or one of its base classes, however inherited, has such a public member.", "quantifier": "every hierarchy of classes: any number and depth of bases, virtual or not, public or not, members of the same name anywhere in it", "why_tests_cant": "unbounded hierarchies; the classes in the tests have no bases.", "anchors": [{"file": "sources/include/utils/function_traits.h", "symbols": ["CREATE_MEMBER_DATA_CHECKERS", "CREATE_STATIC_MEMBER_DATA_CHECKERS", "CREATE_MEMBER_TYPE_CHECKERS", "CREATE_R_METHOD_CHECKERS", "CREATE_STATIC_METHOD_CHECKERS", "CREATE_METHOD_CHECKERS", "method_pointer"]}]}
{"id": "C125", "title": "Every call comes back", "statement": "Resources may be built on each other as upstreams, to any depth, copied by assignment, and used. Every allocate and every deallocate comes back: a request that no resource can serve is refused, after every resource has been asked at most once.", "quantifier": "every number of resources, every way of building them on each other, every program of constructions, assignments, requests and deallocations", "why_tests_cant": "unbounded chains and programs; the tests use one resource at a time.", "anchors": [{"file": "sources/include/utils/memory/monotonic_buffer_resource.h", "symbols": ["allocate_impl", "deallocate_impl", "monotonic_buffer_resource"]}, {"file": "sources/include/utils/memory/simple_resource.h", "symbols": ["allocate_impl", "deallocate_impl"]}]}
{"id": "C126", "title": "checkers can share a namespace", "statement": "Any set of different uses of the CREATE_ macros (a macro and a name) compiles in one namespace: no two of them declare the same template.", "quantifier": "every list of uses of the seven macros, all names", "why_tests_cant": "unbounded lists of names; a test cannot show that something does not compile.", "anchors": [{"file": "sources/include/utils/function_traits.h", "symbols": ["CREATE_MEMBER_TYPE_CHECKERS", "CREATE_MEMBER_DATA_CHECKERS", "CREATE_STATIC_MEMBER_DATA_CHECKERS", "CREATE_METHOD_CHECKERS", "CREATE_R_METHOD_CHECKERS", "CREATE_STATIC_METHOD_CHECKERS", "CREATE_FREE_FUNCTION_CHECKERS"]}]}
{"id": "C127", "title": "checkers declare no reserved names", "statement": "If a name is not reserved for the implementation, then the CREATE_ macros declare no reserved name for it.", "quantifier": "all seven macros, all names", "why_tests_cant": "all names; compilers accept reserved names silently.", "anchors": [{"file": "sources/include/utils/function_traits.h", "symbols": ["CREATE_MEMBER_TYPE_CHECKERS", "CREATE_MEMBER_DATA_CHECKERS", "CREATE_STATIC_MEMBER_DATA_CHECKERS", "CREATE_METHOD_CHECKERS", "CREATE_R_METHOD_CHECKERS", "CREATE_STATIC_METHOD_CHECKERS", "CREATE_FREE_FUNCTION_CHECKERS"]}]}
{"id": "C128", "title": "delete_object works through base classes", "statement": "delete_object(p) does for new_object what delete does for new: if p is what new_object returned, or was converted from it to a pointer (to const or not) to a base class with a virtual destructor, the call compiles, destroys the whole object in the reverse order of its construction, and gives back the address that new_object got.", "quantifier": "every class hierarchy without virtual inheritance, every base class subobject, every address; every state of a simple_resource", "why_tests_cant": "unbounded hierarchies; the tests delete through the type that was made.", "anchors": [{"file": "sources/include/utils/memory/allocator.h", "symbols": ["delete_object", "deallocate_object", "deallocate_bytes"]}]}
{"id": "C129", "title": "how much a monotonic_buffer_resource holds", "statement": "A sequence of requests (of at least one byte, alignments powers of two) is served from the buffer, each at the next aligned address behind the one before, whenever the bytes left are at least the sum of size + alignment - 1; exactly the sequences that fit when packed this way are served. No smaller bound does for all sequences. Objects in the order of falling alignment lose nothing to padding.", "quantifier": "every buffer, every position in it, every sequence of requests of any length, every upstream", "why_tests_cant": "sequences of any length at any address.", "anchors": [{"file": "sources/include/utils/memory/monotonic_buffer_resource.h", "symbols": ["allocate_impl"]}]}
{"id": "C130", "title": "a query of a type_list compiles whenever its answer is settled", "statement": "The queries of type_list that take a predicate (index_of, at, count_of_predicate_compliant, contains_predicate_compliant, list_of_predicate_compliant) compile exactly if the elements for which the predicate is well-formed settle the answer, that is, if it is the same whatever the predicate would be for the other elements; they then give that answer. In particular index_of asks nothing about the elements behind the one it finds.", "quantifier": "every list, every predicate, ill-formed for any elements", "why_tests_cant": "a test would need a predicate with a hard error for each position, and code that must not compile.", "anchors": [{"file": "sources/include/utils/type_list.h", "symbols": ["index_of_impl", "at_with_predicate", "count_of_predicate_compliant", "contains_predicate_compliant", "list_of_predicate_compliant"]}]}
{"id": "C131", "title": "how long lists may be", "statement": "In a compiler that limits the nesting of instantiations, the list templates need a limit that grows with the length of the list, and no faster: I + 2 for at<I>, the answer plus one for index_of, 2k + 3 for at<I, Predicate> finding the element at index k, the number of lists for concatenate, the length plus two for list_of_predicate_compliant, at most the length plus six for sublist and exclude_at, plus seven for the sorts, and k + m for the product of k lists of at most m elements; of a value_list, the index found plus three (the length plus two if there is none) for index_of and the length plus two for list_all_of.", "quantifier": "every limit, every list of any length", "why_tests_cant": "the lists in the tests are short.", "anchors": [{"file": "sources/include/utils/type_list.h", "symbols": ["at_impl", "at_with_predicate", "index_of_impl", "list_of_predicate_compliant_impl", "sublist", "exclude_at", "sort_sizeof_ascending", "sort_sizeof_descending"]}, {"file": "sources/include/utils/value_list.h", "symbols": ["index_of_impl", "is_same_impl_impl", "all_of"]}, {"file": "sources/include/utils/cartesian_product.h", "symbols": ["concatenate", "cartesian_product_impl"]}]}
{"id": "C132", "title": "where the buffer lies does not matter", "statement": "Moving the buffer of a simple_resource or of a monotonic_buffer_resource by a multiple of BlockSize and of every alignment that is asked for moves the results of every history of calls by the same distance and changes nothing else: the same requests are served, the same assertions fail, the same calls abort.", "quantifier": "every history, every state of the bookkeeping, every distance", "why_tests_cant": "the tests use the buffers that the compiler places somewhere.", "anchors": [{"file": "sources/include/utils/memory/simple_resource.h", "symbols": ["allocate_impl", "deallocate_impl", "release", "origin_and_block_count", "pointer_to_block_index"]}, {"file": "sources/include/utils/memory/monotonic_buffer_resource.h", "symbols": ["allocate_impl"]}]}
{"id": "C133", "title": "overloaded call operators of a timer callback", "statement": "A timer can be made from an object whose class has several call operators exactly if a copy fits and the language selects an operator for the call with the timer; that operator runs, and operators that take no timer, such as one for a duration, have no influence.", "quantifier": "every list of call operators with any qualifiers and parameters, every form of the object, every layout", "why_tests_cant": "the tests pass lambdas and functions, which have one call operator.", "anchors": [{"file": "sources/include/utils/timer.h", "symbols": ["storable", "call_finish_callback", "timer"]}]}
{"id": "C134", "title": "free function checkers see the functions that a call sees", "statement": "The checkers that CREATE_FREE_FUNCTION_CHECKERS(NAME) declares in a namespace answer for the call NAME(args...) as it would be written in that namespace at the place where the checker is asked: they see the same functions.", "quantifier": "every sequence of declarations of NAME in any namespaces, friends included, every place of the macro and of the question, all argument types, any overload resolution", "why_tests_cant": "the tests declare the functions just before the macro, in one order and one namespace.", "anchors": [{"file": "sources/include/utils/function_traits.h", "symbols": ["CREATE_FREE_FUNCTION_CHECKERS"]}]}
{"id": "C135", "title": "number of rounds of allocate and release", "statement": "A call of allocate looks at no more blocks than there are regions, or never returns; it takes exactly one round more than there are busy regions before the first free one if the request fits there, and a round for each region if all are busy. A call of release does not have such a bound: it takes n(n-1)/2+1 rounds to free n regions of one block, a state that n requests of one byte reach; no state of n blocks takes more.", "quantifier": "every parameter set, every tracked state, all requests, every number of blocks n", "why_tests_cant": "tests do not count rounds, and cannot for every state; the hang would have to be told from a slow answer.", "anchors": [{"file": "sources/include/utils/memory/simple_resource.h", "symbols": ["apply_if", "allocate_impl", "release"]}]}
{"id": "C136", "title": "threads that share a monotonic_buffer_resource", "statement": "Any number of threads may call allocate of one monotonic_buffer_resource at the same time: whatever the schedule, everything that any of them is given is aligned, inside the buffer, and apart from what all others are given.", "quantifier": "any number of threads, any programs of requests, every schedule of their accesses to the resource", "why_tests_cant": "a test runs a few of the schedules, and the bad ones are rare.", "anchors": [{"file": "sources/include/utils/memory/monotonic_buffer_resource.h", "symbols": ["allocate_impl"]}]}
{"id": "C137", "title": "using-declarations and the method checkers", "statement": "A function NAME that a class T brings in with `using B::NAME;` counts for the method checkers like a function of T itself: each checker is true exactly if T offers such a public function, its own or brought in and not hidden by one of its own with the same signature.", "quantifier": "every class with functions of its own and using-declarations for any base classes, however inherited, all signatures and qualifiers", "why_tests_cant": "the tests have no using-declarations.", "anchors": [{"file": "sources/include/utils/function_traits.h", "symbols": ["CREATE_METHOD_CHECKERS", "CREATE_R_METHOD_CHECKERS", "CREATE_STATIC_METHOD_CHECKERS"]}]}
{"id": "C138", "title": "threads that share a simple_resource", "statement": "Any number of threads may call allocate and deallocate of one simple_resource at the same time: whatever the schedule, the outcome is the one of the same calls made one after another, and what the threads hold is apart.", "quantifier": "any number of threads, any programs of requests and deallocations, every schedule of their looks at the list of regions", "why_tests_cant": "a test runs a few of the schedules.", "anchors": [{"file": "sources/include/utils/memory/simple_resource.h", "symbols": ["allocate_impl", "apply", "allocate_blocks", "deallocate_impl"]}]}
{"id": "C139", "title": "secure_zero_memory is not optimised away", "statement": "After secure_zero_memory(p, n) the n bytes are zero in every implementation of the program, that is in every program with the same observable behaviour: a compiler cannot leave the call out.", "quantifier": "every program around the call, every range, every contents of memory and every input, each of the three ways of zeroing", "why_tests_cant": "it depends on what the compiler can see behind the call, and no test looks at memory that the program does not read.", "anchors": [{"file": "sources/include/utils/memory/memory.h", "symbols": ["secure_zero_memory"]}]}
