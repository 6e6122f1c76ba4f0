# Formal model of rokoDev/utils in Lean 4

The model is a hand translation of the headers in `/repo/sources/include/utils`.
The C++ was read as text; it was never built or run.
Nothing here links the Lean definitions to the compiled C++ except the line citations on every definition.

## 1. Trusted base

* Lean 4.33.0's kernel, and the axioms reported by `#print axioms`: at most `propext`, `Classical.choice`, `Quot.sound` (section 8 lists them for every theorem). No axioms of our own, no `sorry`, no `native_decide`, no `bv_decide`.
* The translation: that each Lean definition says what the cited C++ lines say on the platform described next.
* The platform: LP64 (`int` 32 bits, `long`, `long long`, `size_t`, `uintptr_t` 64 bits), two's complement, 8-bit bytes, flat addresses (`reinterpret_cast` pointer/integer is the identity). GCC/Clang code paths; the MSVC lists of intrinsics are modelled too for `clz`/`ctz`.
* The libraries below the code, as stated contracts: `__builtin_clz*/ctz*` (undefined at 0), `_BitScan*`, `memcmp`, `memcpy`, `memmove`, `posix_memalign`, `free`, `std::atomic`, the clock. They are parameters or hypotheses of the theorems, never axioms.
* The rules of C++ that the trait models encode: integral promotions and usual arithmetic conversions (`Model/CInt.lean`), which expressions a detection template accepts (`Model/FunctionTraits.lean`, stated there rule by rule), struct layout (`Model/Padding.lean`).
* The specifications in `Verif/Spec`, and the reading of each theorem statement.

## 2. Conventions of the model

* `Outcome` (`Verif/Model/Outcome.lean`) separates `ok`, `assertFailed` (debug `assert`), `aborted` (`abort_if`, `std::abort`), `ub` (undefined behaviour) and `outOfFuel` (loop not finished). A theorem that a call is `ok` therefore includes absence of assertion failure, abort, undefined behaviour and non-termination.
* `assert` depends on a `debug : Bool` parameter: `true` models a build without `NDEBUG`.
* Machine words are either `BitVec w` or `Nat` with explicit `% 2^64` where the C++ wraps. Preconditions of the form "the address range does not wrap" are stated.
* Loops whose termination is in doubt take fuel. "Terminates" is "for all fuel above a bound the result is the same and not `outOfFuel`"; "hangs" is "`outOfFuel` for every fuel".
* Types in the template metaprograms are elements of an arbitrary type with decidable equality and a `sizeof` function; a failed `static_assert` or missing specialisation is `none`.

Layout: `Verif/Model` (translation, with citations), `Verif/Spec` (specifications independent of the model), `Verif/Proofs` (lemmas), `Verif/Props` (the theorems claimed in MANIFEST.json, with non-vacuity examples).

A property that is false of the code is kept in properties.jsonl as stated.
Its negation is proved on a concrete witness (`Cxx_counterexample`), the true part is proved under the name `Cxx_..._partial`, and where possible a further theorem says exactly what the code does in all cases.

## 3. What is modelled

| header | modelled in | not modelled |
|---|---|---|
| common.h | Bits, CInt, Arrays, Types, DivT (deduction guides of div_t), ArrayThrow (arrays of elements that throw), Diagnostics (abort_if and its macro), MakeArray (which make_array is called), ForEach (for_each with any callable), RangeTo (element type of make_array_from_range, sum_size of qualified types) | |
| clz.h, ctz.h, details/cxz.h | Bits | the intrinsics themselves |
| type_list.h, value_list.h, cartesian_product.h | TypeList, ValueArg (references in value lists, products of lists of two kinds), LazyPred (predicates with hard errors), Depth (nesting of instantiations) | depth of alias, variable and standard library templates |
| function_traits.h, detector.h, the checker macros | FunctionTraits, Checkers (names of the method checkers), MacroNames (all names that the checker macros declare), Hierarchy (base classes and access), FreeLookup (which functions the free function checkers see), Using (using-declarations in classes) | access by friends; using-declarations at namespace scope; overload resolution except by the qualifiers of methods; results whose destructor throws; the preprocessor beyond pasting those names |
| padding_checker.h | Padding | arrays, unions, bit-fields, base classes of aggregates, `[[no_unique_address]]`, `alignas` on a member |
| memory/memory.h | Memory (secure_zero, memmove, memcpy, bit_cast), Resources, Dispatch (the function pointers of memory_resource), Units (static resources of several translation units, the default resource, static destruction), ZeroOpt (what a compiler may make of secure_zero_memory) | strict aliasing |
| memory/monotonic_buffer_resource.h | Resources, Assign (implicit copy assignment), Chain (resources as upstreams of each other), Ctors (which constructor is called), MonoThreads (several threads) | |
| memory/allocator.h | Resources, Program, AllocOps (comparison and conversion), NewObject (arguments and exceptions of `new_object`), DeleteObject (`delete_object` through base classes; virtual inheritance is not modelled) | conversion functions to references, aliasing arguments, class-specific `operator new` |
| memory/simple_resource.h | SimpleResource, Assign (implicit copy assignment), Chain (resources as upstreams of each other), Ctors (which constructor is called), Diagnostics (the messages before an abort), SRThreads (several threads) | |
| timer.h, fast_pimpl.h | Objects, Exceptions (fast_pimpl), Wrap (which constructor or assignment of fast_pimpl is called), TimerCtor (which callables timer takes), TimerOverload (callables with several call operators), TimerOwn (lifetime and exceptions of the stored callable) | call operators that are templates other than `const T &`, default arguments |

Also not modelled: compilation errors other than the `static_assert`s and missing specialisations that matter above; data races other than on the default resource and in `allocate` and `deallocate` of the two resources; which order of static initialisation the language allows; the operating system allocator; the rules on object lifetime, pointer provenance and aliasing (a pointer is an address, memory is bytes).

Simplifications are stated at the definition concerned. The main ones:

* `simple_resource`'s array of block descriptors is a function from index to descriptor; a read at an index outside `[0, MaxBlockCount)` is `ub`.
* An upstream resource is a state machine `Upstream σ`, whose answers are arbitrary unless a theorem has a hypothesis about it. In towers (C83 to C85) the upstream is another modelled resource and a call of it that fails makes the call that made it fail.
* Memory contents do not matter to the resources, which keep their bookkeeping outside the buffers; only addresses are modelled.
* Threads are interleavings of atomic steps (C42, C136, C138); C136 and C138 give racing accesses the order of the schedule, although they are undefined in the language.

## 4. Method

| subject | ids | method |
|---|---|---|
| bit arithmetic | C01-C17, C120, C123 | lemmas on `v &&& (v-1)`, `~v + 1`; specs in `Nat` (powers, divisibility, least element); induction on the loops; typed C integers where promotion matters |
| arrays | C18-C22, C68, C122 | induction over lists and indices |
| type predicates, concatenate_arrays, make_array | C86-C89, C116 | case distinction over the types; semilattice of common types; induction over the arguments |
| type and value lists | C23-C32, C66 | induction over lists; specs are `List` functions or index statements |
| traits | C33, C67, C71-C75, C77, C78, C115, C118, C124 | decision procedures of the model compared with a direct statement of the language rule |
| delete_object and bases | C128 | induction over paths in the hierarchy; layout as in the Itanium ABI |
| capacity of monotonic buffers | C129 | packing as an inductive relation; induction over the requests |
| overload resolution in `timer` | C133 | the model filters candidates; the specification says which operator is selected |
| name lookup of free functions | C134 | ordinary and argument-dependent lookup over sequences of declarations; suffixes of namespace paths |
| cost | C135 | exact number of rounds of the loops, as least fuel; induction over the staircase of free blocks for `release`; a potential (the frontier of freed blocks) for the upper bound |
| threads | C42, C136, C138 | interleavings of single accesses; invariants over schedules, and a simulation by the sequential run for schedules without disturbance |
| using-declarations | C137 | hiding by signature; a filter over distinct signatures leaves at most one function |
| optimisation of zeroing | C139 | liveness of bytes, exact for straight-line programs |
| relocation | C132 | every operation commutes with moving the area; simulation over histories |
| lazy instantiation of predicates | C130 | total extensions of partial predicates; induction over the list |
| nesting of instantiations | C131 | evaluation that counts the depth, erasure to the model of the lists |
| names pasted by macros | C126, C127 | equations between strings, solved by stripping common beginnings and ends; the finite tables compared in the kernel |
| chains of upstreams | C125 | induction over paths in the graph of upstream pointers; pigeonhole for the bound; invariant over programs |
| padding | C34, C76 | mutual induction over nested types |
| raw memory | C35-C37, C65 | memory as `Nat → UInt8`; induction on the copy loops |
| small resources | C38-C44, C69 | history invariants; C42 over all schedules |
| simple_resource | C45-C60, C70, C79-C82, C91-C93, C96, C102, C119 | representation predicate `Tiled` (a list of regions); refinement of each call to an operation on that list; history invariant `Tracks` |
| several resources and copy assignment | C95 | ownership of the buffers, carried along the history; reuse of the history invariants of each resource |
| dispatch | C101 | whose functions an object has, read off the history backwards; induction over the history |
| for_each | C121 | induction over the arguments, with the temporaries kept as a stack |
| arguments of new_object | C117 | case analysis on how each argument is forwarded, induction over the pack |
| composition | C83, C84, C85 | one invariant per layer, induction over the construction of the tower and the history (`Tower`); programs with allocators and a changing default resource on top (`Program`) |
| static objects | C104, C105 | stack discipline of static destruction as an invariant; induction over start-up and exit |
| overload resolution and names | C97 to C100, C103, C106 | the language rule stated as a function; case distinction over arguments, induction over tables |
| callable of a timer | C109, C110 | refinement of the timer model (C61) up to the first trouble, which is read off the history |
| references in value lists, products of two kinds | C113, C114 | comparison as a partial function; induction on the factors |
| rounding up on signed types | C112 | bit masks as floor division on all integers |
| arrays of elements that throw | C111 | induction over the arrays, refinement of C20 and C87 |
| diagnostics | C107, C108 | the part of printf that is used as a function; length of the output as a measure |
| both builds | C90 | simulation between debug and release runs |
| objects | C61-C64, C94 | traces; conservation of callbacks; simulation by plain variables |

## 5. Findings

Places where the code does something other than its interface suggests. Each is proved on a concrete witness.

* `simple_resource::allocate` (C48, C49, C79, C81, C119): when the scan rejects the free region at the start of the list it goes on at block 1, whose descriptor may be left over from an earlier layout. Memory in use is handed out again, or the scan never ends. C79 and C81 say exactly when.
* An exact fit (C51) fails an assertion with assertions and, without them, reads past the table or records a region that is one block too long (`C51_overlong`, all states); it never leaves the bookkeeping right (`C51_never`).
* Without assertions and with a `MaxBlockCount` of 256 or 65536, a `simple_resource` that uses all its blocks and is asked for the whole area records an allocation of one block: the index of the block behind the end wraps to 0 (C51_one_block, all block sizes above 1, every history that leaves everything free). The next request is given memory that is in use (C51_overlap). With a smaller `MaxBlockCount` and no room in the table it writes behind the table (C51_past_table).
* Without assertions, a fresh `simple_resource` asked for its whole area serves the next request with memory behind the end of the buffer, whatever the block size, buffer and upstream, as long as `MaxBlockCount` leaves room in the table (C51_overrun). Afterwards the destructor aborts although nothing of the area is live (C59_counterexample). Every such case fails an assertion in a build with assertions (C90_undefined_caught for the undefined ones).
* `release` (C55, C80) frees the first busy region and the ones reachable from block 1; the others stay busy and the destructor aborts. Their blocks are lost to the next round (C91).
* Sizes near `SIZE_MAX` wrap: `monotonic_buffer_resource` (C38, C39) hands out memory twice, `simple_resource` (C52) serves an impossible request without assertions, `allocator::allocate(n)` (C43) gets too little.
* A pointer from upstream that is not `BlockSize`-aligned aborts when it is returned (C58); so `BlockSize > 8` on the system resource aborts (C70).
* Buffers with alignment plus size above 2^31 shift an `int` too far (C09, C60).
* `div` (C15) converts to `long long` at run time only, so its results differ from constant evaluation.
* `memmove` in constant evaluation (C36) copies forwards whatever the overlap.
* `memcpy` in constant evaluation (C37) converts instead of copying: to an array of `bool` it writes whether each byte is nonzero, at run time it copies the bits. With a pointer to `void` it does not compile there, although it has a branch for it.
* `make_array<T,N>(v)` (C20) moves from the same value N times; `make_array_from_range` (C21) counts upwards also for descending ranges, and goes on with wrapped values when the last step leaves the type.
* `make_array<T>(args...)` (C116) is no array of `T` if there are more arguments: `make_array<char>('a', 300)` is an array of `int`. With a variable `int x`, `make_array<int>(x)` does not compile, nor does `make_array<3, char>("abc")`.
* `type_list::contains` (C24) treats a query that is itself a list as a conjunction.
* `allocator::construct` (C69) forwards with the allocator's value type: arguments are converted to it and lvalues of that type are moved from. Const arguments of that type do not compile; a conversion that throws ends the program although the `static_assert` has promised that nothing throws (C117).
* `is_uint_v<const bool>` is true; `is_uint_or_byte_v<const std::byte>` and `is_ref_wrapper_v<const std::reference_wrapper<T>>` are false (C86).
* Detection (C67, C75, C77): `nonesuch` itself is reported as not detected.
* `is_invocable` (C71) misses const pointers to functions, C-variadic pointers, overloaded and generic call operators. `&`-qualified methods are found for `T&` but not for `T` (C78).
* Member checkers (C73) miss members of reference type, bit-fields, static references to functions and static members whose class overloads the unary `&`; depending on what that `&` returns, such a static member even counts as non-static. A static reference to a function passes for a static method (C118).
* Method checkers (C115) say no if a call is ambiguous, as between `f() const` and `f() volatile` on a `T`.
* The method checkers of `get` and of `get_ref` cannot be created in the same scope (C98).
* `has_padding` (C76) reports none for any class that is no aggregate, nor for `long double`.
* Move-assigning a timer (C61) drops the callback of the target; self-move loses it. The stored callable is never destroyed, and a move of the timer copies its bytes: undefined for classes that are not trivially copyable (C109). Exceptions of the callable end the program (C110).
* The constructor of timer (C97) checks the call with a `duration`, although the callable is called with the timer. The check passes for callables that take a timer because every `duration` converts to a `timer`. It still rejects callables that would work: functions given by name that are not `noexcept`, temporaries with a call operator qualified `&`, constant objects with a call operator that is not `const`.
* `values_in_range` (C66) does not compile, or is wrong, for ranges that fill the type.
* Because of these links a `simple_resource` that has got everything back need not behave like a new one (C96).
* A `simple_resource` over a buffer without room for a block reports one free region (C92), and its `release` fails an assertion (C93).
* `a = b` compiles for both resources although copying is deleted (C95). Both then hand out the same memory, and the destructor of `b` may abort although everything was given back.
* `simple_resource r(array, 0)` and `monotonic_buffer_resource r(array, 0)` use no byte of the array and the default upstream, although `nullptr` in place of `0` means all bytes and no upstream (C99).
* Allocators of two value types can be neither compared nor converted (C100): both read a private member of the other class. Comparing an allocator with `nullptr` compiles and is undefined.
* `memory_resource` can be assigned to through a reference whatever the classes of both sides; the functions of one class then run on an object of another (C101).
* The destructor of `fast_pimpl<T>` is `noexcept` even if `~T` may throw (C94).
* `p = {}` is ambiguous for a `fast_pimpl` of a class, and `fast_pimpl<std::string> p = "x"` does not compile (C103).
* Every translation unit has its own system and null resource, but there is one default resource; in all but one of them the initial default resource does not compare equal to `system_memory_resource()` (C104). A destructor of a static object that asks for the default resource may get one that is gone (C105).
* `div_t{a, b}` with variables `int a; unsigned b;` does not compile, although there is a deduction guide for it (C106).
* `value_list` compares references with `==` (C113): two constants with equal values count as one object, and a list with a reference to a variable cannot be asked for it.
* `next_multiple_of<PowOf2>` (C112) is right on signed types as long as `PowOf2` fits. For `int` and wider types a power that is one too large is always undefined; on `bool` the result is `true` also for `false`.
* `concatenate_arrays` and the function behind `make_array<T, N>(v)` are `noexcept` although they copy and move elements: exceptions end the program (C111).
* `UTILS_ABORT_IF` makes the name of the source file a part of a format string (C107): with a `%` in it the message is wrong or printing it is undefined. The destructor of `simple_resource` and `deallocate` of a misaligned pointer print a `size_t` with `%d`, which is undefined (C108); strictly, the abort after it (C54, C59) need not happen.
* A `monotonic_buffer_resource` never returns memory to its upstream (C40), so a pool below it can never be destroyed again (C84).
* Memory taken through `allocator<T>()` and given back through another `allocator<T>()` made after `set_default_resource` goes to the wrong resource; a pool then aborts (C85).
* `for_each_arg` (C121) calls a temporary callable as an rvalue for every argument, so a call operator that moves out of the callable does so each time; `for_each_in_tuple` does not. The results of all calls live until the last call is over (locks are held together, for example), and an overloaded comma operator of the result is used.
* `shift_left` (C120) of a negative value is undefined in C++17.
* `make_array_from_range<0, 3, 1, unsigned>()` does not compile, nor does any other element type that cannot hold all values of the type of `Begin` (C122).
* `sum_size` counts a `const bool` as eight bits (C123).
* The method checkers by signature do not see methods of virtual bases, which the checkers by call do see; the data member checkers see members of a repeated base, which cannot be used (C124).
* The checkers of `get` and `get_v` cannot be created in one namespace, nor the method checkers of `r_get` and the method checkers with result type of `get`, and so on (C126).
* The checkers of a member with an underscore at the end, such as `data_`, have reserved names (C127).
* `delete_object` through a pointer to the second base with virtual functions gives back an address that was never handed out; `delete_object` does not take pointers to const (C128).
* `contains_predicate_compliant` counts all compliant elements, so it does not compile if the predicate has a hard error for an element behind a compliant one; `index_of` does (C130).
* A callable with `operator()(const timer &)` and `operator()(duration) const` is rejected by `timer`, because the check with a `duration` is ambiguous, although no call with a `duration` is ever made (C133).
* The free function checkers do not see functions that are declared behind the macro unless argument-dependent lookup finds them, nor those hidden by a declaration in the namespace `details`, which the macro opens (C134).
* `release` of `simple_resource` starts again at block 1 after each region it frees: `n` one-block regions take `n(n-1)/2 + 1` rounds, the worst case for `n` blocks (C135). `allocate` restarts as well, but at most once unless it hangs.
* `monotonic_buffer_resource` reads `next_` twice and writes it once, without synchronisation: threads that share one can be given the same or misaligned addresses, and later calls suffer too; a mutex around the calls is enough (C136).
* `has_invocable_r_NAME` does not see what `using B::NAME;` brings in if `B` is a private, virtual or repeated base, although the call compiles (C137).
* `simple_resource` is not synchronised either: threads that share one can be given the same block, and the program aborts when both give it back; with a mutex every schedule is a sequence of calls (C138).
* `secure_zero_memory` is secure only with MSVC or `__STDC_LIB_EXT1__`. Elsewhere its stores are ordinary ones, and a compiler may leave the call out exactly if no zeroed byte reaches the outside afterwards, which is the usual case when a key is discarded (C139_iff, C139_counterexample).
* Where a buffer lies matters only at addresses at which the code is wrong: multiples of 2^32 for `simple_resource`, the end of the address space for `monotonic_buffer_resource` (C132).
* Assigning a resource to one above it, `a = b` where `a` is the upstream of `b`, makes `a` its own upstream. A request that does not fit then recurses for ever, and so does giving back a foreign pointer (C125).

For most of these `Props/Exact.lean` gives the exact condition: `C15_const_iff`, `C15_run_iff`, `C20_iff`, `C24_exact`, `C36_iff`, `C43_iff`, `C58_iff`, `C60_iff`, `C61_iff`, `C67_exact_iff`, `C71_iff`, `C75_callable_r_iff`, `C76_iff`, `C77_iff` (and `C21_iff` in `Props/RangeExact.lean`, `C52_iff`, `C55_iff`, `C70_iff` and `C59_cycle` in `Props/SRLimits.lean`, and `C66_iff`, `C38_wrapped`, `C39_exact`, `C79`-`C81` elsewhere).

Seen while reading, not formalised: the initialiser of the inline variable `default_resource` names a function with internal linkage, which the one-definition rule does not allow when two translation units include the header; `allocator::deallocate` takes no count, so standard containers cannot use it.

## 6. Tests of the theorems

`seeded/LOG.jsonl` records edits of the model in a scratch copy, each a realistic bug: the definition, the edit, the claim it breaks, the theorems that no longer build, and the theorems tightened when one still did.

`lean/Verif/Tests` runs the repository's own unit tests (`/repo/tests/src`) on the model: about 350 `example`s covering every test file that has checks in it except what only a compiler can check (type identities, `is_nothrow_…`, access to a private call operator) and the printed messages of simple_resource. They are tests of the model, not proofs of properties; all of them hold. One thing they show in passing: `release` needs more than 100 steps of its loop on the 32 blocks of the test fixture, because after every region it goes back to block 1.

## 7. Properties, theorems and status

| id | property | status | theorems |
|---|---|---|---|
| C01 | is_power_of_2 recognises exactly the powers of two | proved | `is_power_of_2` |
| C02 | next_multiple_of returns the least multiple not below the value | proved | `next_multiple_of`, `next_multiple_of_assert` |
| C03 | next_multiple_of<PowOf2> on unsigned types, with integral promotion | proved | `next_multiple_of_typed`, `next_multiple_of_too_big` |
| C04 | skip_to_align returns the least distance to an aligned address | proved | `skip_to_align`, `skip_to_align_assert` |
| C05 | is_aligned decides divisibility | proved | `is_aligned`, `is_aligned_assert` |
| C06 | greatest_divisor_that_is_power_of_2 | proved | `greatest_divisor`, `greatest_divisor_zero`, `greatest_divisor_bool` |
| C07 | bits_count and nbits_occupied compute the bit length | proved | `bits_count`, `nbits_occupied`, `agree` |
| C08 | kNumBitsTable is the population count table | proved | `num_bits_table` |
| C09 | max_alignment_inside_block is the greatest alignment guaranteed inside a block | proved | `max_alignment_inside_block`, `int_shift_limits`, `undefined_for_large_blocks`, `wrong_for_medium_blocks`, `assert` |
| C10 | uint_from_nbits picks the smallest standard unsigned type | proved | `uint_from_nbits`, `uint_from_nbits_rejected`, `serialize_type`, `uint_from_nbytes` |
| C11 | clz counts leading zeros for every unsigned type | proved | `clz`, `clz_rejected`, `platforms` |
| C12 | ctz counts trailing zeros for every unsigned type | proved | `ctz`, `ctz_rejected`, `platforms` |
| C13 | constant-evaluated fallbacks agree with the intrinsics | proved | `crafted_agrees`, `zero` |
| C14 | get_alignment is the exact alignment of an address | proved | `get_alignment`, `null` |
| C15 | div computes quotient and remainder | partial | `div_const_partial`, `div_partial`, `div_as_partial`, `zero`, `div_as_wrapped`, `div_as_zero`, `counterexample_large_unsigned`, `counterexample_mixed_sign`, `counterexample_min`, `run_time_halving_wrong`, `const_iff`, `run_iff` |
| C16 | shift_left / shift_right are exact on unsigned types | proved | `shift_right`, `shift_left`, `shift_assert` |
| C17 | sum_size is the number of bytes needed for the packed bits | proved | `sum_size`, `sum_size_empty` |
| C18 | memvcmp is true exactly on uniform buffers | proved | `memvcmp`, `rejects` |
| C19 | is_equal compares exactly the requested prefix | proved | `is_equal`, `too_many` |
| C20 | make_array<T,N>(v) fills the array with v | partial | `fill_partial`, `elements`, `counterexample`, `iff` |
| C21 | make_array_from_range enumerates the range | partial | `elements`, `ascending_partial`, `descending`, `counterexample_wrap`, `accepted`, `rejected`, `zero_step`, `iff`, `signs` |
| C22 | concatenate_arrays is list concatenation | proved | `concatenate`, `positions` |
| C23 | type_list lookup: at, index_of, first_index_of_type, count_of | proved | `at`, `at_with_predicate`, `index_of`, `first_index_of_type`, `count_of` |
| C24 | type_list::contains agrees with count_of | partial | `exact`, `contains_partial`, `contains_all`, `counterexample`, `contains_empty_list`, `is_type_list` |
| C25 | contains_copies and is_same characterise duplicates | proved | `contains_copies`, `is_same`, `value_list` |
| C26 | list_of_predicate_compliant is filter | proved | `filter` |
| C27 | min_sizeof_index / max_sizeof_index return the first extremal index | proved | `min_sizeof_index`, `max_sizeof_index`, `min_exact`, `max_exact` |
| C28 | sublist and exclude_at slice the list | proved | `sublist`, `sublist_zero`, `exclude_at` |
| C29 | sort_sizeof_ascending / descending sort stably | proved | `sort_ascending`, `sort_descending` |
| C30 | concatenate joins lists in order and is associative | proved | `concatenate`, `concatenate_assoc` |
| C31 | cartesian_product lists every combination exactly once in lexicographic order | proved | `cartesian_product`, `cartesian_product_rejected` |
| C32 | value_list queries respect both type and value | proved | `lookup`, `at`, `list_all_of`, `min`, `max`, `contains_type` |
| C33 | function type qualifiers are detected and removed exactly | proved | `has`, `remove`, `signature`, `ellipsis` |
| C34 | has_padding reports exactly the types with padding bytes | proved | `padding`, `not_trivially_copyable`, `rejected`, `layout` |
| C35 | secure_zero_memory zeroes exactly the given range | proved | `secure_zero_memory`, `writes_all`, `secure_zero_memory_safe` |
| C36 | memmove copies as if through a temporary | partial | `iff`, `memmove_partial`, `constant_evaluation`, `counterexample` |
| C37 | memcpy copies disjoint ranges exactly | partial | `memcpy`, `constant_partial`, `to_bool`, `iff`, `counterexample`, `null` |
| C38 | monotonic_buffer_resource: pointers are in bounds, aligned and pairwise disjoint | partial | `unwrapped_partial`, `safe_partial`, `wrapped`, `iff`, `counterexample` |
| C39 | monotonic_buffer_resource refuses requests that do not fit | partial | `exact`, `refuses_partial`, `no_buffer`, `empty`, `counterexample` |
| C40 | monotonic_buffer_resource never gives memory back except by release | proved | `release`, `free`, `upstream`, `asks` |
| C41 | aligned_malloc / system resource alignment contract | proved | `aligned`, `forwards`, `rejects`, `no_leak`, `null` |
| C42 | set/get_default_resource behave as an atomic register | proved | `register`, `log`, `program_order`, `conserved` |
| C43 | allocator<T>::allocate(n) yields storage for n objects | partial | `iff`, `room_partial`, `counterexample`, `system` |
| C44 | allocator new_object/delete_object pair construct with destroy | proved | `pairing`, `resource`, `new`, `equal` |
| C45 | simple_resource geometry | proved | `geometry` |
| C46 | simple_resource bookkeeping always tiles the buffer | proved | `bookkeeping`, `tracks` |
| C47 | simple_resource pool usage: no overlap, alignment, bounds | proved | `pool_refinement`, `pool_sound` |
| C48 | simple_resource: live allocations never overlap, for any request mix | partial | `no_overlap_partial`, `in_bounds_debug`, `counterexample` |
| C49 | simple_resource::allocate always terminates | partial | `terminates_partial`, `dichotomy`, `dichotomy_debug`, `hang`, `counterexample` |
| C50 | simple_resource serves a request whenever a free region fits | partial | `first_fit_partial`, `refused_partial`, `counterexample` |
| C51 | simple_resource exact fit | partial | `overrun`, `never`, `overlong`, `past_table`, `one_block`, `overlap`, `spare_partial`, `exact_fit_asserts`, `counterexample` |
| C52 | simple_resource never serves an impossible request | partial | `no_wrap`, `iff`, `impossible_partial`, `impossible_debug`, `counterexample` |
| C53 | simple_resource deallocate coalesces and restores | proved | `deallocate`, `round_trip` |
| C54 | simple_resource detects invalid deallocation | proved | `aborts_iff`, `accepts` |
| C55 | simple_resource::release frees everything | partial | `iff`, `release_partial`, `counterexample` |
| C56 | simple_resource LIFO usage is a correct stack allocator | proved | `stack_refinement` |
| C57 | simple_resource routes to upstream faithfully | proved | `at_most_one_call`, `allocate_routing`, `deallocate_routing` |
| C58 | memory obtained through simple_resource can be returned through it | partial | `iff`, `returnable_partial`, `counterexample` |
| C59 | simple_resource destructor aborts iff regions are in use | partial | `counterexample`, `cycle`, `destructor_partial`, `destructor_debug` |
| C60 | simple_resource works for buffers of any size and alignment | partial | `undefined`, `iff`, `defined_partial`, `deallocate_defined_partial`, `release_build_partial`, `counterexample` |
| C61 | timer runs its callback exactly once | partial | `iff`, `conservation`, `once_partial`, `overwritten`, `when`, `moved`, `moved_from_silent`, `counterexample_assign`, `counterexample_self` |
| C62 | timer measures from construction or last reset | proved | `start_is_a_reading`, `start`, `start_kept`, `leaked`, `monotone`, `truncated` |
| C63 | fast_pimpl constructs and destroys its value exactly once | proved | `refines`, `balanced`, `assignment`, `independent` |
| C64 | for_each_arg / for_each_in_tuple visit every element once, in order | proved | `for_each_arg`, `for_each_arg_log`, `for_each_in_tuple` |
| C65 | bit_cast preserves the object representation | proved | `bit_cast`, `round_trip`, `sizes` |
| C66 | values_in_range enumerates First..Last | partial | `values_in_range_partial`, `iff`, `counterexample`, `rejected`, `signs` |
| C67 | detection idiom | partial | `exact_iff`, `detected`, `exact_partial`, `counterexample`, `convertible` |
| C68 | make_array(string_view) and sv_to_array pick the right characters | proved | `make_array_from_sv`, `make_array_from_short_sv`, `sv_to_array` |
| C69 | allocator new_object passes its arguments on unchanged | partial | `value_partial`, `counterexample_value`, `counterexample_lvalue` |
| C70 | simple_resource on the system resource | partial | `system_alignment`, `returnable_partial`, `counterexample`, `iff` |
| C71 | is_invocable_v recognises what can be called | partial | `iff`, `sound`, `complete_partial`, `counterexample` |
| C72 | signature_t, return_type_t and params_list_t describe the call | proved | `signature`, `rejects` |
| C73 | data member checkers detect exactly the data members | partial | `data_partial`, `counterexample_data`, `static_data_partial`, `counterexample_static`, `functions` |
| C74 | method checkers match exactly the signature | proved | `method`, `static_method` |
| C75 | call checkers decide whether the call compiles | partial | `callable_r_iff`, `callable`, `callable_r_partial`, `static`, `counterexample` |
| C76 | has_padding with classes that are no aggregates | partial | `iff`, `visible`, `padding_partial`, `counterexample`, `counterexample_scalar` |
| C77 | member type checkers | partial | `iff`, `member_type_partial`, `counterexample` |
| C78 | method checkers by call | proved | `call`, `rvalue`, `lvalue`, `noexcept` |
| C79 | simple_resource::allocate decided on every state | proved | `decided`, `never`, `refuse`, `take`, `take_exact`, `hangs_iff` |
| C80 | what simple_resource::release frees | proved | `release`, `frees_all`, `leaks` |
| C81 | which requests keep simple_resource right | proved | `iff`, `history`, `wider`, `first_block` |
| C82 | simple_resource with the first block held is never corrupted | proved | `pinned`, `fresh` |
| C83 | stacked resources never hand out overlapping memory | proved | `sound`, `returns`, `grain`, `history` |
| C84 | a resource that is not in use can be destroyed | proved | `destroy`, `counterexample` |
| C85 | programs using allocators never mix up memory | proved | `program`, `allocators_fixed`, `default`, `resources`, `counterexample` |
| C86 | type predicates of common.h | partial | `is_uint`, `is_uint_partial`, `counterexample_bool`, `is_uint_or_byte`, `counterexample_byte`, `remove_cvref`, `is_std_array`, `ref_wrapper`, `counterexample_ref_wrapper`, `array_parts`, `same_data`, `sizes_sum` |
| C87 | concatenate_arrays accepts arrays of one element type and copies no more than needed | proved | `accepted`, `objects`, `values` |
| C88 | make_array(args...) keeps integer values or does not compile | proved | `accepted`, `values`, `order` |
| C89 | fast_uint_from_nbits_t is wide enough | proved | `fast_uint`, `wide_enough`, `fast_bytes` |
| C90 | NDEBUG changes nothing but the assertions | proved | `integers`, `count_zeros`, `arrays`, `monotonic`, `simple_resource`, `undefined_caught` |
| C91 | simple_resource can be released and used again | partial | `sound_partial`, `iff`, `taken_back`, `pool_refinement`, `no_ub_debug`, `counterexample` |
| C92 | the query functions of simple_resource describe the area | partial | `inspect_partial`, `counterexample`, `no_block` |
| C93 | a simple_resource without blocks is transparent | partial | `transparent_partial`, `release`, `counterexample` |
| C94 | fast_pimpl passes exceptions on | partial | `transparent_partial`, `terminate_iff`, `counterexample` |
| C95 | copy assignment of resources keeps allocations apart | partial | `mono_moves_partial`, `mono_sane_partial`, `simple_moves_partial`, `mono_shared`, `simple_shared`, `source_destructor`, `counterexample_mono`, `counterexample_simple` |
| C96 | simple_resource's answers depend only on what is live | partial | `same_answers_partial`, `one_side_partial`, `regions`, `decision`, `restart`, `unrestarted`, `like_new_partial`, `first_request`, `counterexample` |
| C97 | the constructor of timer takes what it can store and call | partial | `exact`, `sound`, `complete_partial`, `duration_only`, `counterexample` |
| C98 | method checkers are named after what they check | proved | `checker`, `names`, `static`, `clash`, `clash_witness` |
| C99 | the constructors of the resources do what their arguments mean | partial | `simple_partial`, `mono_partial`, `literal_zero`, `counterexample`, `alike` |
| C100 | allocators can be compared and converted whatever their value types | partial | `equal_partial`, `mixed`, `convert`, `counterexample`, `symmetric` |
| C101 | calls through memory_resource reach the object's own class | partial | `iff`, `reaches`, `own_partial`, `counterexample` |
| C102 | simple_resource arena usage | proved | `arena_refinement`, `empty`, `stack`, `hole_matters` |
| C103 | fast_pimpl can be initialised and assigned like the T inside | partial | `objects`, `iff`, `transparent_partial`, `counterexample`, `temporary` |
| C104 | until it is set, the default resource is the system resource | partial | `iff`, `default_partial`, `counterexample`, `lost`, `early` |
| C105 | static objects can use resources in their destructors | partial | `start`, `outlives_partial`, `default`, `counterexample`, `passed` |
| C106 | div_t{a, b} keeps both values | partial | `keeps`, `iff`, `keeps_partial`, `counterexample` |
| C107 | UTILS_ABORT_IF says where and why, then aborts | partial | `message_partial`, `iff`, `returns`, `counterexample` |
| C108 | simple_resource explains why it aborts | partial | `reason`, `destructor`, `text_partial`, `undefined`, `counterexample` |
| C109 | a timer looks after the callable it stores | partial | `iff`, `trivial_partial`, `unmoved`, `leak`, `counterexample` |
| C110 | exceptions of a timer's callable | partial | `iff`, `counterexample`, `partial` |
| C111 | exceptions of array elements | partial | `refines`, `concatenate`, `counterexample`, `fill`, `zero`, `reach_partial`, `view` |
| C112 | next_multiple_of<PowOf2> on signed types | proved | `next_multiple_of_signed`, `unrepresentable`, `too_big`, `bool` |
| C113 | value_list tells references apart | partial | `iff`, `lookup_partial`, `lists_partial`, `counterexample` |
| C114 | Which cartesian products compile | proved | `iff`, `result`, `limits` |
| C115 | method checkers choose between overloads | partial | `call`, `checkers_partial`, `no_volatile`, `usual`, `counterexample` |
| C116 | make_array does what its template arguments say | partial | `unique`, `iff`, `typed_partial`, `counterexample` |
| C117 | new_object<U>(args...) is U(args...) in new storage | partial | `compiles_partial`, `call_partial`, `rvalues_partial`, `counterexample` |
| C118 | method checkers see nothing but methods | partial | `method_partial`, `static_partial`, `silent_partial`, `counterexample` |
| C119 | simple_resource withstands fragmentation | partial | `free_regions_partial`, `served_partial`, `capacity_partial`, `counterexample` |
| C120 | shift_left and shift_right on signed types | partial | `left_exact`, `right_exact`, `left_value_partial`, `counterexample` |
| C121 | for_each is one statement per element | partial | `compiles`, `exact`, `tuple`, `args_partial`, `tuple_partial`, `counterexample_rvalue`, `counterexample_comma`, `counterexample_results` |
| C122 | make_array_from_range with an element type | partial | `exact`, `values_partial`, `counterexample` |
| C123 | sum_size does not depend on qualifiers | partial | `exact`, `qualifiers_partial`, `never_less`, `compiles`, `counterexample` |
| C124 | member checkers see inherited members | partial | `data`, `static_data`, `type`, `method`, `static_method`, `call`, `inherited_partial`, `hiding`, `virtual`, `counterexample` |
| C125 | Every call comes back | partial | `answer`, `returns_iff`, `mono_never_iff`, `dealloc_never_iff`, `assign_iff`, `history_partial`, `allocate_partial`, `deallocate_partial`, `program_partial`, `counterexample` |
| C126 | checkers can share a namespace | partial | `iff`, `compiles`, `words_partial`, `counterexample`, `r_counterexample`, `kinds` |
| C127 | checkers declare no reserved names | partial | `iff`, `reserved_partial`, `counterexample` |
| C128 | delete_object works through base classes | partial | `iff`, `single_partial`, `counterexample`, `destroyed`, `simple_resource`, `layout` |
| C129 | how much a monotonic_buffer_resource holds | proved | `packed`, `iff`, `enough`, `tight`, `sorted` |
| C130 | a query of a type_list compiles whenever its answer is settled | partial | `index_of`, `index_of_asks`, `at_right`, `at_partial`, `at_copies`, `count`, `list_of`, `contains_partial`, `contains_counterexample`, `total` |
| C131 | how long lists may be | proved | `at`, `index_of`, `at_predicate`, `concatenate`, `list_of`, `sublist`, `slices`, `exclude_at`, `sort`, `sort_tight`, `sort_sorted`, `product`, `product_tight`, `value_index_of`, `value_all_of`, `value_count_of`, `value_min_max`, `limit` |
| C132 | where the buffer lies does not matter | partial | `run_partial`, `fresh_partial`, `release_build_partial`, `counterexample`, `distance_counterexample`, `mono_partial`, `mono_counterexample` |
| C133 | overloaded call operators of a timer callback | partial | `runs`, `exact`, `sound`, `alike`, `complete_partial`, `counterexample`, `ignored`, `single` |
| C134 | free function checkers see the functions that a call sees | partial | `found`, `call_partial`, `all_before_partial`, `settled`, `hidden`, `counterexample` |
| C135 | number of rounds of allocate and release | proved | `allocate`, `first`, `full`, `filled`, `release`, `release_bound`, `not_linear` |
| C136 | threads that share a monotonic_buffer_resource | partial | `inside`, `mutex_serial`, `serial_partial`, `mutex`, `undisturbed_partial`, `race`, `counterexample` |
| C137 | using-declarations and the method checkers | partial | `method`, `method_partial`, `static`, `call`, `call_partial`, `plain`, `counterexample` |
| C138 | threads that share a simple_resource | partial | `mutex_serial`, `serial_partial`, `order`, `mutex`, `own`, `counterexample` |
| C139 | secure_zero_memory is not optimised away | partial | `code`, `counterexample`, `exact`, `stores`, `iff`, `strict_partial`, `seen_partial` |

Theorem names are `Cxx_` followed by the name in the table. What is missing from the partial ones is in the notes of MANIFEST.json and in the comment of each `_partial` theorem.

## 8. Axioms of every theorem

From `#print axioms`. No theorem depends on anything else.

**No axioms** (12): C101_counterexample, C111_counterexample, C20_counterexample, C20_fill_partial, C28_sublist_zero, C33_remove, C33_signature, C34_not_trivially_copyable, C41_null, C41_rejects, C65_sizes, C69_counterexample_lvalue

**`propext`** (85): C100_counterexample, C102_empty, C103_counterexample, C103_iff, C103_objects, C103_temporary, C103_transparent_partial, C104_counterexample, C104_early, C105_counterexample, C105_passed, C106_counterexample, C107_returns, C109_counterexample, C110_counterexample, C113_counterexample, C113_iff, C114_limits, C116_counterexample, C117_counterexample, C118_counterexample, C120_counterexample, C121_counterexample_comma, C121_counterexample_results, C121_counterexample_rvalue, C121_exact, C122_counterexample, C123_counterexample, C124_counterexample, C126_r_counterexample, C130_contains_counterexample, C133_alike, C139_counterexample, C139_strict_partial, C15_counterexample_large_unsigned, C15_counterexample_min, C15_counterexample_mixed_sign, C17_sum_size_empty, C18_rejects, C21_counterexample_wrap, C24_counterexample, C34_rejected, C36_counterexample, C37_counterexample, C41_no_leak, C42_program_order, C43_counterexample, C43_room_partial, C44_new, C61_counterexample_assign, C61_counterexample_self, C61_moved, C61_overwritten, C61_when, C62_start, C63_independent, C66_counterexample, C67_counterexample, C67_exact_iff, C67_exact_partial, C68_sv_to_array, C69_counterexample_value, C71_complete_partial, C71_counterexample, C71_sound, C72_rejects, C72_signature, C73_counterexample_data, C73_counterexample_static, C73_functions, C75_counterexample, C77_counterexample, C86_counterexample_bool, C86_counterexample_byte, C86_counterexample_ref_wrapper, C86_remove_cvref, C90_arrays, C97_complete_partial, C97_counterexample, C97_duration_only, C97_exact, C97_sound, C98_clash_witness, C99_counterexample, C99_literal_zero

**`propext`, `Quot.sound`** (167): C06_greatest_divisor_bool, C06_greatest_divisor_zero, C07_agree, C07_bits_count, C07_nbits_occupied, C08_num_bits_table, C09_int_shift_limits, C100_convert, C101_iff, C101_own_partial, C101_reaches, C102_hole_matters, C104_default_partial, C104_iff, C104_lost, C105_default, C105_outlives_partial, C105_start, C106_keeps, C109_iff, C109_leak, C109_trivial_partial, C109_unmoved, C110_iff, C110_partial, C111_concatenate, C111_fill, C111_reach_partial, C111_refines, C111_view, C111_zero, C115_counterexample, C116_iff, C116_typed_partial, C116_unique, C117_compiles_partial, C118_method_partial, C118_silent_partial, C118_static_partial, C121_tuple, C122_exact, C123_qualifiers_partial, C124_call, C124_data, C124_hiding, C124_inherited_partial, C124_static_data, C124_type, C124_virtual, C125_assign_iff, C125_counterexample, C125_history_partial, C129_tight, C130_total, C131_concatenate, C131_list_of, C131_product_tight, C131_value_all_of, C132_counterexample, C132_distance_counterexample, C132_mono_counterexample, C133_single, C134_counterexample, C136_counterexample, C136_serial_partial, C137_counterexample, C137_method, C137_method_partial, C137_plain, C137_static, C138_counterexample, C13_zero, C14_null, C15_div_as_zero, C15_zero, C16_shift_assert, C19_is_equal, C22_concatenate, C23_count_of, C24_contains_all, C24_contains_empty_list, C24_contains_partial, C24_is_type_list, C25_is_same, C30_concatenate, C30_concatenate_assoc, C31_cartesian_product_rejected, C32_list_all_of, C37_null, C38_counterexample, C39_counterexample, C39_empty, C40_asks, C40_free, C40_release, C40_upstream, C41_forwards, C43_iff, C44_equal, C44_resource, C48_counterexample, C50_counterexample, C51_counterexample, C52_counterexample, C55_counterexample, C57_at_most_one_call, C58_counterexample, C59_counterexample, C60_counterexample, C61_moved_from_silent, C62_start_is_a_reading, C62_start_kept, C63_assignment, C64_for_each_arg, C64_for_each_arg_log, C64_for_each_in_tuple, C66_rejected, C67_convertible, C67_detected, C68_make_array_from_sv, C70_counterexample, C71_iff, C73_data_partial, C73_static_data_partial, C75_callable, C75_callable_r_iff, C75_callable_r_partial, C76_counterexample, C76_counterexample_scalar, C77_iff, C77_member_type_partial, C78_call, C78_lvalue, C78_noexcept, C78_rvalue, C81_first_block, C84_counterexample, C85_allocators_fixed, C85_counterexample, C85_default, C85_resources, C86_array_parts, C86_is_std_array, C86_is_uint, C86_is_uint_or_byte, C86_is_uint_partial, C86_ref_wrapper, C86_same_data, C86_sizes_sum, C87_accepted, C88_accepted, C88_order, C90_count_zeros, C90_integers, C90_monotonic, C90_simple_resource, C91_counterexample, C95_counterexample_mono, C95_counterexample_simple, C95_simple_shared, C95_source_destructor, C96_counterexample, C96_decision, C96_regions, C96_unrestarted, C99_mono_partial, C99_simple_partial

**`propext`, `Quot.sound`, `Classical.choice`** (336): C01_is_power_of_2, C02_next_multiple_of, C02_next_multiple_of_assert, C03_next_multiple_of_too_big, C03_next_multiple_of_typed, C04_skip_to_align, C04_skip_to_align_assert, C05_is_aligned, C05_is_aligned_assert, C06_greatest_divisor, C09_assert, C09_max_alignment_inside_block, C09_undefined_for_large_blocks, C09_wrong_for_medium_blocks, C100_equal_partial, C100_mixed, C100_symmetric, C102_arena_refinement, C102_stack, C106_iff, C106_keeps_partial, C107_counterexample, C107_iff, C107_message_partial, C10_serialize_type, C10_uint_from_nbits, C10_uint_from_nbits_rejected, C10_uint_from_nbytes, C112_bool, C112_next_multiple_of_signed, C112_too_big, C112_unrepresentable, C113_lists_partial, C113_lookup_partial, C114_iff, C114_result, C115_call, C115_checkers_partial, C115_no_volatile, C115_usual, C117_call_partial, C117_rvalues_partial, C119_capacity_partial, C119_counterexample, C119_free_regions_partial, C119_served_partial, C11_clz, C11_clz_rejected, C11_platforms, C120_left_exact, C120_left_value_partial, C120_right_exact, C121_args_partial, C121_compiles, C121_tuple_partial, C122_values_partial, C123_compiles, C123_exact, C123_never_less, C124_method, C124_static_method, C125_allocate_partial, C125_answer, C125_dealloc_never_iff, C125_deallocate_partial, C125_mono_never_iff, C125_program_partial, C125_returns_iff, C126_compiles, C126_counterexample, C126_iff, C126_kinds, C126_words_partial, C127_counterexample, C127_iff, C127_reserved_partial, C128_counterexample, C128_destroyed, C128_iff, C128_layout, C128_simple_resource, C128_single_partial, C129_enough, C129_iff, C129_packed, C129_sorted, C12_ctz, C12_ctz_rejected, C12_platforms, C130_at_copies, C130_at_partial, C130_at_right, C130_contains_partial, C130_count, C130_index_of, C130_index_of_asks, C130_list_of, C131_at, C131_at_predicate, C131_exclude_at, C131_index_of, C131_limit, C131_product, C131_slices, C131_sort, C131_sort_sorted, C131_sort_tight, C131_sublist, C131_value_count_of, C131_value_index_of, C131_value_min_max, C132_fresh_partial, C132_mono_partial, C132_release_build_partial, C132_run_partial, C133_complete_partial, C133_counterexample, C133_exact, C133_ignored, C133_runs, C133_sound, C134_all_before_partial, C134_call_partial, C134_found, C134_hidden, C134_settled, C135_allocate, C135_filled, C135_first, C135_full, C135_not_linear, C135_release, C135_release_bound, C136_inside, C136_mutex, C136_mutex_serial, C136_race, C136_undisturbed_partial, C137_call, C137_call_partial, C138_mutex, C138_mutex_serial, C138_order, C138_own, C138_serial_partial, C139_code, C139_exact, C139_iff, C139_seen_partial, C139_stores, C13_crafted_agrees, C14_get_alignment, C15_const_iff, C15_div_as_partial, C15_div_as_wrapped, C15_div_const_partial, C15_div_partial, C15_run_iff, C15_run_time_halving_wrong, C16_shift_left, C16_shift_right, C17_sum_size, C18_memvcmp, C19_too_many, C20_elements, C20_iff, C21_accepted, C21_ascending_partial, C21_descending, C21_elements, C21_rejected, C21_zero_step, C22_positions, C23_at, C23_at_with_predicate, C23_first_index_of_type, C23_index_of, C24_exact, C25_contains_copies, C25_value_list, C26_filter, C27_max_exact, C27_max_sizeof_index, C27_min_exact, C27_min_sizeof_index, C28_exclude_at, C28_sublist, C29_sort_ascending, C29_sort_descending, C31_cartesian_product, C32_at, C32_contains_type, C32_lookup, C32_max, C32_min, C33_ellipsis, C33_has, C34_layout, C34_padding, C35_secure_zero_memory, C35_secure_zero_memory_safe, C35_writes_all, C36_constant_evaluation, C36_iff, C36_memmove_partial, C37_constant_partial, C37_iff, C37_memcpy, C37_to_bool, C38_iff, C38_safe_partial, C38_unwrapped_partial, C38_wrapped, C39_exact, C39_no_buffer, C39_refuses_partial, C41_aligned, C42_conserved, C42_log, C42_register, C43_system, C44_pairing, C45_geometry, C46_bookkeeping, C46_tracks, C47_pool_refinement, C47_pool_sound, C48_in_bounds_debug, C48_no_overlap_partial, C49_counterexample, C49_dichotomy, C49_dichotomy_debug, C49_hang, C49_terminates_partial, C50_first_fit_partial, C50_refused_partial, C51_exact_fit_asserts, C51_never, C51_one_block, C51_overlap, C51_overlong, C51_overrun, C51_past_table, C51_spare_partial, C52_iff, C52_impossible_debug, C52_impossible_partial, C52_no_wrap, C53_deallocate, C53_round_trip, C54_aborts_iff, C54_accepts, C55_iff, C55_release_partial, C56_stack_refinement, C57_allocate_routing, C57_deallocate_routing, C58_iff, C58_returnable_partial, C59_cycle, C59_destructor_debug, C59_destructor_partial, C60_deallocate_defined_partial, C60_defined_partial, C60_iff, C60_release_build_partial, C60_undefined, C61_conservation, C61_iff, C61_once_partial, C62_leaked, C62_monotone, C62_truncated, C63_balanced, C63_refines, C65_bit_cast, C65_round_trip, C66_iff, C66_values_in_range_partial, C68_make_array_from_short_sv, C69_value_partial, C70_iff, C70_returnable_partial, C70_system_alignment, C74_method, C74_static_method, C75_static, C76_iff, C76_padding_partial, C76_visible, C79_decided, C79_hangs_iff, C79_never, C79_refuse, C79_take, C79_take_exact, C80_frees_all, C80_leaks, C80_release, C81_history, C81_iff, C81_wider, C82_fresh, C82_pinned, C83_grain, C83_history, C83_returns, C83_sound, C84_destroy, C85_program, C87_objects, C87_values, C88_values, C89_fast_bytes, C89_fast_uint, C89_wide_enough, C90_undefined_caught, C91_iff, C91_no_ub_debug, C91_pool_refinement, C91_sound_partial, C91_taken_back, C95_mono_moves_partial, C95_mono_sane_partial, C95_mono_shared, C95_simple_moves_partial, C96_first_request, C96_like_new_partial, C96_one_side_partial, C96_restart, C96_same_answers_partial, C98_checker, C98_clash, C98_names, C98_static, C99_alike
