# Formal model of bevy_stat_query: design

The status of each claim is in `MANIFEST.json`; the English claims are in `properties.jsonl`; deliberately wrong
variants of the model that were tried against the theorems are in `seeded/LOG.jsonl`.
The log lists every edit tried (once more if a later try ended differently) with its `outcome`: `killed`, `failed elsewhere` (only theorems of other claims failed),
`survived`, or `invalid` (the edited model did not compile, so the attempt tested nothing). Survivors carry a note.

## Layout

* `lean/Verif/Model/*`: the model, function by function. Each definition cites the lines of /repo it stands for
  and states its simplifications.
* `lean/Verif/Spec/*`: small specifications the theorems are stated against. They do not call the model's
  algorithms (binary search, joins, caches), only its data types.
* `lean/Verif/Proofs/*`: helper lemmas.
* `lean/Verif/Props/*`: the property theorems `Cnn_…`, each with an `example` showing that a concrete, non-trivial
  case meets its hypotheses.
* `lean/Verif/Tests/*`: the repository's own tests (`tests/*.rs`) evaluated on the model. These are tests that the
  model is faithful, not proofs; no claim rests on them.

Suffixes: `_partial` is a theorem that proves less than the English claim, and its comment says what is missing.
`_refuted…` is the negation of (part of) the claim with a concrete witness: the code violates it.

## Modelling conventions

* `&mut` functions return the new value. A panic, undefined behaviour (a buffer accessed at a type it was not
  written with) and exhausted recursion depth are error values: `Err = panic | ub | fuel`, `Res α = Except Err α`.
* An `Env` is the collection of value types and stat types of a program; theorems hold for every `Env`, so for
  every user-defined `Stat` and `StatValue`. A `Buffer` carries the tag of the type it was written with.
* Vtables are addresses (`Addr`), so a different process is a different address assignment.
* Machine integers are `Int` with a range check (`NumTy`: bits, signedness; primitive, `Wrapping` or `Saturating`;
  debug or release). `Fraction` is a numerator and denominator over primitive machine integers. `f32`/`f64` are NaN,
  two infinities and finite rationals, rounded to nearest even after each operation.
* User code in streams is a tree (`Prog`) that may put questions to the querier, use the answers, catch the panics, clear the cache and store pairs in it. The crate's
  querier turns it into a tree (`CProg`) whose only effects are accesses to the cache. The same tree is run alone,
  interleaved with other threads, or without a cache. A stream does the same each time it is called with the same
  arguments and gets the same answers, except in `Model/Fickle` (C124), where each request is served by some querier
  of a set.
* Queries run with a recursion depth; termination is "some depth suffices", divergence is "no depth suffices".
* Ownership (`Model/Ledger`): each stored value has a number, and the code is rerun recording moves, accesses, drops.
* Caught panics (`Model/Unwind`): per method, the maps that an unwinding call may leave behind.
* User code that does anything (`Model/Hostile`, `Model/HostileCache`): the ledger of values with what user code does given for each call.
* The lock (`Model/Lock`): accesses to the cache taken apart, to be interleaved with those of other threads.
* Raw memory (`Model/Memory`): only addresses, sizes and alignments.

## Per property

| id | what is modelled | how it is proved |
|----|------------------|------------------|
| C01–C05 | `qualifies_as`, blanket flag impl over `BitVec w` and `bool` | bit extensionality |
| C06–C11 | `StatMap` as a sorted vector, `binary_search_by`/`partition_point` | refinement to `Key → Option Val`; invariant over histories |
| C12 | `from_iter`, `extend`: append and stable sort | equality with repeated insertion for distinct keys; witness for repeated keys |
| C13–C15, C66 | entries as data, registry, two address assignments, world registration | list induction; witness for C15 |
| C16–C22, C26–C30 | every `StatValue` impl | homomorphism into exact contributions; closed forms; witnesses |
| C23–C25, C62, C71 | IEEE-like floats | invariants over trees of operations; witnesses |
| C31 | rounding over `Fraction` and floats | integer division |
| C32, C33, C61, C70 | machine arithmetic in every convention, `from_i64` | modular and saturating algebra; simulation; monotonicity; witnesses |
| C34, C64 | `repr(C)` layout algorithm, `validate`, raw accesses | arithmetic; witness for `Buffer::from` |
| C35, C36, C68, C69 | tagged buffers, casts, generic casts, several vtables | invariant over histories; witness for C36 |
| C37, C38 | `StatInst` order and hash, `match_stat!` | order laws, list induction; witness for C38 |
| C39, C40 | derive macro as a function on variant lists | list induction; witness for C39 |
| C41, C42, C54, C60 | registries, `StatExtension` for `World` and `App` | induction over histories; witness for C42 |
| C43–C47, C52, C59 | `StatQuery`, `JoinedQuerier`, builders, streams | unfolding, list induction, permutations |
| C48–C51, C53, C55 | cache accesses as effects, histories and interleavings, recursion depth | cache soundness invariant; well-founded induction; witnesses |
| C56–C58 | ownership ledger | ledger invariant over histories; witnesses |
| C63 | caught panics | invariant over histories with interrupted calls; witness for `extend` |
| C65, C67 | `Serialize`/`Deserialize` of the value types, `Debug` of containers | case analysis, list induction; witness for C67 |
| C72, C73 | operators and comparison algorithm of `Ratio` | integer division, continued fractions; witnesses |
| C74 | histories with `from_iter`/`extend` and repeated keys | refinement of bags (nondeterministic) |
| C75, C76 | lock poisoning of the cache under caught panics | ledger invariant; exact count; witness |
| C77, C78 | values created and dropped while maps are loaded | ledger invariant; exact count; witness |
| C79 | programs that leave maps out of order (interrupted `extend`, loading) | ledger invariant without sortedness; exact condition; witness |
| C80 | destructors of the map, the cache and the defaults | exact condition by induction; witness |
| C81 | the value model against the ownership model | simulation, naturality of the vector algorithms in the buffers |
| C82 | pairs and references into them as places with tags | invariant tying a static scope rule to the tags; concrete counterexamples |
| C83 | ownership of the values of pairs | ledger invariant |
| C84 | IEEE arithmetic of `f32`/`f64` and the float stats over it | relative error of one rounding; induction over assemblies with error bounds; clamping is 1-Lipschitz |
| C85 | `StatCache` as called by users and by queries | simulation of a keyed memory; the lookups and stores of queries are these calls |
| C86 | `JoinedQuerier` over `StatMap` components, with and without cache | composition of C03-C08, C44 and C48; permutation invariance of the closed forms |
| C87 | `StatCache` with its `RwLock`, guards and user code taken apart | invariants of bracketed guards; a multiset order for termination; stuck states reached by execution |
| C88 | the same against the model of whole accesses | simulation of each thread, with the access taking effect at the read or the change of the map |
| C89 | `JoinedQuerier` over `StatMap` components, before and after a call on one map | uniqueness of sorted listings; frame lemma of map calls; insertion into the joined list |
| C90 | the `#[stat(...)]` attribute as a list of tokens | unique reading of token lists; induction over items and attributes |
| C91 | `JoinedQuerier` over `StatMap` components in two processes, saving and loading between them | the history replayed at the other addresses leaves the same map, or that map sorted anew; C89 across processes; witness |
| C92 | streams that clear the cache, as an effect of user code | determinism of faithful code; the two runs meet at the clear |
| C93 | accesses to the cache recorded while queries run, fed to the ownership ledger | the depth an uncached query needs decreases along dependencies, and is the same whatever is cached |
| C94 | streams that store pairs in the cache, as an effect of user code | the cache invariant with the entries written by streams; witnesses for wrong pairs, for a leak and for a recursion that ends |
| C95 | what all code of a querier stores in the cache | induction over the code; invariant of histories and interleavings |
| C96 | `StatMap` calls, each with its own arbitrary comparison of qualifiers | binary search with any comparison that agrees with the stats ends among the entries of the stat; multiset of keyed values as invariant; witness for an unspecified sort |
| C97 | concurrent queries over a hash map that finds or overwrites any entry of the same entity and stat | invariant over steps; right comparisons are a special case; witness of a wrong result |
| C98 | the ledger of C12 with the behaviour of user code given per call | search with arbitrary answers ends among the entries of the stat; books of values with a bound on lost ones; stats stay in order; behaving user code is the special case of C12; witnesses for the leak and for an unsorted `extend` |
| C99 | the poisoned lock of C75 with arbitrary comparisons, panics of qualifiers, and calls made while unwinding | books of cached values; right comparisons are the special case of C75; witness of a double drop for the exception |
| C100 | the ledger of C56 kept for qualifiers instead of values; the keys of a cache with its lock | books of qualifiers; forgotten ones counted by a specification on keys; same keys as the ledger of the values; witness of the leak |
| C101 | C48 and C53 with user code that may catch the panic of each question it asks | outcome of code that catches, from the outcome of the query; right answers at every depth; the depth decreases along the recursion; witness for the order of sources |
| C102 | casts, conversions and the registry of defaults with arbitrary addresses of vtables | exact conditions per operation; invariant of the registry; the definitions agree with the rest of the model for distinct addresses; witness |
| C103 | in-place execution of the methods of value types, with the value a panic leaves behind; `patch` of the registry | refinement to the functional model; closed form of what is left, per method; as rationals; witnesses for wrong and stuck values |
| C104 | the range between two partition points, for vectors in any order | two binary searches with nested predicates end together or part between their ends (induction on the search); exact effect on the vector; witness for missed entries |
| C105 | keyed calls, `remove_all` and `extend` on vectors in any order, after interrupted `extend`s | refinement to a multiset with a loose step relation; `extend` re-establishes the invariant of C74; reachability; witness for missed and doubled entries |
| C106 | `iter`, `iter_mut` and queries on vectors in any order | exact reading of the run of C104, at the value type asked for; safety for one value type, misreading for any two; witness for joined values of other stats |
| C107 | `qualifies_as` for both kinds of query | witness; exact criterion on sets of flags; criterion for a common modifier |
| C108 | an effect that asks an exact query, among `StatMap` sources, through the querier | refinement of the querier to joins around one nested answer; closed form for integers by merging bounded lists; witness for a doubled default; non-termination by induction on depth |
| C109 | `StatMap` over abstract search, partition and sort | equality with the model used elsewhere, call by call, for all lawful algorithms; refinement to multimaps for repeated keys; two lawful libraries; witness that they differ on repeated keys |
| C110 | which requests a change of entities may affect, with and without a cache | congruence of the querier under oracles and handlers that agree where asked; invariant of partly stale caches over all histories; witness for each way of reaching |
| C111 | calls that fill the maps, the querier, and the arithmetic of the shipped types, end to end | journal invariant over histories of calls; the answer is a run of one tree of the operations; closed forms of all orders carried over by permutation |
| C112 | querier and the arithmetic of all shipped types, any sources | closed form of every tree of operations that fit, hereditary size conditions, invariant of the query loop (C44) |
| C113 | nested queries of any streams, with and without a cache | relation of nested requests defined from user code; accessibility by induction on depth one way and by finite branching the other; bound by removing visited requests; concrete chain, circle and endless descent |
| C114 | querier and the arithmetic of the exact types: comparing two queries | closed forms of both queries (C112); monotonicity of sums, products, rounding and clamping in further contributions |
| C115 | querier and cache with several threads: who stores what between two clears | properties of code kept by sequencing, invariant over interleavings; the least depth at which a stat has an outcome orders what its computation may look up, so no assumption on dependencies |
| C116 | querier and cache with several threads: what is cached in the end | requests involved defined from user code without a cache; logic for code with the set of keys known to be cached (found keys bring what they involve), invariant over interleavings that the cache is closed under it |
| C117 | `StatMap` histories; operations on the numeric and flag stats | two plain maps that agree off a set of keys, run side by side; contributions of operations (C16, C20-C22) that add up to nothing; witnesses built from base values at the ends of the type |
| C118 | querier and cache: number of lookups and of results computed, with and without a cache | costs of code as sums over what it stores, kept by sequencing; with C93 (nothing stored twice) and C116 (only what is involved is stored) a bound by counting; a ladder of entities by induction on its height |
| C119 | entities whose sources are `StatMap`s on themselves and their children; histories of map calls divided among maps | permuted listings of what is stored (C86) and of the trees it was assembled from (C111), closed forms (C112); restriction of a plain map to a part of its keys, by running both histories side by side (C117) |
| C120 | qualifier matching, `StatMap` sources: aggregate queries against lists of exact ones | per map, two listings without repetition have the same members; summed over maps by exchanging two concatenations; trees of operations regrouped (C111, C112) |
| C121 | floats as bit patterns (`FBits`) with any operations meeting a statement of IEEE 754, against `Model/Ieee.lean` | patterns ↔ representable numbers; rounding characterised by nearest and even last bit; operations are homomorphic; trees of operations by induction; existence by choosing a pattern for each result |
| C122 | searches as programs that ask for comparisons (`Ask`), against `binarySearchBy`, `Vec.search`, `Vec.range` | induction on the loop; `⌈log2⌉` recurrence; the end of the searched part is known to be greater |
| C123 | two worlds of `StatMap` sources, what is found in the one grown from what is found in the other | listings sorted by qualifier interleave; the joins are trees related by `Tree.Extra`; C71 |
| C124 | `Model/Fickle.lean`: each request is served by some querier of a set, its code is one of a set | the cache only holds values that their queries may have without it (`MixedEntry`); `CProg.Good` for all possible code; outcomes grow with the depth; uncached outcomes and possible code agree (choice) |
| C125 | `Model/IterMut.lean`: a caller's program (`next`, writes through earlier references, panics) over the range of a stat | the vector is what is below, at and above the stat; induction on the program, against a program on a list |
| C126 | `Model/SharedMap.lean`: `StatMap` with arbitrary vtable addresses, against a plain map of spots | the vector algorithms are used for an auxiliary program whose stat types are addresses; with separated value types buffers are read at the type they were written at |
| C127 | `Model/SharedCache.lean`: `StatCache` with arbitrary vtable addresses (defaults: `Model/SharedTables.lean`), against the list of calls | `HashMap::insert` for keys compared by an equivalence; entries keep the value type of their key |
| C128 | `qualifies_as` and `StatMap` queries, against needed flags and choices (`Spec/Interchange.lean`) | an aggregate query matches iff it has the needed flags and one of the choices; the least queries that match determine both |
| C129 | `Model/Json.lean`: what `serde_json` keeps of the data the impls of C65 write | per type: JSON commutes with structs and variants, each number is kept or refused; induction over the entries of a map |
| C130 | `Model/Reflect.lean`: what `derive(Reflect)` generates for `StatMap`, `Qualifier` and `QualifierQuery`, and `ReflectComponent` | computation on the reflected fields; a map has none |
| C131 | `Model/Cloning.lean`: the cache, defaults and maps with any `Clone` of values (`Spec/Cloning.lean`) | the invariant of C124 with clones of computed values in the cache; a clone that undoes itself reduces to C124 |
| C132 | `Model/Postcard.lean`: bytes of `postcard` (varints, zigzag, little-endian floats, lengths), written and read by the impls of C65 (`Spec/Postcard.lean`) | each shape: what was written is read, independent of what follows; induction over entries; digits to base 128 |
| C133 | saving, `StatMap` in two processes | equal contents: one map is the other sorted anew; C13 and C132 backwards; witness |
| C134 | `#[derive(Stat)]`, registration and saving together (`Spec/Derived.lean`) | the generated methods satisfy what C66 asks of a type; C39 for distinctness; witness of two enums that cannot both be registered |
| C135 | the cache in histories of changing worlds, for streams that ask nothing (`Spec/Snapshot.lean`) | invariant: the cache holds the answers of remembered worlds; C89 for maps |
| C136 | `Model/SharedMap.lean` with `extend` and `from_iter`, against `Model/StatMap.lean` in the merged program (`Spec/Merged.lean`) | each vector algorithm commutes with renaming the stats of entries; the merged program is built by choice of a stat type for each address; C74 and C80 for the rest |
| C137 | benches/bench.rs: the naive loop over a `BTreeMap`, and filling both containers (`Model/Bench.lean`) | C08 for the map; both lists are sorted with the same members; for the count, the tree of the items is the items themselves, then C20 and C61 |
| C138 | the registration functions, queries, all numeric stat types | the registered value is the default with the bounds applied (DefSlot), the result is assembled from it and the sources (C44), then C28 for the type |
| C139 | `match_stat!`, the stats and the stream of the crate's test module (`Model/CrateTest.lean`), queries | induction on the arms (`Spec/OpArms.lean`) with C38 for each; the operations are one contribution, then C44; for the test stream, induction on the number of calls |
| C140 | `query_eval`, `query_relation_eval` with the cache, the crate's test stream | the code is that of the plain query followed by code that does not touch the cache; C48 for the cache; C139 and C30 for the test stream |
| C141 | the trait `QualifierFlag` and its blanket impl | from the laws of `FlagSet`, flag by flag |
| C142 | querier and cache, after changes of the world without a clear | an uncached semantics in which some results are given; faithfulness to it as invariant of cache and outcome; the depth it needs decreases along dependencies, so nothing is stored twice |
| C143 | derived and hand-written `Deserialize` of the crate's types | which data give a struct which fields, as a relation (each name once among others, or by position); enums by name or number; each reader is shown to compute it |
| C144 | the stats, components and streams of tests/distance.rs, for any components on any entities | Manhattan distance, and strength if on the same side; lists of them matched with the auras of the children, and their sum |

No property is `not_applicable`.

## What is modelled, by file

* `src/buffer.rs`, `src/cache.rs`, `src/operations.rs`, `src/plugin.rs`, `src/qualifier.rs`, `src/querier.rs`,
  `src/rounding.rs`, `src/stat.rs`, `src/stat_map.rs`, `src/stream.rs`, `src/types/*.rs`, `derive/src/lib.rs`,
  `src/num_traits.rs`, `match_stat!` of `src/lib.rs`: every function with behaviour of its own.
* The methods of `Querier` and `JoinedQuerier` have the same bodies and share definitions, as do `World` and `App`
  (`App` forwards to its world), the `_cx` variants of the builders (which only differ in how the `Query` is
  obtained), `insert`/`insert_base`, and the `Wrapping`/`Saturating`/primitive impls of `Int`.

## What is not modelled

* `Deref`, `Send`/`Sync` impls, `Default`/`new` that only forward, `Debug` of `StatVTable`, `StatDeserializers`,
  `GlobalStatRelations` and `Querier`, the `vtable!` macro, `Shareable` and documentation. Of the in-crate test code
  (`lib.rs:250` on) the derived enum conversions are those of `Model/CrateTest.lean`.
* The text that `Debug` prints: only which names and values are printed.
* Concrete syntax of serde formats, except the bytes of `postcard` (C132): a format is the data it carries. C13, C65,
  C66 and C91 are about formats that lose nothing. JSON writes non-finite floats as `null`; what this means is C129.
* Reference lifetimes and aliasing, except of the references into a `StatValuePair` (C82).
* Waiting on locks other than that of the cache, use of a cache by a thread that is already panicking (except in C99), allocation failure, stack overflow other
  than as exhausted recursion depth, `usize`/`u64` overflow of indices and lengths (they are `Nat`).
* Panicking `Ord`/`Eq`/`Hash`/`Clone`/`Drop` of user types, except as far as C57, C58, C63, C75, C76, C98 and C99 say. `Clone` of a value gives
  an equal value, except in C131, where it gives any.
* `Ord`, `Eq` and `Hash` of qualifiers that contradict each other or themselves, except for C96 (any comparison, but the
  same for the length of a call), C97 and, for memory safety of `StatMap`, C98 (any answers).
* Mutation of the ECS world during a query (queries hold shared borrows) and scheduling of systems.
* Signed zeros and NaN payloads, except in C121, which shows that they influence nothing else. There the pattern an
  operation returns is a function of its operands; which one is open where IEEE 754 leaves it open.
* Reflection, except what C130 says; the flag type `Q` is an opaque leaf there.
* Paths/visibility in generated code, and token groups without delimiters in attributes, in the derive macro.

## Trusted base

* Lean 4.33.0's kernel, and its compiler of definitions to terms (elaborator output is checked by the kernel).
* The axioms `propext`, `Classical.choice`, `Quot.sound`; the list per theorem is below. No `sorry`, no axioms of
  our own, no `native_decide`, no `bv_decide`. Some concrete examples use `decide` or `decide +kernel`, which the
  kernel evaluates.
* Mathlib, for proofs only; it is checked by the same kernel. Some statements use its `ℚ`, `List.Perm`,
  `List.Pairwise`, `Int` division and order classes, so their definitions are to be read as part of those statements.
* That the definitions in `Model/` mean what the cited Rust lines do. This is by reading; `Tests/` gives evidence.
* Behaviour of libraries, written down from their documentation and from knowledge of their source, which is not
  part of /repo:
  * `core`: `binary_search_by` (its algorithm is modelled; C109 proves that nothing depends on it or on the sorting
    algorithm, except which of several values under one key is found), stable `sort_by` (`List.mergeSort`), `partition_point`,
    `Vec` (clone, drop, drain, extend while unwinding), integer arithmetic, `as` casts, IEEE arithmetic
    (C121 proves that the model of floats is what the rules in `Spec/FloatBits.lean` say of bit patterns; `f32::min/max` return the other operand for NaN), `RwLock` (mutual exclusion, release on unwinding, poisoning by write guards).
  * `num-rational` 0.4 and `num-integer`: `Ratio::new`, `reduce`, `+ - * / %`, comparison, `floor/ceil/round/trunc`,
    and its serde impls. Most of the model uses exact comparison of the rationals; C73 proves that the comparison
    algorithm of the crate computes it for positive denominators.
  * `hashbrown` with `FxHasher`: a finite map, given that hashes agree with `==` (C37).
  * `serde` and `serde_derive`: the data model, sequence and struct visitors, `erased_serde` forwarding.
  * `bevy_reflect` 0.15 and `ReflectComponent` of `bevy_ecs`: what `derive(Reflect)` generates, for C130 only; types are
    taken to be registered.
  * `bevy_ecs`: `Query::get`, `Query::iter_many` (in order, skipping entities that do not match, repeating
    repeated entities), resources.
  * Rust's `repr(C)` layout rules and alignment of statics and locals.
* `Addr.inj`: the vtables of different stat types have different addresses. Rust guarantees this for `static`
  items of non-zero size; a user who returns the same table for two stat types would need `unsafe`. Generic stat
  types cannot use a `static`; casts, the registry of defaults and `StatMap` are also modelled without this
  assumption (C102, C126, C127, C136).
* The model takes the local array in `Buffer::from` to be placed at an address aligned for the value; C64 shows
  that the code does not ensure this.

## Findings

Where the code violates a claim; each is proved with a concrete witness unless marked "by reading".

1. `GlobalStatDefaults::patch` of a stat without default stores the `StatOperation` itself where a value belongs;
   any later query of the stat is undefined behaviour (`plugin.rs:158-162`; C42, C58, C67, C80).
2. `Prioritized::join` never raises `priority`, so of three or more values the winner may not have the highest
   priority; and the default's priority 0 hides lower ones (C27).
3. `StatIntPercent::default` has addend 1, and `join` adds multipliers where `mul` multiplies them (C26, C29).
4. A deserialised `StatMap` is not sorted again. In a process with other vtable addresses it misses stored stats
   and can read a value at the wrong type (C15).
5. `from_iter`/`extend` keep repeated keys, whereas insertion replaces (C12).
6. Leaks: overwriting insertion in the map, the cache and the defaults; `unwrap_or((vtable.default)())`, which
   always builds the default; panicking joins (C57, C58).
7. `bool` and `Prioritized` ignore `Or`/`Not` operations, so `into_stat` and `write_to` differ for `Prioritized` (C29).
8. `Int::from_i64` panics for `u64`, `usize`, `u128`, `i128` (C33).
9. Signed `Saturating` integers depend on operation order; checked primitives panic in some orders only (C32).
10. `f32`/`f64` stats depend on operation order (C24, C62); `StatIntFloatMul<i32, f32>` changes bases above 2^24 (C25).
11. The derive macro numbers leading variants from 1; a later explicit discriminant can collide, so that two
    variants are one stat (C39).
12. The cache key does not include the joined streams (C51).
13. A stream may replace the whole `StatValuePair` by one of another stat in safe code: misread values and a
    poisoned cache (C48, C49, C50, C55).
14. `StatInt<i64>`, `StatFloat<f64>` and `StatOnce<String>` exceed the 24 byte limit and always panic (C34).
15. `cast`, `is_then_cast` and `into_result` validate the layout of the stat type, not of its value (C36, C38).
16. `clear_stat_cache` panics without the resource, `clear_cache` on a query does nothing then (C60).
17. An exact query with empty `any_of` also matches modifiers that have `any_of` flags (C02 states this).
18. Base values at the end of the integer range panic when rounded down or up; `StatIntPercentAdditive` overflows
    for `base * SCALE` (C30).
19. `extend` with a panicking iterator leaves the vector unsorted; after catching the panic, querying reads a
    value at the wrong type (C63).
20. `Buffer::from` writes through a pointer that need not be aligned (C64).
21. A loaded `Fraction` may be unreduced or have a negative denominator (C65).
22. A float stat whose product is NaN evaluates to its maximum; `StatIntFloatMul` to 0 (C71, C23).
23. Wrapping integers: a bonus can lower a stat (C70).
24. Deserialising a `StatInst` inside the scope but without `StatDeserializers` panics instead of failing (C14).
25. `has_attribute` does not require the entity to be a `StatEntity` (C47).
26. A loaded `Fraction` with negative denominator is ordered wrongly (C73); without overflow checks fraction arithmetic wraps (C72).
27. A user `Clone` that panics inside `cache_pair`, or a destructor that panics inside `clear`, poisons the cache for good: every later query with it, and its drop, panics, and its values leak (C76).
28. An entry with a surplus element, rejected by a strict format after its value was read, leaks that value: the tuple holds a `Buffer`, which has no destructor (C78).
29. `StatValuePair::cast` and `is_then_cast` return references with a lifetime unrelated to the pair: safe code can use them after the pair is gone, moved or replaced, or have two at once (C82).
30. A `StatValuePair` has no destructor: its value leaks unless `into_result` is called at the right type (C83).
31. Rounding a fraction near the ends of its type panics inside num_rational although the rounded value is representable: `ceil` of 2147483647/2 in `i32` (C31_no_room_panics; the exact condition is C31_returns_iff).
32. `#[stat(kind = "x", value = "T")]` is rejected as lacking a value, while `#[stat(value = "T", kind = "x")]` is accepted and the foreign item ignored (C90).
33. Two threads that query the same uncached stat at the same time both store it, and the first value leaks; within one thread this cannot happen (C93), and otherwise each query that overlaps the first store does so at most once (C115).
34. A stream that stores an answer it got in the cache leaks the copy already stored there; one that stores a wrong pair changes what everybody's later queries return (C94).
35. With a wrong (safe) `Ord` of the qualifier type, `extend` and `from_iter` of a `StatMap` rely on how the standard library's sort happens to leave the elements: if the entries of a stat are not together afterwards, iterating reads values at the wrong type (C96_extend_unspecified). All other methods are safe with any `Ord` (C96). The same would follow from an `Ord` that panics inside that sort.
36. A comparison of qualifiers that panics inside `insert` or `insert_base` leaks the value: it is put in a `Buffer`, which has no destructor, before the search (C98_insert_leaks). `modify` searches first and does not leak.
37. A destructor that runs during unwinding and calls `StatCache::clear` inside `catch_unwind`: if the destructor of a cached value panics there, the lock is not poisoned (guards taken while panicking do not poison), the map keeps buffers of dropped values, and the next `clear`, lookup or drop of the cache uses them again (C99_late_clear).
38. `StatMap::remove` leaks the qualifier of the entry: `take` moves the value out and forgets the whole entry (stat_map.rs:45-49). It matters when the flag type owns memory, such as a set, which the documentation suggests (C100_remove_leaks).
39. Streams that catch panics of nested queries (`catch_unwind`) make the order in which sources are added visible even if all operations commute: an intermediate overflow panics in one order only (C101_order).
40. `StatInst` is compared by the address of its vtable, and its documentation (stat.rs:109-116) says two stats cannot share one in safe Rust. A generic stat type cannot use `vtable!` (a `static` cannot mention `Self`'s parameters) and returns a promoted constant instead; constants with equal bytes may be given one address. Stat types that share an address but not a value type are misread by casts and by the registry of defaults (C102_needed).
41. Operations are not atomic under panics: a `join` whose multipliers overflow leaves the addends summed (C103_refuted_join), and `*=` of a fraction that overflows leaves another number, so that a stat evaluates differently after the panic is caught (C103_refuted_fraction: 12 becomes 4). Without overflow checks a multiplier can be left with denominator zero, after which every evaluation panics (C103_refuted_release, C103_release_stuck).
42. In a map that is out of order (after a caught panic in `extend`, or loaded) `iter`, queries and `remove_all` silently miss entries of the stat that lie outside of the range found (C104_missed); they never panic on the range itself (C104_slice).
43. After a caught panic in `extend`, or after loading (where C15 fails), the map can be repaired by another `extend`, even of an empty iterator, since that sorts the whole vector (C105_repair, C105_other_process). Before that `get` can miss entries and `insert` can add a second entry for a key (C105_missed).
44. In a map out of order a query can silently join values of other stats with the same value type (C106_others_joined: 7 instead of 2), and misreads memory for others (C106_two_types), with safe code only.
45. `QualifierQuery::Exact` is documented as denying more general qualifiers, and suggests a part of the aggregate query; with an empty `any_of` it also finds modifiers for `any_of` sets that do not apply to the aggregate query for the same flags, such as elemental magic in a query for magic (C107_refuted, the very query of lib.rs:64-71). It holds if `any_of` names a flag (C107_partial).
46. The documented use of exact queries, converting a share of one kind of damage into another without counting anything twice, does count a registered default twice, since exact queries start from it as well (C108_refuted: 15 instead of 10).
47. A bonus applied with `modify(.., Add(x))` cannot be taken back with `Add(-x)` over `Saturating` integers (for no `x` whatsoever, C117_saturating_never), nor in general over floats (C117_float_refuted); flags and bounds cannot be taken back by any operation (C117_flags_stay, C117_bounds_stay). Removing a map entry works for all (C117_no_trace).
48. If two stat types share a vtable address (finding 40) and also a value type, nothing is misread, but a `StatMap` takes stats of the two types with equal indices for one: a bonus for one is read, queried, changed and removed as the other's (C126_exact). The cache does so too (C127_exact).
49. Qualifiers that ask for the same thing are different keys: `any_of(Fire)` and `all_of(Fire)` apply to the same aggregate queries (C128_same), but a map holds a value under each, `get`, `modify` and `remove` for one do not find the other, and queries count both.
50. `serde_json`, which tests/serde.rs saves with, writes infinities as `null` without an error, and refuses them when loading. One infinite number anywhere in a `StatMap`, such as a bound of `f32::INFINITY` or a sum that overflowed and that evaluation clamps away, makes the whole saved map unloadable (C129_map, C129_overflow).
51. `StatMap` derives `Reflect` and registers itself as a reflected component, but its only field is ignored: maps rebuilt, copied or spawned by reflection, as Bevy scenes do, are empty without any error, applying a map to a map does nothing, and `reflect_partial_eq` takes all maps for equal (C130_copy_iff, C130_dynamic, C130_all_same, C130_lost). The documentation (lib.rs:113) offers `Reflect` deserialization; what it loads is lost when inserted.
52. The cache returns clones of clones: a value type whose `Clone` resets or counts something makes the first of two equal queries return one value and the second another (C131_refuted, C131_again), and other stats that ask for it change too. Nothing says that values must be copied faithfully; `Shareable` only asks for `Clone`.
53. The end of a serialised entry is not checked (stat_map.rs:427-445 never asks for a fourth element), and `postcard` does not, either: an entry that announces four elements is loaded as one with three, and the bytes of the fourth are taken for the next entry (C132_surplus, C132_misread). JSON reports such data. Writing the entry as a tuple, whose length is part of the type, would save the byte and the question.
54. Saved maps are not reproducible: entries are written in the order of the addresses of the vtables, so that two runs of a program, or builds of it, save the same map as different bytes as soon as it holds stats of two types (C133_processes, C133_differ). Saves cannot be compared, hashed or diffed.
55. The names of derived stats are the bare identifiers of variants (derive/src/lib.rs:69-174) and the registry is one for all types: two enums that both have, say, a variant `Damage` cannot be registered in one app, the second call panics (C134_clash), and nothing but renaming the variant (or implementing `Stat` by hand) helps.
* A user `Clone` that looks something up in the cache it is being cloned into waits for ever, and with it all that use the cache (`C87_reentrant_deadlock`); a `Debug` that does so can, depending on the platform (`C87_nested_read_deadlock`).

## Axioms per theorem

Printed by `collectAxioms` for every theorem of a claim (`Verif.Props`). Nothing else occurs.

No axioms (24 theorems):
C102_addr_separates, C103_refuted_fraction, C114_exists, C132_value, C137_percent_differs, C143_unsupported,
C18_bool_or_is_ignored, C26_default_not_identity, C26_mul_join_differ, C29_int_percent_refuted,
C29_prioritized_refuted, C30_int_fraction_refuted, C30_int_percent_additive_refuted, C30_int_percent_refuted,
C33_bounds, C34_float_storable, C34_statExists_storable, C34_statIntFloatMul_storable, C34_types_storable,
C61_overflow_differs, C65_unsupported, C70_negative_multiplier_lowers, C70_wrapping_lowers, C72_only_panics

`Quot.sound` (1 theorems):
C52_none_registered

`propext` (70 theorems):
C02_exact_match, C04_is_none, C05_exact_disjoint, C05_exact_excludes_different, C05_exact_excludes_general,
C08_unstorable_panics, C102_addr, C103_int_atomic, C103_int_join, C103_join_left, C103_refuted_release,
C108_once_partial, C114_flags, C115_running, C128_exact, C128_ways, C129_bool, C129_int, C129_statExists, C129_string,
C130_copy, C130_copy_iff, C130_defaults, C130_dynamic, C130_fails, C130_rebuilt_empty, C132_bool, C132_statExists,
C137_add, C140_relation, C140_stat, C143_bool, C143_int, C143_statExists, C143_string, C144_stats,
C14_no_registry_panics, C19_set, C29_prioritized_iff, C29_sets, C30_sets, C34_storable_iff_fits, C34_validate,
C36_refuted_big_stat, C39_refuted_collision, C43_relation_unmarked, C43_stat_unmarked, C43_unstorable_panics,
C44_builder_order, C44_builders, C58_refuted_patch, C59_independent, C59_noop, C60_clear_with_cache,
C60_clear_without_cache, C64_storable_iff_accessible, C65_bool, C65_int, C65_loads_unreduced, C65_statExists,
C65_string, C68_cast_other, C72_zero_denominator, C76_harmless_partial, C76_poisoned_forever, C89_only, C92_sequence,
C99_keys, C99_late_clear, C99_poisons

`Classical.choice`, `Quot.sound` (1 theorems):
C136_every

`propext`, `Quot.sound` (230 theorems):
C100_remove_leaks, C101_catch, C102_cast, C102_intoResult, C103_assign_refines, C103_patch, C103_patch_atomic,
C103_refines, C104_missed, C105_interrupted, C105_loaded, C105_missed, C106_others_joined, C107_refuted,
C109_repeated_differ, C110_answer, C110_reached, C112_closed_exists, C112_closed_once, C112_query, C112_relation,
C112_satisfiable, C113_depth_step, C114_query, C114_relation, C115_tight, C117_bounds_stay,
C117_bounds_stay_int_float_mul, C117_bounds_stay_int_fraction, C117_bounds_stay_percent,
C117_bounds_stay_percent_additive, C120_alternatives, C120_exacts, C123_insert, C124_fixed, C124_includes,
C124_neither, C124_possible, C124_sequential, C124_stale, C124_types, C126_addr, C127_addr, C127_defaults, C127_exact,
C127_iff, C127_recall, C129_frac, C12_refuted_duplicates, C130_apply_nothing, C130_lost, C131_again, C131_again_iff,
C131_copies, C131_defaults, C131_possible, C131_refuted, C131_transparent, C132_fields, C132_integer_iff,
C132_qualifier, C132_statFlags, C132_statFloat, C132_statFloatAdditive, C132_statMult, C134_clash, C134_register_iff,
C136_reads, C139_contributes, C139_does, C142_clear_overwrites, C142_empty, C143_frac, C144_eval, C144_none,
C14_entry_accepted_iff, C14_loaded_typed, C14_map_accepted_iff, C14_map_iff, C14_rejects, C14_unsupported_panics,
C15_refuted_other_addresses, C16_default_unit, C16_join_comm, C18_bool, C18_exists, C19_accessors, C19_once,
C20_default_unit, C20_join_comm, C21_join_comm, C27_actual, C27_default_hides_modifiers, C27_equal_priorities_partial,
C27_two_values_partial, C29_int_percent_never, C29_prioritized_partial, C32_never_panics_partial, C34_reprC_sound,
C34_store_iff, C34_struct_at_least, C36_cast_partial, C36_cast_self_partial, C36_iff, C36_intoResult_partial, C36_is,
C36_isThenCast_iff, C36_isThenCast_partial, C36_never_misread, C36_refuted, C38_first_match_stat_partial,
C38_first_match_type_partial, C38_no_match_partial, C38_refuted, C38_refuted_big_stat, C38_typed, C39_common_cases,
C39_numbering, C40_accepts_iff, C40_unit_struct, C40_unknown_index, C41_register_finds, C41_register_idempotent,
C41_register_ok_iff, C41_replace, C41_replace_finds, C42_history_partial, C42_iff, C42_refuted_bound_first,
C42_refuted_bound_first_general, C42_world_partial, C42_world_returns_partial, C43_relation_marked, C43_stat_marked,
C44_any_order, C44_assembled, C44_order, C44_returns_iff, C44_start, C44_value, C45_children_calls, C45_children_last,
C45_non_matching, C45_only_own_children, C46_independent, C46_no_cache_access, C46_relation_calls, C47_has_attribute,
C48_refuted, C49_refuted, C49_stays_partial, C50_no_misread_partial, C50_progress, C50_refuted, C50_sequential,
C51_no_cache, C51_no_cache_clearing, C51_refuted, C52_cached, C52_registration_order, C53_self_query_diverges,
C53_self_query_never_returns, C53_terminates, C55_iff, C55_refuted, C55_result_type_partial, C57_refuted,
C57_refuted_query, C60_register, C61_statInt, C61_statIntFloatMul, C61_statIntFraction, C61_statIntPercent,
C61_statIntPercentAdditive, C63_extend_repeated, C63_refuted_extend, C64_accesses_iff, C64_accesses_partial,
C64_from_ok_iff, C64_refuted_from, C65_frac, C67_cache, C67_defaults_iff, C67_defaults_partial, C67_pair,
C67_refuted_defaults, C68_agrees, C68_cast_self, C68_equivalence, C68_is, C68_is_then_cast, C69_cast,
C69_cast_never_misreads, C69_logical_errors, C78_refuted, C79_range_refuted, C80_cache, C80_cache_iff,
C80_defaults_history_iff, C80_defaults_iff, C80_defaults_partial, C80_map_iff, C80_refuted, C82_refuted, C85_queries,
C85_recall, C85_seeded, C87_alive, C87_exclusive, C87_guarded, C87_nested_read_deadlock, C87_waits_for_itself,
C93_swap_overwrites, C93_threads_overwrite, C94_ends_recursion, C94_next, C94_recalled, C94_wrong_pair, C95_clears,
C95_concurrent, C95_hit, C95_typed, C96_extend_unspecified, C97_confused, C97_no_ub, C97_typed, C98_extend_unsorted,
C98_insert_leaks, C98_panic_unchanged, C98_query_leaks

`propext`, `Classical.choice`, `Quot.sound` (610 theorems):
C01_aggregate_match, C01_aggregate_match_bits, C03_aggregate_monotone, C03_none_always_applies,
C03_none_query_only_none, C04_and_all_of, C04_and_any_of, C04_constructors, C06_behaves_as_map, C07_sorted_and_unique,
C08_query_joins_matching, C09_determined_by_values, C09_insertion_order_irrelevant, C100_cache, C100_exact,
C100_no_remove, C100_same_maps, C100_sound, C101_faithful, C101_order, C101_self_query, C102_iff, C102_isThenCast,
C102_needed, C102_safe, C103_fraction_add_atomic, C103_fraction_left, C103_fraction_mul, C103_negative_left,
C103_refuted_join, C103_release_stuck, C104_absent, C104_remove_all, C104_slice, C104_slice_mut, C105_contents,
C105_other_process, C105_reached, C105_repair, C106_iter_mut, C106_one_type, C106_reads, C106_two_types,
C107_both_iff, C107_iff, C107_partial, C108_cached, C108_default_twice, C108_endless, C108_int, C108_refuted,
C108_source, C108_value, C109_current, C109_extend, C109_history, C109_linear, C109_multimap, C10_iter, C10_iter_mut,
C110_stale, C111_additive, C111_additive_frac, C111_calls, C111_exact, C111_float, C111_float_frac, C111_fraction,
C111_int, C111_int_float_mul, C111_int_wrapping, C111_mult, C111_mult_frac, C111_percent_additive,
C112_closed_additive, C112_closed_additive_frac, C112_closed_flags, C112_closed_float, C112_closed_float_frac,
C112_closed_fraction, C112_closed_int, C112_closed_int_float_mul, C112_closed_int_wrapping, C112_closed_mult,
C112_closed_mult_frac, C112_closed_percent_additive, C112_query_cached, C113_cached, C113_circle, C113_depth_bound,
C113_endless_chain, C113_finite, C113_iff, C114_additive_frac, C114_float_frac, C114_fraction, C114_int,
C114_mult_frac, C114_percent_additive, C115_late, C115_once, C115_overwrites, C116_all, C116_iff, C116_nothing_else,
C116_schedule, C116_sequential, C117_bounds_stay_float, C117_bounds_stay_float_additive,
C117_bounds_stay_float_additive_frac, C117_bounds_stay_float_frac, C117_bounds_stay_mult, C117_bounds_stay_mult_frac,
C117_flags_stay, C117_float_refuted, C117_fractions, C117_given_back, C117_int, C117_int_fraction, C117_int_wrapping,
C117_no_trace, C117_percent_additive, C117_restored, C117_saturating_never, C118_bound, C118_distinct,
C118_exponential, C118_lookups, C118_never_more, C119_assembled, C119_determined, C119_determined_additive,
C119_determined_float, C119_determined_frac, C119_determined_int_float, C119_determined_mult, C119_equal,
C119_parts_return, C119_same, C119_split, C119_unordered, C119_values, C11_other_keys_undisturbed,
C11_remove_all_exact, C120_calls, C120_same, C120_subsets, C120_unordered, C120_values, C121_casts_exist, C121_exists,
C121_float, C121_float_additive, C121_int_float_mul, C121_mult, C121_negative_zero, C121_numbers, C121_operations,
C121_rounding, C121_rust, C121_same, C122_count, C122_doubling, C122_edges, C122_lookups, C123_floats_return,
C123_query, C123_returns, C123_types, C123_values, C124_invariant, C124_uncached, C125_errors, C125_for_each,
C125_get, C125_history, C125_panic, C125_program, C125_stop, C126_exact, C126_iff, C126_map, C126_query, C126_safe,
C128_general, C128_map, C128_map_iff, C128_same, C128_world, C128_world_general, C128_world_same, C129_bits,
C129_float, C129_map, C129_overflow, C129_prioritized, C129_qualifier, C129_statFlags, C129_statFloat,
C129_statFloatAdditive, C129_statInt, C129_statIntFloatMul, C129_statIntFraction, C129_statIntPercent,
C129_statIntPercentAdditive, C129_statMult, C129_statOnce, C129_statOp, C12_extend_iff,
C12_extend_is_insertion_partial, C12_from_iter_is_insertion_partial, C130_all_same, C130_fields, C130_not_faithful,
C130_qualifier, C130_query, C131_invariant, C131_map, C131_sequential, C132_accepted_iff, C132_as_data, C132_bits,
C132_bounded, C132_bytes, C132_distinct, C132_entry_iff, C132_example, C132_float, C132_float_iff, C132_follows,
C132_frac, C132_int, C132_misread, C132_no_ub, C132_not_unique, C132_number, C132_number_iff, C132_parts,
C132_prioritized, C132_resaved, C132_roundtrip, C132_saved, C132_several, C132_short, C132_statInt,
C132_statIntFloatMul, C132_statIntFraction, C132_statIntPercent, C132_statIntPercentAdditive, C132_statOnce,
C132_statOp, C132_string, C132_string_iff, C132_surplus, C132_tags, C132_truncated, C132_world, C133_bytes,
C133_contents, C133_differ, C133_processes, C133_savable, C134_distinct_iff, C134_listed, C134_name, C134_save_load,
C135_clear_iff, C135_fresh, C135_maps, C135_snapshots, C136_call, C136_history, C136_multimap, C136_safe,
C136_safe_iff, C137_bench, C137_naive, C138_floor, C138_query, C138_relation, C139_crate_flags, C139_crate_int,
C139_order, C139_safe, C139_selects, C13_roundtrip, C13_roundtrip_of_stored, C13_serialises_iff, C140_cached,
C140_crate, C141_bits, C141_laws, C141_methods, C142_frozen, C142_holds, C142_no_leak, C142_once, C142_right_for,
C142_right_iff, C142_threads, C143_bits, C143_float, C143_prioritized, C143_qualifier, C143_statCache, C143_statFlags,
C143_statFloat, C143_statFloatAdditive, C143_statInt, C143_statIntFloatMul, C143_statIntFraction, C143_statIntPercent,
C143_statIntPercentAdditive, C143_statMult, C143_statOnce, C143_statOp, C143_struct, C144_allegiance,
C144_allegiance_panics, C144_cached_all, C144_cached_allegiance, C144_cached_distance, C144_cached_none,
C144_distance, C144_distance_panics, C144_stays, C15_iff, C15_iter_iff, C15_same_order_partial, C16_closed_form,
C16_closed_form_wrapping, C16_join_assoc, C16_no_overflow, C16_unordered, C17_flags, C19_order, C20_closed_form,
C20_join_assoc, C20_no_overflow, C20_unordered, C21_closed_form, C21_default_unit, C21_join_assoc, C21_no_overflow,
C21_unordered, C22_closed_form_additive, C22_closed_form_float, C22_closed_form_mult, C22_default_unit,
C22_join_assoc, C22_join_comm, C22_no_overflow_additive, C22_no_overflow_float, C22_no_overflow_mult, C22_unordered,
C23_float, C23_float_additive, C23_float_mult, C24_bounds_partial, C24_exact_additive_partial,
C24_exact_float_partial, C24_exact_mult_partial, C24_exact_partial, C24_formats, C24_join_comm_partial,
C24_opposite_infinities_additive, C24_opposite_infinities_float, C24_refuted, C24_unordered_float_partial, C25_actual,
C25_iff, C25_limits, C25_narrow_partial, C25_refuted, C25_small_partial, C26_actual, C26_default_join_value,
C26_joined_modifiers, C26_no_overflow_partial, C26_ops_on_base_partial, C27_iff, C27_refuted, C27_taken_over_partial,
C28_float, C28_float_additive, C28_float_mult, C28_fraction, C28_fraction_additive, C28_fraction_mult, C28_int,
C28_int_float_mul, C28_int_fraction, C28_int_percent, C28_int_percent_additive, C29_floats, C29_floats_reachable,
C29_fractions, C29_int, C29_int_float_mul, C29_int_fraction, C29_int_percent_additive, C30_floats, C30_fractions,
C30_int, C30_int_fraction_partial, C30_int_percent_additive_partial, C31_floats, C31_floats_special,
C31_integers_fixed, C31_no_room_panics, C31_returns, C31_returns_iff, C31_rounds_as_documented, C31_spec_unique,
C32_debug_panic_depends_on_order, C32_every_order_iff, C32_order_independent_partial, C32_same_outcome_iff,
C32_selected_sums, C32_signed_saturating_order_matters, C32_some_order_iff, C33_each_type, C33_small_types_partial,
C33_wide_types_panic, C34_prioritized_storable, C34_statFlags_storable, C34_statOnce_storable, C35_buffers_typed,
C35_no_misread, C35_no_misread_observers, C37_stat_identity, C38_first_match_stat_iff, C38_first_match_type_iff,
C38_no_match_iff, C39_distinct_iff, C39_lossless_partial, C39_roundtrip_iff, C40_values_names, C44_int, C44_stat_map,
C48_iff, C48_transparent_partial, C49_iff, C49_recomputed_partial, C49_stays_iff, C50_concurrent_partial, C50_iff,
C51_agreeing_partial, C51_iff, C53_terminates_cached, C54_registered_bounds, C55_cached_iff, C56_sound,
C56_sound_running, C57_alive, C57_exact, C57_no_leak_partial, C58_drop_panics_partial, C58_exact_partial,
C58_refuted_drop, C58_refuted_leak, C58_sound_partial, C62_addend_bounds, C62_closed_form_partial, C62_default_unit,
C62_join_comm, C62_no_overflow, C62_refuted, C62_unordered_partial, C63_extend_iff, C63_other_keys_undisturbed,
C63_survives_partial, C65_bits, C65_cache_empty, C65_field_order, C65_float, C65_prioritized, C65_qualifier,
C65_statFlags, C65_statFloat, C65_statFloatAdditive, C65_statInt, C65_statIntFloatMul, C65_statIntFraction,
C65_statIntPercent, C65_statIntPercentAdditive, C65_statMult, C65_statOnce, C65_statOp, C66_empty, C66_save_load,
C66_unregistered, C67_map, C69_map, C69_map_safe, C70_statFloatAdditive_fraction, C70_statFloat_fraction, C70_statInt,
C70_statIntFraction, C70_statIntPercentAdditive, C70_statMult_fraction, C71_negative_multiplier_lowers, C71_statFloat,
C71_statFloatAdditive, C71_statFloatAdditive_bounds, C71_statFloat_bounds, C71_statInt, C71_statIntFloatMul,
C71_statMult, C71_statMult_bounds, C71_zero_becomes_max, C72_exact, C72_exact_int, C72_new, C72_no_overflow,
C72_release_wraps, C72_zero_divisor, C73_cmp, C73_eq, C73_max, C73_min, C73_negative_denominator, C73_shorthand,
C73_terminates, C74_multimap, C74_no_ub, C74_query, C74_remove, C75_sound, C75_sound_running, C76_exact, C76_refuted,
C77_loads, C77_sound, C78_exact, C78_no_leak_partial, C79_exact, C79_keyed_sound, C79_sound, C80_map, C81_alive,
C81_same_entries, C82_iff, C82_scoped_partial, C83_exact, C83_sound, C84_additive, C84_additive_order, C84_float,
C84_float_order, C84_int_float_mul, C84_int_order, C84_mult, C84_mult_order, C85_returns_iff, C86_cached, C86_exact,
C86_flags, C86_int, C87_completes, C87_no_deadlock, C87_reentrant_deadlock, C87_terminates, C88_linearizable,
C88_results, C89_change_child, C89_change_own, C89_change_value, C89_depends, C89_flags, C89_insert_child,
C89_insert_own, C89_int, C89_one_more, C89_one_other, C89_other_flags, C89_other_int, C89_untouched, C90_no_string,
C90_order_matters, C90_rest_ignored, C90_value_type, C90_well_formed, C91_refuted, C91_reloaded_partial, C91_repaired,
C92_forgets, C92_leaves, C92_returns, C93_no_leak, C93_once, C94_leaks, C94_returns, C96_any_ord, C96_extend,
C96_no_ub, C96_query, C96_remove, C97_right_among, C98_agrees, C98_keyed_sound, C98_one, C98_others, C98_panics_at,
C98_panics_only, C98_sorted, C98_sound, C98_visits, C99_agrees, C99_sound
