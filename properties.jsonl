{"id": "C01", "title": "Aggregate queries match exactly the modifiers whose requirements the query satisfies", "statement": "For a query QualifierQuery::Aggregate(q), a modifier's Qualifier matches if and only if every flag in its all_of set is present in q, and its any_of set is either empty or shares at least one flag with q.", "quantifier": "every qualifier, every query and every flag type implementing the blanket QualifierFlag (any bit width)", "why_tests_cant": "Unit tests sample a few named flags; the claim ranges over all pairs of flag sets of every width.", "anchors": ["src/qualifier.rs: Qualifier::qualifies_as, QualifierFlag blanket impl, QualifierQuery::Aggregate, QualifierQuery::qualify"]}
{"id": "C02", "title": "Exact queries match exactly the modifiers with the same all_of set and a covering any_of set", "statement": "For a query QualifierQuery::Exact{any_of,all_of}, a modifier's Qualifier matches if and only if its all_of set equals the queried all_of set and its any_of set contains every flag of the queried any_of set.", "quantifier": "every qualifier, every exact query, every flag width", "why_tests_cant": "Same as C01: universally quantified over flag sets.", "anchors": ["src/qualifier.rs: Qualifier::qualifies_as, QualifierQuery::Exact"]}
{"id": "C03", "title": "Widening an aggregate query never loses modifiers; unqualified modifiers always apply", "statement": "If a modifier matches Aggregate(q) it matches Aggregate(q') for every q' containing q; Qualifier::none() matches every Aggregate query; and Aggregate(none) is matched by the unqualified modifier only.", "quantifier": "every qualifier and every pair of nested queries", "why_tests_cant": "Monotonicity relates two unbounded families of inputs.", "anchors": ["src/qualifier.rs: qualifies_as, Qualifier::none, QualifierQuery::none, QualifierQuery::qualifies_none"]}
{"id": "C04", "title": "Qualifier builders add requirements exactly", "statement": "q.and_all_of(f) matches Aggregate(x) iff q does and x contains f; q.and_any_of(f), when q already has alternatives, matches iff q's all_of is met and x meets the old alternatives or f; is_none holds iff both sets are empty.", "quantifier": "every qualifier, every added flag set, every query", "why_tests_cant": "Universal over flag sets.", "anchors": ["src/qualifier.rs: Qualifier::{any_of,all_of,and_any_of,and_all_of,is_none}"]}
{"id": "C05", "title": "Exact queries exclude more general modifiers and never double count", "statement": "An Exact query for a non-empty all_of set is matched by no modifier whose all_of differs, in particular never by the unqualified modifier; the modifier sets matched by two Exact queries with different all_of are disjoint, so transferring a quantity from one exact category to another duplicates nothing.", "quantifier": "every qualifier and every pair of exact queries", "why_tests_cant": "Disjointness over all modifiers cannot be sampled.", "anchors": ["src/qualifier.rs: qualifies_as, QualifierQuery::Exact", "src/lib.rs: crate docs on Exact"]}
{"id": "C06", "title": "StatMap behaves as a map from (qualifier, stat) to value", "statement": "After any history of insert, insert_base, modify, modify_with, get_mut writes, remove, remove_all and clear starting from an empty StatMap, get/get_evaled/remove/len/is_empty answer exactly as a plain finite map that received the same history would.", "quantifier": "every finite history of operations over every stat, qualifier and value", "why_tests_cant": "Histories are unbounded; the binary-searched sorted vector must agree with the map after each one.", "anchors": ["src/stat_map.rs: StatMap::{insert,insert_base,modify,modify_with,get,get_mut,get_evaled,remove,remove_all,clear,len,is_empty,binary_search}"]}
{"id": "C07", "title": "Reachable StatMaps hold each (qualifier, stat) at most once, in key order", "statement": "In every state reachable by C06's operations the map stores at most one value per (qualifier, stat) pair, keeps them in strictly ascending (stat, qualifier) order, and len equals the number of distinct keys present.", "quantifier": "every reachable state", "why_tests_cant": "An invariant over unbounded histories.", "anchors": ["src/stat_map.rs: StatMap::{insert,insert_base,modify,modify_with,remove,remove_all,binary_search,slice}"]}
{"id": "C08", "title": "Querying a StatMap joins exactly the qualifying entries of the queried stat", "statement": "query_stat(q, s) returns the default value joined with the value of each stored entry whose stat is s and whose qualifier matches q, each exactly once, and nothing else; eval_stat is its evaluation.", "quantifier": "every reachable map, every query, every stat and value type", "why_tests_cant": "Requires the range search over the sorted vector to be exact for every content.", "anchors": ["src/stat_map.rs: StatMap::{query_stat,eval_stat,slice}, StatStream for StatMap"]}
{"id": "C09", "title": "Insertion order does not matter", "statement": "Two histories that leave the same final value under each key yield identical maps; in particular inserting the same distinct (qualifier, stat, value) triples in any order yields the same map and the same answers to every query.", "quantifier": "every permutation of every list of insertions", "why_tests_cant": "Factorially many orders.", "anchors": ["src/stat_map.rs: StatMap::insert, StatMap::query_stat"]}
{"id": "C10", "title": "iter and iter_mut visit exactly the entries of one stat", "statement": "iter(s) yields exactly the (qualifier, value) pairs stored for s, once each, in ascending qualifier order; writing through iter_mut(s) changes exactly those values and nothing else.", "quantifier": "every reachable map, stat and update function", "why_tests_cant": "Universal over map contents and closures.", "anchors": ["src/stat_map.rs: StatMap::{iter,iter_mut,slice,slice_mut}"]}
{"id": "C11", "title": "Operations on one key do not disturb other keys", "statement": "insert, modify, remove on (q,s) leave every other key's value unchanged; remove_all(s) removes exactly the entries of s and keeps all others.", "quantifier": "every reachable map, every pair of distinct keys", "why_tests_cant": "Frame property over all states.", "anchors": ["src/stat_map.rs: StatMap::{insert,modify,modify_with,remove,remove_all}"]}
{"id": "C12", "title": "Bulk construction behaves like repeated insertion", "statement": "StatMap::from_iter and Extend::extend give the map that inserting the items one by one would give.", "quantifier": "every list of items and every starting map", "why_tests_cant": "Universal over item lists, including repeated keys. (Refuted for repeated keys; proved for distinct new keys.)", "anchors": ["src/stat_map.rs: FromIterator for StatMap, Extend for StatMap, sort"]}
{"id": "C13", "title": "Serialisation round trip inside one process", "statement": "Deserialising the serialised form of a StatMap, in a world where each of its stats is registered, yields the same map.", "quantifier": "every reachable map and every registry that maps each stored stat's name to it", "why_tests_cant": "Universal over contents and registries.", "anchors": ["src/stat_map.rs: Serialize/Deserialize for StatMapEntry, TupleSeed, DynSeed", "src/stat.rs: Serialize/Deserialize for StatInst", "src/plugin.rs: StatDeserializers"]}
{"id": "C14", "title": "Deserialisation is strict and typed", "statement": "Deserialisation fails on an unregistered stat name, on a missing qualifier, name or value, and on a value the stat's type rejects; whenever it succeeds each stored value has its stat's value type.", "quantifier": "every input sequence and registry", "why_tests_cant": "Adversarial inputs are unbounded.", "anchors": ["src/stat_map.rs: TupleSeed::visit_seq, DynSeed", "src/stat.rs: Deserialize for StatInst"]}
{"id": "C15", "title": "A saved StatMap keeps working after being loaded by another process", "statement": "A map loaded in a process where statics have different addresses answers get and query_stat as the saved map did.", "quantifier": "every reachable map and every pair of address assignments", "why_tests_cant": "Depends on linker/ASLR address order, which no single test run varies. (Refuted in general; proved when the address order of the used stat types agrees.)", "anchors": ["src/stat_map.rs: derive(Deserialize) for StatMap, binary_search, slice", "src/stat.rs: Ord for StatInst, ref_cmp"]}
{"id": "C16", "title": "StatInt is unordered and evaluates to clamp(sum * product)", "statement": "For StatInt, join is commutative and associative with default as identity; any reordering of add/mul/min/max operations and joins gives the same value; eval equals (sum of addends)*(product of multipliers) clamped to the tightest registered bounds, where the lower bound wins.", "quantifier": "every list of operations, every permutation, every primitive width", "why_tests_cant": "All permutations of unbounded lists.", "anchors": ["src/types/int_ratio.rs: StatInt", "src/operations.rs: StatOperation::write_to"]}
{"id": "C17", "title": "StatFlags: a flag is set iff some source sets it and no source clears it", "statement": "After any sequence of or/not operations and joins, in any order, a flag is present in eval exactly when it was in some or (or base) set and in no not set.", "quantifier": "every list of operations, every permutation, every flag width", "why_tests_cant": "All permutations of unbounded lists.", "anchors": ["src/types/flags.rs: StatFlags", "src/num_traits.rs: Flags::exclude"]}
{"id": "C18", "title": "StatExists and bool report whether any joined source is true", "statement": "Joining any collection of StatExists (or bool) values evaluates to true iff at least one of them is true, in any order; for StatExists the same holds for or operations.", "quantifier": "every list of values and operations", "why_tests_cant": "Unbounded lists.", "anchors": ["src/types/singleton.rs: StatExists", "src/operations.rs: StatValue for bool"]}
{"id": "C19", "title": "StatOnce finds a value iff exactly one source provided it", "statement": "After any sequence of or/set operations and joins, in any order, the result is NotFound when no source provided a value, Found(x) when exactly one source did, FoundMultiple when two or more did; try_set never produces FoundMultiple and reports whether it stored.", "quantifier": "every list of sources, every permutation", "why_tests_cant": "Unbounded lists.", "anchors": ["src/types/singleton.rs: StatOnce"]}
{"id": "C20", "title": "StatIntPercentAdditive is unordered and evaluates to clamp(round(sum*(scale+percent)/scale))", "statement": "join is commutative, associative with default as identity; any reordering of operations gives the same value; eval is the exact rational addend*(SCALE+mult)/SCALE rounded by the chosen mode, then clamped, lower bound winning.", "quantifier": "every list of operations, every rounding mode, scale and integer type whose arithmetic does not overflow", "why_tests_cant": "Unbounded lists and arithmetic.", "anchors": ["src/types/int_pct.rs: StatIntPercentAdditive"]}
{"id": "C21", "title": "StatIntFraction is unordered and evaluates to clamp(round(sum * product of fractions))", "statement": "As C20 for StatIntFraction with rational multipliers.", "quantifier": "every list of operations, every rounding mode, every integer type whose arithmetic does not overflow", "why_tests_cant": "Unbounded lists and rational arithmetic.", "anchors": ["src/types/int_ratio.rs: StatIntFraction", "src/num_traits.rs: Fraction"]}
{"id": "C22", "title": "StatFloat, StatFloatAdditive and StatMult over fractions are unordered with the documented closed form", "statement": "Over Fraction, join is commutative and associative with default as identity, reordering operations does not matter, and eval is (sum*product), (sum*(1+sum of multipliers)), (product) respectively, clamped with the lower bound winning.", "quantifier": "every list of operations and permutation, whenever the fraction arithmetic does not overflow", "why_tests_cant": "Unbounded lists.", "anchors": ["src/types/float.rs: StatFloat, StatFloatAdditive, StatMult"]}
{"id": "C23", "title": "Float stats never evaluate to NaN", "statement": "For f32/f64 stats, whatever operations and joins with whatever (NaN, infinite) operands were applied, eval is never NaN and never below the effective minimum; it is finite unless an infinite minimum bound was supplied.", "quantifier": "every list of operations with every float operand including NaN and infinities", "why_tests_cant": "NaN propagation through unbounded op sequences.", "anchors": ["src/types/float.rs: StatFloat, StatFloatAdditive, StatMult", "src/num_traits.rs: Float for f32/f64"]}
{"id": "C24", "title": "Float stats are order independent", "statement": "Reordering add/mul/min/max operations on a StatFloat<f32> does not change its evaluation.", "quantifier": "every list of operations and permutation", "why_tests_cant": "Rounding depends on order. (Refuted by a witness; proved for the bounds and whenever every intermediate result is exactly representable.)", "anchors": ["src/types/float.rs: StatFloat", "src/lib.rs: docs 'Unordered StatStream'"]}
{"id": "C25", "title": "StatIntFloatMul with multiplier 1 returns its integer base", "statement": "from_base(b).eval() equals b for StatIntFloatMul.", "quantifier": "every integer base value", "why_tests_cant": "The integer to float conversion loses precision only for large values. (Refuted for i32/f32; proved when |b| fits the significand.)", "anchors": ["src/types/int_ratio.rs: StatIntFloatMul"]}
{"id": "C26", "title": "StatIntPercent composes like the other stats", "statement": "For StatIntPercent, default is the identity of join, multipliers combine the same way by mul and by join, and eval of a base with percent multipliers is the rounded product.", "quantifier": "every list of operations and joins", "why_tests_cant": "Algebraic identity over all values. (Identity and mul/join agreement refuted; commutativity, associativity and the single-value closed form proved.)", "anchors": ["src/types/int_pct.rs: StatIntPercent"]}
{"id": "C27", "title": "Prioritized evaluates to the first (or last) value of highest priority", "statement": "Joining any list of Prioritized values evaluates to the first (LAST=false) or last (LAST=true) value having the highest priority in the list.", "quantifier": "every non-empty list of prioritized values", "why_tests_cant": "Unbounded lists. (Refuted with three entries; proved for up to two entries and characterised exactly.)", "anchors": ["src/types/prioritized.rs: Prioritized::join"]}
{"id": "C28", "title": "Evaluated stats respect their bounds", "statement": "eval of each numeric stat is at least every minimum registered, and at most every maximum registered provided no registered minimum exceeds a registered maximum; when they conflict the minimum wins.", "quantifier": "every numeric stat value type, every list of operations", "why_tests_cant": "Universal over values and bounds.", "anchors": ["src/types/mod.rs: eval, min, max"]}
{"id": "C29", "title": "Applying an operation equals joining the stat built from it", "statement": "For each unordered operation op, op.write_to(v) has the same effect as v.join(op.into_stat()), so a modifier stored in a StatMap and one written by a stream are interchangeable.", "quantifier": "every value type, value and operation", "why_tests_cant": "Universal. (Refuted for Or on bool, for StatIntPercent and for Base; proved for the others.)", "anchors": ["src/operations.rs: StatOperation::{write_to,into_stat}", "src/types/mod.rs"]}
{"id": "C30", "title": "Base values round trip", "statement": "from_base(b).eval() returns b, and joining from_base(b) into a default value evaluates to b, for StatInt, StatIntFraction, StatIntPercentAdditive, StatFloat, StatFloatAdditive, StatMult, StatFlags, StatExists, bool and StatOnce.", "quantifier": "every base value in range", "why_tests_cant": "Universal over bases.", "anchors": ["src/types/mod.rs: from_base"]}
{"id": "C31", "title": "Rounding modes round as documented", "statement": "Truncate rounds toward zero, Floor to the greatest integer not above, Ceil to the least integer not below, Round to the nearest with ties away from zero, TruncateSigned truncates but keeps the sign of non-zero inputs (at least 1 or at most -1).", "quantifier": "every rational input whose computation does not overflow", "why_tests_cant": "Universal over rationals.", "anchors": ["src/rounding.rs: Truncate, Floor, Ceil, Round, TruncateSigned", "src/num_traits.rs: Float for Fraction"]}
{"id": "C32", "title": "Integer overflow never makes the result depend on order", "statement": "For a StatInt, the evaluation does not depend on the order in which additions and multiplications were applied, whatever the integer type.", "quantifier": "every integer type (primitive in debug and release, Wrapping, Saturating), every permutation", "why_tests_cant": "Overflow only shows on extreme values and particular orders. (Proved for wrapping arithmetic; in panicking arithmetic proved that two successful orders agree; refuted for signed Saturating; proved for unsigned Saturating.)", "anchors": ["src/num_traits.rs: impl_int, impl_int_newtype", "src/types/int_ratio.rs: StatInt"]}
{"id": "C33", "title": "Percent scales convert to the stat's integer type", "statement": "T::from_i64(s) yields s when it fits in T and the nearest bound otherwise, for each supported integer type.", "quantifier": "every i64 value and every supported integer type", "why_tests_cant": "Universal over i64. (Refuted: panics for each value on u64, usize, u128 and i128; proved for the other types.)", "anchors": ["src/num_traits.rs: Int::from_i64"]}
{"id": "C34", "title": "Storage limits are exactly alignment at most 8 and size at most 24", "statement": "A value type can be stored in a StatMap, cache or query iff its alignment is 1, 2, 4 or 8 and its size at most 24 bytes; hence integer stats are storable iff the number type takes at most 4 bytes (never with 64-bit numbers), StatFloat with f32 but not f64, StatMult with both, StatFlags iff the flags take at most 12 bytes, StatOnce iff the payload takes at most 16 (alignment 8) or 20 bytes, Prioritized iff at most 20.", "quantifier": "every field layout", "why_tests_cant": "Universal over layouts; compile-time-size dependent panics.", "anchors": ["src/buffer.rs: validate", "src/types/mod.rs: repr(C, align(8))"]}
{"id": "C35", "title": "Values are always read back at the type they were stored with", "statement": "After any history of StatMap operations on any mix of stat types, no operation reads a stored buffer at a different type than it was written with.", "quantifier": "every history mixing stat types", "why_tests_cant": "Type confusion is history dependent.", "anchors": ["src/buffer.rs: Buffer", "src/stat_map.rs: StatMap", "src/stat.rs: StatVTable, StatInst"]}
{"id": "C36", "title": "Casting a stat/value pair succeeds exactly for its own stat", "statement": "is_then_cast(s) succeeds iff the pair's stat is s; cast::<T>() succeeds iff the pair's stat is of type T and returns that stat; into_result::<T>() succeeds iff it is of type T and returns the value; none of them misreads the value.", "quantifier": "every pair, stat type and stat", "why_tests_cant": "Universal over stat types.", "anchors": ["src/stat.rs: StatValuePair::{new,new_default,is,cast,is_then_cast,into_result}, Stat::is"]}
{"id": "C37", "title": "Stat identity is a lawful total order consistent with equality and hashing", "statement": "Comparison of stats is a total order whose equality is exactly 'same stat type and same index'; equal stats hash equally.", "quantifier": "every pair and triple of stats", "why_tests_cant": "Order laws range over all triples and address assignments.", "anchors": ["src/stat.rs: PartialEq/Ord/Hash for StatInst, ref_cmp"]}
{"id": "C38", "title": "match_stat! runs exactly the first matching arm", "statement": "For any list of arms, match_stat! executes exactly the first arm whose stat (or stat type) matches, leaves the value unchanged when none does, and never runs a later arm.", "quantifier": "every list of arms, every pair", "why_tests_cant": "Universal over arm lists.", "anchors": ["src/lib.rs: match_stat!"]}
{"id": "C39", "title": "Derived stats convert to and from their index losslessly", "statement": "For an enum deriving Stat, from_index(as_index(v)) == v for each variant v, so different variants are different stats.", "quantifier": "every fieldless enum accepted by the compiler", "why_tests_cant": "Universal over enum definitions. (Refuted: enum {A, B = 1}; proved exactly when the indices are distinct, in particular when the first variant has an explicit discriminant or none does.)", "anchors": ["derive/src/lib.rs: stat (indices, as_index, from_index)"]}
{"id": "C40", "title": "Derived stats enumerate and name all variants", "statement": "values() yields each variant exactly once, name() is the variant's identifier, and from_index of an unknown index yields the #[default] variant or panics when there is none.", "quantifier": "every fieldless enum", "why_tests_cant": "Universal over enum definitions.", "anchors": ["derive/src/lib.rs: stat (values, name, from_index)"]}
{"id": "C41", "title": "Stat registration is idempotent and conflict-detecting", "statement": "After register::<T>() succeeds each value of T is found by its name and earlier entries are unchanged; registering again changes nothing; registering a different stat under a taken name panics; register_replace always makes T's values the found ones.", "quantifier": "every registration history", "why_tests_cant": "Unbounded histories.", "anchors": ["src/plugin.rs: StatDeserializers::{register,register_replace,get}"]}
{"id": "C42", "title": "Registered defaults and bounds are returned for their stat only", "statement": "After any sequence of register_stat_default, register_stat_min and register_stat_max, the default of a stat is the last registered default with the later bounds applied, or the type's default when nothing was registered.", "quantifier": "every registration history", "why_tests_cant": "Unbounded histories. (Refuted: a bound registered first stores a value of the wrong type; proved when each bound is preceded by a default.)", "anchors": ["src/plugin.rs: GlobalStatDefaults::{insert,patch,get,get_dyn}, StatExtension"]}
{"id": "C43", "title": "Only StatEntity entities can be queried", "statement": "query_stat/query_eval return None iff the entity is not marked StatEntity (whatever is cached); query_relation returns None iff either entity is not marked.", "quantifier": "every world, entity, cache content and stream set", "why_tests_cant": "Universal over worlds and cache states.", "anchors": ["src/querier.rs: query_stat_erased, query_relation_erased"]}
{"id": "C44", "title": "A query joins the default with each source's contribution exactly once, in any order", "statement": "When sources contribute by joining values, the result of query_stat is the registered default joined with each contribution of the global relations, the entity's components, its relation components and its children's components, each exactly once, and is independent of the order in which sources were added and of the order of children.", "quantifier": "every world, every tree of joined streams, every permutation of sources", "why_tests_cant": "Universal over worlds and stream trees.", "anchors": ["src/querier.rs: query_stat_erased, JoinedQuerier::with_*", "src/stream.rs: QueryStream impls", "src/plugin.rs: GlobalStatRelations::stream_stat"]}
{"id": "C45", "title": "Children contribute iff they match the child query", "statement": "Child streams run once per listed child matching the child query, in list order, with the parent as 'this'; grandchildren and non-matching children contribute nothing; children need not be StatEntity.", "quantifier": "every world and hierarchy", "why_tests_cant": "Universal over hierarchies.", "anchors": ["src/querier.rs: query_stat_erased", "src/stream.rs: CxComponentStream::stream"]}
{"id": "C46", "title": "Relation queries use only relation streams present on both entities", "statement": "query_relation(from, to) starts from the registered default, runs global relations with the placeholder entity, then each relation stream iff both entities match its query, passing (from, to) in that order; component and children streams are not involved, nor is the cache unless the relation streams use it themselves.", "quantifier": "every world, pair of entities and stream tree", "why_tests_cant": "Universal over worlds.", "anchors": ["src/querier.rs: query_relation_erased", "src/stream.rs: CxComponentStream::relation"]}
{"id": "C47", "title": "has_attribute holds iff some source on the entity or its children reports it", "statement": "has_attribute(e, a) is true iff a component or relation stream matching e reports a, or a children stream matching a child of e reports a where e is a StatEntity.", "quantifier": "every world, stream tree and attribute", "why_tests_cant": "Universal over worlds.", "anchors": ["src/querier.rs: has_attribute_erased", "src/stream.rs: has_attribute impls"]}
{"id": "C48", "title": "Caching is transparent while the world is unchanged", "statement": "With a StatCache present, each query in any history of queries (including nested queries made by streams), clears, and world changes each followed by a clear before the next query, returns what it would return without a cache. Streams may clear the cache, and store right results in it.", "quantifier": "every history, every deterministic set of streams", "why_tests_cant": "Unbounded histories with re-entrant queries.", "anchors": ["src/querier.rs: query_stat_erased, clear_cache", "src/cache.rs: StatCache"]}
{"id": "C49", "title": "Cached results stay until cleared, then are recomputed", "statement": "After a successful cached query the same query returns the same result regardless of world changes while the entity remains a StatEntity, until the cache is cleared (from outside or by a stream); after a clear the next query reflects the current world.", "quantifier": "every world change and history of other queries", "why_tests_cant": "Unbounded histories.", "anchors": ["src/cache.rs: StatCache::{cache_pair,try_get_cached_dyn,clear}", "src/querier.rs"]}
{"id": "C50", "title": "Concurrent queries and clears on one cache are safe", "statement": "When any number of threads run queries over an unchanged world sharing one cache, interleaved arbitrarily with each other and with clears, each query that finishes returns the uncached result. Streams may clear the cache, and store right results in it.", "quantifier": "every number of threads and every interleaving of cache accesses", "why_tests_cant": "Interleavings cannot be enumerated by tests.", "anchors": ["src/cache.rs: StatCache (RwLock)", "src/querier.rs: query_stat_erased"]}
{"id": "C51", "title": "Different joined queriers may share the cache", "statement": "With a cache present, a query through one JoinedQuerier is not affected by earlier queries through a JoinedQuerier with different streams.", "quantifier": "every pair of queriers and history", "why_tests_cant": "Needs a particular history. (Refuted: the key omits the streams; proved when both give the same uncached results.)", "anchors": ["src/cache.rs: CachedEntry", "src/querier.rs"]}
{"id": "C52", "title": "Global relations run on each query in registration order", "statement": "Each registered global relation runs exactly once per uncached stat query, in registration order and before other sources; with none registered they contribute nothing.", "quantifier": "every registration history and query", "why_tests_cant": "Unbounded registrations.", "anchors": ["src/plugin.rs: GlobalStatRelations, register_stat_relation", "src/querier.rs"]}
{"id": "C53", "title": "Acyclic stat dependencies terminate", "statement": "If streams only query stats smaller in some well-founded order, each query terminates; a stream that queries its own stat on the same entity never returns, with or without a cache, unless a stream stores a result for it in the cache by hand.", "quantifier": "every well-founded dependency order, every recursion depth", "why_tests_cant": "Termination is not testable.", "anchors": ["src/querier.rs: query_stat_erased, Querier"]}
{"id": "C54", "title": "Globally registered bounds hold for each query result", "statement": "If a default with bounds lo..=hi (lo<=hi) is registered for a StatInt stat and sources only apply add/mul/min/max or joins without raising the minimum above hi, the evaluated query result is at most hi, and always at least lo.", "quantifier": "every world, stream set and contribution list", "why_tests_cant": "Universal over contributions.", "anchors": ["src/plugin.rs: register_stat_default/min/max", "src/querier.rs", "src/types/int_ratio.rs"]}
{"id": "C55", "title": "A query result always has the queried stat's value type", "statement": "query_stat::<S> never reinterprets a value of another type, whatever the (safe) streams do with the pair they are given.", "quantifier": "every stream program", "why_tests_cant": "Adversarial safe code. (Refuted: a stream may replace the whole pair; proved when streams keep the pair's stat and defaults are well typed.)", "anchors": ["src/querier.rs: query_stat, query_stat_erased", "src/stat.rs: StatValuePair::new"]}
{"id": "C56", "title": "StatMap never drops or moves out a stored value twice", "statement": "Over any history of StatMap operations, clone, and finally dropping the map, each stored value is dropped or moved out at most once and never used afterwards.", "quantifier": "every history", "why_tests_cant": "Double drops are history dependent.", "anchors": ["src/stat_map.rs: Drop/Clone for StatMapEntry, take, remove, remove_all, clear", "src/buffer.rs"]}
{"id": "C57", "title": "StatMap does not leak stored values", "statement": "Over any history ending with the map being dropped, each value that was stored is dropped or moved out.", "quantifier": "every history", "why_tests_cant": "Leaks are history dependent. (Refuted: overwriting insert leaks the old value; proved that the overwritten values are exactly the leaked ones.)", "anchors": ["src/stat_map.rs: insert, insert_base"]}
{"id": "C58", "title": "The cache and the defaults registry drop each stored value exactly once", "statement": "Over any history of cache_pair and clear followed by drop (and of default registrations followed by drop) no stored value is dropped twice and each is dropped.", "quantifier": "every history", "why_tests_cant": "History dependent. (No double drop proved; leaks exactly the overwritten values.)", "anchors": ["src/cache.rs: StatCache::{cache_pair,clear}, Drop", "src/plugin.rs: GlobalStatDefaults::insert, Drop"]}
{"id": "C59", "title": "StatMap queries are independent of the world", "statement": "StatMap::query_stat consults no other entity: the noop querier answers None/false to each request.", "quantifier": "every request", "why_tests_cant": "Universal.", "anchors": ["src/querier.rs: NoopQuerier", "src/stat_map.rs: query_stat"]}
{"id": "C60", "title": "Cache clearing through App requires the cache, through queries it does not", "statement": "World/App::clear_stat_cache panics iff no StatCache resource exists and otherwise empties it; StatQuery/JoinedQuerier::clear_cache is a no-op without a cache and otherwise empties it; register_* create their resource when missing and leave the others alone.", "quantifier": "every app state", "why_tests_cant": "Universal over states.", "anchors": ["src/plugin.rs: StatExtension for World", "src/querier.rs: clear_cache"]}
{"id": "C61", "title": "Unchecked integers agree with checked ones wherever those do not overflow", "statement": "For each integer stat: whenever assembling (any tree of base values, operations and joins) or evaluating over overflow-checked primitives returns, the same assembly or evaluation in a release build, over Wrapping<T> or over Saturating<T> returns the same value.", "quantifier": "every tree, integer type, convention and build", "why_tests_cant": "Quantifies over all operation sequences and three arithmetic conventions.", "anchors": ["src/num_traits.rs: Int", "src/types/int_ratio.rs", "src/types/int_pct.rs"]}
{"id": "C62", "title": "StatIntFloatMul is independent of operation order", "statement": "Joining is commutative and the default is its identity; the order and grouping of operations does not change an assembled value, and it evaluates to total \u00d7 product of multipliers, rounded by the rounding mode and clamped.", "quantifier": "every tree, integer type, float format, rounding mode", "why_tests_cant": "Float multiplication rounds, so examples with small numbers always pass. (Refuted: multiplier products that overflow or round differ by order; proved when no product of some of the multipliers needs rounding, e.g. dyadic multipliers within the precision.)", "anchors": ["src/types/int_ratio.rs: StatIntFloatMul"]}
{"id": "C63", "title": "A StatMap survives caught panics", "statement": "After any calls, some of which panicked in user code (closures, joins, destructors, iterators) and were caught, the map still holds each key once in order with a value of the right type, later calls behave as on a plain map, and the interrupted call changed no other key.", "quantifier": "every history of returned and interrupted calls", "why_tests_cant": "Needs a panic at each intermediate point. (Refuted: extend with a panicking iterator leaves the vector unsorted, and a later query reads a value at the wrong type; proved for all other calls.)", "anchors": ["src/stat_map.rs: Extend, insert, modify, modify_with, get_mut, iter_mut, remove_all, clear"]}
{"id": "C64", "title": "Raw accesses to stored values are aligned and in bounds", "statement": "Every read, write, move and join of a Buffer through a raw pointer, at any address the compiler may choose and for any type, is aligned for the type and within the 24 bytes, or panics first.", "quantifier": "every layout and every address", "why_tests_cant": "Depends on where the compiler places locals; a misplaced write usually works. (Refuted: Buffer::from writes through a byte array of alignment 1; proved for all other accesses.)", "anchors": ["src/buffer.rs: Buffer::from, as_ref, as_mut, into, read_move", "src/stat.rs: join, cast"]}
{"id": "C65", "title": "The crate's types survive saving and loading", "statement": "For every shipped value type, Qualifier and StatOperation: each valid value is read back as written in named and positional formats, only valid values are ever read (integers in range, nonzero denominators, representable floats), fields may come in any order with unknown ones ignored, and a loaded cache is empty.", "quantifier": "every value, every input datum and every format", "why_tests_cant": "Universal over values, inputs and formats. (A loaded fraction need not be in lowest terms.)", "anchors": ["src/types/mod.rs: derive(Serialize, Deserialize)", "src/num_traits.rs: Fraction", "src/operations.rs: StatOperation", "src/qualifier.rs: Qualifier", "src/cache.rs: serde(skip)"]}
{"id": "C66", "title": "Registering the stat types is sufficient and necessary for loading", "statement": "After register_stat has returned for the types of all stored stats, among any other registrations, every reachable map of listed stats is loaded exactly as saved; a saved map is never loaded where the name of one of its stats is missing.", "quantifier": "every history of registrations and of map operations", "why_tests_cant": "Combines registry, naming and formats over arbitrary histories.", "anchors": ["src/plugin.rs: register_stat, StatDeserializers::register", "src/stat.rs: Deserialize for StatInst", "src/stat_map.rs: Serialize/Deserialize for StatMapEntry"]}
{"id": "C67", "title": "Printing never misreads a value", "statement": "Printing a map, the registered defaults, the cache or a pair shows each entry once, with the name of its stat and the value a lookup would return, and fails only if a stat has no name.", "quantifier": "every reachable map, registry and cache", "why_tests_cant": "Debug reads type-erased bytes through the vtable; a wrong type shows only in rare histories. (Refuted: a bound registered before a default is printed as if it were a value.)", "anchors": ["src/stat_map.rs: Debug for StatMap", "src/plugin.rs: Debug for GlobalStatDefaults", "src/cache.rs: Debug for StatCache", "src/stat.rs: as_debug, Debug for StatValuePair"]}
{"id": "C68", "title": "Generic stat comparison and casts are exact", "statement": "Stat::is holds exactly for stats of one type with the same index and is an equivalence; cast returns the stat and value exactly for the same type and is_then_cast the value exactly for equal stats; both agree with the type-erased versions.", "quantifier": "every pair of stats of any types, every value", "why_tests_cant": "Universal over stat types, including types that share a value type.", "anchors": ["src/stat.rs: Stat::is, StatExt::cast, StatExt::is_then_cast"]}
{"id": "C69", "title": "Several vtables for one stat type cause logical errors but not unsafety", "statement": "If Stat::vtable returns different static tables at different calls, no cast and no map operation reads a value at the wrong type, and a successful cast returns what was stored; lookups may miss, though.", "quantifier": "every program, assignment of tables and history", "why_tests_cant": "The documented claim is about programs nobody writes on purpose.", "anchors": ["src/stat.rs: Stat::vtable, StatVTable::of, no_serialize"]}
{"id": "C70", "title": "A bonus never lowers an exact stat", "statement": "For StatInt, StatIntFraction, StatIntPercentAdditive and the three float stats over Fraction: one more operation anywhere in an assembly, in any order: a non-negative Add never lowers the result when the combined multiplier is non-negative, a Mul of at least one (a non-negative percentage for the additive stats) never lowers a non-negative result, Min never lowers and Max never raises it.", "quantifier": "every assembly, position of the extra operation, rounding mode and integer type, with overflow-checked arithmetic", "why_tests_cant": "A rounding mode or clamping order that breaks monotonicity shows only for particular operands. (False for wrapping arithmetic, shown by a witness.)", "anchors": ["src/types/int_ratio.rs", "src/types/int_pct.rs", "src/types/float.rs", "src/rounding.rs"]}
{"id": "C71", "title": "A bonus never lowers a non-negative float or saturating stat", "statement": "For f32/f64 StatFloat, StatFloatAdditive, StatMult, StatIntFloatMul, and StatInt over checked or saturating integers: if all addends and multipliers are non-negative, inserting Add, Mul of at least one or Min operations at any places never lowers the result, even if intermediate results are rounded, overflow, saturate or turn NaN. Inserting only Min (only Max) operations never lowers (raises) a float stat whatever the operands.", "quantifier": "every pair of assemblies that differ by inserted operations, every float format, rounding mode and integer type", "why_tests_cant": "Monotonicity of chains of rounded operations, with infinities and NaN, over all operand combinations.", "anchors": ["src/types/float.rs", "src/types/int_ratio.rs: StatIntFloatMul", "src/types/int_ratio.rs: StatInt", "src/num_traits.rs"]}
{"id": "C72", "title": "Fraction operators are exact or panic", "statement": "For valid fractions (lowest terms, positive denominator, representable parts) each of + - * / %, between fractions or with an integer on the right, either panics or, with overflow checks, returns the exact result (for %, what is left after taking away the divisor as often as the quotient truncated toward zero says) as a valid fraction. A zero denominator, divisor or modulus panics in every build. If the numbers met in the schoolbook calculation are representable the operator returns the exact result in every build.", "quantifier": "every operator, pair of valid fractions, integer, integer type and build", "why_tests_cant": "Overflow in the intermediate gcd, lcm and products and sign normalisation at the extremes of the type; testing covers few operands. (Without overflow checks exactness is lost in general, shown by a witness.)", "anchors": ["src/num_traits.rs: Fraction", "src/num_traits.rs: impl_ops!"]}
{"id": "C73", "title": "Comparing fractions is exact and never overflows", "statement": "Comparison of two valid fractions equals the comparison of the rational numbers, in every build, with no overflow; equal exactly if identical; min and max return the smaller and the larger argument. On any loaded fractions comparison returns or panics, but a negative denominator is ordered wrongly.", "quantifier": "every pair of valid fractions, integer type and build; for termination every pair of fractions", "why_tests_cant": "The continued fraction recursion has data dependent depth and the extremes of the type are where cross multiplication would overflow.", "anchors": ["src/num_traits.rs: Fraction (derive PartialEq, Eq, PartialOrd, Ord)", "src/num_traits.rs: impl Float for Fraction"]}
{"id": "C74", "title": "A StatMap with repeated keys is a multimap", "statement": "After any history of StatMap calls including from_iter and extend with repeated keys, the map behaves as a bag of keyed values: insert, modify, get_mut and remove act on one of the values under the key (and on a new one only if there is none), iter_mut, remove_all and clear on all, extend adds all items; get, iter, len and is_empty show the bag, remove returns the value taken out, a query joins all matching values. Calls fail only if the caller's code fails or the value type cannot be stored; no undefined behaviour arises.", "quantifier": "every finite history of calls, stat types, addresses of vtables", "why_tests_cant": "Histories mix bulk loading and keyed access without bound; which of several equal keys binary search finds depends on the length of the vector.", "anchors": ["src/stat_map.rs: FromIterator", "src/stat_map.rs: Extend", "src/stat_map.rs: StatMap"]}
{"id": "C75", "title": "Panics inside the cache cause no memory error", "statement": "Whatever clones, Debug impls and destructors of user values panic while the cache calls them, and however the caller catches the panics and continues, no cached value is dropped twice, used after its drop or accessed at another type, including when the cache is dropped.", "quantifier": "every finite sequence of cache calls, every position of a panic, every traversal order of the hash map", "why_tests_cant": "Needs destructors and clones that panic at chosen entries in a hash order that is not under the test's control.", "anchors": ["src/cache.rs: StatCache::cache_pair", "src/cache.rs: StatCache::clear", "src/cache.rs: Drop for StatCache"]}
{"id": "C76", "title": "A caught panic leaves the cache usable", "statement": "After a panic of user code inside a cache call was caught, later calls behave as if the failed call had not happened, and every cached value is still dropped once.", "quantifier": "every finite sequence of cache calls, every position of a panic", "why_tests_cant": "Tests do not panic inside user clones and destructors and then continue.", "anchors": ["src/cache.rs: StatCache::cache_pair", "src/cache.rs: StatCache::clear", "src/cache.rs: StatCache::try_get_cached_dyn"]}
{"id": "C77", "title": "Loading maps causes no memory error", "statement": "Load any number of maps from any data, of which some are rejected or make the loader panic half-way, and drop what was loaded: no value is dropped twice and none at another type than its own, and what is loaded is what the plain description of loading says.", "quantifier": "every list of data, every format, registry, stat type and serialiser", "why_tests_cant": "Needs malformed data at every position and a leak/double-drop detector around type-erased values.", "anchors": ["src/stat_map.rs: Deserialize for StatMapEntry", "src/stat_map.rs: Visitor for TupleSeed", "src/stat_map.rs: Drop for StatMapEntry"]}
{"id": "C78", "title": "Failing to load a map leaks nothing", "statement": "When loading a map fails, every value read before the failure is dropped.", "quantifier": "every list of data, every format, registry, stat type and serialiser", "why_tests_cant": "A leak is silent; the data must fail after the value of an entry was read.", "anchors": ["src/stat_map.rs: Visitor for TupleSeed", "src/stat_map.rs: Deserialize for StatMapEntry"]}
{"id": "C79", "title": "Keyed access to a map out of order is memory safe", "statement": "A map whose entries are out of order, because a panic of an iterator given to extend was caught or because it was loaded, can be used through insert, get, get_mut, remove, modify, remove_all, clear, extend, clone and drop without any value being read or dropped at another type than its own, twice, or after it is gone; only methods reading the range of a stat (iter, iter_mut, query_stat) can misread, and they do exactly when that range contains an entry of another type.", "quantifier": "every finite program over any number of maps, every data loaded, every position of a panic", "why_tests_cant": "Needs type confusion detection on type-erased buffers over vectors in every possible disorder.", "anchors": ["src/stat_map.rs: StatMap::binary_search", "src/stat_map.rs: StatMap::slice", "src/stat_map.rs: StatMap::remove_all", "src/stat_map.rs: Extend for StatMap"]}
{"id": "C80", "title": "Containers drop what they hold at its own type", "statement": "Dropping or clearing a map, the cache or the registered defaults drops every value they hold at the type it was stored at.", "quantifier": "every history of map, registration and cache operations", "why_tests_cant": "A value dropped at another type is undefined behaviour that may go unnoticed; values that are not dropped leave no trace.", "anchors": ["src/stat_map.rs: Drop for StatMapEntry", "src/cache.rs: StatCache::clear", "src/cache.rs: Drop for StatCache", "src/plugin.rs: Drop for GlobalStatDefaults"]}
{"id": "C81", "title": "A map owns exactly the values a lookup finds", "statement": "After any history of calls that return, including bulk insertion and repeated keys, a map owns exactly one live value per entry, under the same keys in the same order as the entries that lookups and iteration see; other values still alive are the leaked ones of C57.", "quantifier": "every finite history of map calls that return", "why_tests_cant": "Relates what is stored, seen through type-erased buffers, to what is alive; a test sees only one of the two.", "anchors": ["src/stat_map.rs: StatMap::insert", "src/stat_map.rs: StatMap::remove", "src/stat_map.rs: StatMap::modify", "src/stat_map.rs: StatMap::remove_all", "src/stat_map.rs: Extend for StatMap"]}
{"id": "C82", "title": "References obtained from a pair are valid whenever they are used", "statement": "Any use, in safe code, of a reference returned by StatValuePair::cast or is_then_cast happens while the pair is still in place and unchanged since, and at the type of the value.", "quantifier": "every safe program with pairs and references", "why_tests_cant": "Undefined behaviour through a dangling or aliased reference often goes unnoticed in a test.", "anchors": ["src/stat.rs: StatValuePair::cast", "src/stat.rs: StatValuePair::is_then_cast"]}
{"id": "C83", "title": "The values of pairs are never released twice, and leak exactly where stated", "statement": "In any program with StatValuePairs of its own (that uses references as C82 asks) no value is handed out twice or used after it was handed out, and the values leaked are exactly those of pairs that go out of scope, are assigned to, or are asked for a value of another stat type.", "quantifier": "every program with pairs", "why_tests_cant": "Leaks and double drops are not visible in results; which values leak depends on the whole history.", "anchors": ["src/stat.rs: StatValuePair", "src/buffer.rs: Buffer"]}
{"id": "C84", "title": "Float stats are order independent up to rounding", "statement": "For f32/f64 StatFloat, StatFloatAdditive, StatMult and StatIntFloatMul with finite operands whose sums and products can neither overflow nor underflow in any order: every order and grouping of the same operations returns, and evaluates to the exact clamped value up to a relative error of 2^-24 (f32) or 2^-53 (f64) per operation, relative to the sum of the magnitudes times the product, plus half a subnormal step (plus one for rounding to an integer). So two orders differ by at most twice that.", "quantifier": "every assembly of finite operands, every float format and rounding mode", "why_tests_cant": "The error depends on order, grouping and size of all operands; tests sample a few and cannot bound the rest.", "anchors": ["src/types/float.rs: StatFloat", "src/types/float.rs: StatFloatAdditive", "src/types/float.rs: StatMult", "src/types/int_ratio.rs: StatIntFloatMul"]}
{"id": "C85", "title": "The cache remembers exactly what was stored last", "statement": "After any sequence of StatCache::cache_pair and clear, a lookup finds a copy of the value stored last for exactly that entity, query and stat since the last clear, and nothing otherwise; queries use the cache only through these operations, so a value stored by the user is what the next query returns.", "quantifier": "every sequence of cache calls, every entity, query and stat, every querier", "why_tests_cant": "A test checks a few keys; here keys differing only in the query, the index of the stat or its type are told apart in every history.", "anchors": ["src/cache.rs: StatCache::cache_pair", "src/cache.rs: StatCache::try_get_cached_dyn", "src/cache.rs: StatCache::clear", "src/querier.rs: JoinedQuerier::query_stat_erased"]}
{"id": "C86", "title": "Stats of entities that carry StatMaps, end to end", "statement": "When all sources of a query are StatMap components, on the entity and on its children, querying a stat entity returns the default (registered or of the type) joined with exactly the values stored for that stat under matching qualifiers in those maps, each once. For StatInt with numbers that cannot overflow this evaluates to the sum of addends times the product of multipliers clamped to the tightest bounds; for StatFlags to the flags set by some value and removed by none. The same holds with a cache, in any history of queries, clears, and changes each followed by a clear.", "quantifier": "every world, hierarchy, history of each map, query, stat and querier depth; every history of a cache", "why_tests_cant": "A test fixes a few maps and qualifiers; the result depends on all entries of all maps, on the order of children and on what the cache remembers.", "anchors": ["src/stat_map.rs: StatMap as StatStream", "src/querier.rs: JoinedQuerier::query_stat_erased", "src/stream.rs: ComponentStream", "src/types/int_ratio.rs: StatInt", "src/types/flags.rs: StatFlags"]}
{"id": "C87", "title": "The lock of the cache never blocks for ever", "statement": "Whatever is run on one cache at the same time (queries, clears, printing), with each access taken apart into taking the guard, running the values' own code under it, reading or changing the map, and letting go: a write guard is the only guard given out; the map is read only under a guard and changed only under the write guard; whoever reads it finds no value that a clear has dropped already; as long as Clone, Drop and Debug of the values do not use the cache, some thread can always go on, no run lasts for ever, and all threads finish. (If they do use it, a thread can wait for itself for ever.)", "quantifier": "every number of threads, every interleaving, either policy of the lock about waiting writers, all streams", "why_tests_cant": "Interleavings of lock operations cannot be enumerated by tests, and a deadlock may need a particular one.", "anchors": ["src/cache.rs: cache_pair, try_get_cached_dyn, clear, Debug", "src/querier.rs: query_stat_erased"]}
{"id": "C88", "title": "Accesses to the cache are atomic", "statement": "With streams that only change the value of the pair they are given and store only right results in the cache themselves, and values whose own code does not use the cache, every interleaving of the parts of accesses to the cache leaves the cache and the finished queries as some interleaving of whole accesses does; so each query that finishes returns the result it has without a cache.", "quantifier": "every number of threads and every interleaving of lock operations, reads, changes and user code", "why_tests_cant": "Interleavings of lock operations cannot be enumerated by tests.", "anchors": ["src/cache.rs: cache_pair, try_get_cached_dyn, clear, Debug", "src/querier.rs: query_stat_erased"]}
{"id": "C89", "title": "A change of one map entry affects only the queries it should, and as it should", "statement": "When all sources of a query are StatMap components: what a query of a stat entity returns depends only on the start value and on the values stored, in the maps of the entity and of its children, for that stat under matching qualifiers, not on the histories of the maps, on other entries or on other entities. So a call on a map of one entity changes only queries of that entity and of its parents, and of these only those of stats and qualifiers the call is about. Inserting a matching value under a key not in use puts that value once between the joined values and changes nothing else: for StatInt (numbers that cannot overflow) it is added, multiplied in and its bounds applied, so that a bonus never lowers the result; for StatFlags a flag is set afterwards iff it was set before, or the new value sets it and no other value removes it, and the new value does not remove it. A call on a matching key that is in use (insert, modify, access by reference) puts the new value, which is the inserted one or what the call makes of the old one, in the place of the old one between the joined values; remove takes the old one out; nothing else changes. For StatInt (numbers that cannot overflow, no negative factors) a better value never lowers the result. For StatFlags a value that sets no fewer and removes no more flags loses none.", "quantifier": "every world, hierarchy, histories of the maps, call, query, stat, value type and querier depth", "why_tests_cant": "Needs pairs of worlds that differ in one call on one map, with all other contents arbitrary.", "anchors": ["src/stat_map.rs: StatMap::insert, modify, remove, iter_mut, remove_all, clear", "src/stat_map.rs: StatMap as StatStream", "src/querier.rs: JoinedQuerier::query_stat_erased"]}
{"id": "C90", "title": "A derived stat has the value type its attribute names", "statement": "The derive macro accepts an item exactly if it is a unit struct or an enum acceptable by C40, every type named by value = \"T\" in its #[stat(...)] attributes parses, no value = lacks its string, and at least one type is named; the value type is then the last one named. Each attribute is read by items from the front: words, and value = \"T\", separated by commas; at the first thing that is neither, the rest of the attribute is ignored without a message.", "quantifier": "every list of attributes, every list of tokens in them, every item", "why_tests_cant": "Tests compile some attributes; the claim is about all token lists, including malformed ones.", "anchors": ["derive/src/lib.rs:38-68", "derive/src/lib.rs:175-178"]}
{"id": "C91", "title": "A saved world answers queries as before when loaded", "statement": "When the sources of queries are StatMap components: saving all maps, loading them in another process in which register_stat has returned for the types of the stored stats, and asking the query of the corresponding entity gives the same result as before, whatever became of entity ids and vtable addresses. In particular so if each loaded map is extended by nothing before it is asked.", "quantifier": "every world, histories of the maps, serialisation format, renaming of entities, addresses in both processes, query, stat, value type and querier depth", "why_tests_cant": "Needs the composition of serialisation, registration, ordering by address and querying for all worlds; tests run in one process.", "anchors": ["src/stat_map.rs:363-455", "src/stat.rs:248-275", "src/plugin.rs:48-58", "src/querier.rs:242-300"]}
{"id": "C92", "title": "A stream that clears the cache in the middle of a query", "statement": "`StatCache` is a public resource and `clear` takes `&self`, so a stream may clear the cache that the query it is part of is using. Such a query returns what it returns without a cache, and nothing that was cached before survives it: a query that is not answered from the cache and returns leaves the same cache behind whatever was cached before, and if the clearing source is the last one and asks nothing afterwards, exactly its own result.", "quantifier": "For all environments, worlds, joined streams that keep stat and type and store only right results, histories of queries and clears, requests, depths and positions of the clearing stream.", "why_tests_cant": "Needs every position of the clearing stream among the sources and every earlier history of the cache.", "anchors": ["src/cache.rs: StatCache::{clear,cache_pair,try_get_cached_dyn}", "src/stream.rs: ComponentStream::Cx", "src/querier.rs: query_stat_erased"]}
{"id": "C93", "title": "Queries of one thread compute each result once and overwrite nothing in the cache", "statement": "Inserting into the cache under a key in use leaks the value it replaces (C58). In any history of queries made by one thread, of clears, and of changes of the world or of the joined streams each followed by a clear before the next query, with streams that keep stat and type of the pair and store nothing themselves, each result is stored at most once between two clears, however the stats depend on each other, also if streams clear the cache in mid-query and if queries panic; so every value put into the cache is dropped, at its own type and once. (Two threads that query the same stat at the same time may both store it.)", "quantifier": "For all environments, worlds, joined streams that keep stat and type and store nothing themselves, dependencies between stats, histories of queries (with any recursion depth), clears and changes followed by clears.", "why_tests_cant": "Whether a result can be stored while the same result is being computed depends on the whole graph of dependencies between stats and on what is cached already.", "anchors": ["src/querier.rs: query_stat_erased", "src/cache.rs: StatCache::{cache_pair,try_get_cached_dyn,clear,drop}"]}
{"id": "C94", "title": "Streams may store results in the cache by hand, if they are right", "statement": "`StatCache::cache_pair` takes `&self`, so a stream may store a pair, for any entity, query and stat, in the cache that the query it is part of is using. If each pair a stream stores is what that query of that entity returns, every query returns what it returns without a cache. A stored pair of storable type, right or not, is what the stream gets when it asks for that stat next, and what the next query for it returns, without any source being asked.", "quantifier": "For all environments, worlds, joined streams that keep stat and type, histories of queries and clears, requests and depths; for the second part, all caches and pairs.", "why_tests_cant": "What the stream may store depends on the answers it got, which come from other streams that may store as well.", "anchors": ["src/cache.rs: StatCache::cache_pair", "src/stream.rs: ComponentStream::Cx", "src/querier.rs: query_stat_erased"]}
{"id": "C95", "title": "Cached values have the type of the stat they are cached under, whatever streams do", "statement": "Streams are safe code that may replace the pair they are handed by one of another stat, store and clear. After any history of queries, clears and changes, and at any point of an interleaving, each cached value is one of the stat it is cached under. So a query that finds its key returns the value found, and clearing never fails.", "quantifier": "every history, every interleaving, every set of streams", "why_tests_cant": "A value of the wrong type in the cache is undefined behaviour at some later query, clear or drop.", "anchors": ["src/cache.rs: StatCache::cache_pair", "src/cache.rs: StatCache::try_get_cached_dyn", "src/cache.rs: StatCache::clear"]}
{"id": "C96", "title": "A stat map is memory safe with a wrong `Ord` or `QualifierFlag` of the qualifier type", "statement": "`Ord` is a safe trait: a qualifier type may order its values inconsistently, or differently in each call. The stats come first in the order of entries and are compared rightly, so entries of one stat stay together: each call inserts, replaces or removes at most one value of its own stat (calls about all values of a stat or of the map: exactly those), reading shows only values of the stat asked for, at its type, and a query joins exactly the stored values of the stat whose qualifiers say that they match. Values are never lost, duplicated or read at another type, and no call is undefined behaviour. For `extend` and `from_iter` this depends on the order in which the standard library's sort leaves elements with such an `Ord`, which it does not specify: if it keeps the stats together all is well, else a later iteration may read a value at the wrong type.", "quantifier": "For all environments and histories of map calls, each call with its own arbitrary three-valued comparison of qualifiers; all queries with arbitrary `contains`, `intersects`, `is_none`.", "why_tests_cant": "The comparisons in a binary search with a wrong `Ord` may lead anywhere; that the place found always lies with the entries of the same stat depends on every comparison made on the way.", "anchors": ["src/stat_map.rs: StatMap::{insert,insert_base,get,remove,remove_all,iter,iter_mut,modify,entry,extend}", "src/stat_map.rs: StatMapEntry"]}
{"id": "C97", "title": "The cache is memory safe with a wrong `Eq`, `Hash` or `Clone` of the qualifier type", "statement": "The keys of the cache contain the query, so with a wrong `Eq`, `Hash` or `Clone` of the qualifier type a lookup may miss a value or find one stored for another query, and storing may overwrite that. Entity and stat are still compared rightly, so what is found is a value of the type of the stat asked for: every cached value has the type of its stat, clearing and dropping the cache work, and no query is undefined behaviour. Results may be wrong then.", "quantifier": "For all environments, streams (also changing in between), interleavings of any number of queries, clears; every behaviour of the hash map that keeps entity and stat apart.", "why_tests_cant": "Which entry a lookup with a wrong `Hash` hits depends on the capacity and history of the hash map.", "anchors": ["src/cache.rs: CachedEntry", "src/cache.rs: StatCache::{cache_pair,try_get_cached_dyn,clear,drop}", "src/querier.rs: query_stat_erased"]}
{"id": "C98", "title": "A `StatMap` is memory safe whatever user code does, as long as sorting puts the stats in order", "statement": "User code runs inside the methods of a `StatMap`: comparisons and clones of qualifiers, the methods of `QualifierFlag`, joins, operations, closures, iterators, destructors. However comparisons answer, also differently each time, and wherever user code panics (the panic being caught): each value is accessed at its own type, never after it is gone, and dropped at most once. Methods that read all entries of a stat (`iter`, `query_stat`) need in addition that `from_iter` and `extend` left the stats in order, i.e. that their iterators did not panic and their sort kept stats in order; otherwise they may read a value at a wrong type. A call about one stat leaves the entries of all other stats as they are. A call with a key replaces, adds or removes at most one entry, and none if a comparison panics. A search among n entries panics only if one of its first \u2308log2 n\u2309 + 1 comparisons does, with a qualifier of the stat sought; if all entries are of this stat, it panics exactly then. A query gets to its end exactly if user code panics at none of the entries it comes by, however it behaves at each. At most one value is leaked per insertion (when it overwrites, or when a comparison panics) and per query in which user code panics, and none by other calls.", "quantifier": "For all environments, qualifier types and histories of calls on any number of maps, with arbitrary behaviour of user code given for each call.", "why_tests_cant": "User code in the middle of a binary search, a sort, a clone or a drain can behave in more ways than can be enumerated; after a caught panic the map must still be consistent.", "anchors": ["src/stat_map.rs: StatMap::{insert,insert_base,get,get_mut,get_evaled,remove,remove_all,iter,iter_mut,modify,modify_with,clear,query_stat,eval_stat,extend,from_iter,binary_search}", "src/stat_map.rs: StatMapEntry::{clone,drop,take}"]}
{"id": "C99", "title": "The cache is memory safe whatever user code does, except for a destructor that panics in a `clear` made while unwinding", "statement": "`Eq`, `Hash`, `Clone` and `Drop` of qualifiers and `Clone`, `Debug` and `Drop` of values run inside the methods of `StatCache`, under its lock. However they answer and wherever they panic (the panics being caught), and also when the cache is used by a thread that is already panicking: no cached value is accessed at another type, used after its drop or dropped twice, while the program runs and when the cache is dropped. The only exception is a `clear` by a thread that is already panicking, in which the destructor of a value panics: the lock is not poisoned then, the map keeps the buffers of dropped values, and they are dropped again. A call poisons the lock exactly if it takes it for writing, its thread was not panicking already, and it panics.", "quantifier": "For all histories of cache_pair, lookups, Debug and clear, with arbitrary behaviour of user code given for each call; every traversal order of the hash map.", "why_tests_cant": "Needs user code that panics inside a hash map, while a lock is held, possibly during unwinding: combinations that tests do not enumerate.", "anchors": ["src/cache.rs: StatCache::{cache_pair,try_get_cached_dyn,clear,drop,fmt}", "src/cache.rs: CachedEntry"]}
{"id": "C100", "title": "Qualifiers are dropped exactly once, except those of entries taken out by `remove`, which are never dropped", "statement": "A flag type may own memory (the documentation suggests a set). In any program with maps, user code of values panicking wherever it likes: no qualifier given to a map or cloned by it is dropped twice or used after its drop, and when all maps are gone every one has been dropped except those of the entries that `StatMap::remove` found, one for each, because `take` forgets the whole entry. The queries in keys of a `StatCache` are all dropped exactly once, poisoned lock or not.", "quantifier": "For all environments, flag types with a lawful order, and histories of calls on any number of maps; all histories of calls on a cache.", "why_tests_cant": "Tests use bit flags, which own nothing, so neither a double drop nor a leak of a qualifier would show.", "anchors": ["src/stat_map.rs: StatMapEntry::{take,clone,drop}", "src/stat_map.rs: StatMap::{insert,insert_base,remove,remove_all,modify,modify_with,clear,extend,from_iter}", "src/cache.rs: StatCache::{cache_pair,try_get_cached_dyn,clear,drop}"]}
{"id": "C101", "title": "A stream that catches the panic of a query it makes goes on as if that query had been made without a cache, catching never ends a recursion, and order of sources may then matter", "statement": "A stream that makes a query inside catch_unwind goes on with the result, or after the panic, exactly as the query without a cache would have it, whatever queries and clears happened before, and what is cached afterwards is still right. A stream that queries its own stat on the same entity and would go on after a panic never returns. If streams let panics pass, the order of sources does not matter for commuting operations (C44); with a stream that catches a panic it can, even if all operations commute and both orders return.", "quantifier": "every world, every stream code with catching, every history of queries and clears, every recursion depth", "why_tests_cant": "a test would have to provoke a panic in a nested query under each possible content of the cache", "anchors": ["src/querier.rs: Querier::{query,query_relation,has_attribute}", "src/querier.rs: JoinedQuerier::{query_stat_erased,query_relation_erased}", "src/cache.rs: StatCache::{cache_pair,try_get_cached_dyn}"]}
{"id": "C102", "title": "What memory safety needs of vtable addresses", "statement": "`StatInst`s are told apart by the address of their vtable, and casts, conversions and the registry of defaults then read the bytes at the type of the stat asked for. The documentation holds sharing a vtable to be impossible in safe Rust, but constants of generic stat types may be merged by the compiler. For arbitrary addresses: a cast of a pair misreads exactly if the two stat types have one address, the type asked for is storable, the index is accepted, and the value types differ; the like holds for is_then_cast and into_result. No cast and no registry filled with defaults ever misreads iff stat types with one address have one value type.", "quantifier": "all programs (stat types, value types), all assignments of addresses to vtables, all pairs, all sequences of inserted defaults", "why_tests_cant": "Whether the compiler merges constants depends on the compiler, its flags and the other types of the program.", "anchors": ["src/stat.rs:105-162", "src/stat.rs:313-350", "src/plugin.rs:147-174", "src/lib.rs:194-200"]}
{"id": "C103", "title": "What a panicking operation leaves in the value", "statement": "The methods of StatValue change a value in place, one field at a time, so a panic that is caught (arithmetic overflow) may leave it half changed. Followed statement by statement: every method ends as in the functional model; add, min, max, and mul of StatInt and StatIntPercentAdditive, and += of valid fractions leave the value as it was when they panic; a join that panics on the multipliers leaves the addends summed and the bounds not joined; *= of valid fractions in builds with overflow checks leaves the fraction divided by the common factor cancelled crosswise, or the product with one denominator not yet applied, never a zero denominator; without overflow checks the denominator can wrap to zero, after which every evaluation panics. A patch of a registered default whose operation is of the first kind leaves all defaults as they were.", "quantifier": "all integer types and build profiles, all values and operands, all registries", "why_tests_cant": "Needs overflow and catch_unwind together; the wrong value shows only in later evaluations.", "anchors": ["src/types/int_ratio.rs:37-68", "src/types/int_ratio.rs:109-145", "src/types/int_pct.rs:39-73", "src/types/int_pct.rs:117-150", "src/types/float.rs:31-62", "src/operations.rs:21-31", "src/num_traits.rs:321-357", "src/plugin.rs:153-165"]}
{"id": "C104", "title": "Ranges of stats in maps that are out of order", "statement": "On every map, whatever the order of its entries, iter, iter_mut, remove_all and queries find a valid range for a stat, so they never panic on slicing: the range is a run of consecutive entries, empty or containing an entry of the stat. iter_mut changes exactly the values of that run and remove_all takes out exactly that run, leaving the other entries in their order. For a stat without entries the run is empty. In a map that is out of order entries of the stat can be missed.", "quantifier": "all vectors of entries in any order, all stats, all addresses of vtables, all functions run on the values", "why_tests_cant": "Maps are out of order only after a caught panic in extend or after loading, and the panic depends on how two binary searches over the same unordered entries part.", "anchors": ["src/stat_map.rs:249-260", "src/stat_map.rs:263-287"]}
{"id": "C105", "title": "Maps out of order keep their contents, and `extend` puts them in order again", "statement": "A map whose extend was interrupted by a panic of the iterator, or that was loaded, may be out of order. An interrupted one still holds what it held and the items given before the panic. On any such map, calls other than iter_mut change, add or take away only values under the key they are given (remove_all: a run of entries, none if the stat has none), and fail only if the caller's code fails or the value cannot be stored; but get can miss a value that is there and insert can put a second one beside it. Once an extend returns, even one of no items, all that the map holds is found again, and every later history of calls behaves as on a multimap with these contents; in particular a map saved by one process and loaded by another, where stats are ordered otherwise, then gives the answers it gave before it was saved.", "quantifier": "all environments, flag types with a lawful order, maps in any order, contents, histories of calls and caught panics", "why_tests_cant": "Needs a panic inside an iterator, caught, and then calls on an unordered vector, where what a binary search finds depends on all the entries.", "anchors": ["src/stat_map.rs:101-132", "src/stat_map.rs:155-233", "src/stat_map.rs:282-341"]}
{"id": "C106", "title": "What is read from a map out of order", "statement": "In a map that is out of order the run of entries found for a stat can contain entries of other stats. Then iter gives them as entries of the stat, queries join them into its value, and iter_mut changes them, as long as their value type is that of the stat. If one of the run has another value type, iter misreads memory; a query does when it comes to the first such entry that qualifies, unless a join before it panics; iter_mut does, unless the caller's code fails before. So a map all of whose entries have one value type is never misread, whatever its order; and for any two stats with different value types there is a map, left by an interrupted extend, that is misread.", "quantifier": "all environments, flag types with a lawful order, maps of well-typed entries in any order, stats, queries, functions run on the values", "why_tests_cant": "Needs an out-of-order map and a stat whose run happens to span entries of others; a wrong sum shows no sign of where it comes from.", "anchors": ["src/stat_map.rs:249-279", "src/stat_map.rs:343-377"]}
{"id": "C107", "title": "An exact query finds a part of what the aggregate query for its flags finds", "statement": "Every modifier found by Exact { any_of, all_of } is also found by Aggregate(any_of | all_of), as the documentation suggests (\"look for qualifiers that are this and deny more generalized qualifiers\"). This is false when any_of is empty: Exact for magic finds elemental magic, which a query for magic does not. It holds when any_of names some flag; in general for the modifiers without any_of, or whose any_of meets the flags. Conversely an exact and an aggregate query have a modifier in common exactly if the aggregate one asks for all flags of all_of, and for some flag if any_of names one.", "quantifier": "all flag types that are sets, all queries and qualifiers", "why_tests_cant": "Whether the two kinds of query agree depends on the combination of four sets of flags.", "anchors": ["src/qualifier.rs:135-148", "src/qualifier.rs:153-166"]}
{"id": "C108", "title": "Converting a share of one kind of damage into another counts nothing twice", "statement": "The documented use of exact queries: an effect adds a share of what an exact query (magic damage) evaluates to, to every query it applies to (physical damage), on an entity whose other sources are StatMaps of its own and of its children. The query then comes to the start value joined with all matching modifiers, plus the share of the start value joined with all exactly matching modifiers, for every value type; for integers in closed form. No modifier is counted both by the query and by the share if the query does not ask for all flags of the exact one. But a registered default is: with a default of 10 and nothing stored, adding 50% of magic damage to physical damage gives 15. An effect that applies to its own exact query never returns. A cache changes nothing of this: after any queries and clears the share is added exactly once.", "quantifier": "all environments, flag types with a lawful order, value types, contents of maps, places of the effect among the sources, shares, recursion depths", "why_tests_cant": "The result depends on the interplay of matching rules, maps, nested queries and defaults, which tests of each alone do not show.", "anchors": ["src/lib.rs:52-66", "README.md:45-54", "src/qualifier.rs:140-148", "src/querier.rs:241-275", "src/stat_map.rs:363-377"]}
{"id": "C109", "title": "The behaviour of StatMap does not depend on the algorithms of the standard library", "statement": "The Rust documentation promises results of binary_search_by, partition_point and sort_by on sorted or partitioned slices, but no algorithm, and which of several equal elements a search finds is left open. For any algorithms that keep these promises (the current ones do, and so does linear search with insertion sort): every history of keyed calls, removal of all of a stat and clearing included, gives the same map and the same failures, and all reading methods the same answers; extend and from_iter give the same vector, on maps in any order and with repeated keys. With repeated keys every history is still that of a multimap as in C74, but which of the values under a key is found does depend on the algorithm: of three values under one key, the current search finds another than a linear one.", "quantifier": "all lawful slice algorithms, environments, address assignments, flag types with a lawful order, histories of calls, lists of items", "why_tests_cant": "Tests run with one version of the standard library.", "anchors": ["src/stat_map.rs:107-131", "src/stat_map.rs:147-163", "src/stat_map.rs:248-300", "src/stat_map.rs:363-390"]}
{"id": "C110", "title": "A change reaches only the requests that depend on it, also with a cache", "statement": "Let the components of some entities change: they are spawned or despawned, components are added, removed or changed, they become or cease to be `StatEntity`, their children change. Then the result of a query changes only if it reaches one of these entities: it is about one of them, about the parent of one, or a stream run for it may make such a query, directly or in turn. And if the cache is not cleared after the change, only such queries can return stale results: for well-behaved streams, in any history of queries, clears and changes of these entities, every query that reaches none of them returns what it returns without a cache, even though stale results are read and more of them are stored in between. All three ways of reaching an entity matter: there is a world in which each of them makes a cached result wrong.", "quantifier": "for all queriers, streams (for the cache: well-behaved ones that do not store in the cache themselves), sets of entities, changes of these entities, and histories; queries of any depth", "why_tests_cant": "A test tries a few worlds; which cached results survive a change depends on everything user code may ask, over all histories, including those in which stale results feed further cached results.", "anchors": ["src/querier.rs:245-340", "src/stream.rs:183-234"]}
{"id": "C111", "title": "From the calls that fill the maps to the evaluated answer", "statement": "On an entity whose sources are StatMaps, its own and its children's: if the start value and all stored values under matching qualifiers were assembled from operations in any way, the query puts together exactly these operations, each once, in one order; so for StatInt, StatIntPercentAdditive, StatIntFraction, StatFloat, StatFloatAdditive and StatMult (over fractions exactly, over f32/f64 and for StatIntFloatMul up to the accumulated rounding error), if the magnitudes fit, it returns at every recursion depth and evaluates to the sum of all addends times the product (or sum) of all multipliers, rounded as chosen and clamped to the tightest bounds. For maps filled by insert_base, modify, remove, remove_all and clear the operations are those of a journal per qualifier: a base value starts it anew, modify adds to it, removing strikes it out.", "quantifier": "all environments, flag types with a lawful order, value types, histories of calls, qualifiers, queries, recursion depths; all integer types, float formats, rounding modes for the closed forms", "why_tests_cant": "Ties the calls on maps, the search, the querier and the arithmetic together: a test sees one history and one sum.", "anchors": ["src/stat_map.rs:135-233", "src/stat_map.rs:363-377", "src/querier.rs:241-275", "src/operations.rs:20-37", "src/types/int_pct.rs: StatIntPercentAdditive", "src/types/int_ratio.rs", "src/types/float.rs"]}
{"id": "C112", "title": "Queries over any sources evaluate to the closed form", "statement": "For every shipped stat type with a closed form that holds for all ways of joining (all but Prioritized and StatIntPercent, see C26 and C27), a stat or relation query whose sources (global streams, component, relation and child streams, in any number, applying operations or joining values, and asking further questions of the querier) can compute what they contribute returns, and evaluates to the closed form of all operations together: of those the start value was made of and those of every source. The closed form is the sum of all addends times the product (or sum) of all multipliers, rounded where the type rounds and clamped to the tightest bounds; for flags, those set and not cleared; for f32 and f64 up to the accumulated rounding error. It is required only that the magnitudes of the operands together fit the number type.", "quantifier": "All value types with a closed form (the shipped ones but for Prioritized and StatIntPercent, every width, rounding mode and scale), all queriers and worlds, all entities, qualifiers, recursion depths, and lists of operations that fit.", "why_tests_cant": "Tests run single sources with a handful of operations of one type. That nothing is lost, counted twice or depends on the order for arbitrary combinations of sources needs an invariant of the query loop together with the arithmetic of each type.", "anchors": ["src/querier.rs:165-330", "src/stream.rs:11-181", "src/types/int_ratio.rs", "src/types/float.rs", "src/types/flags.rs", "src/plugin.rs:222-236"]}
{"id": "C113", "title": "A query returns exactly if the queries it makes do not nest without end", "statement": "Call a request nested in another if it is made by the streams of the other while that is answered. Each request makes only finitely many nested ones. As long as user code does not run forever by itself, a request has an outcome (a value, or a panic) with some stack depth exactly if there is no endless chain of requests starting from it, each nested in the one before; the depth it needs is exactly one more than the largest its nested requests need, and at most the number of different requests made in its course. Requests that come back to themselves through any number of others never return. With a cache, after any history of queries and clears, the same requests return.", "quantifier": "all environments, queriers, worlds, user code that ends by itself (for the cache: and is well-behaved), requests, depths, histories of queries and clears", "why_tests_cant": "Non-termination cannot be observed by a test, and which chains of nested queries arise depends on the values answered on the way.", "anchors": ["src/querier.rs:165-340", "src/stream.rs:11-181"]}
{"id": "C114", "title": "Further sources of bonuses never lower a queried stat", "statement": "Let two queries about the same stat gather operations from their start values and sources (global, component, relation and child streams, with nested queries), and let the second gather those of the first and some more, from anywhere and in any order: after an item is equipped, a child is added, a stream is joined. If all of the further operations are bonuses (non-negative addends, multipliers of at least one, or non-negative percentages where they add up, lower bounds) and the sum and product of the first are not negative, both queries return and the second evaluates to no less. For flags: if the further sources clear nothing, no flag is lost; a StatExists that is true stays true.", "quantifier": "all checked integer widths, rounding modes and scales of StatInt, StatIntFraction, StatIntPercentAdditive, the float stats over Fraction, StatFlags, StatExists; all queriers, worlds, entities, qualifiers, recursion depths, lists of operations that fit the number type", "why_tests_cant": "A test compares two fixed worlds. That no combination of sources, roundings and clamps turns a bonus into a loss needs the closed form of both queries.", "anchors": ["src/querier.rs:245-315", "src/stream.rs:11-181", "src/types/int_ratio.rs", "src/types/int_pct.rs: StatIntPercentAdditive", "src/types/float.rs", "src/types/flags.rs", "src/types/singleton.rs"]}
{"id": "C115", "title": "Each overlapping query overwrites a cached value at most once, and later queries never do", "statement": "Overwriting a cached value leaks the old one (C49, C58), and two threads that query the same stat at the same time may both store it (C93). This is all that can happen: between two clears, with streams that keep stat and type of the pair and store nothing themselves, a query started after a value was stored never stores it again, a query that has returned stores nothing, and each query stores each key at most once, however the stats depend on each other and however the threads interleave. So from the moment a value is first stored until the cache is cleared it is overwritten (and a value leaked) at most as often as there are other queries in progress at that moment; the bound is reached.", "quantifier": "For all environments, worlds, joined streams that keep stat and type and store nothing themselves, numbers of threads, recursion depths, configurations reachable by any interleaving of cache accesses and clears, and all interleavings after it without a clear.", "why_tests_cant": "Tests run one thread; the overlap of several needs interleavings a test does not control, and a leak has no visible effect.", "anchors": ["src/querier.rs:245-289", "src/cache.rs:56-65", "src/cache.rs:67-82"]}
{"id": "C116", "title": "What queries leave in the cache depends on the requests only, not on order or interleaving", "statement": "Between two clears, with streams that keep stat and type of the pair and store nothing themselves: once all queries have returned or panicked (none having exhausted its depth), the cache holds exactly the results of the stat queries that these queries involve (themselves and those made for them, directly or by nested queries, as seen without a cache), each as far as it has a result, and nothing else. A query that has returned finds all it involves in the cache, whichever query stored it and whatever the others do meanwhile. So what is cached does not depend on the order of the queries, on how often each was made, on the depths allowed or on how the threads interleave, and is the same as after making the queries one after another.", "quantifier": "For all environments, worlds with a cache, joined streams that keep stat and type and store nothing themselves, numbers of threads and queries, recursion depths, and all interleavings without a clear from an empty cache.", "why_tests_cant": "Tests make single queries on one thread; which results remain after overlapping queries depends on schedules a test does not control, and on every dependency between stats.", "anchors": ["src/querier.rs:245-289", "src/cache.rs:56-65", "src/cache.rs:67-82"]}
{"id": "C117", "title": "Taking modifiers away again: removing map entries leaves no trace, opposite operations cancel only in exact arithmetic", "statement": "Temporary modifiers in a StatMap leave no trace: for keys not in use, after any calls about them, about other keys, about whole stats or the whole map, removing these keys gives exactly the map that the other calls alone would have given. A value inserted under a key not in use is given back by remove, whatever was done to other keys in between; any calls about a key in use are undone by inserting its former value. Within one stat value, opposite operations (Add x and Add -x; Mul by a fraction and its inverse; opposite percentages of the additive types) cancel wherever they come among other operations and joins, for StatInt, StatIntPercentAdditive, StatIntFraction and the fraction stats with overflow checks as long as nothing overflows, and for wrapping integers always. They do not over Saturating integers (no addition whatsoever can be undone by its opposite) nor over floats, and flags set or removed and bounds cannot be undone by any operation but a new base value.", "quantifier": "all environments, address assignments, lawful flag types, histories, sets of keys; all integer types, trees of operations and joins", "why_tests_cant": "Tests put on and remove one item and compare some results; they cannot cover all interleavings of temporary and lasting changes, nor tell that no opposite operation exists.", "anchors": ["src/stat_map.rs:StatMap::insert", "src/stat_map.rs:StatMap::remove", "src/stat_map.rs:StatMap::modify", "src/types/int_ratio.rs:StatInt::add", "src/types/flags.rs:StatFlags::not", "src/types/float.rs:StatFloat::add"]}
{"id": "C118", "title": "What a query costs: with the cache every result is computed once, without it nested queries can multiply exponentially", "statement": "If every stream call for a stat asks at most b further stat queries, then any sequence of stat queries that return, made one after another on an empty cache, makes at most (number of queries) + b * (stream calls for the different results these queries involve, each result counted once) cache lookups, computes no result twice, and computes only results that one of the queries involves. A cache filled by queries and clears never makes a query look up more than it would if nothing was ever found. There are streams for which the number of nested queries without a cache is 2^(e+1)-1 where requests nest e+1 deep, while with the cache it is at most 2e+3.", "quantifier": "all environments, address assignments, entities, components, qualifier types, user code that leaves types alone and does not store in or clear the cache itself (for the bound: that catches no panics and asks for stats only); all sequences of requests and depths", "why_tests_cant": "Tests time a few queries; that a bound holds for all dependency structures, and that its absence is exponential, cannot be observed by examples.", "anchors": ["src/querier.rs:JoinedQuerier::query_stat_erased", "src/cache.rs:StatCache::try_get_cached_dyn", "src/cache.rs:StatCache::cache_pair"]}
{"id": "C119", "title": "Where a modifier is kept does not matter: on the entity, on its children, in one map or several", "statement": "If the maps of an entity and of its children hold the same modifiers of a stat that match a query in two worlds (the same pairs of qualifier and value, as many times each, whichever map holds them), and the stat starts from the same value, the answers are joins of the same values, only in a different order. Hence, where the operands the values were assembled from fit together, both queries answer and evaluate to the same value: equal for the integer types, flags, StatExists and StatOnce, equal as numbers for fractions, and within twice the accumulated rounding error for f32 and f64; and for types whose operations commute, whenever both answer they give equal values in all parts. In particular, making the calls that filled a map on several maps instead, each getting the calls about its part of the keys and those about whole stats, always succeeds if it did on the one map, and leaves the same modifiers for every stat and query.", "quantifier": "all environments, address assignments, qualifier types, worlds whose sources are StatMaps on the entity and its children, stats, queries, recursion depths; all histories of map calls and all ways of dividing the keys among maps", "why_tests_cant": "Tests fix one arrangement of components; that every rearrangement gives the same value needs a proof over all arrangements, histories and types.", "anchors": ["src/querier.rs:JoinedQuerier::query_stat_erased", "src/stat_map.rs:StatMap::stream_stat", "src/stream.rs:QueryStream::stream"]}
{"id": "C120", "title": "An aggregate query is made up of the exact queries for the sets of flags within it", "statement": "Let all sources of a query be StatMaps on the entity and its children, with no registered default for the stat. If every modifier kept there matches a query exactly when it matches one of a list of queries, and never two of these, the values joined by the query are those joined by the queries of the list, in some order; and where the operands fit together, all of them answer, their answers can be joined, and this evaluates to what the query evaluates to (for types whose operations commute: is the same value, whenever everything returns). The queries Exact{any_of: none, all_of: y} for all sets y of flags within x make up Aggregate(x) in this way if each modifier whose all_of is within x has an empty any_of or one that meets x; a modifier with any_of flags of which x has none is found by one of the exact queries but not by the aggregate one.", "quantifier": "all environments, address assignments, flag types, worlds whose sources are StatMaps, stats, queries and lists of queries, recursion depths; all value types (values), all shipped types with operands that fit (evaluation), all unordered types (values equal)", "why_tests_cant": "Tests check a few qualifiers one at a time; that exact queries divide up an aggregate one without loss or duplication is a statement about all maps and flag sets.", "anchors": ["src/qualifier.rs:Qualifier::qualifies_as", "src/stat_map.rs:StatMap::stream_stat", "src/querier.rs:JoinedQuerier::query_stat_erased"]}
{"id": "C121", "title": "Signs of zeros and NaN payloads change nothing else", "statement": "Take f32 or f64 (or any such binary format) as bit patterns with any operations that follow IEEE 754: to the nearest, ties to even, overflow to infinity, and whatever choice of NaN payload, and of zero in min and max. Then the numbers of the float model are exactly those of finite patterns, its rounding is the rounding of IEEE 754, and assembling and evaluating StatFloat, StatFloatAdditive and StatMult with patterns gives a pattern that denotes what the same assembly gives in the float model; StatIntFloatMul gives the same integer. Programs whose operands differ only in signs of zeros and NaN payloads get results that differ only so, even on platforms that choose differently. The sign of a zero itself is not kept: a base of -0.0 joined with a default evaluates to 0.0.", "quantifier": "every binary format with p < 2^(w-1), every IEEE 754 implementation, every assembly, all bit patterns", "why_tests_cant": "Equality on floats hides signs of zeros, NaN payloads are chosen by the platform, and rounding has to be right for every pair of patterns.", "anchors": ["src/num_traits.rs: impl Float for f32, f64", "src/types/float.rs", "src/types/int_ratio.rs: StatIntFloatMul"]}
{"id": "C122", "title": "Lookups compare logarithmically many entries, and both neighbours of what they return", "statement": "With the search of the standard library as it is, every call that takes a key (insert, get, get_mut, get_evaled, remove, modify) compares the key with exactly ceil(log2 n) + 1 of the n entries of the map, none if it is empty, whatever is stored and asked for, and in whatever order the entries are; a call or query about all entries of a stat makes twice as many comparisons to find them. Doubling the map costs one more comparison. Only existing entries are looked at. On every map, in order or not, the entry before the entries found for a stat is of an earlier stat and the entry after them of a later one; so a map loaded by another process gives all entries of each stat exactly if that process orders the vtables alike (C15).", "quantifier": "all maps, in any order, all keys and stats, all answers of comparisons", "why_tests_cant": "Counts of comparisons are not observable by tests of results, and depend on the length only.", "anchors": ["src/stat_map.rs: binary_search", "src/stat_map.rs: slice, slice_mut, remove_all"]}
{"id": "C123", "title": "More bonuses in the maps never lower a stat, in floating point too", "statement": "Let two queries about a stat have only StatMaps as sources (on the entity and its children), and let what the second finds have grown from what the first finds: the same maps at the same places, entry by entry, except that further operations were put in anywhere (applied to an entry, making up a new entry, in a further map, on a further child, or in the start value). If all operations have non-negative addends and multipliers and the further ones are bonuses (Add of at least 0, Mul of at least 1, Min), the second query evaluates to no less than the first: for f32/f64 StatFloat, StatFloatAdditive, StatMult and StatIntFloatMul and for checked or saturating StatInt, in spite of rounding and overflow, because the values are joined in the same order. If the further operations are only Min (only Max), the float stats never go down (up) whatever the operands are. For the float stats both queries always return.", "quantifier": "every float format, rounding mode and non-wrapping integer type; all worlds, map contents, children, qualifiers, recursion depths; any number of inserted operations at any places", "why_tests_cant": "C71 is about assemblies; a query assembles what is scattered over maps in an order given by qualifiers and places, and float sums depend on that order.", "anchors": ["src/stat_map.rs: stream", "src/types/float.rs: StatFloat, StatFloatAdditive, StatMult", "src/querier.rs: query_stat"]}
{"id": "C124", "title": "Streams that behave differently each time, and stale caches: results are mixtures", "statement": "Streams may behave differently from call to call (state behind shared references, randomness, the clock), and the world may change without the cache being cleared. Let F be the set of queriers there were (since the last clear), or of behaviours the streams may have. If all of them are well-behaved and store nothing in the cache themselves, then every result, for any number of threads, nested queries, clears by anybody and changes, is one that the query may have without a cache when each request, nested ones included, is served by some member of F; the same holds of every value in the cache. So nothing ends in undefined behaviour, and what every member of F guarantees of its results given that it holds of the answers to nested questions, holds of all results. Such a mixture need not be the result of any single world. For one querier F gives exactly the code and the uncached outcome of the model. Whatever the streams do, cached values have the types of their stats and clearing succeeds.", "quantifier": "every set of queriers, history with changes, interleaving of threads", "why_tests_cant": "Needs every combination of behaviours at every nesting level, and every interleaving", "anchors": ["src/querier.rs:245-341", "src/cache.rs:56-90", "src/stream.rs:12-18", "src/stream.rs:136-154"]}
{"id": "C125", "title": "What a caller can do with the iterator of iter_mut", "statement": "The iterator returned by StatMap::iter_mut may be used in any way: the caller may look at the qualifiers, stop early, keep several references and write through them in any order and any number of times (for instance exchange two values), and panic half-way. For every map made by any history of calls, repeated keys included, such a caller does to the map what the same program does to the plain list of the stat's qualifiers and values: the items come in ascending order of qualifiers, each entry once; the outcome is the same; afterwards iter shows the list with what was written; items not asked for keep their values; the keys of the map and all other stats are untouched. All errors are the caller's own, so there is no undefined behaviour. With distinct keys the map is the one made by storing those values through get_mut, and get shows them. A loop over all items is the iter_mut of the other claims, and after a panic the map is one of those of C63.", "quantifier": "every history, stat, and program using the iterator", "why_tests_cant": "Needs every way of interleaving next with writes through the references handed out, and every point of panic", "anchors": ["src/stat_map.rs:256-260", "src/stat_map.rs:271-279", "src/stat_map.rs: iter_mut"]}
{"id": "C126", "title": "A StatMap whose stat types may share a vtable address", "statement": "If stat types may share the address of their vtable (as generic ones may, C102), a StatMap is still a plain map, of spots: stats at one address with equal indices are one stat. For every history of calls it panics exactly when the map of spots does, get, remove and iter give what that holds, and a query joins the matching values of the spot once each. No history reaches undefined behaviour through the map if and only if the stat types at one address have one value type. The map is the plain map, in which different stats are different keys, if and only if no two stat types share an address; otherwise a bonus put in for one stat is read, queried, changed and removed as another's.", "quantifier": "every program, assignment of addresses to stat types (also equal ones), history of calls, query and stat", "why_tests_cant": "Addresses are chosen by the compiler and linker; a test sees one choice, usually without sharing", "anchors": ["src/stat.rs:105-162", "src/stat_map.rs:155-377", "src/stat_map.rs: binary_search", "src/stat_map.rs: slice"]}
{"id": "C127", "title": "A cache and defaults whose stat types may share a vtable address", "statement": "The cache and the registry of defaults also tell stats apart by the address of their vtable and the index. For arbitrary addresses: if stat types with one address have one value type, then after any sequence of cache_pair and clear a lookup gives a copy of the value stored last, since the last clear, for that entity and query and any stat with that address and index, and clear never fails; the registry likewise gives the default registered last for any such stat, or else the default of the value type. No sequence of cache calls misreads a value iff stat types with one address have one value type; the values of different stats are kept apart iff no two stat types share an address.", "quantifier": "all programs (stat types, value types), all assignments of addresses to vtables, all sequences of cache calls and of registered defaults, all entities, queries and stats", "why_tests_cant": "Whether constants are merged depends on the compiler and its settings; a test sees one assignment of addresses.", "anchors": ["src/cache.rs:11-13", "src/cache.rs:56-82", "src/stat.rs:137-141", "src/plugin.rs:140-190"]}
{"id": "C128", "title": "Which qualifiers are interchangeable, and which are more general than others", "statement": "A flag is needed by a qualifier if it is in all_of or the only flag of any_of; it is a choice if any_of has it and another flag and shares none with all_of. Two qualifiers apply to the same aggregate queries if and only if they have the same needed flags and the same choices: so a single any_of flag is the same as an all_of flag, and any_of does not matter if all_of has one of its flags. One qualifier applies wherever another does if and only if the needed flags of the other, with any one of its choices, include all that the first needs and one of its choices. Exact queries tell all qualifiers apart. Maps that hold the same values under interchangeable qualifiers answer aggregate queries by joining the same values in some order; for a single modifier that has any effect, two qualifiers give the same answers only if they are interchangeable. The same holds for whole worlds, whichever maps of the entity and its children keep the values, and evaluated answers then agree as far as the type determines them; under qualifiers that are at least as general, all the values that were joined before are joined, and maybe more.", "quantifier": "all pairs of qualifiers over all flag types whose operators are those of sets with single flags (any bit width, bool); all maps, worlds whose sources are maps, stats, value types and aggregate queries", "why_tests_cant": "The claim is about all queries for each pair of qualifiers, for every number of flags", "anchors": ["src/qualifier.rs:27-56", "src/qualifier.rs:135-149", "src/stat_map.rs:343-377"]}
{"id": "C129", "title": "JSON keeps a saved map only if all its values are finite", "statement": "For every shipped value type, Qualifier and StatOperation: exactly the valid values without infinities and NaN come back from JSON, as they were; the others are written without an error and refused when loaded, never read as something else. A reachable map is saved as JSON without an error; it is loaded as it was if all its values are finite, and otherwise nothing of it is loaded. That all operations made had finite operands is not enough: two bonuses of f32::MAX leave a map that evaluates within bounds but cannot be loaded.", "quantifier": "all values of all shipped types over all machine integers, fractions and float formats; all histories of map operations, stat types with such impls and registries in which the stored stats are registered", "why_tests_cant": "The loss happens for particular stored values that need not show in any evaluated result, and takes all other entries of the map with it", "anchors": ["src/types/float.rs:7", "src/types/int_ratio.rs:158", "src/types/singleton.rs:41-48", "src/operations.rs:5-14", "src/stat_map.rs:64-70", "src/stat_map.rs:380-455", "tests/serde.rs:128-176"]}
{"id": "C130", "title": "Reflection keeps qualifiers but nothing of a StatMap", "statement": "Rebuilding a Qualifier or QualifierQuery from its reflection, applying one to another, and comparing by reflection behave as clone, assignment and equality; a struct with other fields builds a Qualifier exactly if it has its two fields, changes exactly the fields of a Qualifier that it has, and is equal to one exactly if it has its two fields with the same values and no others. For StatMap they do not: whatever a map is rebuilt from, the result is empty; applying anything to a map leaves it unchanged; any two maps compare equal. Hence copying a map component from world to world by reflection puts an empty map on the target and touches no other entity, is right exactly if the map was empty, and makes every stat its default; spawning by apply-or-insert gives an empty map where there was none and otherwise keeps the map that was there. Inserting or applying works exactly for structs, copying exactly if there is a map to copy; otherwise they panic.", "quantifier": "all qualifiers, queries and maps (whatever history), all reflected values to build from or apply, all source and target worlds and entities", "why_tests_cant": "Tests do not use reflection at all; a test that spawns a scene with one map would show one case, not that no map survives or that no other entity is touched.", "anchors": ["src/stat_map.rs:64-70", "src/qualifier.rs:78-84", "src/qualifier.rs:152-166"]}
{"id": "C131", "title": "Clone of a value that does not copy", "statement": "`Clone` of a value type is user code and need not give an equal value. Whatever it returns: queries do not become unsafe, each result of a query is one that may be computed without a cache or the clone of a clone of such a one (and so are the answers to questions that streams ask), and each cached value is the clone of a computed one. A query that returned a value and left it in the cache returns the clone of its clone when asked again, so repeating a query is harmless exactly for the values that cloning twice gives back; if it gives back all, every result is the one without a cache, with registered defaults cloned once. A query starts from the clone of the registered default, but from the plain default of the value type. The clone of a `StatMap` has the same keys in the same order with the clone of each value.", "quantifier": "for all value types and `Clone` functions that return, streams that do not store into the cache themselves, worlds and changes of the world, numbers of threads and interleavings, recursion depths, histories of maps", "why_tests_cant": "tests use value types with derived `Clone`, where none of this can be seen, and only single interleavings", "anchors": ["src/cache.rs:56-82", "src/plugin.rs:176-182", "src/stat.rs:57", "src/stat.rs:88", "src/stat_map.rs:25-33"]}
{"id": "C132", "title": "Maps saved as bytes", "statement": "A StatMap saved with postcard (the compact format of tests/serde.rs) as bytes is loaded again as the same map, whatever bytes follow, and what follows is left for the next reader; so the bytes of different maps differ and none are the beginning of another's, and no proper beginning of a saved map can be loaded. This holds for all value types of the crate. Loading arbitrary bytes accepts exactly a count and that many entries, each a number of elements (at least three), a qualifier, a registered name and a value of that stat's type; it does what loading some data of the format does, is independent of what follows, never misreads a type, and yields no more entries than half the bytes read. Elements of an entry after the third are not looked at but taken for what follows.", "quantifier": "for all value types, shapes and impls that fit together, byte lists, maps, registries; all integer widths and float formats", "why_tests_cant": "Tests save and load one map of nine default values; they feed no damaged, truncated or foreign bytes, and no bytes after a map.", "anchors": ["src/stat_map.rs:64-70", "src/stat_map.rs:380-455", "src/stat.rs:36-96", "src/stat.rs:248-275", "tests/serde.rs:194-215"]}
{"id": "C133", "title": "What is saved of a map depends on its contents, and on the order of the vtables", "statement": "In one process two StatMaps are saved as the same data exactly if they have the same contents, however they were built. Two processes (or two runs of one program) save maps of the same contents as the same entries, in postcard as the same number of bytes; but the data, and the bytes, are the same exactly if both have the vtables of the stored stats in the same order in memory. Whether a map can be saved at all does not depend on the process.", "quantifier": "all maps and histories of calls, value types and serialisation formats that lose nothing, addresses in both processes", "why_tests_cant": "Quantifies over address assignments of two processes, all histories and all contents; a test sees one process and a few maps.", "anchors": ["src/stat_map.rs:52-70", "src/stat_map.rs:380-388", "src/stat.rs:151-155", "src/stat.rs:248-255"]}
{"id": "C134", "title": "Programs whose stat types are derived", "statement": "In a program whose stat types all come from #[derive(Stat)], registering any list of them (each of them any number of times) returns exactly if no two different types in it have a variant or struct of the same identifier, and otherwise panics; the names of the types do not matter. The stat of every value of a type is one that the type lists, so that name and saving work on it. Two values of one type are different stats exactly under the condition of C39 (the leading variants without a discriminant do not collide); where they are one stat, it has the name of one of them. When registration returned, every map of stats of these types is loaded exactly as it was saved.", "quantifier": "all lists of derived stat types (unit structs and enums with any discriminants that compiler and macro accept), histories of map calls, serialisation formats and addresses", "why_tests_cant": "Needs every enum, with any discriminants, and every combination of types; tests derive a handful of types with different identifiers.", "anchors": ["derive/src/lib.rs:69-174", "src/plugin.rs:48-58", "src/plugin.rs:258-266", "src/stat.rs:208-219", "src/stat.rs:248-275"]}
{"id": "C135", "title": "What stale results are", "statement": "When no stream uses the querier it is handed or the cache (as StatMap and components that only read themselves), then in every history of requests, clears and changes of world and streams each request returns exactly what it would return without a cache in the world of the first successful request for the same entity, query and stat since the last clear, if the entity is a StatEntity now and there is a cache, and in the current world otherwise. So a stat that was queried before a change is right after it without a clear exactly if the query failed or the stat did not change; and when all sources are StatMaps, no change of maps makes a query wrong as long as the values for its stat under matching qualifiers stay, in the maps of its entity and its children: the cache need not be cleared for the others.", "quantifier": "all queriers whose well-behaved streams ask nothing, worlds, and histories of any length of requests of all kinds, clears, and changes", "why_tests_cant": "Stale results depend on the whole history of queries, changes and clears; tests look at a cached query after one change.", "anchors": ["src/cache.rs:56-90", "src/querier.rs:246-289", "src/stat_map.rs:363-378"]}
{"id": "C136", "title": "Stat types that share a vtable address are one stat type to a StatMap", "statement": "A program whose stat types at one address have one value type is a program in which all stat types have addresses of their own, with several stat types in the place of one. Every call of a StatMap of the first, extend and from_iter included, on any map whatsoever, in order or not, does what the same call does in the second, and every read gives the same; so each theorem about the StatMap of programs with different addresses says what happens with equal ones. In particular the map is a multimap of the merged stats after every history with bulk calls, and no history reaches undefined behaviour, in calls, reads or when dropped, if and only if stat types at one address have one value type.", "quantifier": "every program, assignment of addresses to stat types, map (also out of order), call and history with bulk calls", "why_tests_cant": "whether two tables share an address is up to compiler and linker, and tests see one of the outcomes", "anchors": ["src/stat.rs:105-162", "src/stat_map.rs:97-132", "src/stat_map.rs:155-341", "src/lib.rs:194-200"]}
{"id": "C137", "title": "The two sides of the benchmark compute the same", "statement": "A StatMap filled by insert_base and the BTreeMap of the benchmark filled by the same insertions (any qualifiers, any order, also repeated) answer every query alike: eval_stat gives what the loop over the BTreeMap that joins Add(v).into_stat() of each matching entry evaluates to, panics included, for every value type where Add of a base value builds the stat of that base value. StatInt, StatIntFraction, StatIntFloatMul and StatIntPercentAdditive are such types, StatIntPercent is not. With n entries all_of(i), i < n, of base value 1, a query for the lowest k flags evaluates to min(n, 2^k) on both sides, in debug and release builds, if its hundredfold fits; the benchmark as it is yields 256.", "quantifier": "every list of insertions, query, stat and value type; all n up to 2^32 and k up to 32 for the benchmark's items", "why_tests_cant": "the benchmark compares times only, never the two results, and runs one list of insertions and one query", "anchors": ["benches/bench.rs:9-36", "src/stat_map.rs:183-202", "src/stat_map.rs:343-362", "src/qualifier.rs:140-149", "src/types/int_pct.rs:15-84"]}
{"id": "C138", "title": "Registered bounds hold for queries of every numeric stat type", "statement": "Let a default be registered for a stat and then any bounds (register_stat_min, register_stat_max), among any other registrations. If the sources contribute operations or joined values, every result of a stat query or a relation query for it evaluates to a number that is at least every registered minimum, at most every registered maximum that no minimum exceeds, and the greatest minimum when some minimum exceeds a maximum, where the bounds of the default, of the registrations and of the sources all count. This holds for StatInt, StatIntFraction, StatIntFloatMul, StatIntPercentAdditive, StatIntPercent, and for StatFloat, StatFloatAdditive and StatMult over fractions and over floats of any format; float results are never NaN, whatever the sources add.", "quantifier": "every history of registrations, querier, entity, query, recursion depth, integer type, overflow behaviour, rounding mode, scale and float format", "why_tests_cant": "tests register bounds for one integer stat and a few sources", "anchors": ["src/plugin.rs: register_stat_default, register_stat_min, register_stat_max", "src/querier.rs: JoinedQuerier::query", "src/types"]}
{"id": "C139", "title": "A source written with match_stat! contributes the operations of the first arm for the stat", "statement": "A stream whose body is a match_stat! with arms that apply operations to the value does, for each stat, exactly the operations of the first arm for it, in their order, and nothing when no arm is for it. It is thereby a source that contributes these operations to the query, so if no arm overwrites the value the order of such sources is irrelevant. In particular the stream of the crate's own test module, used on components and children, adds 1, 2, 2 or 3 to IntStat A, B, C or D once for each of the entity and its children that has the component (a debug build panics exactly if the sum exceeds i32), and leaves the flags of its arms in FlagsStat.", "quantifier": "for all lists of arms for stats and stat types with any lists of operations, all stats, values, queriers, worlds without registered defaults and relations (test stream), numbers of children", "why_tests_cant": "A test queries a few stats with one list of arms; the claim is about every list of arms, including repeated and shadowed ones, and every number of sources.", "anchors": ["src/lib.rs:205-246", "src/lib.rs:262-377", "src/stat.rs", "src/stream.rs:183-213"]}
{"id": "C140", "title": "query_eval evaluates what query_stat returns", "statement": "query_eval and query_relation_eval return the evaluation of exactly what query_stat and query_relation return in the same situation: None stays None, failures stay, a value is evaluated. They leave the cache exactly as the plain queries do, also when the evaluation panics. So after any queries and clears, for sources that behave, an evaluated query is the evaluation of the uncached answer. For the crate's test stream: the sum of the amounts for IntStat as long as a hundred times the sum fits in i32 (beyond that query_stat still returns but query_eval panics in debug builds), the flags switched on and not off for FlagsStat.", "quantifier": "all environments, queriers, entities, queries, stats, cache contents, recursion depths, histories of queries and clears; any number of sources for the test stream", "why_tests_cant": "Tests evaluate a few stats with an empty cache; what a panic in the evaluation leaves in the cache, and that it is the evaluation alone that fails, is not observed by them.", "anchors": ["src/querier.rs:129-152", "src/querier.rs:188-211", "src/querier.rs:245-315", "src/lib.rs:262-377"]}
{"id": "C141", "title": "The methods of QualifierFlag are the relations of sets of flags", "statement": "For every flag type whose |, &, Default and == are union, intersection, the empty set and equality of sets, the provided methods mean what they say: contains is superset, intersects is having a common flag, set_equals is equality, is_none is emptiness, none() is empty. Hence set_equals is contains both ways, intersects is symmetric, containing a union is containing both, and a non-empty set that is contained intersects.", "quantifier": "all lawful flag types; integers and bitflags of every width bit by bit", "why_tests_cant": "Universal over flag types and widths; set_equals is not called anywhere in the crate.", "anchors": ["src/qualifier.rs:16-56"]}
{"id": "C142", "title": "Queries on a stale cache freeze the cached results and compute everything else from them", "statement": "Results in the cache stay until it is cleared, so after a change of the world without a clear they may be wrong (C49). Whatever happened before, the cache is described by exactly one assignment of results to stat queries. Queries of streams that keep stat and type of the pair and neither clear nor store, on an engine with a cache, then come to exactly what they would come to without a cache if the stat queries in the assignment had the results given there: cached results are used wherever they are asked for, at any depth, and all other results are computed in the current world from them. Afterwards the cache holds the assignment unchanged, and besides it only results computed in that way. All this holds for any number of threads that query at the same time, too. So all queries are right without a clear if and only if each cached result of a StatEntity is its result in the current world. A single request is right already if this holds of the cached results that it involves in the current world, however wrong the others are. Also without clears after changes, each result is stored at most once between two clears, so every value put into the cache is dropped, once and at its own type. (A stream that clears the cache in mid-query can break this on a stale cache, unlike in C93.) With an empty assignment the outcomes are those without a cache.", "quantifier": "For all environments, worlds, earlier histories (any streams, changes without clears), later worlds with well-behaved streams, lists of queries, interleavings of threads and recursion depths.", "why_tests_cant": "A stale cache mixes results of different worlds; which mixtures occur depends on the order of queries, on the dependencies between stats and on recursion depth. Tests compare a few values and leave open whether other results are taken from the old or from the new world.", "anchors": ["src/querier.rs:245-289", "src/cache.rs"]}
{"id": "C143", "title": "Exactly which data are loaded as which value", "statement": "A datum is loaded as a given value of a shipped type exactly if it gives it. Integers: an integer in range of the type. Floats: a float, which is rounded to the type, or an integer. Flag sets: the number of their bits. Fractions: numerator and denominator in range, the latter not zero. Structs: every field, with a datum that is loaded as its value, either by name, each name once, in any order and among fields of other names, or by position, followed by more only if the format does not object; the rounding marker is a field as well, has to be there and has to be a unit. Enums: the variant, by name or by number, with its payload. A cache: any struct, and it is empty. Everything else is refused.", "quantifier": "For all data, values, formats, integer types, float formats and flag widths, and all payload types.", "why_tests_cant": "Round trip tests only feed back what was written; whether edited, reordered, incomplete, doubled or out-of-range input is refused or silently taken for something else needs all inputs.", "anchors": ["src/types/int_ratio.rs:13", "src/types/int_ratio.rs:81-83", "src/types/int_pct.rs:13", "src/types/float.rs:7", "src/types/flags.rs:10", "src/types/singleton.rs:41-48", "src/types/prioritized.rs:10-15", "src/qualifier.rs:78-84", "src/operations.rs:5-14", "src/num_traits.rs:286-291", "src/cache.rs:22-27"]}
{"id": "C144", "title": "Auras that ask about other entities add up, in any world and at any time", "statement": "Take the streams of tests/distance.rs: positions and allegiances as relation streams, and auras on children which query the relation of their parent to a target and add to an effect of the parent. In any world, the `Distance` effect on a `StatEntity` is the sum of the Manhattan distances to the targets of the `DistanceAura`s on its children, and the `Allegiance` effect is the sum of the strengths of the `AllegianceAura`s on its children whose target is on its side. The queries return these exactly if all targets are `StatEntity`s, they and the entity have the components asked about, and the sums fit `i32` (every partial sum, for strengths of either sign); otherwise they panic. They return nothing for entities that are no `StatEntity`. With a cache the same holds for the world as it is at the time of each query, in any history of queries, clears and changes of components, children and auras, if the cache is cleared after changes before the next query. As long as it is not cleared, an effect that was found once stays what it was. The stats are read back from their indices and have different names.", "quantifier": "All worlds (any entities, children, positions, allegiances and auras), qualifiers, recursion depths of at least 2, and histories.", "why_tests_cant": "The test has two entities with one aura each and four positions and allegiances; the sum over any number of auras, what fails when components are missing, overflow on the way, and freshness over all histories need induction over children and the transparency of the cache.", "anchors": ["tests/distance.rs:1-364", "src/querier.rs:245-340", "src/stream.rs:59-234", "src/cache.rs"]}
