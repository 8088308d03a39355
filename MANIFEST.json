{
 "claims": [
  {
   "property": "C01",
   "status": "proved",
   "theorems": [
    "BSQ.C01_aggregate_match",
    "BSQ.C01_aggregate_match_bits"
   ],
   "note": ""
  },
  {
   "property": "C02",
   "status": "proved",
   "theorems": [
    "BSQ.C02_exact_match"
   ],
   "note": ""
  },
  {
   "property": "C03",
   "status": "proved",
   "theorems": [
    "BSQ.C03_aggregate_monotone",
    "BSQ.C03_none_always_applies",
    "BSQ.C03_none_query_only_none"
   ],
   "note": ""
  },
  {
   "property": "C04",
   "status": "proved",
   "theorems": [
    "BSQ.C04_constructors",
    "BSQ.C04_and_all_of",
    "BSQ.C04_and_any_of",
    "BSQ.C04_is_none"
   ],
   "note": ""
  },
  {
   "property": "C05",
   "status": "proved",
   "theorems": [
    "BSQ.C05_exact_excludes_general",
    "BSQ.C05_exact_excludes_different",
    "BSQ.C05_exact_disjoint"
   ],
   "note": ""
  },
  {
   "property": "C06",
   "status": "proved",
   "theorems": [
    "BSQ.C06_behaves_as_map"
   ],
   "note": "All histories of map operations; panics included (both sides fail alike)."
  },
  {
   "property": "C07",
   "status": "proved",
   "theorems": [
    "BSQ.C07_sorted_and_unique"
   ],
   "note": ""
  },
  {
   "property": "C08",
   "status": "proved",
   "theorems": [
    "BSQ.C08_query_joins_matching",
    "BSQ.C08_unstorable_panics"
   ],
   "note": "For every storable value type; unstorable types panic (C08_unstorable_panics)."
  },
  {
   "property": "C09",
   "status": "proved",
   "theorems": [
    "BSQ.C09_determined_by_values",
    "BSQ.C09_insertion_order_irrelevant"
   ],
   "note": ""
  },
  {
   "property": "C10",
   "status": "proved",
   "theorems": [
    "BSQ.C10_iter",
    "BSQ.C10_iter_mut"
   ],
   "note": ""
  },
  {
   "property": "C11",
   "status": "proved",
   "theorems": [
    "BSQ.C11_other_keys_undisturbed",
    "BSQ.C11_remove_all_exact"
   ],
   "note": ""
  },
  {
   "property": "C12",
   "status": "partial",
   "theorems": [
    "BSQ.C12_extend_iff",
    "BSQ.C12_refuted_duplicates",
    "BSQ.C12_extend_is_insertion_partial",
    "BSQ.C12_from_iter_is_insertion_partial"
   ],
   "note": "Refuted: repeated keys are kept. Proved: extend is insertion if and only if no key is repeated (C12_extend_iff); C74 says what the map is otherwise."
  },
  {
   "property": "C13",
   "status": "proved",
   "theorems": [
    "BSQ.C13_roundtrip_of_stored",
    "BSQ.C13_roundtrip",
    "BSQ.C13_serialises_iff"
   ],
   "note": "Formats are represented by the data they carry."
  },
  {
   "property": "C14",
   "status": "proved",
   "theorems": [
    "BSQ.C14_entry_accepted_iff",
    "BSQ.C14_rejects",
    "BSQ.C14_unsupported_panics",
    "BSQ.C14_no_registry_panics",
    "BSQ.C14_map_iff",
    "BSQ.C14_map_accepted_iff",
    "BSQ.C14_loaded_typed"
   ],
   "note": ""
  },
  {
   "property": "C15",
   "status": "partial",
   "theorems": [
    "BSQ.C15_iter_iff",
    "BSQ.C15_refuted_other_addresses",
    "BSQ.C15_same_order_partial",
    "BSQ.C15_iff"
   ],
   "note": "Refuted: a loaded map is not sorted again. Proved exactly: what was stored is still found iff both processes order the vtables of the stored stats alike (C15_iff), and then all answers agree."
  },
  {
   "property": "C16",
   "status": "proved",
   "theorems": [
    "BSQ.C16_join_comm",
    "BSQ.C16_join_assoc",
    "BSQ.C16_default_unit",
    "BSQ.C16_unordered",
    "BSQ.C16_closed_form",
    "BSQ.C16_no_overflow",
    "BSQ.C16_closed_form_wrapping"
   ],
   "note": "Closed form over checked arithmetic that returns; C16_no_overflow gives a sufficient condition, C61 carries it over to the other conventions, C16_closed_form_wrapping states it modulo 2^bits."
  },
  {
   "property": "C17",
   "status": "proved",
   "theorems": [
    "BSQ.C17_flags"
   ],
   "note": ""
  },
  {
   "property": "C18",
   "status": "proved",
   "theorems": [
    "BSQ.C18_exists",
    "BSQ.C18_bool",
    "BSQ.C18_bool_or_is_ignored"
   ],
   "note": ""
  },
  {
   "property": "C19",
   "status": "proved",
   "theorems": [
    "BSQ.C19_once",
    "BSQ.C19_order",
    "BSQ.C19_set",
    "BSQ.C19_accessors"
   ],
   "note": ""
  },
  {
   "property": "C20",
   "status": "proved",
   "theorems": [
    "BSQ.C20_join_comm",
    "BSQ.C20_join_assoc",
    "BSQ.C20_default_unit",
    "BSQ.C20_unordered",
    "BSQ.C20_closed_form",
    "BSQ.C20_no_overflow"
   ],
   "note": "Closed form over checked arithmetic that returns (see C61), which it does under the condition of C20_no_overflow; SCALE must fit the integer type."
  },
  {
   "property": "C21",
   "status": "proved",
   "theorems": [
    "BSQ.C21_join_comm",
    "BSQ.C21_join_assoc",
    "BSQ.C21_default_unit",
    "BSQ.C21_unordered",
    "BSQ.C21_closed_form",
    "BSQ.C21_no_overflow"
   ],
   "note": "Closed form over checked arithmetic that returns (see C61), which it does under the condition of C21_no_overflow."
  },
  {
   "property": "C22",
   "status": "proved",
   "theorems": [
    "BSQ.C22_join_comm",
    "BSQ.C22_join_assoc",
    "BSQ.C22_default_unit",
    "BSQ.C22_unordered",
    "BSQ.C22_closed_form_float",
    "BSQ.C22_closed_form_additive",
    "BSQ.C22_closed_form_mult",
    "BSQ.C22_no_overflow_float",
    "BSQ.C22_no_overflow_additive",
    "BSQ.C22_no_overflow_mult"
   ],
   "note": "Closed form over checked arithmetic that returns, which it does under the conditions of C22_no_overflow_*."
  },
  {
   "property": "C23",
   "status": "proved",
   "theorems": [
    "BSQ.C23_float",
    "BSQ.C23_float_additive",
    "BSQ.C23_float_mult"
   ],
   "note": ""
  },
  {
   "property": "C24",
   "status": "partial",
   "theorems": [
    "BSQ.C24_opposite_infinities_float",
    "BSQ.C24_opposite_infinities_additive",
    "BSQ.C24_exact_float_partial",
    "BSQ.C24_unordered_float_partial",
    "BSQ.C24_exact_additive_partial",
    "BSQ.C24_exact_mult_partial",
    "BSQ.C24_refuted",
    "BSQ.C24_join_comm_partial",
    "BSQ.C24_bounds_partial",
    "BSQ.C24_exact_partial",
    "BSQ.C24_formats"
   ],
   "note": "Refuted: rounding depends on order. Proved: join is commutative, bounds never depend on order, full order independence when no partial sum or product needs rounding; C84 bounds the difference otherwise."
  },
  {
   "property": "C25",
   "status": "partial",
   "theorems": [
    "BSQ.C25_refuted",
    "BSQ.C25_small_partial",
    "BSQ.C25_narrow_partial",
    "BSQ.C25_actual",
    "BSQ.C25_limits",
    "BSQ.C25_iff"
   ],
   "note": "Refuted above 2^24 for f32. Proved exactly: a base is returned unchanged iff it is a float or an end of the integer type (C25_iff); in general its nearest float is returned, clamped (C25_actual)."
  },
  {
   "property": "C26",
   "status": "partial",
   "theorems": [
    "BSQ.C26_default_not_identity",
    "BSQ.C26_default_join_value",
    "BSQ.C26_mul_join_differ",
    "BSQ.C26_ops_on_base_partial",
    "BSQ.C26_joined_modifiers",
    "BSQ.C26_actual",
    "BSQ.C26_no_overflow_partial"
   ],
   "note": "Refuted for default and join. Proved for operations applied to a base, with a condition on magnitudes under which they return, and, exactly, what every assembly by operations and joins evaluates to instead (C26_actual, C26_joined_modifiers)."
  },
  {
   "property": "C27",
   "status": "partial",
   "theorems": [
    "BSQ.C27_actual",
    "BSQ.C27_refuted",
    "BSQ.C27_default_hides_modifiers",
    "BSQ.C27_two_values_partial",
    "BSQ.C27_equal_priorities_partial",
    "BSQ.C27_taken_over_partial",
    "BSQ.C27_iff"
   ],
   "note": "Refuted for three or more values and for queries starting at the default. C27_iff: right exactly if nothing takes over from the first value, or the last value that does also takes over from everything before it. C27_actual: what the code computes."
  },
  {
   "property": "C28",
   "status": "proved",
   "theorems": [
    "BSQ.C28_int",
    "BSQ.C28_int_fraction",
    "BSQ.C28_int_float_mul",
    "BSQ.C28_int_percent_additive",
    "BSQ.C28_int_percent",
    "BSQ.C28_fraction",
    "BSQ.C28_fraction_additive",
    "BSQ.C28_fraction_mult",
    "BSQ.C28_float",
    "BSQ.C28_float_additive",
    "BSQ.C28_float_mult"
   ],
   "note": ""
  },
  {
   "property": "C29",
   "status": "partial",
   "theorems": [
    "BSQ.C29_int",
    "BSQ.C29_int_fraction",
    "BSQ.C29_int_percent_additive",
    "BSQ.C29_fractions",
    "BSQ.C29_floats",
    "BSQ.C29_floats_reachable",
    "BSQ.C29_sets",
    "BSQ.C29_prioritized_refuted",
    "BSQ.C29_int_percent_refuted",
    "BSQ.C29_prioritized_partial",
    "BSQ.C29_int_float_mul",
    "BSQ.C29_prioritized_iff",
    "BSQ.C29_int_percent_never"
   ],
   "note": "Refuted for Prioritized and StatIntPercent. Proved for every other value type; for Prioritized exactly when they agree (C29_prioritized_iff), for StatIntPercent they never do (C29_int_percent_never)."
  },
  {
   "property": "C30",
   "status": "partial",
   "theorems": [
    "BSQ.C30_int",
    "BSQ.C30_int_fraction_partial",
    "BSQ.C30_int_fraction_refuted",
    "BSQ.C30_int_percent_additive_partial",
    "BSQ.C30_int_percent_additive_refuted",
    "BSQ.C30_int_percent_refuted",
    "BSQ.C30_fractions",
    "BSQ.C30_floats",
    "BSQ.C30_sets"
   ],
   "note": "Refuted at the ends of the integer range. Proved for everything else in the claim, with exact conditions."
  },
  {
   "property": "C31",
   "status": "proved",
   "theorems": [
    "BSQ.C31_floats",
    "BSQ.C31_floats_special",
    "BSQ.C31_returns_iff",
    "BSQ.C31_returns",
    "BSQ.C31_no_room_panics",
    "BSQ.C31_rounds_as_documented",
    "BSQ.C31_spec_unique",
    "BSQ.C31_integers_fixed"
   ],
   "note": "Over valid fractions and floats; C31_returns_iff says exactly when rounding a fraction returns."
  },
  {
   "property": "C32",
   "status": "partial",
   "theorems": [
    "BSQ.C32_every_order_iff",
    "BSQ.C32_some_order_iff",
    "BSQ.C32_same_outcome_iff",
    "BSQ.C32_selected_sums",
    "BSQ.C32_signed_saturating_order_matters",
    "BSQ.C32_debug_panic_depends_on_order",
    "BSQ.C32_order_independent_partial",
    "BSQ.C32_never_panics_partial"
   ],
   "note": "Refuted for signed Saturating (order) and checked primitives (which orders panic). Proved for everything else; for checked primitives exactly: when no order panics (C32_every_order_iff), when some order does not (C32_some_order_iff), when all orders have one outcome (C32_same_outcome_iff)."
  },
  {
   "property": "C33",
   "status": "partial",
   "theorems": [
    "BSQ.C33_small_types_partial",
    "BSQ.C33_wide_types_panic",
    "BSQ.C33_bounds",
    "BSQ.C33_each_type"
   ],
   "note": "Refuted for types wider than i64: from_i64 always panics. Proved for all others."
  },
  {
   "property": "C34",
   "status": "proved",
   "theorems": [
    "BSQ.C34_storable_iff_fits",
    "BSQ.C34_validate",
    "BSQ.C34_store_iff",
    "BSQ.C34_reprC_sound",
    "BSQ.C34_struct_at_least",
    "BSQ.C34_types_storable",
    "BSQ.C34_float_storable",
    "BSQ.C34_statExists_storable",
    "BSQ.C34_statIntFloatMul_storable",
    "BSQ.C34_statFlags_storable",
    "BSQ.C34_statOnce_storable",
    "BSQ.C34_prioritized_storable"
   ],
   "note": ""
  },
  {
   "property": "C35",
   "status": "proved",
   "theorems": [
    "BSQ.C35_buffers_typed",
    "BSQ.C35_no_misread",
    "BSQ.C35_no_misread_observers"
   ],
   "note": ""
  },
  {
   "property": "C36",
   "status": "partial",
   "theorems": [
    "BSQ.C36_is",
    "BSQ.C36_cast_partial",
    "BSQ.C36_cast_self_partial",
    "BSQ.C36_isThenCast_partial",
    "BSQ.C36_intoResult_partial",
    "BSQ.C36_never_misread",
    "BSQ.C36_refuted_big_stat",
    "BSQ.C36_refuted",
    "BSQ.C36_iff",
    "BSQ.C36_isThenCast_iff"
   ],
   "note": "Refuted for stat types over 24 bytes; C36_iff: the casts are right exactly for stat types that fit a buffer. No cast misreads in any case."
  },
  {
   "property": "C37",
   "status": "proved",
   "theorems": [
    "BSQ.C37_stat_identity"
   ],
   "note": ""
  },
  {
   "property": "C38",
   "status": "partial",
   "theorems": [
    "BSQ.C38_first_match_type_partial",
    "BSQ.C38_first_match_stat_partial",
    "BSQ.C38_no_match_partial",
    "BSQ.C38_refuted_big_stat",
    "BSQ.C38_refuted",
    "BSQ.C38_typed",
    "BSQ.C38_no_match_iff",
    "BSQ.C38_first_match_type_iff",
    "BSQ.C38_first_match_stat_iff"
   ],
   "note": "Refuted when an arm is for a stat type over 24 bytes; C38_first_match_type_iff, C38_first_match_stat_iff and C38_no_match_iff: right exactly when the stat types up to the matching arm fit a buffer."
  },
  {
   "property": "C39",
   "status": "partial",
   "theorems": [
    "BSQ.C39_numbering",
    "BSQ.C39_roundtrip_iff",
    "BSQ.C39_distinct_iff",
    "BSQ.C39_lossless_partial",
    "BSQ.C39_common_cases",
    "BSQ.C39_refuted_collision"
   ],
   "note": "Refuted: an explicit discriminant may collide with the macro's numbering. Proved under the exact condition for no collision (C39_distinct_iff)."
  },
  {
   "property": "C40",
   "status": "proved",
   "theorems": [
    "BSQ.C40_accepts_iff",
    "BSQ.C40_values_names",
    "BSQ.C40_unknown_index",
    "BSQ.C40_unit_struct"
   ],
   "note": ""
  },
  {
   "property": "C41",
   "status": "proved",
   "theorems": [
    "BSQ.C41_register_finds",
    "BSQ.C41_register_idempotent",
    "BSQ.C41_register_ok_iff",
    "BSQ.C41_replace",
    "BSQ.C41_replace_finds"
   ],
   "note": "register_replace finds the new stat for distinct names."
  },
  {
   "property": "C42",
   "status": "partial",
   "theorems": [
    "BSQ.C42_iff",
    "BSQ.C42_history_partial",
    "BSQ.C42_refuted_bound_first",
    "BSQ.C42_refuted_bound_first_general",
    "BSQ.C42_world_partial",
    "BSQ.C42_world_returns_partial"
   ],
   "note": "Refuted: a bound registered before a default. C42_iff: right exactly when each stat's registrations start with a default, or with one bound that a default then replaces; also at the level of World for bounds after defaults."
  },
  {
   "property": "C43",
   "status": "proved",
   "theorems": [
    "BSQ.C43_stat_unmarked",
    "BSQ.C43_stat_marked",
    "BSQ.C43_unstorable_panics",
    "BSQ.C43_relation_unmarked",
    "BSQ.C43_relation_marked"
   ],
   "note": ""
  },
  {
   "property": "C44",
   "status": "proved",
   "theorems": [
    "BSQ.C44_value",
    "BSQ.C44_start",
    "BSQ.C44_assembled",
    "BSQ.C44_order",
    "BSQ.C44_builders",
    "BSQ.C44_builder_order",
    "BSQ.C44_stat_map",
    "BSQ.C44_returns_iff",
    "BSQ.C44_any_order",
    "BSQ.C44_int"
   ],
   "note": "Sources let panics of the queries they make pass (C101_order otherwise). C44_order compares runs that both return; C44_any_order: if sources go through whenever all contributions fit, every order returns the same; C44_int gives the closed form end to end."
  },
  {
   "property": "C45",
   "status": "proved",
   "theorems": [
    "BSQ.C45_children_calls",
    "BSQ.C45_children_last",
    "BSQ.C45_only_own_children",
    "BSQ.C45_non_matching"
   ],
   "note": ""
  },
  {
   "property": "C46",
   "status": "proved",
   "theorems": [
    "BSQ.C46_relation_calls",
    "BSQ.C46_independent",
    "BSQ.C46_no_cache_access"
   ],
   "note": ""
  },
  {
   "property": "C47",
   "status": "proved",
   "theorems": [
    "BSQ.C47_has_attribute"
   ],
   "note": "All sources return (otherwise the outcome depends on who is asked first)."
  },
  {
   "property": "C48",
   "status": "partial",
   "theorems": [
    "BSQ.C48_transparent_partial",
    "BSQ.C48_refuted",
    "BSQ.C48_iff"
   ],
   "note": "Refuted for some streams that replace the whole pair. Proved for all others, and exactly (C48_iff): for streams that store nothing in the cache themselves the claim holds iff the pair a query ends with is always right for its own stat."
  },
  {
   "property": "C49",
   "status": "partial",
   "theorems": [
    "BSQ.C49_stays_partial",
    "BSQ.C49_recomputed_partial",
    "BSQ.C49_refuted",
    "BSQ.C49_stays_iff",
    "BSQ.C49_iff"
   ],
   "note": "Refuted for streams that replace the whole pair. Proved for all others, and exactly (C49_iff): a computed result stays whatever becomes of world and streams iff the pair still is of the stat asked for at the end, or the sources put the value under that key themselves."
  },
  {
   "property": "C50",
   "status": "partial",
   "theorems": [
    "BSQ.C50_concurrent_partial",
    "BSQ.C50_no_misread_partial",
    "BSQ.C50_progress",
    "BSQ.C50_sequential",
    "BSQ.C50_refuted",
    "BSQ.C50_iff"
   ],
   "note": "Refuted for some streams that replace the whole pair. Proved for all others, every number of threads and interleaving, and exactly (C50_iff, same condition as C48_iff). Clears succeed and nothing gets stuck for all streams (C50_progress)."
  },
  {
   "property": "C51",
   "status": "partial",
   "theorems": [
    "BSQ.C51_refuted",
    "BSQ.C51_agreeing_partial",
    "BSQ.C51_no_cache",
    "BSQ.C51_no_cache_clearing",
    "BSQ.C51_iff"
   ],
   "note": "Refuted: the key omits the streams. C51_iff: queriers may share a cache exactly if each result of the first is a result of the second."
  },
  {
   "property": "C52",
   "status": "proved",
   "theorems": [
    "BSQ.C52_registration_order",
    "BSQ.C52_none_registered",
    "BSQ.C52_cached"
   ],
   "note": ""
  },
  {
   "property": "C53",
   "status": "proved",
   "theorems": [
    "BSQ.C53_terminates",
    "BSQ.C53_terminates_cached",
    "BSQ.C53_self_query_never_returns",
    "BSQ.C53_self_query_diverges"
   ],
   "note": ""
  },
  {
   "property": "C54",
   "status": "proved",
   "theorems": [
    "BSQ.C54_registered_bounds"
   ],
   "note": ""
  },
  {
   "property": "C55",
   "status": "partial",
   "theorems": [
    "BSQ.C55_result_type_partial",
    "BSQ.C55_refuted",
    "BSQ.C55_iff",
    "BSQ.C55_cached_iff"
   ],
   "note": "Refuted for streams that replace the pair by one of another type. Proved for all others, and exactly: C55_iff (one query), C55_cached_iff (the cache adds no misreads)."
  },
  {
   "property": "C56",
   "status": "proved",
   "theorems": [
    "BSQ.C56_sound",
    "BSQ.C56_sound_running"
   ],
   "note": ""
  },
  {
   "property": "C57",
   "status": "partial",
   "theorems": [
    "BSQ.C57_exact",
    "BSQ.C57_no_leak_partial",
    "BSQ.C57_alive",
    "BSQ.C57_refuted",
    "BSQ.C57_refuted_query"
   ],
   "note": "Refuted: overwriting insertion and panicking joins leak. Proved: exactly how many values leak."
  },
  {
   "property": "C58",
   "status": "partial",
   "theorems": [
    "BSQ.C58_sound_partial",
    "BSQ.C58_exact_partial",
    "BSQ.C58_refuted_patch",
    "BSQ.C58_refuted_leak",
    "BSQ.C58_drop_panics_partial",
    "BSQ.C58_refuted_drop"
   ],
   "note": "Refuted: patch of an absent default, overwriting insertion. Proved: soundness and the exact number of leaks otherwise."
  },
  {
   "property": "C59",
   "status": "proved",
   "theorems": [
    "BSQ.C59_noop",
    "BSQ.C59_independent"
   ],
   "note": ""
  },
  {
   "property": "C60",
   "status": "proved",
   "theorems": [
    "BSQ.C60_clear_without_cache",
    "BSQ.C60_clear_with_cache",
    "BSQ.C60_register"
   ],
   "note": ""
  },
  {
   "property": "C61",
   "status": "proved",
   "theorems": [
    "BSQ.C61_statInt",
    "BSQ.C61_statIntFraction",
    "BSQ.C61_statIntFloatMul",
    "BSQ.C61_statIntPercentAdditive",
    "BSQ.C61_statIntPercent",
    "BSQ.C61_overflow_differs"
   ],
   "note": ""
  },
  {
   "property": "C62",
   "status": "partial",
   "theorems": [
    "BSQ.C62_join_comm",
    "BSQ.C62_default_unit",
    "BSQ.C62_addend_bounds",
    "BSQ.C62_unordered_partial",
    "BSQ.C62_closed_form_partial",
    "BSQ.C62_refuted",
    "BSQ.C62_no_overflow"
   ],
   "note": "Refuted for multipliers whose products are rounded or overflow. Proved when products are exact; addend and bounds unconditionally; assembly and evaluation return whenever the magnitudes of the addends add up within the type."
  },
  {
   "property": "C63",
   "status": "partial",
   "theorems": [
    "BSQ.C63_survives_partial",
    "BSQ.C63_other_keys_undisturbed",
    "BSQ.C63_refuted_extend",
    "BSQ.C63_extend_iff",
    "BSQ.C63_extend_repeated"
   ],
   "note": "Refuted for extend with a panicking iterator (C63_extend_iff: when the map still works then). Proved for every other method."
  },
  {
   "property": "C64",
   "status": "partial",
   "theorems": [
    "BSQ.C64_accesses_partial",
    "BSQ.C64_accesses_iff",
    "BSQ.C64_storable_iff_accessible",
    "BSQ.C64_refuted_from",
    "BSQ.C64_from_ok_iff"
   ],
   "note": "Refuted for the write in Buffer::from. Proved for every other access, with the exact condition for each to go through (C64_accesses_iff)."
  },
  {
   "property": "C65",
   "status": "proved",
   "theorems": [
    "BSQ.Codec.C65_int",
    "BSQ.Codec.C65_bool",
    "BSQ.Codec.C65_float",
    "BSQ.Codec.C65_bits",
    "BSQ.Codec.C65_string",
    "BSQ.Codec.C65_unsupported",
    "BSQ.Codec.C65_frac",
    "BSQ.Codec.C65_loads_unreduced",
    "BSQ.Codec.C65_statInt",
    "BSQ.Codec.C65_statIntFraction",
    "BSQ.Codec.C65_statIntFloatMul",
    "BSQ.Codec.C65_statIntPercentAdditive",
    "BSQ.Codec.C65_statIntPercent",
    "BSQ.Codec.C65_statFloat",
    "BSQ.Codec.C65_statFloatAdditive",
    "BSQ.Codec.C65_statMult",
    "BSQ.Codec.C65_statFlags",
    "BSQ.Codec.C65_prioritized",
    "BSQ.Codec.C65_qualifier",
    "BSQ.Codec.C65_statOnce",
    "BSQ.Codec.C65_statExists",
    "BSQ.Codec.C65_statOp",
    "BSQ.Codec.C65_cache_empty",
    "BSQ.Codec.C65_field_order"
   ],
   "note": "Formats are represented by the data they carry."
  },
  {
   "property": "C66",
   "status": "proved",
   "theorems": [
    "BSQ.C66_save_load",
    "BSQ.C66_empty",
    "BSQ.C66_unregistered"
   ],
   "note": ""
  },
  {
   "property": "C67",
   "status": "partial",
   "theorems": [
    "BSQ.C67_map",
    "BSQ.C67_defaults_partial",
    "BSQ.C67_refuted_defaults",
    "BSQ.C67_cache",
    "BSQ.C67_pair",
    "BSQ.C67_defaults_iff"
   ],
   "note": "Refuted for a bound registered before a default. C67_defaults_iff: exactly which histories of registrations are safe; for the cache whatever the streams do (C67_cache)."
  },
  {
   "property": "C68",
   "status": "proved",
   "theorems": [
    "BSQ.C68_is",
    "BSQ.C68_equivalence",
    "BSQ.C68_cast_self",
    "BSQ.C68_cast_other",
    "BSQ.C68_is_then_cast",
    "BSQ.C68_agrees"
   ],
   "note": ""
  },
  {
   "property": "C69",
   "status": "proved",
   "theorems": [
    "BSQ.C69_cast",
    "BSQ.C69_cast_never_misreads",
    "BSQ.C69_map",
    "BSQ.C69_map_safe",
    "BSQ.C69_logical_errors"
   ],
   "note": ""
  },
  {
   "property": "C70",
   "status": "proved",
   "theorems": [
    "BSQ.C70_statInt",
    "BSQ.C70_statIntFraction",
    "BSQ.C70_statIntPercentAdditive",
    "BSQ.C70_statFloat_fraction",
    "BSQ.C70_statFloatAdditive_fraction",
    "BSQ.C70_statMult_fraction",
    "BSQ.C70_wrapping_lowers",
    "BSQ.C70_negative_multiplier_lowers"
   ],
   "note": ""
  },
  {
   "property": "C71",
   "status": "proved",
   "theorems": [
    "BSQ.C71_statFloat",
    "BSQ.C71_statFloatAdditive",
    "BSQ.C71_statMult",
    "BSQ.C71_statInt",
    "BSQ.C71_statIntFloatMul",
    "BSQ.C71_statFloat_bounds",
    "BSQ.C71_statFloatAdditive_bounds",
    "BSQ.C71_statMult_bounds",
    "BSQ.C71_zero_becomes_max",
    "BSQ.C71_negative_multiplier_lowers"
   ],
   "note": ""
  },
  {
   "property": "C72",
   "status": "proved",
   "theorems": [
    "BSQ.Frac.C72_only_panics",
    "BSQ.Frac.C72_new",
    "BSQ.Frac.C72_exact",
    "BSQ.Frac.C72_exact_int",
    "BSQ.Frac.C72_zero_denominator",
    "BSQ.Frac.C72_zero_divisor",
    "BSQ.Frac.C72_no_overflow",
    "BSQ.Frac.C72_release_wraps"
   ],
   "note": "The operators are those of num-rational 0.4, modelled from its documented source. Exactness needs overflow checks or the C72_no_overflow condition; C72_release_wraps shows why."
  },
  {
   "property": "C73",
   "status": "proved",
   "theorems": [
    "BSQ.Frac.C73_cmp",
    "BSQ.Frac.C73_eq",
    "BSQ.Frac.C73_min",
    "BSQ.Frac.C73_max",
    "BSQ.Frac.C73_shorthand",
    "BSQ.Frac.C73_terminates",
    "BSQ.Frac.C73_negative_denominator"
   ],
   "note": "C73_shorthand justifies the cross-multiplying comparison used by the rest of the model. C73_negative_denominator is the counterexample for loaded fractions."
  },
  {
   "property": "C74",
   "status": "proved",
   "theorems": [
    "BSQ.C74_multimap",
    "BSQ.C74_remove",
    "BSQ.C74_no_ub",
    "BSQ.C74_query"
   ],
   "note": "The spec does not say which of several values under one key a call acts on."
  },
  {
   "property": "C75",
   "status": "proved",
   "theorems": [
    "BSQ.C75_sound",
    "BSQ.C75_sound_running"
   ],
   "note": ""
  },
  {
   "property": "C76",
   "status": "partial",
   "theorems": [
    "BSQ.C76_exact",
    "BSQ.C76_poisoned_forever",
    "BSQ.C76_harmless_partial",
    "BSQ.C76_refuted"
   ],
   "note": "Refuted: a panicking clone in cache_pair or destructor in clear poisons the lock for good (C76_refuted). C76_exact says exactly which calls return and how many values leak; C76_harmless_partial covers lookups and printing. Missing: nothing more holds."
  },
  {
   "property": "C77",
   "status": "proved",
   "theorems": [
    "BSQ.C77_sound",
    "BSQ.C77_loads"
   ],
   "note": ""
  },
  {
   "property": "C78",
   "status": "partial",
   "theorems": [
    "BSQ.C78_exact",
    "BSQ.C78_no_leak_partial",
    "BSQ.C78_refuted"
   ],
   "note": "Refuted: a surplus element rejected by a strict format leaks the value read (C78_refuted). C78_exact: exactly one value per such failure and nothing else; C78_no_leak_partial: nothing with formats that ignore the surplus."
  },
  {
   "property": "C79",
   "status": "proved",
   "theorems": [
    "BSQ.C79_keyed_sound",
    "BSQ.C79_exact",
    "BSQ.C79_sound",
    "BSQ.C79_range_refuted"
   ],
   "note": ""
  },
  {
   "property": "C80",
   "status": "partial",
   "theorems": [
    "BSQ.C80_defaults_history_iff",
    "BSQ.C80_map_iff",
    "BSQ.C80_defaults_iff",
    "BSQ.C80_cache_iff",
    "BSQ.C80_map",
    "BSQ.C80_defaults_partial",
    "BSQ.C80_refuted",
    "BSQ.C80_cache"
   ],
   "note": "Refuted for defaults with a bound registered first (C80_refuted). The exact conditions are C80_map_iff, C80_defaults_iff, C80_cache_iff; proved for maps always, for caches whatever the streams do (C80_cache), and for defaults with bounds after a default; C80_defaults_history_iff: exactly which histories of registrations."
  },
  {
   "property": "C81",
   "status": "proved",
   "theorems": [
    "BSQ.C81_same_entries",
    "BSQ.C81_alive"
   ],
   "note": ""
  },
  {
   "property": "C82",
   "status": "partial",
   "theorems": [
    "BSQ.C82_scoped_partial",
    "BSQ.C82_refuted",
    "BSQ.C82_iff"
   ],
   "note": "Refuted: the lifetime of the returned reference is not tied to the pair, so safe code can use it after the pair is gone, moved or replaced, or alias it (C82_refuted). Proved for programs that use a reference only until the next use of its pair (C82_scoped_partial), and exactly which programs are defined (C82_iff)."
  },
  {
   "property": "C83",
   "status": "proved",
   "theorems": [
    "BSQ.C83_sound",
    "BSQ.C83_exact"
   ],
   "note": ""
  },
  {
   "property": "C84",
   "status": "proved",
   "theorems": [
    "BSQ.C84_float",
    "BSQ.C84_additive",
    "BSQ.C84_mult",
    "BSQ.C84_int_float_mul",
    "BSQ.C84_float_order",
    "BSQ.C84_additive_order",
    "BSQ.C84_mult_order",
    "BSQ.C84_int_order"
   ],
   "note": ""
  },
  {
   "property": "C85",
   "status": "proved",
   "theorems": [
    "BSQ.C85_recall",
    "BSQ.C85_returns_iff",
    "BSQ.C85_queries",
    "BSQ.C85_seeded"
   ],
   "note": ""
  },
  {
   "property": "C86",
   "status": "proved",
   "theorems": [
    "BSQ.C86_exact",
    "BSQ.C86_int",
    "BSQ.C86_flags",
    "BSQ.C86_cached"
   ],
   "note": "Integers: the numbers must add and multiply up within the type without their signs (SmallInts). With a cache: joins of value types return or panic. Demo worlds with own and children's maps, a cached history and flags meet the hypotheses."
  },
  {
   "property": "C87",
   "status": "proved",
   "theorems": [
    "BSQ.C87_no_deadlock",
    "BSQ.C87_terminates",
    "BSQ.C87_completes",
    "BSQ.C87_exclusive",
    "BSQ.C87_guarded",
    "BSQ.C87_alive",
    "BSQ.C87_waits_for_itself",
    "BSQ.C87_reentrant_deadlock",
    "BSQ.C87_nested_read_deadlock"
   ],
   "note": "Exclusion (C87_exclusive) and waiting for itself (C87_waits_for_itself) for all user code; guarded accesses, freedom of deadlock and completion for Clone, Drop and Debug that do not use the cache. C87_reentrant_deadlock and C87_nested_read_deadlock: they must not. Demo executions with two readers at once and with waiting writers meet the hypotheses."
  },
  {
   "property": "C88",
   "status": "proved",
   "theorems": [
    "BSQ.C88_linearizable",
    "BSQ.C88_results"
   ],
   "note": "The hypothesis on streams is that of C50. The relation of the states also fixes the position of each thread that holds no guard."
  },
  {
   "property": "C89",
   "status": "proved",
   "theorems": [
    "BSQ.C89_depends",
    "BSQ.C89_untouched",
    "BSQ.C89_one_more",
    "BSQ.C89_insert_own",
    "BSQ.C89_insert_child",
    "BSQ.C89_int",
    "BSQ.C89_flags",
    "BSQ.C89_one_other",
    "BSQ.C89_change_own",
    "BSQ.C89_change_child",
    "BSQ.C89_change_value",
    "BSQ.C89_other_int",
    "BSQ.C89_other_flags",
    "BSQ.C89_only"
   ],
   "note": ""
  },
  {
   "property": "C90",
   "status": "proved",
   "theorems": [
    "BSQ.C90_value_type",
    "BSQ.C90_well_formed",
    "BSQ.C90_rest_ignored",
    "BSQ.C90_no_string",
    "BSQ.C90_order_matters"
   ],
   "note": "Finding: unknown items with a value are tolerated behind value = \"T\" but hide it when in front of it (C90_order_matters)."
  },
  {
   "property": "C91",
   "status": "partial",
   "theorems": [
    "BSQ.C91_repaired",
    "BSQ.C91_reloaded_partial",
    "BSQ.C91_refuted"
   ],
   "note": "Refuted in general, as C15 is (C91_refuted: a stored value is missed, another read at the wrong type). C91_reloaded_partial: holds if the vtables of the stats stored together are in the same order in both processes, in particular if each map holds stats of one type. C91_repaired: holds in any process if each loaded map is extended by nothing first."
  },
  {
   "property": "C92",
   "status": "proved",
   "theorems": [
    "BSQ.C92_returns",
    "BSQ.C92_forgets",
    "BSQ.C92_leaves",
    "BSQ.C92_sequence"
   ],
   "note": ""
  },
  {
   "property": "C93",
   "status": "proved",
   "theorems": [
    "BSQ.C93_once",
    "BSQ.C93_no_leak",
    "BSQ.C93_threads_overwrite",
    "BSQ.C93_swap_overwrites"
   ],
   "note": ""
  },
  {
   "property": "C94",
   "status": "proved",
   "theorems": [
    "BSQ.C94_returns",
    "BSQ.C94_recalled",
    "BSQ.C94_next",
    "BSQ.C94_leaks",
    "BSQ.C94_wrong_pair",
    "BSQ.C94_ends_recursion"
   ],
   "note": ""
  },
  {
   "property": "C95",
   "status": "proved",
   "theorems": [
    "BSQ.C95_typed",
    "BSQ.C95_concurrent",
    "BSQ.C95_hit",
    "BSQ.C95_clears"
   ],
   "note": ""
  },
  {
   "property": "C96",
   "status": "proved",
   "theorems": [
    "BSQ.C96_any_ord",
    "BSQ.C96_no_ub",
    "BSQ.C96_remove",
    "BSQ.C96_query",
    "BSQ.C96_extend",
    "BSQ.C96_extend_unspecified"
   ],
   "note": "For each call the comparison is an arbitrary function, the same for the length of the call. extend/from_iter: C96_extend for every sort result that keeps the stats together, C96_extend_unspecified for one that does not. A history with an all-equal and an all-less comparison meets the hypotheses."
  },
  {
   "property": "C97",
   "status": "proved",
   "theorems": [
    "BSQ.C97_typed",
    "BSQ.C97_no_ub",
    "BSQ.C97_right_among",
    "BSQ.C97_confused"
   ],
   "note": "C97_no_ub for streams that do not break pairs themselves (Safe). C97_right_among: the executions with right comparisons are among these; C97_confused: a wrong result."
  },
  {
   "property": "C98",
   "status": "proved",
   "theorems": [
    "BSQ.C98_keyed_sound",
    "BSQ.C98_sound",
    "BSQ.C98_others",
    "BSQ.C98_one",
    "BSQ.C98_panic_unchanged",
    "BSQ.C98_agrees",
    "BSQ.C98_sorted",
    "BSQ.C98_panics_at",
    "BSQ.C98_panics_only",
    "BSQ.C98_visits",
    "BSQ.C98_insert_leaks",
    "BSQ.C98_query_leaks",
    "BSQ.C98_extend_unsorted"
   ],
   "note": "C98_keyed_sound without range reads, C98_sound with them; C98_sorted: sorting with a right Ord meets the hypothesis; C98_agrees: with user code that behaves the steps are those of the ledger model; C98_extend_unsorted: the hypothesis is needed."
  },
  {
   "property": "C99",
   "status": "proved",
   "theorems": [
    "BSQ.C99_sound",
    "BSQ.C99_keys",
    "BSQ.C99_late_clear",
    "BSQ.C99_agrees",
    "BSQ.C99_poisons"
   ],
   "note": "C99_sound excludes LateClear, for which C99_late_clear shows the double drop. C99_agrees: with right comparisons the calls are those of C75. Nested panics during unwinding as in Rust 1.71 and later."
  },
  {
   "property": "C100",
   "status": "proved",
   "theorems": [
    "BSQ.C100_sound",
    "BSQ.C100_exact",
    "BSQ.C100_no_remove",
    "BSQ.C100_same_maps",
    "BSQ.C100_cache",
    "BSQ.C100_remove_leaks"
   ],
   "note": "C100_exact counts the leaks; C100_no_remove and C100_cache: none otherwise. C100_same_maps: the ledger of values (C56, C57) goes through the same maps. Comparisons, clones and destructors of the flag type do not panic in this model."
  },
  {
   "property": "C101",
   "status": "proved",
   "theorems": [
    "BSQ.C101_catch",
    "BSQ.C101_faithful",
    "BSQ.C101_self_query",
    "BSQ.C101_order"
   ],
   "note": "C101_order is the refutation of C44_order for streams that catch panics. Panics of user code while the lock of the cache is held are not among those caught here (C75, C99)."
  },
  {
   "property": "C102",
   "status": "proved",
   "theorems": [
    "BSQ.C102_addr",
    "BSQ.C102_cast",
    "BSQ.C102_isThenCast",
    "BSQ.C102_intoResult",
    "BSQ.C102_safe",
    "BSQ.C102_needed",
    "BSQ.C102_iff",
    "BSQ.C102_addr_separates"
   ],
   "note": "Proved for arbitrary addresses. Whether a compiler merges the constants is outside the model; with the distinct addresses of a `static` (C102_addr, C102_addr_separates) the definitions are those of the rest of the model."
  },
  {
   "property": "C103",
   "status": "proved",
   "theorems": [
    "BSQ.C103_assign_refines",
    "BSQ.C103_refines",
    "BSQ.C103_int_atomic",
    "BSQ.C103_int_join",
    "BSQ.C103_refuted_join",
    "BSQ.Frac.C103_fraction_add_atomic",
    "BSQ.Frac.C103_fraction_mul",
    "BSQ.Frac.C103_fraction_left",
    "BSQ.C103_join_left",
    "BSQ.C103_refuted_fraction",
    "BSQ.C103_refuted_release",
    "BSQ.C103_release_stuck",
    "BSQ.C103_negative_left",
    "BSQ.C103_patch",
    "BSQ.C103_patch_atomic"
   ],
   "note": "The closed form for fractions is for builds with overflow checks and fractions with positive denominators. The order of statements inside num_rational is that of version 0.4, an external crate. The refuted_ theorems are the witnesses for what is left."
  },
  {
   "property": "C104",
   "status": "proved",
   "theorems": [
    "BSQ.C104_slice",
    "BSQ.C104_slice_mut",
    "BSQ.C104_remove_all",
    "BSQ.C104_absent",
    "BSQ.C104_missed"
   ],
   "note": ""
  },
  {
   "property": "C105",
   "status": "proved",
   "theorems": [
    "BSQ.C105_contents",
    "BSQ.C105_interrupted",
    "BSQ.C105_repair",
    "BSQ.C105_loaded",
    "BSQ.C105_other_process",
    "BSQ.C105_reached",
    "BSQ.C105_missed"
   ],
   "note": ""
  },
  {
   "property": "C106",
   "status": "proved",
   "theorems": [
    "BSQ.C106_reads",
    "BSQ.C106_iter_mut",
    "BSQ.C106_one_type",
    "BSQ.C106_two_types",
    "BSQ.C106_others_joined"
   ],
   "note": ""
  },
  {
   "property": "C107",
   "status": "partial",
   "theorems": [
    "BSQ.C107_refuted",
    "BSQ.C107_iff",
    "BSQ.C107_partial",
    "BSQ.C107_both_iff"
   ],
   "note": "C107_refuted is the witness; C107_iff says exactly which modifiers agree, C107_partial covers queries whose any_of names a flag."
  },
  {
   "property": "C108",
   "status": "partial",
   "theorems": [
    "BSQ.C108_source",
    "BSQ.C108_value",
    "BSQ.C108_endless",
    "BSQ.C108_once_partial",
    "BSQ.C108_int",
    "BSQ.C108_default_twice",
    "BSQ.C108_refuted",
    "BSQ.C108_cached"
   ],
   "note": "C108_once_partial: nothing stored is counted twice; C108_refuted and C108_default_twice: a registered default is. The effect is user code, written in Spec/Convert.lean after the streams in tests/distance.rs."
  },
  {
   "property": "C109",
   "status": "proved",
   "theorems": [
    "BSQ.C109_current",
    "BSQ.C109_linear",
    "BSQ.C109_history",
    "BSQ.C109_extend",
    "BSQ.C109_multimap",
    "BSQ.C109_repeated_differ"
   ],
   "note": ""
  },
  {
   "property": "C110",
   "status": "proved",
   "theorems": [
    "BSQ.C110_answer",
    "BSQ.C110_stale",
    "BSQ.C110_reached"
   ],
   "note": ""
  },
  {
   "property": "C111",
   "status": "proved",
   "theorems": [
    "BSQ.C111_exact",
    "BSQ.C111_int",
    "BSQ.C111_int_wrapping",
    "BSQ.C111_percent_additive",
    "BSQ.C111_fraction",
    "BSQ.C111_float_frac",
    "BSQ.C111_additive_frac",
    "BSQ.C111_mult_frac",
    "BSQ.C111_float",
    "BSQ.C111_additive",
    "BSQ.C111_mult",
    "BSQ.C111_int_float_mul",
    "BSQ.C111_calls"
   ],
   "note": ""
  },
  {
   "property": "C112",
   "status": "proved",
   "theorems": [
    "BSQ.C112_closed_int",
    "BSQ.C112_closed_int_wrapping",
    "BSQ.C112_closed_percent_additive",
    "BSQ.C112_closed_fraction",
    "BSQ.C112_closed_float_frac",
    "BSQ.C112_closed_additive_frac",
    "BSQ.C112_closed_mult_frac",
    "BSQ.C112_closed_float",
    "BSQ.C112_closed_additive",
    "BSQ.C112_closed_mult",
    "BSQ.C112_closed_int_float_mul",
    "BSQ.C112_closed_flags",
    "BSQ.C112_closed_exists",
    "BSQ.C112_closed_once",
    "BSQ.C112_query",
    "BSQ.C112_relation",
    "BSQ.C112_query_cached",
    "BSQ.C112_satisfiable"
   ],
   "note": ""
  },
  {
   "property": "C113",
   "status": "proved",
   "theorems": [
    "BSQ.C113_depth_step",
    "BSQ.C113_finite",
    "BSQ.C113_iff",
    "BSQ.C113_endless_chain",
    "BSQ.C113_circle",
    "BSQ.C113_depth_bound",
    "BSQ.C113_cached"
   ],
   "note": ""
  },
  {
   "property": "C114",
   "status": "proved",
   "theorems": [
    "BSQ.C114_int",
    "BSQ.C114_fraction",
    "BSQ.C114_percent_additive",
    "BSQ.C114_float_frac",
    "BSQ.C114_additive_frac",
    "BSQ.C114_mult_frac",
    "BSQ.C114_flags",
    "BSQ.C114_exists",
    "BSQ.C114_query",
    "BSQ.C114_relation"
   ],
   "note": ""
  },
  {
   "property": "C115",
   "status": "proved",
   "theorems": [
    "BSQ.C115_late",
    "BSQ.C115_once",
    "BSQ.C115_running",
    "BSQ.C115_overwrites",
    "BSQ.C115_tight"
   ],
   "note": ""
  },
  {
   "property": "C116",
   "status": "proved",
   "theorems": [
    "BSQ.C116_nothing_else",
    "BSQ.C116_all",
    "BSQ.C116_iff",
    "BSQ.C116_schedule",
    "BSQ.C116_sequential"
   ],
   "note": ""
  },
  {
   "property": "C117",
   "status": "proved",
   "theorems": [
    "BSQ.C117_no_trace",
    "BSQ.C117_given_back",
    "BSQ.C117_restored",
    "BSQ.C117_int",
    "BSQ.C117_int_wrapping",
    "BSQ.C117_percent_additive",
    "BSQ.C117_int_fraction",
    "BSQ.C117_fractions",
    "BSQ.C117_saturating_never",
    "BSQ.C117_float_refuted",
    "BSQ.C117_flags_stay",
    "BSQ.C117_bounds_stay",
    "BSQ.C117_bounds_stay_percent_additive",
    "BSQ.C117_bounds_stay_int_fraction",
    "BSQ.C117_bounds_stay_percent",
    "BSQ.C117_bounds_stay_int_float_mul",
    "BSQ.C117_bounds_stay_float",
    "BSQ.C117_bounds_stay_float_frac",
    "BSQ.C117_bounds_stay_float_additive",
    "BSQ.C117_bounds_stay_float_additive_frac",
    "BSQ.C117_bounds_stay_mult",
    "BSQ.C117_bounds_stay_mult_frac"
   ],
   "note": ""
  },
  {
   "property": "C118",
   "status": "proved",
   "theorems": [
    "BSQ.C118_lookups",
    "BSQ.C118_never_more",
    "BSQ.C118_distinct",
    "BSQ.C118_bound",
    "BSQ.C118_exponential"
   ],
   "note": ""
  },
  {
   "property": "C119",
   "status": "proved",
   "theorems": [
    "BSQ.C119_values",
    "BSQ.C119_assembled",
    "BSQ.C119_same",
    "BSQ.C119_equal",
    "BSQ.C119_determined",
    "BSQ.C119_determined_frac",
    "BSQ.C119_determined_float",
    "BSQ.C119_determined_additive",
    "BSQ.C119_determined_mult",
    "BSQ.C119_determined_int_float",
    "BSQ.C119_unordered",
    "BSQ.C119_parts_return",
    "BSQ.C119_split"
   ],
   "note": ""
  },
  {
   "property": "C120",
   "status": "proved",
   "theorems": [
    "BSQ.C120_exacts",
    "BSQ.C120_alternatives",
    "BSQ.C120_values",
    "BSQ.C120_same",
    "BSQ.C120_unordered",
    "BSQ.C120_subsets",
    "BSQ.C120_calls"
   ],
   "note": ""
  },
  {
   "property": "C121",
   "status": "proved",
   "theorems": [
    "BSQ.C121_numbers",
    "BSQ.C121_rounding",
    "BSQ.C121_operations",
    "BSQ.C121_float",
    "BSQ.C121_float_additive",
    "BSQ.C121_mult",
    "BSQ.C121_int_float_mul",
    "BSQ.C121_same",
    "BSQ.C121_exists",
    "BSQ.C121_casts_exist",
    "BSQ.C121_negative_zero",
    "BSQ.C121_rust"
   ],
   "note": ""
  },
  {
   "property": "C122",
   "status": "proved",
   "theorems": [
    "BSQ.C122_count",
    "BSQ.C122_doubling",
    "BSQ.C122_lookups",
    "BSQ.C122_edges"
   ],
   "note": ""
  },
  {
   "property": "C123",
   "status": "proved",
   "theorems": [
    "BSQ.C123_values",
    "BSQ.C123_query",
    "BSQ.C123_types",
    "BSQ.C123_insert",
    "BSQ.C123_floats_return",
    "BSQ.C123_returns"
   ],
   "note": ""
  },
  {
   "property": "C124",
   "status": "proved",
   "theorems": [
    "BSQ.C124_fixed",
    "BSQ.C124_includes",
    "BSQ.C124_uncached",
    "BSQ.C124_possible",
    "BSQ.C124_sequential",
    "BSQ.C124_stale",
    "BSQ.C124_invariant",
    "BSQ.C124_types",
    "BSQ.C124_neither"
   ],
   "note": ""
  },
  {
   "property": "C125",
   "status": "proved",
   "theorems": [
    "BSQ.C125_program",
    "BSQ.C125_errors",
    "BSQ.C125_stop",
    "BSQ.C125_for_each",
    "BSQ.C125_panic",
    "BSQ.C125_history",
    "BSQ.C125_get"
   ],
   "note": ""
  },
  {
   "property": "C126",
   "status": "proved",
   "theorems": [
    "BSQ.C126_addr",
    "BSQ.C126_map",
    "BSQ.C126_safe",
    "BSQ.C126_iff",
    "BSQ.C126_exact",
    "BSQ.C126_query"
   ],
   "note": ""
  },
  {
   "property": "C127",
   "status": "proved",
   "theorems": [
    "BSQ.C127_addr",
    "BSQ.C127_recall",
    "BSQ.C127_iff",
    "BSQ.C127_exact",
    "BSQ.C127_defaults"
   ],
   "note": ""
  },
  {
   "property": "C128",
   "status": "proved",
   "theorems": [
    "BSQ.C128_general",
    "BSQ.C128_same",
    "BSQ.C128_exact",
    "BSQ.C128_ways",
    "BSQ.C128_map",
    "BSQ.C128_map_iff",
    "BSQ.C128_world",
    "BSQ.C128_world_same",
    "BSQ.C128_world_general"
   ],
   "note": ""
  },
  {
   "property": "C129",
   "status": "proved",
   "theorems": [
    "BSQ.Codec.C129_int",
    "BSQ.Codec.C129_bool",
    "BSQ.Codec.C129_bits",
    "BSQ.Codec.C129_string",
    "BSQ.Codec.C129_statExists",
    "BSQ.Codec.C129_float",
    "BSQ.Codec.C129_frac",
    "BSQ.Codec.C129_statInt",
    "BSQ.Codec.C129_statIntFraction",
    "BSQ.Codec.C129_statIntPercentAdditive",
    "BSQ.Codec.C129_statIntPercent",
    "BSQ.Codec.C129_statIntFloatMul",
    "BSQ.Codec.C129_statFloat",
    "BSQ.Codec.C129_statFloatAdditive",
    "BSQ.Codec.C129_statMult",
    "BSQ.Codec.C129_statFlags",
    "BSQ.Codec.C129_prioritized",
    "BSQ.Codec.C129_qualifier",
    "BSQ.Codec.C129_statOnce",
    "BSQ.Codec.C129_statOp",
    "BSQ.C129_map",
    "BSQ.C129_overflow"
   ],
   "note": ""
  },
  {
   "property": "C130",
   "status": "proved",
   "theorems": [
    "BSQ.C130_qualifier",
    "BSQ.C130_fields",
    "BSQ.C130_query",
    "BSQ.C130_rebuilt_empty",
    "BSQ.C130_apply_nothing",
    "BSQ.C130_all_same",
    "BSQ.C130_not_faithful",
    "BSQ.C130_copy",
    "BSQ.C130_copy_iff",
    "BSQ.C130_dynamic",
    "BSQ.C130_fails",
    "BSQ.C130_defaults",
    "BSQ.C130_lost"
   ],
   "note": ""
  },
  {
   "property": "C131",
   "status": "proved",
   "theorems": [
    "BSQ.C131_possible",
    "BSQ.C131_transparent",
    "BSQ.C131_invariant",
    "BSQ.C131_copies",
    "BSQ.C131_sequential",
    "BSQ.C131_again",
    "BSQ.C131_again_iff",
    "BSQ.C131_defaults",
    "BSQ.C131_map",
    "BSQ.C131_refuted"
   ],
   "note": ""
  },
  {
   "property": "C132",
   "status": "proved",
   "theorems": [
    "BSQ.Postcard.C132_value",
    "BSQ.Postcard.C132_number_iff",
    "BSQ.Postcard.C132_number",
    "BSQ.Postcard.C132_integer_iff",
    "BSQ.Postcard.C132_int",
    "BSQ.Postcard.C132_bool",
    "BSQ.Postcard.C132_bits",
    "BSQ.Postcard.C132_float",
    "BSQ.Postcard.C132_float_iff",
    "BSQ.Postcard.C132_string_iff",
    "BSQ.Postcard.C132_string",
    "BSQ.Postcard.C132_frac",
    "BSQ.Postcard.C132_statInt",
    "BSQ.Postcard.C132_statIntFraction",
    "BSQ.Postcard.C132_statIntFloatMul",
    "BSQ.Postcard.C132_statIntPercentAdditive",
    "BSQ.Postcard.C132_statIntPercent",
    "BSQ.Postcard.C132_statFloat",
    "BSQ.Postcard.C132_statFloatAdditive",
    "BSQ.Postcard.C132_statMult",
    "BSQ.Postcard.C132_statFlags",
    "BSQ.Postcard.C132_qualifier",
    "BSQ.Postcard.C132_prioritized",
    "BSQ.Postcard.C132_statOnce",
    "BSQ.Postcard.C132_statExists",
    "BSQ.Postcard.C132_statOp",
    "BSQ.Postcard.C132_fields",
    "BSQ.Postcard.C132_parts",
    "BSQ.Postcard.C132_tags",
    "BSQ.Postcard.C132_follows",
    "BSQ.Postcard.C132_saved",
    "BSQ.Postcard.C132_truncated",
    "BSQ.Postcard.C132_distinct",
    "BSQ.Postcard.C132_entry_iff",
    "BSQ.Postcard.C132_accepted_iff",
    "BSQ.Postcard.C132_bytes",
    "BSQ.Postcard.C132_as_data",
    "BSQ.Postcard.C132_no_ub",
    "BSQ.Postcard.C132_roundtrip",
    "BSQ.Postcard.C132_world",
    "BSQ.Postcard.C132_several",
    "BSQ.Postcard.C132_bounded",
    "BSQ.Postcard.C132_surplus",
    "BSQ.Postcard.C132_short",
    "BSQ.Postcard.C132_resaved",
    "BSQ.Postcard.C132_example",
    "BSQ.Postcard.C132_not_unique",
    "BSQ.Postcard.C132_misread"
   ],
   "note": ""
  },
  {
   "property": "C133",
   "status": "proved",
   "theorems": [
    "BSQ.C133_contents",
    "BSQ.C133_processes",
    "BSQ.C133_savable",
    "BSQ.Postcard.C133_bytes",
    "BSQ.C133_differ"
   ],
   "note": ""
  },
  {
   "property": "C134",
   "status": "proved",
   "theorems": [
    "BSQ.C134_register_iff",
    "BSQ.C134_listed",
    "BSQ.C134_distinct_iff",
    "BSQ.C134_name",
    "BSQ.C134_save_load",
    "BSQ.C134_clash"
   ],
   "note": ""
  },
  {
   "property": "C135",
   "status": "proved",
   "theorems": [
    "BSQ.C135_snapshots",
    "BSQ.C135_fresh",
    "BSQ.C135_clear_iff",
    "BSQ.C135_maps"
   ],
   "note": ""
  },
  {
   "property": "C136",
   "status": "proved",
   "theorems": [
    "BSQ.C136_call",
    "BSQ.C136_history",
    "BSQ.C136_reads",
    "BSQ.C136_every",
    "BSQ.C136_multimap",
    "BSQ.C136_safe",
    "BSQ.C136_safe_iff"
   ],
   "note": ""
  },
  {
   "property": "C137",
   "status": "proved",
   "theorems": [
    "BSQ.C137_naive",
    "BSQ.C137_add",
    "BSQ.C137_percent_differs",
    "BSQ.C137_bench"
   ],
   "note": ""
  },
  {
   "property": "C138",
   "status": "proved",
   "theorems": [
    "BSQ.C138_query",
    "BSQ.C138_relation",
    "BSQ.C138_floor"
   ],
   "note": ""
  },
  {
   "property": "C139",
   "status": "proved",
   "theorems": [
    "BSQ.C139_crate_int",
    "BSQ.C139_crate_flags",
    "BSQ.C139_does",
    "BSQ.C139_selects",
    "BSQ.C139_contributes",
    "BSQ.C139_order",
    "BSQ.C139_safe"
   ],
   "note": ""
  },
  {
   "property": "C140",
   "status": "proved",
   "theorems": [
    "BSQ.C140_stat",
    "BSQ.C140_relation",
    "BSQ.C140_cached",
    "BSQ.C140_crate"
   ],
   "note": ""
  },
  {
   "property": "C141",
   "status": "proved",
   "theorems": [
    "BSQ.C141_methods",
    "BSQ.C141_bits",
    "BSQ.C141_laws"
   ],
   "note": ""
  },
  {
   "property": "C142",
   "status": "proved",
   "theorems": [
    "BSQ.C142_holds",
    "BSQ.C142_empty",
    "BSQ.C142_frozen",
    "BSQ.C142_threads",
    "BSQ.C142_right_for",
    "BSQ.C142_right_iff",
    "BSQ.C142_once",
    "BSQ.C142_no_leak",
    "BSQ.C142_clear_overwrites"
   ],
   "note": ""
  },
  {
   "property": "C143",
   "status": "proved",
   "theorems": [
    "BSQ.Codec.C143_struct",
    "BSQ.Codec.C143_int",
    "BSQ.Codec.C143_bool",
    "BSQ.Codec.C143_float",
    "BSQ.Codec.C143_bits",
    "BSQ.Codec.C143_string",
    "BSQ.Codec.C143_unsupported",
    "BSQ.Codec.C143_frac",
    "BSQ.Codec.C143_statInt",
    "BSQ.Codec.C143_statIntFraction",
    "BSQ.Codec.C143_statIntFloatMul",
    "BSQ.Codec.C143_statIntPercentAdditive",
    "BSQ.Codec.C143_statIntPercent",
    "BSQ.Codec.C143_statFloat",
    "BSQ.Codec.C143_statFloatAdditive",
    "BSQ.Codec.C143_statMult",
    "BSQ.Codec.C143_statFlags",
    "BSQ.Codec.C143_prioritized",
    "BSQ.Codec.C143_qualifier",
    "BSQ.Codec.C143_statCache",
    "BSQ.Codec.C143_statExists",
    "BSQ.Codec.C143_statOnce",
    "BSQ.Codec.C143_statOp"
   ],
   "note": ""
  },
  {
   "property": "C144",
   "status": "proved",
   "theorems": [
    "BSQ.Auras.C144_distance",
    "BSQ.Auras.C144_distance_panics",
    "BSQ.Auras.C144_allegiance",
    "BSQ.Auras.C144_allegiance_panics",
    "BSQ.Auras.C144_eval",
    "BSQ.Auras.C144_stats",
    "BSQ.Auras.C144_none",
    "BSQ.Auras.C144_cached_distance",
    "BSQ.Auras.C144_cached_allegiance",
    "BSQ.Auras.C144_cached_none",
    "BSQ.Auras.C144_cached_all",
    "BSQ.Auras.C144_stays"
   ],
   "note": ""
  }
 ]
}