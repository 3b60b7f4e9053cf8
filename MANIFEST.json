{
 "claims": [
  {
   "property": "C01",
   "status": "proved",
   "theorems": [
    "Soro.C01_make_answers_mask",
    "Soro.C01_wrong_length"
   ],
   "note": "make_bitfield and at over all masks and dates."
  },
  {
   "property": "C02",
   "status": "proved",
   "theorems": [
    "Soro.C02_set_visible_and_framed",
    "Soro.C02_set_history"
   ],
   "note": "Single update and every finite history of updates within a 512 day window."
  },
  {
   "property": "C03",
   "status": "proved",
   "theorems": [
    "Soro.C03_union_days"
   ],
   "note": ""
  },
  {
   "property": "C04",
   "status": "proved",
   "theorems": [
    "Soro.C04_iteration_exact"
   ],
   "note": ""
  },
  {
   "property": "C05",
   "status": "proved",
   "theorems": [
    "Soro.C05_window_exact"
   ],
   "note": ""
  },
  {
   "property": "C06",
   "status": "partial",
   "theorems": [
    "Soro.C06_equivalent_negation",
    "Soro.C06_equivalent_partial"
   ],
   "note": "False in the code (shift result discarded): negation proved with a witness. Soundness and exactness for equal ranges proved."
  },
  {
   "property": "C07",
   "status": "partial",
   "theorems": [
    "Soro.C07_departures_characterised",
    "Soro.C07_departures_partial",
    "Soro.C07_departures_negation"
   ],
   "note": "False in the code for runs that cross midnight into the interval: negation proved with a witness. Exact characterisation of what is yielded is proved, and the full claim for trains arriving on their departure day."
  },
  {
   "property": "C08",
   "status": "proved",
   "theorems": [
    "Soro.C08_trips_complete"
   ],
   "note": "For trains whose runs lie in the range of the 32 bit time type."
  },
  {
   "property": "C09",
   "status": "proved",
   "theorems": [
    "Soro.C09_make_represents_ids",
    "Soro.C09_iterate_reachable"
   ],
   "note": ""
  },
  {
   "property": "C10",
   "status": "proved",
   "theorems": [
    "Soro.C10_union",
    "Soro.C10_union_id"
   ],
   "note": ""
  },
  {
   "property": "C11",
   "status": "proved",
   "theorems": [
    "Soro.C11_diff",
    "Soro.C11_diff_self"
   ],
   "note": ""
  },
  {
   "property": "C12",
   "status": "proved",
   "theorems": [
    "Soro.C12_ok",
    "Soro.C12_window",
    "Soro.C12_total"
   ],
   "note": ""
  },
  {
   "property": "C13",
   "status": "proved",
   "theorems": [
    "Soro.C13_extensional"
   ],
   "note": ""
  },
  {
   "property": "C14",
   "status": "proved",
   "theorems": [
    "Soro.C14_compare",
    "Soro.C14_compare_empty",
    "Soro.C14_contains"
   ],
   "note": ""
  },
  {
   "property": "C15",
   "status": "partial",
   "theorems": [
    "Soro.C15_set_partial",
    "Soro.C15_set_on_empty_negation"
   ],
   "note": "False for the empty set: negation proved with a witness. Proved for non-empty sets."
  },
  {
   "property": "C16",
   "status": "proved",
   "theorems": [
    "Soro.C16_used_by",
    "Soro.C16_no_ub_and_progress",
    "Soro.C16_deterministic",
    "Soro.C16_zero_threads"
   ],
   "note": ""
  },
  {
   "property": "C17",
   "status": "proved",
   "theorems": [
    "Soro.C17_exclusion_graph"
   ],
   "note": ""
  },
  {
   "property": "C18",
   "status": "proved",
   "theorems": [
    "Soro.C18_irs_to_exclusion_sets"
   ],
   "note": ""
  },
  {
   "property": "C19",
   "status": "proved",
   "theorems": [
    "Soro.C19_open_elements"
   ],
   "note": ""
  },
  {
   "property": "C20",
   "status": "proved",
   "theorems": [
    "Soro.C20_nodes",
    "Soro.C20_trip_nodes"
   ],
   "note": ""
  },
  {
   "property": "C21",
   "status": "proved",
   "theorems": [
    "Soro.C21_mirror"
   ],
   "note": ""
  },
  {
   "property": "C22",
   "status": "proved",
   "theorems": [
    "Soro.C22_users_are_ordered",
    "Soro.C22_has_exclusion_paths"
   ],
   "note": ""
  },
  {
   "property": "C23",
   "status": "proved",
   "theorems": [
    "Soro.C23_acyclic",
    "Soro.C23_acyclic_stable",
    "Soro.C23_tie_cycle"
   ],
   "note": ""
  },
  {
   "property": "C24",
   "status": "proved",
   "theorems": [
    "Soro.C24_kept_edges",
    "Soro.C24_reachability",
    "Soro.C24_minimal",
    "Soro.C24_cyclic_loses_reachability"
   ],
   "note": ""
  },
  {
   "property": "C25",
   "status": "proved",
   "theorems": [
    "Soro.C25_has_exclusion_paths"
   ],
   "note": ""
  },
  {
   "property": "C26",
   "status": "proved",
   "theorems": [
    "Soro.C26_shortest_cycle_from_node",
    "Soro.C26_get_cycle"
   ],
   "note": ""
  },
  {
   "property": "C27",
   "status": "proved",
   "theorems": [
    "Soro.C27_has_cycle"
   ],
   "note": ""
  },
  {
   "property": "C28",
   "status": "proved",
   "theorems": [
    "Soro.C28_nodes_exactly_once",
    "Soro.C28_bfs_distance_order"
   ],
   "note": ""
  },
  {
   "property": "C29",
   "status": "partial",
   "theorems": [
    "Soro.C29_edge_count",
    "Soro.C29_edges_once_partial",
    "Soro.C29_start_edges_twice_negation"
   ],
   "note": "False if the start lies on a cycle (its edges are then seen twice): negation proved. Exact edge counts proved for all cases."
  },
  {
   "property": "C30",
   "status": "proved",
   "theorems": [
    "Soro.C30_merge_unique"
   ],
   "note": ""
  },
  {
   "property": "C31",
   "status": "proved",
   "theorems": [
    "Soro.C31_multi_set_merge",
    "Soro.C31_choice_independent",
    "Soro.C31_every_choice"
   ],
   "note": ""
  },
  {
   "property": "C32",
   "status": "proved",
   "theorems": [
    "Soro.C32_overlap",
    "Soro.C32_overlap_non_sorted",
    "Soro.C32_get_overlap",
    "Soro.C32_get_overlap_non_sorted"
   ],
   "note": ""
  },
  {
   "property": "C33",
   "status": "proved",
   "theorems": [
    "Soro.C33_slice",
    "Soro.C33_slice_clasp",
    "Soro.C33_remove_until",
    "Soro.C33_remove_after"
   ],
   "note": ""
  },
  {
   "property": "C34",
   "status": "proved",
   "theorems": [
    "Soro.C34_sort_and_intersect",
    "Soro.C34_intersect"
   ],
   "note": ""
  },
  {
   "property": "C35",
   "status": "proved",
   "theorems": [
    "Soro.Interlocking.C35_predecessors",
    "Soro.Interlocking.C35_unknown",
    "Soro.Interlocking.C35_graph"
   ],
   "note": ""
  },
  {
   "property": "C36",
   "status": "proved",
   "theorems": [
    "Soro.Interlocking.C36_ids",
    "Soro.Interlocking.C36_starting_at",
    "Soro.Interlocking.C36_ending_at",
    "Soro.Interlocking.C36_participating",
    "Soro.Interlocking.C36_stations",
    "Soro.Interlocking.C36_halting_at",
    "Soro.Interlocking.C36_halts",
    "Soro.Interlocking.C36_halting_twice"
   ],
   "note": ""
  },
  {
   "property": "C37",
   "status": "partial",
   "theorems": [
    "Soro.Interlocking.C37_terminates",
    "Soro.Interlocking.C37_sound",
    "Soro.Interlocking.C37_isolated_negation",
    "Soro.Interlocking.C37_complete_partial",
    "Soro.Interlocking.C37_no_duplicates"
   ],
   "note": "Termination, soundness and absence of duplicates proved. Completeness is false for a single station route without signals, predecessors and successors: negation proved; proved for all other routes that need no ETCS."
  },
  {
   "property": "C38",
   "status": "proved",
   "theorems": [
    "Soro.Route.C38_iterate",
    "Soro.Route.C38_ends",
    "Soro.Route.C38_follows",
    "Soro.Route.C38_size",
    "Soro.Route.C38_split",
    "Soro.Route.C38_repeated_route"
   ],
   "note": ""
  },
  {
   "property": "C39",
   "status": "proved",
   "theorems": [
    "Soro.Route.C39_contains",
    "Soro.Route.C39_sub_paths",
    "Soro.Route.C39_beyond"
   ],
   "note": ""
  },
  {
   "property": "C40",
   "status": "proved",
   "theorems": [
    "Soro.Route.C40_from_to",
    "Soro.Route.C40_split",
    "Soro.Route.C40_beyond"
   ],
   "note": ""
  },
  {
   "property": "C41",
   "status": "partial",
   "theorems": [
    "Soro.Route.C41_negation",
    "Soro.Route.C41_omitted_negation",
    "Soro.Route.C41_latest_partial",
    "Soro.Route.C41_at_node_partial"
   ],
   "note": "False in the code (a limit stays reported at all later nodes; a limit at an omitted node hides later ones): negations proved with witnesses. Proved: what is reported is the latest limit passed, and the report at a limit's own node."
  },
  {
   "property": "C42",
   "status": "proved",
   "theorems": [
    "Soro.Route.C42_one_kind",
    "Soro.Route.C42_meaning"
   ],
   "note": ""
  },
  {
   "property": "C43",
   "status": "proved",
   "theorems": [
    "Soro.Infra.C43_reverse"
   ],
   "note": "Every list of distinct nodes and all next and branch nodes."
  },
  {
   "property": "C44",
   "status": "partial",
   "theorems": [
    "Soro.Infra.C44_strict_partial",
    "Soro.Infra.C44_cycle_negation",
    "Soro.Infra.C44_keys",
    "Soro.Infra.C44_sort_unique_partial"
   ],
   "note": "False in the code: negation by a cycle of three elements for both directions. Proved if distinct kilometrages are at least 0.01 apart."
  },
  {
   "property": "C45",
   "status": "proved",
   "theorems": [
    "Soro.Infra.C45_contains",
    "Soro.Infra.C45_outside",
    "Soro.Infra.C45_empty"
   ],
   "note": ""
  },
  {
   "property": "C46",
   "status": "partial",
   "theorems": [
    "Soro.Infra.C46_from",
    "Soro.Infra.C46_to",
    "Soro.Infra.C46_fromTo",
    "Soro.Infra.C46_mirror_partial",
    "Soro.Infra.C46_fromTo_mirror_partial",
    "Soro.Infra.C46_mirror_negation",
    "Soro.Infra.C46_loop_negation",
    "Soro.Infra.C46_iterate"
   ],
   "note": "from, to and from_to proved for all sections. The mirror claim is false for elements at one kilometrage and for loops (negations proved); proved if track elements are at least 0.01 apart."
  },
  {
   "property": "C47",
   "status": "partial",
   "theorems": [
    "Soro.Train.C47_iterate",
    "Soro.Train.C47_no_gap",
    "Soro.Train.C47_start",
    "Soro.Train.C47_loop_negation"
   ],
   "note": "Proved for all trains whose interlocking routes run over no station route twice; refuted by witness for a route with a loop, where the look-up of station routes by id cuts the loop out."
  },
  {
   "property": "C48",
   "status": "proved",
   "theorems": [
    "Soro.Train.C48_in_order",
    "Soro.Train.C48_all",
    "Soro.Train.C48_exact",
    "Soro.Train.C48_blocked"
   ],
   "note": ""
  },
  {
   "property": "C49",
   "status": "partial",
   "theorems": [
    "Soro.Transform.C49_connected",
    "Soro.Transform.C49_covers_partial",
    "Soro.Transform.C49_turns_off_negation",
    "Soro.Transform.C49_aligned_negation"
   ],
   "note": "Connectedness proved for all results. Coverage proved (plan is a contiguous part of the path) for results whose routes do not turn off the plan and do not end at the last node of a planned station route; refuted otherwise with two witnesses built by getRoutes."
  },
  {
   "property": "C50",
   "status": "partial",
   "theorems": [
    "Soro.Kss.C50_last_word_partial",
    "Soro.Kss.C50_only_special_partial",
    "Soro.Kss.C50_masks_first_partial",
    "Soro.Kss.C50_taken_back_negation",
    "Soro.Kss.C50_forgotten_negation"
   ],
   "note": "C50_last_word_partial is the exact behaviour for every order; the statement itself is proved when all regular services come first and refuted otherwise (regular service after an exclusion, special service before the first regular one)."
  },
  {
   "property": "C51",
   "status": "partial",
   "theorems": [
    "Soro.Kss.C51_sum_partial",
    "Soro.Kss.C51_sum_wraps",
    "Soro.Kss.C51_no_unit",
    "Soro.Kss.C51_no_number",
    "Soro.Kss.C51_past_end_negation",
    "Soro.Kss.C51_days_dropped"
   ],
   "note": "Sum proved for all field sequences (exact and modulo 2^32); refuted: a text without a unit is read past its end. Seconds are exact decimals instead of doubles."
  },
  {
   "property": "C52",
   "status": "partial",
   "theorems": [
    "Soro.Kss.C52_interval_partial",
    "Soro.Kss.C52_no_trains",
    "Soro.Kss.C52_no_days_negation"
   ],
   "note": "Proved for timetables in which every train has a service day; refuted for a train without one."
  },
  {
   "property": "C53",
   "status": "partial",
   "theorems": [
    "Soro.Physics.Props.C53_brake_partial",
    "Soro.Physics.Props.C53_distance_negation",
    "Soro.Physics.Props.C53_refused"
   ],
   "note": "Termination, last speed, physical braking distance, growing time, falling speed and growing distance up to the last but one result are proved. That the last distance is not below the one before is false: the steps add up the speeds at their beginnings and run ahead (C53_distance_negation). Equal speeds are refused."
  },
  {
   "property": "C54",
   "status": "proved",
   "theorems": [
    "Soro.Physics.Props.C54_coast",
    "Soro.Physics.Props.C54_standing"
   ],
   "note": "Termination for positive speed, exact last distance, constant speed, growing time; never ends at speed zero."
  },
  {
   "property": "C55",
   "status": "partial",
   "theorems": [
    "Soro.Physics.Props.C55_accelerate_partial",
    "Soro.Physics.Props.C55_limit_negation",
    "Soro.Physics.Props.C55_end",
    "Soro.Physics.Props.C55_ends",
    "Soro.Physics.Props.C55_standing"
   ],
   "note": "Time, distance and speed never decrease, no result beyond the maximum distance, all results but the last below the limit, the last one over it by one step's gain at most; termination for positive acceleration. The last speed can be over the limit (C55_limit_negation)."
  },
  {
   "property": "C56",
   "status": "partial",
   "theorems": [
    "Soro.Runtime.Props.C56_order_partial",
    "Soro.Runtime.Props.C56_halts_partial",
    "Soro.Runtime.Props.C56_order_negation"
   ],
   "note": "Order and stop times proved for all trains whose points in time stay below 2^32 seconds (Calculated). Missing: points in time beyond that. A halt without planned departure has the greatest 32 bit value as departure, the train leaves then and later times wrap round: C56_order_negation."
  },
  {
   "property": "C57",
   "status": "partial",
   "theorems": [
    "Soro.Runtime.Props.C57_increasing",
    "Soro.Runtime.Props.C57_events_partial",
    "Soro.Runtime.Props.C57_events_apart_partial",
    "Soro.Runtime.Props.C57_events_negation",
    "Soro.Runtime.Props.C57_chain_partial",
    "Soro.Runtime.Props.C57_chain_negation"
   ],
   "note": "Distances increase (proved). Events lie inside their interval up to a centimetre, exactly if borders are a centimetre apart; negation otherwise. Limits chain for signals a centimetre behind other borders, also after the adjustment; negation: a signal merged into the interval before is remembered with the wrong index."
  },
  {
   "property": "C58",
   "status": "proved",
   "theorems": [
    "Soro.Gen.C58_flattened"
   ],
   "note": ""
  },
  {
   "property": "C59",
   "status": "partial",
   "theorems": [
    "Soro.Utls.C59_fits",
    "Soro.Utls.C59_checked",
    "Soro.Utls.C59_release_partial",
    "Soro.Utls.C59_release_negation"
   ],
   "note": "Proved for builds with assertions. In release builds nothing is rejected and the value wraps: negation proved; exactness iff representable proved."
  },
  {
   "property": "C60",
   "status": "proved",
   "theorems": [
    "Soro.Utls.C60_accepts",
    "Soro.Utls.C60_round_trip",
    "Soro.Utls.C60_parse_int",
    "Soro.Utls.C60_release_garbage"
   ],
   "note": ""
  },
  {
   "property": "C61",
   "status": "proved",
   "theorems": [
    "Soro.Utls.C61_split",
    "Soro.Utls.C61_count",
    "Soro.Utls.C61_empty",
    "Soro.Utls.C61_empty_separator"
   ],
   "note": ""
  },
  {
   "property": "C62",
   "status": "proved",
   "theorems": [
    "Soro.Utls.C62_has_value",
    "Soro.Utls.C62_operations",
    "Soro.Utls.C62_monad",
    "Soro.Utls.C62_sentinel"
   ],
   "note": ""
  },
  {
   "property": "C63",
   "status": "proved",
   "theorems": [
    "Soro.Units.C63_mul",
    "Soro.Units.C63_div",
    "Soro.Units.C63_pow",
    "Soro.Units.C63_pow_free",
    "Soro.Units.C63_convertible",
    "Soro.Units.C63_cancel"
   ],
   "note": ""
  },
  {
   "property": "C64",
   "status": "proved",
   "theorems": [
    "Soro.Utls.C64_horner"
   ],
   "note": ""
  },
  {
   "property": "C65",
   "status": "proved",
   "theorems": [
    "Soro.Utls.C65_inside",
    "Soro.Utls.C65_unique",
    "Soro.Utls.C65_beyond",
    "Soro.Utls.C65_below",
    "Soro.Utls.C65_continuity_check"
   ],
   "note": ""
  },
  {
   "property": "C66",
   "status": "partial",
   "theorems": [
    "Soro.Dpd.C66_insert_time_partial",
    "Soro.Dpd.C66_before_first_negation",
    "Soro.Dpd.C66_history_partial",
    "Soro.Dpd.C66_insert_speed_partial",
    "Soro.Dpd.C66_insert_time_speed_partial",
    "Soro.Dpd.C66_defined"
   ],
   "note": "False for points before the first stored one (undefined or exception): negation proved. Proved for all other insertions and for histories, times, speeds and both."
  },
  {
   "property": "C67",
   "status": "proved",
   "theorems": [
    "Soro.Utls.C67_meaning",
    "Soro.Utls.C67_refl_symm",
    "Soro.Utls.C67_not_transitive"
   ],
   "note": ""
  },
  {
   "property": "C68",
   "status": "proved",
   "theorems": [
    "Soro.Kss.C68_supported"
   ],
   "note": ""
  },
  {
   "property": "C69",
   "status": "partial",
   "theorems": [
    "Soro.C69_next_negation",
    "Soro.C69_next_partial"
   ],
   "note": "False in the code: negation proved with a witness. Proved when all successors have greater ids and no detour leads to the next node."
  },
  {
   "property": "C70",
   "status": "proved",
   "theorems": [
    "Soro.Route.C70_omitted",
    "Soro.Route.C70_halt"
   ],
   "note": ""
  },
  {
   "property": "C71",
   "status": "proved",
   "theorems": [
    "Soro.Interlocking.C71_successors"
   ],
   "note": ""
  },
  {
   "property": "C72",
   "status": "partial",
   "theorems": [
    "Soro.Utls.C72_terminated_partial",
    "Soro.Utls.C72_negation"
   ],
   "note": "False in the code (strcmp ignores the sizes): negations proved with witnesses. Proved for zero-terminated views without inner zero."
  },
  {
   "property": "C73",
   "status": "partial",
   "theorems": [
    "Soro.Units.C73_separated_partial",
    "Soro.Units.C73_negation"
   ],
   "note": "False for different values closer than 0.01: negation proved for all such values. Proved for all others."
  },
  {
   "property": "C74",
   "status": "partial",
   "theorems": [
    "Soro.Dpd.C74_nearest_partial",
    "Soro.Dpd.C74_negative_negation",
    "Soro.Dpd.C74_multiple",
    "Soro.Dpd.C74_six_seconds"
   ],
   "note": "False for negative numbers: negation proved. Proved for all others; the result is a multiple in all cases."
  },
  {
   "property": "C75",
   "status": "proved",
   "theorems": [
    "Soro.Dpd.C75_sum"
   ],
   "note": ""
  },
  {
   "property": "C76",
   "status": "partial",
   "theorems": [
    "Soro.Dpd.C76_time_partial",
    "Soro.Dpd.C76_lost_mass_negation",
    "Soro.Dpd.C76_time_speed_partial",
    "Soro.Dpd.C76_speed_negation"
   ],
   "note": "False in the code: negations proved with witnesses. Exact characterisation of what is reported proved."
  },
  {
   "property": "C77",
   "status": "proved",
   "theorems": [
    "Soro.Dpd.C77_fold_max",
    "Soro.Dpd.C77_up_to"
   ],
   "note": ""
  },
  {
   "property": "C78",
   "status": "partial",
   "theorems": [
    "Soro.Units.C78_injective_partial",
    "Soro.Units.C78_negation"
   ],
   "note": "False for tenth and higher powers: negation proved. Proved for all other units."
  },
  {
   "property": "C79",
   "status": "partial",
   "theorems": [
    "Soro.Gen.C79_actual_partial",
    "Soro.Gen.C79_late_throw_partial",
    "Soro.Gen.C79_negation",
    "Soro.Gen.C79_plain_negation"
   ],
   "note": "False in the code: negations proved for recursive and plain generators. Exact behaviour of recursive generators proved, including that no destroyed or finished coroutine is touched; the property holds when no nested generator throws before its first value."
  },
  {
   "property": "C80",
   "status": "proved",
   "theorems": [
    "Soro.Gen.C80_plain"
   ],
   "note": ""
  },
  {
   "property": "C81",
   "status": "proved",
   "theorems": [
    "Soro.Infra.C81_total",
    "Soro.Infra.C81_chain",
    "Soro.Infra.C81_elements"
   ],
   "note": "Every valid network (ValidNet: each point of each section element belongs to exactly one section, section ends differ)."
  },
  {
   "property": "C82",
   "status": "partial",
   "theorems": [
    "Soro.Infra.C82_pass_partial",
    "Soro.Infra.C82_turn",
    "Soro.Infra.C82_negation",
    "Soro.Infra.C82_km"
   ],
   "note": "C82_pass_partial holds when sections at the element are oriented; C82_turn and C82_km state the exact behaviour where they are not, C82_negation a witness."
  },
  {
   "property": "C83",
   "status": "partial",
   "theorems": [
    "Soro.Infra.C83_border_partial",
    "Soro.Infra.C83_stop",
    "Soro.Infra.C83_loop",
    "Soro.Infra.C83_ends_negation"
   ],
   "note": "C83_border_partial needs one low and one high border; C83_loop is the exact behaviour for two equal ones, C83_ends_negation refutes the statement for them, C83_stop is the case without partner."
  },
  {
   "property": "C84",
   "status": "partial",
   "theorems": [
    "Soro.Infra.C84_pairs",
    "Soro.Infra.C84_run",
    "Soro.Infra.C84_null",
    "Soro.Infra.C84_negation",
    "Soro.Infra.C84_input"
   ],
   "note": "C84_pairs and C84_run hold when every border has exactly one counterpart; C84_negation: a border without counterpart is a null pointer dereference."
  },
  {
   "property": "C85",
   "status": "partial",
   "theorems": [
    "Soro.Transform.C85_points_partial",
    "Soro.Transform.C85_twice_negation"
   ],
   "note": "Exact content and order proved under the conditions of C49_covers_partial for trains that use no station route twice; 'each once' refuted."
  },
  {
   "property": "C86",
   "status": "partial",
   "theorems": [
    "Soro.Transform.C86_terminates_partial",
    "Soro.Transform.C86_endless_negation",
    "Soro.Transform.C86_out_of_bounds_negation",
    "Soro.Transform.C86_rejected_negation"
   ],
   "note": "Termination proved when the routes lead in one direction; refuted: endless loop, read beyond the end of the plan, rejection of a covered plan."
  },
  {
   "property": "C87",
   "status": "proved",
   "theorems": [
    "Soro.Kss.C87_time_of_day"
   ],
   "note": ""
  },
  {
   "property": "C88",
   "status": "partial",
   "theorems": [
    "Soro.Kss.C88_train",
    "Soro.Kss.C88_isolated_partial",
    "Soro.Kss.C88_complete",
    "Soro.Kss.C88_stop_mode_negation"
   ],
   "note": "Isolation proved for trains with reported errors, completeness for files of accepted and rejected trains; refuted for an unknown stop mode."
  },
  {
   "property": "C89",
   "status": "partial",
   "theorems": [
    "Soro.Kss.C89_ids",
    "Soro.Kss.C89_order_negation",
    "Soro.Kss.C89_order_partial"
   ],
   "note": "Ids are positions; refuted that they are independent of the directory order, only the trains up to order are."
  },
  {
   "property": "C90",
   "status": "proved",
   "theorems": [
    "Soro.Kss.C90_accepted",
    "Soro.Kss.C90_unknown",
    "Soro.Kss.C90_path_connected"
   ],
   "note": ""
  },
  {
   "property": "C91",
   "status": "partial",
   "theorems": [
    "Soro.Physics.Props.C91_coast",
    "Soro.Physics.Props.C91_brake",
    "Soro.Physics.Props.C91_accelerate_partial",
    "Soro.Physics.Props.C91_cut_negation"
   ],
   "note": "Proved for coast and brake. accelerate moves a result to the maximum distance without changing its time (C91_cut_negation); proved where nothing is cut."
  },
  {
   "property": "C92",
   "status": "proved",
   "theorems": [
    "Soro.Physics.Props.C92_polynomial",
    "Soro.Physics.Props.C92_piece",
    "Soro.Physics.Props.C92_beyond"
   ],
   "note": "Horner evaluation and choice of the piece, over rationals."
  },
  {
   "property": "C93",
   "status": "proved",
   "theorems": [
    "Soro.Physics.Props.C93_top_speed",
    "Soro.Physics.Props.C93_force"
   ],
   "note": "Minimum over all vehicles and the train; force defined below the top speed."
  },
  {
   "property": "C94",
   "status": "proved",
   "theorems": [
    "Soro.Runtime.Props.C94_events",
    "Soro.Runtime.Props.C94_prefix"
   ],
   "note": ""
  },
  {
   "property": "C95",
   "status": "partial",
   "theorems": [
    "Soro.Runtime.Props.C95_borders_partial",
    "Soro.Runtime.Props.C95_halts_negation"
   ],
   "note": "One interval per border under BordersApart and without last-signal limits; negation: of two halts within a centimetre the first is lost."
  },
  {
   "property": "C96",
   "status": "partial",
   "theorems": [
    "Soro.Runtime.Props.C96_fits",
    "Soro.Runtime.Props.C96_lowered",
    "Soro.Runtime.Props.C96_ends",
    "Soro.Runtime.Props.C96_refused_negation"
   ],
   "note": "Fits, lowered and ends are proved; negation: the last clause fails, an interval shorter than the braking distance from 1 m/s before a halt is refused."
  },
  {
   "property": "C97",
   "status": "partial",
   "theorems": [
    "Soro.Runtime.Props.C97_affects",
    "Soro.Runtime.Props.C97_initial_partial",
    "Soro.Runtime.Props.C97_default",
    "Soro.Runtime.Props.C97_end_negation"
   ],
   "note": "The closest effective limit is found unless it is at the last node of the way back, which is not looked at (negation)."
  },
  {
   "property": "C98",
   "status": "proved",
   "theorems": [
    "Soro.Runtime.Props.C98_nodes",
    "Soro.Runtime.Props.C98_halt_indices"
   ],
   "note": ""
  },
  {
   "property": "C99",
   "status": "partial",
   "theorems": [
    "Soro.Runtime.Props.C99_not_refused_partial",
    "Soro.Runtime.Props.C99_phases",
    "Soro.Runtime.Props.C99_not_refused_negation"
   ],
   "note": "C99_phases is for every interval that meets the hypotheses; C99_not_refused_partial for paths on which signals are not less than a centimetre behind another border (C57). For the other paths it is false: C99_not_refused_negation."
  },
  {
   "property": "C100",
   "status": "partial",
   "theorems": [
    "Soro.Runtime.Props.C100_ends_partial",
    "Soro.Runtime.Props.C100_ends_negation"
   ],
   "note": "Proved for paths with room behind the start and every halt for the train's first step and for braking from it. Missing: no such room; there the train can be left standing and coasts at speed zero forever: C100_ends_negation."
  },
  {
   "property": "C101",
   "status": "proved",
   "theorems": [
    "Soro.Sim.Props.C101_graph"
   ],
   "note": ""
  },
  {
   "property": "C102",
   "status": "partial",
   "theorems": [
    "Soro.Sim.Props.C102_path_partial",
    "Soro.Sim.Props.C102_cycle_negation"
   ],
   "note": "Proved for two different nodes. Missing: a node and itself: path_exists(x, x) is false even on a cycle (C102_cycle_negation), because bfs does not hand its start to the callback."
  },
  {
   "property": "C103",
   "status": "proved",
   "theorems": [
    "Soro.Sim.Props.C103_order",
    "Soro.Sim.Props.C103_complete"
   ],
   "note": ""
  },
  {
   "property": "C104",
   "status": "partial",
   "theorems": [
    "Soro.Infra.Props.C104_exact_partial",
    "Soro.Infra.Props.C104_conflict_partial",
    "Soro.Infra.Props.C104_missing_negation",
    "Soro.Infra.Props.C104_out_of_bounds_negation"
   ],
   "note": "Proved for routes with a track element for their direction on every section passed (and a direction that can be told from an end, if there is only one section). Missing: sections without such elements; there a switch is missed (C104_missing_negation) or memory outside the section is read (C104_out_of_bounds_negation)."
  },
  {
   "property": "C105",
   "status": "partial",
   "theorems": [
    "Soro.Infra.C105_total",
    "Soro.Infra.C105_pred",
    "Soro.Infra.C105_section_partial",
    "Soro.Infra.C105_straight_partial",
    "Soro.Infra.C105_border_partial",
    "Soro.Infra.C105_end_partial",
    "Soro.Infra.C105_jump_negation",
    "Soro.Infra.C105_ring_negation",
    "Soro.Infra.C105_round_negation"
   ],
   "note": "partial: the way back is proved for networks laid out as C82 and C83 require; without that it can turn at a kilometrage jump (C105_jump_negation). Repeating reverse_ahead does not end in a ring (C105_ring_negation). Total and predecessor parts are proved for all valid networks."
  },
  {
   "property": "C106",
   "status": "proved",
   "theorems": [
    "Soro.Infra.C106_point",
    "Soro.Infra.C106_path",
    "Soro.Infra.C106_section",
    "Soro.Infra.C106_lower",
    "Soro.Infra.C106_split",
    "Soro.Infra.C106_reverse",
    "Soro.Infra.C106_distances"
   ],
   "note": ""
  },
  {
   "property": "C107",
   "status": "partial",
   "theorems": [
    "Soro.Infra.C107_end_negation",
    "Soro.Infra.C107_sections_partial",
    "Soro.Infra.C107_track_negation"
   ],
   "note": "The function reads past the end of every path (C107_end_negation), and for a path ending with a track element the value read enters the result (C107_track_negation). If the read does no harm, the result is right for paths over whole sections."
  },
  {
   "property": "C108",
   "status": "partial",
   "theorems": [
    "Soro.Infra.C108_path",
    "Soro.Infra.C108_fail",
    "Soro.Infra.C108_short",
    "Soro.Infra.C108_bound",
    "Soro.Infra.C108_route",
    "Soro.Infra.C108_ring_negation",
    "Soro.Infra.C108_short_negation"
   ],
   "note": "Path, failure, missing decisions, bound and signals proved for all graphs. Negations: on a ring a route to a node that is not met is searched forever; a course that is too short is read beyond its end."
  },
  {
   "property": "C109",
   "status": "proved",
   "theorems": [
    "Soro.Infra.C109_shared",
    "Soro.Infra.C109_fail"
   ],
   "note": ""
  },
  {
   "property": "C110",
   "status": "partial",
   "theorems": [
    "Soro.Infra.C110_route_partial",
    "Soro.Infra.C110_length_partial",
    "Soro.Infra.C110_jump_negation"
   ],
   "note": "For networks that are WellLaid (see C82). C110_jump_negation: with a kilometrage jump the wrong way round the search for the path never ends."
  },
  {
   "property": "C111",
   "status": "partial",
   "theorems": [
    "Soro.Infra.C111_to_border",
    "Soro.Infra.C111_to_end",
    "Soro.Infra.C111_to_inner",
    "Soro.Infra.C111_from_border_partial",
    "Soro.Infra.C111_from_end_partial",
    "Soro.Infra.C111_from_inner_partial",
    "Soro.Infra.C111_from_negation"
   ],
   "note": "Stations a route leads to: all networks. Stations a route comes from: networks that are WellLaid. C111_from_negation: with two connected borders that both are the ends of their sections a route comes from no station."
  },
  {
   "property": "C112",
   "status": "partial",
   "theorems": [
    "Soro.C112_sections",
    "Soro.C112_on_the_line",
    "Soro.C112_in_order",
    "Soro.C112_first_coincides_negation"
   ],
   "note": "On the line and in strict order, before the last element: all sections. Negation: the first track element of every section coincides with the first element of the section."
  },
  {
   "property": "C113",
   "status": "proved",
   "theorems": [
    "Soro.C113_adjusted",
    "Soro.C113_whole",
    "Soro.C113_center"
   ],
   "note": ""
  },
  {
   "property": "C114",
   "status": "proved",
   "theorems": [
    "Soro.C114_closed",
    "Soro.C114_neighbours",
    "Soro.C114_placed",
    "Soro.C114_within",
    "Soro.C114_all_valid",
    "Soro.C114_same_place"
   ],
   "note": ""
  },
  {
   "property": "C115",
   "status": "proved",
   "theorems": [
    "Soro.C115_smallest",
    "Soro.C115_invalid_point",
    "Soro.C115_empty"
   ],
   "note": ""
  },
  {
   "property": "C116",
   "status": "proved",
   "theorems": [
    "Soro.C116_da_on",
    "Soro.C116_ffm_on",
    "Soro.C116_inner",
    "Soro.C116_norm",
    "Soro.C116_arc",
    "Soro.C116_metric",
    "Soro.C116_zero"
   ],
   "note": ""
  },
  {
   "property": "C117",
   "status": "proved",
   "theorems": [
    "Soro.C117_great_circle",
    "Soro.C117_distance",
    "Soro.C117_inverse"
   ],
   "note": ""
  },
  {
   "property": "C118",
   "status": "partial",
   "theorems": [
    "Soro.C118_rigid",
    "Soro.C118_add",
    "Soro.C118_full_turn_negation",
    "Soro.C118_best",
    "Soro.C118_final"
   ],
   "note": "C118_rigid, C118_add, C118_best and C118_final prove distances, sums and the choice of the rotation; a full turn moves every point but the anchor and its antipode since PI is 3.1415 (C118_full_turn_negation)."
  },
  {
   "property": "C119",
   "status": "partial",
   "theorems": [
    "Soro.C119_polarDist",
    "Soro.C119_distances",
    "Soro.C119_l_center",
    "Soro.C119_direction_partial",
    "Soro.C119_direction_negation"
   ],
   "note": "C119_distances proves the distances end to end; directions are proved for the elements above the centre (C119_direction_partial) and are wrong for those below, whose bearing is 360 - bearing with PI = 3.1415 (C119_direction_negation)."
  },
  {
   "property": "C120",
   "status": "proved",
   "theorems": [
    "Soro.C120_roundtrip",
    "Soro.C120_inverse"
   ],
   "note": ""
  },
  {
   "property": "C121",
   "status": "partial",
   "theorems": [
    "Soro.C121_infra_valid",
    "Soro.C121_nodes",
    "Soro.C121_threads",
    "Soro.C121_no_threads_negation"
   ],
   "note": "Proved for every positive number of threads. std::thread::hardware_concurrency may return 0, then the number of nodes is divided by zero (C121_no_threads_negation). Ids are unbounded in the model."
  },
  {
   "property": "C122",
   "status": "proved",
   "theorems": [
    "Soro.C122_ends"
   ],
   "note": ""
  },
  {
   "property": "C123",
   "status": "proved",
   "theorems": [
    "Soro.C123_connected",
    "Soro.C123_direct"
   ],
   "note": ""
  },
  {
   "property": "C124",
   "status": "proved",
   "theorems": [
    "Soro.C124_ends",
    "Soro.C124_box",
    "Soro.C124_near",
    "Soro.C124_on"
   ],
   "note": ""
  },
  {
   "property": "C125",
   "status": "proved",
   "theorems": [
    "Soro.C125_reverse"
   ],
   "note": ""
  },
  {
   "property": "C126",
   "status": "partial",
   "theorems": [
    "Soro.C126_direction_partial",
    "Soro.C126_apart",
    "Soro.C126_direction_negation",
    "Soro.C126_none",
    "Soro.C126_neighbour"
   ],
   "note": "Proved if the neighbour is at least a hundredth of a degree further west or east. Closer neighbours count as straight north or south, because equal() has a tolerance of 0.01 (C126_direction_negation): the auxiliary point is then straight north or south of the element."
  },
  {
   "property": "C127",
   "status": "partial",
   "theorems": [
    "Soro.C127_limits",
    "Soro.C127_defined",
    "Soro.C127_reported_partial",
    "Soro.C127_same_element_negation"
   ],
   "note": "The attached limits and their order are proved; that they are reported is proved if they belong to different elements and no node with a limit is omitted. With two limits at one element the second and all later limits are never reported (C127_same_element_negation)."
  },
  {
   "property": "C128",
   "status": "partial",
   "theorems": [
    "Soro.C128_ids",
    "Soro.C128_lookup",
    "Soro.C128_found_partial",
    "Soro.C128_same_name_negation"
   ],
   "note": "Proved if names are unique in every station. With two routes of the same name the first is lost in release builds (C128_same_name_negation)."
  },
  {
   "property": "C129",
   "status": "partial",
   "theorems": [
    "Soro.C129_first_partial",
    "Soro.C129_same_name_negation"
   ],
   "note": "Proved if names are unique in every station. With two routes of the same name the first is missing (C129_same_name_negation)."
  },
  {
   "property": "C130",
   "status": "proved",
   "theorems": [
    "Soro.C130_parameters",
    "Soro.C130_unique"
   ],
   "note": ""
  },
  {
   "property": "C131",
   "status": "proved",
   "theorems": [
    "Soro.C131_document"
   ],
   "note": ""
  },
  {
   "property": "C132",
   "status": "proved",
   "theorems": [
    "Soro.C132_answers",
    "Soro.C132_requested"
   ],
   "note": ""
  },
  {
   "property": "C133",
   "status": "partial",
   "theorems": [
    "Soro.C133_current_partial",
    "Soro.C133_regenerate",
    "Soro.C133_overwrite_negation",
    "Soro.C133_found_partial"
   ],
   "note": "Proved for histories in which no file of a directory is overwritten in place; a start with --regenerate or without serialization is always right. Overwriting a file does not change the write time of the directory, so the next start serves the old content (C133_overwrite_negation)."
  },
  {
   "property": "C134",
   "status": "partial",
   "theorems": [
    "Soro.C134_timetables_partial",
    "Soro.C134_restart_negation"
   ],
   "note": "Proved for starts with --regenerate, without serialization or without saved files. Saved timetables are never loaded: with serialization a second start serves none of the timetables served by the first (C134_restart_negation, for all inputs)."
  },
  {
   "property": "C135",
   "status": "partial",
   "theorems": [
    "Soro.C135_station",
    "Soro.C135_station_route",
    "Soro.C135_interlocking_route",
    "Soro.C135_existing_partial",
    "Soro.C135_missing_negation",
    "Soro.C135_unknown_infrastructure"
   ],
   "note": "Proved for stations, station routes and interlocking routes, and for existing elements and exclusion sets. A request for an element or exclusion set that does not exist is undefined behaviour (C135_missing_negation, for all infrastructures); the names of the timetables of an unknown infrastructure throw (C135_unknown_infrastructure)."
  },
  {
   "property": "C136",
   "status": "partial",
   "theorems": [
    "Soro.C136_index_partial",
    "Soro.C136_padded",
    "Soro.C136_identifier_negation"
   ],
   "note": "Proved if every halt has both identifiers or none. The tests for the two identifiers are swapped: a lone identifier is missing and an empty name is listed instead; entries for operational identifiers have no element type (C136_identifier_negation)."
  },
  {
   "property": "C137",
   "status": "proved",
   "theorems": [
    "Soro.C137_search"
   ],
   "note": ""
  },
  {
   "property": "C138",
   "status": "partial",
   "theorems": [
    "Soro.C138_vocabulary",
    "Soro.C138_unknown_partial",
    "Soro.C138_typo",
    "Soro.C138_collision_negation",
    "Soro.C138_classes"
   ],
   "note": "Names of the vocabulary are proved right, unknown names if their hash differs from those of all names; a single wrong byte is always noticed (C138_typo). Names outside of the vocabulary with the hash of a name are taken for it (C138_collision_negation)."
  },
  {
   "property": "C139",
   "status": "partial",
   "theorems": [
    "Soro.C139_decimal_partial",
    "Soro.C139_unique",
    "Soro.C139_garbage_negation"
   ],
   "note": "Decimal numbers are proved to be read exactly (numbers are rationals). In the release build nothing is rejected: rests are ignored, texts without a number give the largest number, decimals after a comma are dropped if commas are not replaced (C139_garbage_negation)."
  },
  {
   "property": "C140",
   "status": "proved",
   "theorems": [
    "Soro.C140_kilometrage",
    "Soro.C140_section_length"
   ],
   "note": ""
  },
  {
   "property": "C141",
   "status": "partial",
   "theorems": [
    "Soro.C141_fields_partial",
    "Soro.C141_place_negation",
    "Soro.C141_unknown_partial",
    "Soro.C141_collision_negation"
   ],
   "note": "Kind, trains, speed, length and origin are proved. The places 'Hier' and 'Signal' are swapped for every limit (C141_place_negation); unknown texts are rejected unless their hash is that of a known text (C141_unknown_partial, C141_collision_negation)."
  },
  {
   "property": "C142",
   "status": "partial",
   "theorems": [
    "Soro.C142_halts_partial",
    "Soro.C142_both_sides_negation",
    "Soro.C142_other_elements"
   ],
   "note": "Proved for all elements but halts with platforms on both sides (HalteplatzRzBeide), which are read as halts without platforms (C142_both_sides_negation)."
  },
  {
   "property": "C143",
   "status": "partial",
   "theorems": [
    "Soro.C143_route_partial",
    "Soro.C143_unknown_attribute_negation",
    "Soro.C143_omitted"
   ],
   "note": "Proved if all attributes are known. An unknown attribute makes parse_station_route write outside of its array (C143_unknown_attribute_negation)."
  },
  {
   "property": "C144",
   "status": "partial",
   "theorems": [
    "Soro.C144_directory_partial",
    "Soro.C144_missing",
    "Soro.C144_index_negation",
    "Soro.C144_version"
   ],
   "note": "Proved for directories. If the index itself is given, its directory is read as index, which always fails; directories named *.iss are rejected (C144_index_negation)."
  },
  {
   "property": "C145",
   "status": "proved",
   "theorems": [
    "Soro.C145_names",
    "Soro.C145_bad_file"
   ],
   "note": ""
  },
  {
   "property": "C146",
   "status": "partial",
   "theorems": [
    "Soro.C146_lines_partial",
    "Soro.C146_duplicate_negation",
    "Soro.C146_large_number_negation",
    "Soro.C146_unknown_kind"
   ],
   "note": "Proved for line numbers below 65536 and the first entry of each line. Further entries of a line are dropped (C146_duplicate_negation), larger numbers are read as 65535 (C146_large_number_negation)."
  },
  {
   "property": "C147",
   "status": "proved",
   "theorems": [
    "Soro.C147_requires",
    "Soro.C147_unknown_line"
   ],
   "note": ""
  },
  {
   "property": "C148",
   "status": "partial",
   "theorems": [
    "Soro.C148_coordinates_partial",
    "Soro.C148_shared_name_negation",
    "Soro.C148_no_file"
   ],
   "note": "Proved if the short names of the stations are distinct. Otherwise a row for the last station is written outside of the vector (C148_shared_name_negation)."
  },
  {
   "property": "C149",
   "status": "proved",
   "theorems": [
    "Soro.TrainSeries.C149_forces"
   ],
   "note": ""
  },
  {
   "property": "C150",
   "status": "partial",
   "theorems": [
    "Soro.TrainSeries.C150_lookup_partial",
    "Soro.TrainSeries.C150_repeated",
    "Soro.TrainSeries.C150_ambiguous_negation",
    "Soro.TrainSeries.C150_view_negation"
   ],
   "note": "Proved for series numbers without hyphens and views that are followed by a zero. Number and company are joined by a hyphen, so different series can share a key (C150_ambiguous_negation); the size of the views is ignored (C150_view_negation)."
  },
  {
   "property": "C151",
   "status": "partial",
   "theorems": [
    "Soro.TrainSeries.C151_defaults_partial",
    "Soro.TrainSeries.C151_speed_limit_negation"
   ],
   "note": "Proved for speed limits with a decimal point or without decimals. Decimals after a comma are dropped (C151_speed_limit_negation)."
  },
  {
   "property": "C152",
   "status": "partial",
   "theorems": [
    "Soro.Tiles.C152_regenerate",
    "Soro.Tiles.C152_unchanged_partial",
    "Soro.Tiles.C152_deleted_maps",
    "Soro.Tiles.C152_stale_negation",
    "Soro.Tiles.C152_history_negation",
    "Soro.Tiles.C152_extension_negation"
   ],
   "note": "Proved for infrastructures that do not change, for starts with --regenerate and if the map files are deleted, names without points. Without --regenerate the tiles of a changed infrastructure stay the old ones (C152_stale_negation, C152_history_negation); names that differ after the last point share their tiles (C152_extension_negation)."
  },
  {
   "property": "C153",
   "status": "partial",
   "theorems": [
    "Soro.Tiles.C153_checks_partial",
    "Soro.Tiles.C153_sources_negation"
   ],
   "note": "Proved for the resource directory, the coordinates and the profile. Missing source directories are not refused, the program ends with an uncaught exception (C153_sources_negation)."
  },
  {
   "property": "C154",
   "status": "partial",
   "theorems": [
    "Soro.C154_cliques_partial",
    "Soro.C154_order",
    "Soro.C154_trailing_blank_negation",
    "Soro.C154_missing_file_negation"
   ],
   "note": "Proved for files with one clique per line and single blanks between the numbers; a blank at the end of a line makes loading write out of range, and a missing file is not noticed."
  },
  {
   "property": "C155",
   "status": "partial",
   "theorems": [
    "Soro.C155_tool_negation",
    "Soro.C155_rows",
    "Soro.C155_export_partial",
    "Soro.C155_loop_negation"
   ],
   "note": "Proved for what would be written with exclusion elements enabled and routes that do not end where they start. The tool does not enable them and always writes an empty file; a route that ends where it starts has its pairs written twice."
  },
  {
   "property": "C156",
   "status": "partial",
   "theorems": [
    "Soro.InfraStats.C156_numbers",
    "Soro.InfraStats.C156_sections",
    "Soro.InfraStats.C156_sections_negation",
    "Soro.InfraStats.C156_documents"
   ],
   "note": "The numbers of elements and stations are proved for all well-formed plans; the number of sections is that of the infrastructure only if fewer than two borders lead to stations that are not in the files, and `C156_sections` says by how much it is too large."
  },
  {
   "property": "C157",
   "status": "partial",
   "theorems": [
    "Soro.Serializable.C157_shows_partial",
    "Soro.Serializable.C157_wrapped_negation",
    "Soro.Serializable.C157_wrapped_move",
    "Soro.Serializable.C157_wrapped_save_negation",
    "Soro.Serializable.C157_overwrite_negation",
    "Soro.Serializable.C157_moved_away_negation",
    "Soro.Serializable.C157_moved_made"
   ],
   "note": "Proved for all programs that neither move nor save wrapping objects, do not save objects that were moved away and overwrite no file while it is loaded. A wrapped infrastructure is lost when it is moved and saved as the empty one; saving to a loaded file changes the loaded objects; a loaded object that was moved away dangles after the target is destroyed. The mapping of cista is a contract (shared, unmapped by its owner)."
  },
  {
   "property": "C158",
   "status": "partial",
   "theorems": [
    "Soro.Dates.C158_days",
    "Soro.Dates.C158_order",
    "Soro.Dates.C158_back",
    "Soro.Dates.C158_reach",
    "Soro.Dates.C158_text",
    "Soro.Dates.C158_mask",
    "Soro.Dates.C158_text_negation"
   ],
   "note": "Days, order, inverse, texts and masks are proved for all dates. Texts that are no dates are accepted in release builds (C158_text_negation)."
  },
  {
   "property": "C159",
   "status": "partial",
   "theorems": [
    "Soro.Dates.C159_inverse",
    "Soro.Dates.C159_distance",
    "Soro.Dates.C159_midnight",
    "Soro.Dates.C159_absolute_partial",
    "Soro.Dates.C159_range",
    "Soro.Dates.C159_absolute_negation"
   ],
   "note": "Conversions are inverse for all values; times of runs are exact for dates from 1970 while the result is below 2^32 seconds (all of 1970 to 2105, C159_range), and wrap outside of it (C159_absolute_negation)."
  },
  {
   "property": "C160",
   "status": "partial",
   "theorems": [
    "Soro.Dpd.C160_halt_partial",
    "Soro.Dpd.C160_halt_negation",
    "Soro.Dpd.C160_runtime_partial",
    "Soro.Dpd.C160_runtime_negation"
   ],
   "note": "Shape proved (geometric delays, uniform speeds, defined for 1 to 65529 km/h); the total is four for halts and more than seventeen for travel times, speed 0 gives infinite probabilities, 65530 an endless loop, more an empty distribution."
  },
  {
   "property": "C161",
   "status": "partial",
   "theorems": [
    "Soro.C161_runs",
    "Soro.C161_ordered_partial",
    "Soro.C161_missing_file_negation",
    "Soro.C161_pairs_negation"
   ],
   "note": "C161_ordered_partial composes C104, C16, C17, C154, C18, C22, C23: proved for routes with a track element on every section, a clique file that covers the exclusion graph including each route with itself, and no ties of start times within a clique. C161_runs: no schedule runs into undefined behaviour. C161_missing_file_negation: without the file no two trips are ordered. C161_pairs_negation: cliques that cover all pairs of different routes do not suffice, two trips over the same route stay unordered."
  },
  {
   "property": "C162",
   "status": "partial",
   "theorems": [
    "Soro.C162_calendar_partial",
    "Soro.C162_departures_partial",
    "Soro.C162_order_negation"
   ],
   "note": "C162_calendar_partial and C162_departures_partial compose C158, C50 and C07: proved for files with all regular services before the special ones and trains that arrive on the day of departure. C162_order_negation: a regular service behind a special one takes the exclusion back."
  },
  {
   "property": "C163",
   "status": "partial",
   "theorems": [
    "Soro.Trip.Props.C163_signals",
    "Soro.Trip.Props.C163_measured",
    "Soro.Trip.Props.C163_times_partial",
    "Soro.Trip.Props.C163_graph_partial",
    "Soro.Trip.Props.C163_same_second",
    "Soro.Trip.Props.C163_break_in_negation"
   ],
   "note": "C163_signals holds for every train from halt to halt. The others need that the calculation ends within 32 bits (see C56) and, for the absence of cycles, a stable sort (see C23). For break-in trains the property is false: C163_break_in_negation. C163_same_second: two signals can be passed in the same second, so start times need not strictly increase."
  },
  {
   "property": "C164",
   "status": "proved",
   "theorems": [
    "Soro.KssXml.C164_accepted",
    "Soro.KssXml.C164_stops",
    "Soro.KssXml.C164_no_exception",
    "Soro.KssXml.C164_dates",
    "Soro.KssXml.C164_vehicles",
    "Soro.KssXml.C164_document",
    "Soro.KssXml.C164_complete"
   ],
   "note": "Dates under the conditions of C162 (masks before special services, at most 512 days), vehicles under those of C150 (no hyphen in series numbers). Decimal numbers are those with a point. That the path and the stops are the planned ones is C49 and C85."
  },
  {
   "property": "C165",
   "status": "partial",
   "theorems": [
    "Soro.KssXml.C165_departs",
    "Soro.KssXml.C165_no_departure_negation",
    "Soro.KssXml.C165_backwards_negation",
    "Soro.KssXml.C165_order_partial",
    "Soro.KssXml.C165_increasing_partial"
   ],
   "note": "False: C165_no_departure_negation (a train without a departure at its first halt is accepted and leaves one second before midnight), C165_backwards_negation (arrival before departure is accepted). Proved: under the conditions of C85 the stops come in the order of the document (C165_order_partial), so increasing times of the document give increasing times (C165_increasing_partial)."
  },
  {
   "property": "C166",
   "status": "partial",
   "theorems": [
    "Soro.KssXml.C166_first_entry",
    "Soro.KssXml.C166_same_partial",
    "Soro.KssXml.C166_mixed_negation",
    "Soro.KssXml.C166_other_entry_negation"
   ],
   "note": "False: only the first entry of the directory is looked at, whatever it is: C166_mixed_negation (files of two versions are read, or refused, depending on the order), C166_other_entry_negation (another file or a directory listed first makes the timetable unusable). Proved: exact behaviour for the first entry (C166_first_entry) and the property for directories with files of one version (C166_same_partial)."
  },
  {
   "property": "C167",
   "status": "proved",
   "theorems": [
    "Soro.RouteBuild.Props.C167_same_signals",
    "Soro.RouteBuild.Props.C167_consistent",
    "Soro.RouteBuild.Props.C167_mislabelled"
   ],
   "note": "C167_same_signals is exact (if and only if), C167_consistent gives sizes and positions; C167_mislabelled shows that the claim fails without the condition on the names of omitted nodes."
  },
  {
   "property": "C168",
   "status": "partial",
   "theorems": [
    "Soro.Dispatch.C168_ordered_partial"
   ],
   "note": "C168_ordered_partial: proved for stable sorting algorithms, trains from halt to halt, calculated times below 2^32 and covering clique files. Missing: unstable sorts (false, see C23_tie_cycle), break-in trains (false, see C163_break_in_negation), mislabelled omitted signals (see C167_mislabelled), files that leave out pairs (false, see C161)."
  },
  {
   "property": "C169",
   "status": "partial",
   "theorems": [
    "Soro.Interlocking.C169_no_routes",
    "Soro.Interlocking.C169_created_partial",
    "Soro.Interlocking.C169_crash_iff",
    "Soro.Interlocking.C169_crash_negation"
   ],
   "note": "Holds whenever there is at least one interlocking route. Without any route (exactly: no main signals and no connections, or everything ETCS only) print_interlocking_stats divides by zero, so the creation crashes."
  },
  {
   "property": "C170",
   "status": "proved",
   "theorems": [
    "Soro.ErrorStats.C170_counts",
    "Soro.ErrorStats.C170_no_other",
    "Soro.ErrorStats.C170_total",
    "Soro.ErrorStats.C170_terminates",
    "Soro.ErrorStats.C170_exclusive",
    "Soro.ErrorStats.C170_report",
    "Soro.ErrorStats.C170_silent",
    "Soro.ErrorStats.C170_messages"
   ],
   "note": ""
  },
  {
   "property": "C171",
   "status": "partial",
   "theorems": [
    "Soro.Runtime.Props.C171_in_force_partial",
    "Soro.Runtime.Props.C171_limits_partial",
    "Soro.Runtime.Props.C171_repeated_limit_negation"
   ],
   "note": "Proved for borders at least a centimetre apart if no limit between the last signal and the announcing element repeats (up to 0.01) the limit in force behind the signal. C171_repeated_limit_negation: the code recognises the end of the replaced limit by comparing values (interval.cc:160-166), so a repeated limit is overwritten as well and the train may drive faster than it allows."
  },
  {
   "property": "C172",
   "status": "proved",
   "theorems": [
    "Soro.C172_make",
    "Soro.C172_operations",
    "Soro.C172_set"
   ],
   "note": ""
  },
  {
   "property": "C173",
   "status": "proved",
   "theorems": [
    "Soro.C173_make",
    "Soro.C173_update",
    "Soro.C173_iteration",
    "Soro.C173_extremes",
    "Soro.C173_departures",
    "Soro.C173_event_interval",
    "Soro.C173_unknown"
   ],
   "note": ""
  },
  {
   "property": "C174",
   "status": "proved",
   "theorems": [
    "Soro.C174_date",
    "Soro.C174_separators",
    "Soro.C174_services",
    "Soro.C174_plain",
    "Soro.C174_twice",
    "Soro.C174_twice_witness",
    "Soro.C174_texts"
   ],
   "note": ""
  },
  {
   "property": "C175",
   "status": "proved",
   "theorems": [
    "Soro.Interlocking.C175_create",
    "Soro.Interlocking.C175_iterate",
    "Soro.Interlocking.C175_part_one",
    "Soro.Interlocking.C175_part",
    "Soro.Interlocking.C175_generated",
    "Soro.Interlocking.C175_circle"
   ],
   "note": ""
  },
  {
   "property": "C176",
   "status": "proved",
   "theorems": [
    "Soro.C176_construct",
    "Soro.C176_trip_nodes",
    "Soro.C176_next",
    "Soro.C176_calculated",
    "Soro.C176_other_trip",
    "Soro.C176_wrong_train",
    "Soro.C176_too_few_times"
   ],
   "note": ""
  },
  {
   "property": "C177",
   "status": "proved",
   "theorems": [
    "Soro.Runtime.Props.C177_assertions",
    "Soro.Runtime.Props.C177_calculated",
    "Soro.Runtime.Props.C177_together",
    "Soro.Runtime.Props.C177_stop_lost",
    "Soro.Runtime.Props.C177_unnoticed"
   ],
   "note": ""
  },
  {
   "property": "C178",
   "status": "proved",
   "theorems": [
    "Soro.Infra.Props.C178_elements",
    "Soro.Infra.Props.C178_drives",
    "Soro.Infra.Props.C178_closed",
    "Soro.Infra.Props.C178_unnoticed",
    "Soro.C178_graph",
    "Soro.C178_has_cycle"
   ],
   "note": ""
  },
  {
   "property": "C179",
   "status": "proved",
   "theorems": [
    "Soro.Train.C179_iterate",
    "Soro.Train.C179_stopped",
    "Soro.Train.C179_no_place",
    "Soro.Train.C179_no_end",
    "Soro.Transform.C179_transform",
    "Soro.Transform.C179_caught",
    "Soro.Transform.C179_unnoticed",
    "Soro.Transform.C179_planned"
   ],
   "note": ""
  },
  {
   "property": "C180",
   "status": "proved",
   "theorems": [
    "Soro.Utls.C180_int",
    "Soro.ParseFp.C180_fp",
    "Soro.ParseFp.C180_garbage"
   ],
   "note": "Debug build. Floating point numbers are rationals of any size: numbers out of the range of double, and the texts inf and nan, which std::from_chars accepts, are not modelled."
  },
  {
   "property": "C181",
   "status": "proved",
   "theorems": [
    "Soro.Kss.C181_time",
    "Soro.Kss.C181_ranges",
    "Soro.Kss.C181_duration",
    "Soro.Kss.C181_fields",
    "Soro.Kss.C181_stopped",
    "Soro.Kss.C181_unnoticed"
   ],
   "note": "Debug build. Seconds are rationals of any size, as in C180. Findings: separators and ranges of times are not checked (C181_ranges); a duration that ends without a unit passes all assertions and is read past its end, unknown units are dropped (C181_unnoticed)."
  },
  {
   "property": "C182",
   "status": "proved",
   "theorems": [
    "Soro.KssXml.C182_same",
    "Soro.KssXml.C182_read",
    "Soro.KssXml.C182_checkpoint",
    "Soro.KssXml.C182_twice"
   ],
   "note": "Debug build. The passes over routes are those of C179 (the assertion of the transformation counts points). Findings: a passing time at a route without checkpoint stops the debug build while the release build returns an error (C182_checkpoint); a train that gets a point twice is accepted by the release build only (C182_twice)."
  },
  {
   "property": "C183",
   "status": "proved",
   "theorems": [
    "Soro.RouteDebug.C183_construction",
    "Soro.RouteDebug.C183_release"
   ],
   "note": ""
  },
  {
   "property": "C184",
   "status": "proved",
   "theorems": [
    "Soro.RouteDebug.C184_inside",
    "Soro.RouteDebug.C184_adjoining",
    "Soro.RouteDebug.C184_outside"
   ],
   "note": ""
  },
  {
   "property": "C185",
   "status": "proved",
   "theorems": [
    "Soro.Physics.Props.C185_accelerate",
    "Soro.Physics.Props.C185_brake"
   ],
   "note": ""
  },
  {
   "property": "C186",
   "status": "proved",
   "theorems": [
    "Soro.Routing.C186_reaches",
    "Soro.Routing.C186_only",
    "Soro.Routing.C186_counts",
    "Soro.Routing.C186_unreachable"
   ],
   "note": ""
  },
  {
   "property": "C187",
   "status": "partial",
   "theorems": [
    "Soro.Routing.C187_calls_partial",
    "Soro.Routing.C187_station",
    "Soro.Routing.C187_ordering",
    "Soro.Routing.C187_stations_negation",
    "Soro.Routing.C187_search_negation"
   ],
   "note": "All calls but two kinds are proved, for all names and numbers, with the answers for stations and ordering graphs. The list of stations is never answered, because the client leaves out the slash that the route demands (C187_stations_negation), and searches with other characters than letters, digits, '_' and '-' are not answered (C187_search_negation)."
  },
  {
   "property": "C188",
   "status": "proved",
   "theorems": [
    "Soro.Gen.C188_ended",
    "Soro.Gen.C188_alive"
   ],
   "note": ""
  },
  {
   "property": "C189",
   "status": "partial",
   "theorems": [
    "Soro.WebClient.C189_chosen",
    "Soro.WebClient.C189_in_order_partial",
    "Soro.WebClient.C189_overtaken_negation",
    "Soro.WebClient.C189_failed_negation",
    "Soro.WebClient.C189_other_infra_negation",
    "Soro.WebClient.C189_late_negation"
   ],
   "note": "Proved for answers in the order of the requests when the server knows what is chosen, and without conditions for the choices themselves; false if answers overtake each other, if the server cannot read the timetable, after a change of the infrastructure, and for an interval chosen before the answer."
  },
  {
   "property": "C190",
   "status": "partial",
   "theorems": [
    "Soro.WebClient.C190_waiting_partial",
    "Soro.WebClient.C190_overlap_negation",
    "Soro.WebClient.C190_failed_negation"
   ],
   "note": "Proved for users who wait for every answer when the server knows the timetables; false if a second request is sent before the first one is answered, and if the timetable cannot be read."
  },
  {
   "property": "C191",
   "status": "partial",
   "theorems": [
    "Soro.WebClient.C191_ids",
    "Soro.WebClient.C191_request",
    "Soro.WebClient.C191_comma_negation"
   ],
   "note": "Proved for texts that list numbers, including the request that the server reads; false because the field also accepts texts that begin with a comma, whose request reaches no handler."
  },
  {
   "property": "C192",
   "status": "partial",
   "theorems": [
    "Soro.WebClient.C192_last_partial",
    "Soro.WebClient.C192_short",
    "Soro.WebClient.C192_late_negation",
    "Soro.WebClient.C192_overtaken_negation",
    "Soro.WebClient.C192_failed_negation",
    "Soro.WebClient.C192_infra_negation"
   ],
   "note": "Proved for answers in order, answered, and no change of the infrastructure after the text; false for late answers to longer texts, overtaking answers, texts without an answer, and a change of the infrastructure."
  },
  {
   "property": "C193",
   "status": "partial",
   "theorems": [
    "Soro.WebClient.C193_added",
    "Soro.WebClient.C193_deleted_partial",
    "Soro.WebClient.C193_only",
    "Soro.WebClient.C193_deleted_negation"
   ],
   "note": "Proved for added routes, and for deleted routes without an open request; false if a route is deleted before the answer to its request comes."
  },
  {
   "property": "C194",
   "status": "partial",
   "theorems": [
    "Soro.WebClient.C194_checked_partial",
    "Soro.WebClient.C194_reset_negation",
    "Soro.WebClient.C194_shared_negation"
   ],
   "note": "Proved if nothing is checked on a map between a reset and the next unchecking on it; false otherwise, since the reset shares the array of the initial controls."
  },
  {
   "property": "C195",
   "status": "proved",
   "theorems": [
    "Soro.KssXml.C195_trains",
    "Soro.KssXml.C195_malformed"
   ],
   "note": ""
  },
  {
   "property": "C196",
   "status": "proved",
   "theorems": [
    "Soro.Tabs.C196_own",
    "Soro.Tabs.C196_open",
    "Soro.Tabs.C196_close",
    "Soro.Tabs.C196_restart"
   ],
   "note": ""
  },
  {
   "property": "C197",
   "status": "partial",
   "theorems": [
    "Soro.Tabs.C197_partial",
    "Soro.Tabs.C197_reload_negation",
    "Soro.Tabs.C197_zero_negation"
   ],
   "note": "Proved for layouts without saved indexes (any tree, at any time). Saved layouts can be loaded only right after the start (C196): indexes of tabs that are loaded again stay among the unused ones, and index 0 is taken for no index; both are negated with witnesses."
  },
  {
   "property": "C198",
   "status": "proved",
   "theorems": [
    "Soro.Settings.C198_theme"
   ],
   "note": ""
  },
  {
   "property": "C199",
   "status": "proved",
   "theorems": [
    "Soro.Settings.C199_colour"
   ],
   "note": "For the colours of style.ts, which are the same for both themes; `other_themes_colour` shows that the claim would fail for different ones."
  },
  {
   "property": "C200",
   "status": "partial",
   "theorems": [
    "Soro.Infra.C200_paired",
    "Soro.Infra.C200_mutual",
    "Soro.Infra.C200_complete",
    "Soro.Infra.C200_neighbours",
    "Soro.Infra.C200_path_partial",
    "Soro.Infra.C200_route_partial",
    "Soro.Infra.C200_section_partial",
    "Soro.Infra.C200_exact_partial",
    "Soro.Infra.C200_answers",
    "Soro.Infra.C200_reverse",
    "Soro.Infra.C200_loose_negation",
    "Soro.Infra.C200_empty_negation"
   ],
   "note": "`C200_mutual`, `C200_reverse` need that each border has at most one partner, whose partner it is; `C200_paired` shows this of complete_borders for borders that fit together. Ways are paths unless they leave a border without partner at which its section ends: there is_path dereferences a null pointer (`C200_loose_negation`); it also reads the first element of an empty path (`C200_empty_negation`)."
  },
  {
   "property": "C201",
   "status": "partial",
   "theorems": [
    "Soro.Infra.C201_distances",
    "Soro.Infra.C201_start",
    "Soro.Infra.C201_three_borders_negation"
   ],
   "note": "`C201_distances`, `C201_start` for networks in which each border has at most one partner, whose partner it is (`C200_paired`); `C201_three_borders_negation`: three borders of two stations with the same line and track sign make the assertion fail."
  },
  {
   "property": "C202",
   "status": "partial",
   "theorems": [
    "Soro.StationPanel.C202_opened",
    "Soro.StationPanel.C202_button",
    "Soro.StationPanel.C202_hidden",
    "Soro.StationPanel.C202_known",
    "Soro.StationPanel.C202_clicked_partial",
    "Soro.StationPanel.C202_click_partial",
    "Soro.StationPanel.C202_overtaken_negation",
    "Soro.StationPanel.C202_failed_negation",
    "Soro.StationPanel.C202_same_id_negation",
    "Soro.StationPanel.C202_never_clicked_negation"
   ],
   "note": "`C202_opened`, `C202_known` hold for all histories. `C202_clicked_partial`, `C202_click_partial` if requests succeed, are answered in order and no infrastructure is chosen after the first click; the negations show that each condition is needed: an overtaken answer, a failed request, the same id in another infrastructure, and opening the panel again after the infrastructure was changed. The buttons of the sidebar hide and show the panel without changing what it shows (proved for all histories)."
  },
  {
   "property": "C203",
   "status": "partial",
   "theorems": [
    "Soro.InfraMap.C203_types",
    "Soro.InfraMap.C203_complete",
    "Soro.InfraMap.C203_exact_partial",
    "Soro.InfraMap.C203_theme_negation",
    "Soro.InfraMap.C203_restart"
   ],
   "note": "Partial: proved for all histories that only checked types are drawn and nothing checked is missing, that the controls survive a restart, and exactness as long as the theme was not changed since the last load, reset or change of a direction. C203_theme_negation: a change of the theme replaces the style without the filter of directions."
  },
  {
   "property": "C204",
   "status": "partial",
   "theorems": [
    "Soro.InfraMap.C204_drawn_partial",
    "Soro.InfraMap.C204_theme_negation",
    "Soro.InfraMap.C204_infrastructure_negation"
   ],
   "note": "Partial: proved from a change of the highlighted routes on a loaded map until the theme or the infrastructure is changed. The negations show that a change of the theme or another infrastructure removes the routes from the map while they stay highlighted."
  },
  {
   "property": "C205",
   "status": "partial",
   "theorems": [
    "Soro.Menu.C205_never_wrong",
    "Soro.Menu.C205_shown_partial",
    "Soro.Menu.C205_picked",
    "Soro.Menu.C205_reopened_negation",
    "Soro.Menu.C205_cleared_negation"
   ],
   "note": "Partial: proved for all histories that no field shows anything but the current selection or nothing, that fields are exact while the menu is not left and the range not cleared, and that a picked range is stored to the second. The negations show that all fields are empty after the menu was left and selected again, and that a cleared range stays in force."
  },
  {
   "property": "C206",
   "status": "partial",
   "theorems": [
    "Soro.HttpClient.C206_sent_partial",
    "Soro.HttpClient.C206_bearer",
    "Soro.HttpClient.C206_basic_negation",
    "Soro.HttpClient.C206_no_headers_negation",
    "Soro.HttpClient.C206_options_negation",
    "Soro.HttpClient.C206_falsy_negation",
    "Soro.HttpClient.C206_body",
    "Soro.HttpClient.C206_answer"
   ],
   "note": "Proved for addresses, methods, headers, bearer tokens, bodies that do not count as false, and answers. Violated: setBasicAuth encodes user and password separately with a plain colon between, so no server can decode any credentials (negation, for all users and passwords); a client created without headers throws when a header is set (negation); headers given with a call are not sent (negation); a body of 0, false, null or the empty text is not sent (negation)."
  },
  {
   "property": "C207",
   "status": "partial",
   "theorems": [
    "Soro.RouteSwitch.C207_on_partial",
    "Soro.RouteSwitch.C207_exact_partial",
    "Soro.RouteSwitch.C207_quick_negation",
    "Soro.RouteSwitch.C207_reopened_negation",
    "Soro.RouteSwitch.C207_unknown_negation",
    "Soro.RouteSwitch.C207_infrastructure_negation",
    "Soro.RouteSwitch.C207_no_infrastructure_negation",
    "Soro.RouteSwitch.C207_switches",
    "Soro.RouteSwitch.C207_off"
   ],
   "note": "Proved while the infrastructure stays and the server knows the route: a switch that is on has its route highlighted for all runs; both directions for runs that wait for the answer about a route before its switch is clicked or created again; which switches exist and what a click changes, for all runs. Violated (negations, for all routes): on and off again before the answer leaves the route highlighted; the same when the panel is left and opened again before the answer; a route the server does not know leaves the switch on; after a change of the infrastructure the switch follows the route of the old one with the same id; without an infrastructure the switch turns on and nothing is asked."
  }
 ]
}