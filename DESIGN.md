# Formal model of soro-s: design

Source: `/repo` (motis-project/soro-s, C++). Model and proofs: `/verif/lean` (Lean 4.33.0).
Properties: `properties.jsonl` (ids C01, C02, ...). Status per property: `MANIFEST.json`.

## Layout of the Lean project

| directory | contents |
|---|---|
| `Verif/Model/*.lean` | executable definitions that follow the C++ functions; every definition cites file and lines |
| `Verif/Spec/*.lean`  | small specifications that do not use the model's helpers |
| `Verif/Proof/*.lean` | helper lemmas |
| `Verif/Props/*.lean` | the property theorems (named `Cxx_...`) with a non-vacuity `example` beside each |

## Modelling conventions

* C++ objects become Lean structures with the same fields; mutation becomes a returned new value.
* Unsigned machine integers become `Nat`. Where wrap-around can matter it is written out (`% 2^32`) or
  excluded by an explicit hypothesis of the theorem.
* Rejection (`utl::verify`, `throw`) and undefined behaviour are explicit outcomes (`none` or a constructor of a result type),
  never a default value. Debug-only assertions (`utls::sassert/expect/ensure`, no-ops with `NDEBUG`) are *not* relied on:
  the model is the release build and the asserted conditions show up as hypotheses. The modules ending in
  `Debug` model the build with assertions as well (`Dbg`: a value, a failed assertion with its line, or undefined behaviour)
  and relate it to the release build: `SameAs` (no assertion fails and the result is that of the release build), `Stops` (an
  assertion fails).
* Loops whose termination is not obvious are modelled with fuel or with a step relation, and the theorem says that
  the fuel suffices.
* Unspecified behaviour of the standard library (order of equal elements after `std::sort`, pop order of equal heads in a
  priority queue, thread schedules) is universally quantified.
* Floating point quantities are modelled by rationals (exact arithmetic). Rounding is not modelled.

## Trusted base

* Lean 4.33.0 kernel, and the axioms `propext`, `Classical.choice`, `Quot.sound`. No other axiom, no `sorry`, no
  `native_decide`, no `bv_decide`.
* The reading of the C++ source, i.e. that the definitions in `Verif/Model` correspond to the cited lines.
* Contracts of external code: `cista::bitset`/`bitvec` (`operator[]`/`test` false beyond the size, shifts within the fixed size,
  new bits of `resize` are zero), `utl::erase_duplicates` (sort + unique), `utl::erase` (removes all equal elements),
  `utl::concat`, `utl::pairwise`, the `std` algorithms, `date` (civil calendar conversion), cista hash containers.

## What is modelled

| model file | C++ code | simplifications |
|---|---|---|
| `Bitfield` | `timetable/bitfield.{h,cc}` | `cista::bitset` as list of `Bool`; dates as day numbers |
| `Departures` | `timetable/train.{h,cc}` (iterators, trips, trip_count, first_departure), `timetable/interval.h` | times as integers; path of the train only as its length |
| `ExclusionSet` | `infrastructure/exclusion/exclusion_set.{h,cc}` | bit vector as list of `Bool` |
| `Traversal` | `utls/graph/traversal.h` | generic in the adjacency function |
| `HasCycle` | `utls/graph/has_cycle.h` | generic in the adjacency function |
| `Algo` | `utls/algo/{slice,merge_unique,overlap,sort_and_intersect,remove_until,remove_after,...}.h`, `multi_set_merge.h` | iterators as positions; heap as multiset |
| `Exclusion` | `get_exclusion.cc`, `get_exclusion_graph.cc`, closed/open elements of `exclusion_elements.cc` | thread pool as interleaving of worker steps |
| `OrderingAlgo` | `remove_transitive_edges.cc`, `get_cycle.cc`, `check_exclusion_paths.cc` | logging left out |
| `OrderingGraph` | `ordering_graph.cc` | usage times given per exclusion set; sort order of ties arbitrary |
| `StationRoute` | `station_route.{h,cc}`, `interlocking_route.{h,cc}`, `parse_iss.cc` annotation loops | coroutines as the list of yielded values |
| `Interlocking` | `station_route_graph.cc`, `get_interlocking.cc` | nodes by id, element order data as functions |
| `Utls` | `utls/{narrow,parse_int,string}.h`, `utls/container/optional.h`, `utls/math/{polynomial,piecewise_function}.h`, `base/fp_precision.h` | `std::from_chars` by its standard text; floating point as rationals; a view as memory and size |
| `Dpd` | `simulation/{dpd,granularity,kilometer_per_hour}.h`, `fold_max` of `simulation/sim_graph.cc` | probabilities as rationals; `time_t` as integers; 16 bit speeds with wrap-around |
| `Units` | `utls/strong_types/{type_list,fraction}.h` | type lists as lists of tags; values as rationals |
| `Generator` | `utls/coroutine/{recursive_generator,generator}.h` | bodies are finite trees that neither catch exceptions nor depend on the consumer; nested generators are temporaries; move, swap, `emplace_back` left out |
| `Section` | `graph/{type,section}.h`, element order and section orders of `parse_iss.cc`, `line.cc` | kilometrages as rationals; `std::sort` as any sorted permutation |
| `Network` | `graph_creation.cc` (set_neighbour, get_node, connect_nodes, connect_border), `parse_iss.cc` (parse_section, sections of a station) | Elements are numbers; neighbours are numbered slots; a network is a list of sections. XML nodes of track elements have type, direction and identity. Names, kilometrage and other data of elements left out. |
| `Border` | `parse_iss.cc` (complete_borders), `station.h` (border) | Borders of all stations in one list with the station as field; `ds100_to_station_` is a function. |
| `Train` | `src/timetable/train.cc` (`iterate_train`, `train::iterate`, `get_start_node`), `src/timetable/sequence_point.cc` | path holds routes instead of ids; times are valid or not; dereferencing an empty optional is `none`; index arithmetic without 16 bit wrap |
| `Transform` | `src/timetable/parsers/station_route_to_interlocking_route.cc`, table construction of `get_interlocking.cc` | routes by id; the unbounded loop by fuel (`running`); the debug-only check at the end is left out |
| `Kss` | `src/timetable/parsers/kss/parse_kss_timetable.cc` | XML as the values read; dates as day numbers (`parse_date` and the civil calendar are left out); seconds as exact decimals; vehicles as given flags; logging left out |
| `Physics` | `runtime_physics.cc`, `train_physics.cc`, `polynomial.h`, `piecewise_function.h` | rationals in SI units instead of doubles; `reserve` sizes not modelled; loops by fuel (`running`); exceptions and divisions by zero are `bad` |
| `Model/Interval` | `src/runtime/interval.cc`, `include/soro/runtime/interval.h` | a train node carries what the code looks up (distance, type, limits, halt); rationals for floats; invalid speed is `none`; the loop of adjustments is run with fuel |
| `Model/Runtime` | `runtime/runtime.cc:19-280` | all functions; times are rationals and rounded where the code converts to seconds; 32 bit points in time as a parameter (`some bits32` is the code, `none` unbounded) |
| `SimGraph` | `simulation/sim_graph.{h,cc}` | compute_dists and the constructor of simulation_result are not implemented in the code: parameters of `simulate`; ordering edges are part of the nodes, though the constructor does not create them |
| `ExclElements` | `infrastructure/exclusion/exclusion_elements.cc:16-155` | a route is the list of the elements of its nodes; elements as in `Section` |
| `ReverseAhead` | `node.cc`, `element.cc:121-177`, loop of `interval.cc:32-42` | links and reverse edges of `Network`; the order of the nodes is arbitrary |
| `PathLength` | `element.cc:63-119,179-187`, `path/length.h`, `parse_iss.cc:48-56`, `interval.cc:190-192` | kilometrages are rational; those of the points are arbitrary data |
| `RoutePath` | `src/infrastructure/parsers/iss/parse_iss.cc:520-700,743-757` | routes by position; maps from rail plan ids to elements are functions (`none`: throws); at most `fuel` rounds of `get_path`; reading beyond `course_` is an outcome of its own; speed limits of routes, names and attributes left out |
| `Layout` | `src/infrastructure/layout/layout.cc:27-147,191-194`, `src/infrastructure/layout/layout_to_gps.cc:24-140,259-271`, `include/soro/utls/coordinates/gps.h:13-47`, `src/infrastructure/station/station.cc` | doubles are rationals; vectors indexed by ids are functions; reading the coordinates from the rail plan left out; sorting by address is an insertion sort; the station coordinates have one entry per station (`utl::zip`) |
| `Gps` | `src/utls/coordinates/{gps,cartesian}.cc`, `include/soro/utls/coordinates/{polar,angle,coordinates}.h`, `src/infrastructure/layout/layout_to_gps.cc:142-315` | doubles are reals and the functions of `<cmath>` the real ones, rounding is not modelled (so `asin` and `sqrt` arguments slightly outside of their domain do not occur) |
| `Osm` | `web/server/src/modules/tiles/osm_export/osm_export.cc` | coordinates and tags of nodes not modelled, ids unbounded, the number of interpolation points is taken from the loop in interpolation.cc:117 |
| `Curve` | `web/server/src/modules/tiles/osm_export/interpolation.cc` | doubles are reals, the argument of acos is exact |
| `RouteTable` | `src/infrastructure/parsers/iss/parse_iss.cc:713-741, 805-829, 838-852, 881-893` | names are numbers, maps are lists of entries visited in any order, `std::sort` by its contract |
| `OrderingJson` | `web/server/src/modules/ordering/serve_ordering_graph.cc` | documents are the values written, without JSON syntax; lookups by name are parameters; `std::sort` by its contract; no 32-bit wrap-around of departures |
| `ServerStart` | `web/server/src/modules/infrastructure/infrastructure_module.cc:25-81`, `web/server/src/modules/timetable/timetable_module.cc:35-96`, `src/timetable/timetable.cc:49-74` | parsers are parameters and infrastructures always parse; loading a saved file gives back what was saved; times are those of a strictly increasing clock |
| `InfraServer` | `web/server/src/modules/infrastructure/serve_{station,station_route,interlocking_route,exclusion_set,element}.cc`, `web/server/src/modules/search/*.cc`, `web/server/src/modules/timetable/serve_timetable_names.cc` | documents are the values written; the data of an element is left out of its document; the guesser is any function to indices |
| `TypeNames` | `include/soro/utls/string.h:15-32`, `src/infrastructure/graph/type.cc`, `include/soro/infrastructure/graph/type.h`, `parse_helpers.cc:31-34` | a text is a list of bytes |
| `ParseFp` | `include/soro/utls/parse_fp.h`, `parse_helpers.cc:11-25`, `parse_iss.cc:48-56` | release build with from_chars; numbers are rationals, no overflow; no infinity or not-a-number texts |
| `IssElement` | `src/infrastructure/parsers/iss/parse_track_element.cc`, `parse_station_route.cc`, `iss_string_literals.h:225-253` | an XML node is a tree of names, attributes and texts; creation of elements and nodes and warnings not modelled |
| `IssFiles` | `iss_files.cc`, `regulatory_data.cc`, `parse_iss.cc:994-1003,1184-1215`, `parse_station_coords.cc`, `station_route.cc:58-67` | the file system maps paths to directories and documents; maps are functions; rows of the coordinate file are given; warnings left out |
| `TrainSeries` | `parse_train_series.cc`, `rolling_stock.cc`, `parse_iss.cc:1085-1137` | maps are functions; vehicles with unreadable numbers are not modelled; warnings left out |
| `Tiles` | `web/server/src/modules/tiles/tiles_module.cc:15-101`, `web/server/src/main.cc` | the content of a map file or tile database is the infrastructure it was made from; all files of a start have the same time; the tiles library is not modelled |
| `Cliques` | `read_cliques.cc`, `get_exclusion.cc:100-128`, `export_exclusion_graph.cc` | a file is its text; the graph computed by `get_exclusion_graph` is a parameter, instantiated with `Exclusion` in the theorems |
| `InfraStats` | `get_infra_stats.cc`, `parse_iss.cc:192-515, 861-875, 1139-1155`, `graph_creation.h:9-45`, `graph_creation.cc:13-48` | of an element only the type; track nodes are created in the order of the file; counters do not overflow |
| `Serializable` | `serializable.h`, `infrastructure.cc`, `timetable.cc:20-46` | objects at addresses, files and mappings as contracts of cista (`deserialize` shows what was serialized, mappings are shared, `mmap` is unmapped by its owner); no self moves |
| `Dates` | `parse_kss_timetable.cc:66-80`, `base/time.h`, `sequence_point.cc:24-32`, `date::year_month_day` (external) | conversions of the date library are written from its published source; assertions dropped (release); pointers formed beyond the end of a text count as an error only if they are read |
| `Disruption` | `simulation/disruption.h` | probabilities are rationals (underflow of floats left out) |
| `Conflicts` | `src/infrastructure/exclusion/get_exclusion.cc:100-128`, `exclusion_elements.cc:150-155` | composition of `ExclElements`, `Exclusion`, `Cliques` |
| `ServiceDays` | `src/timetable/parsers/kss/parse_kss_timetable.cc:63-141` on texts, `src/timetable/train.cc:24-61` | composition of `Dates`, `Kss`, `Departures` |
| `Trip` | `src/simulation/ordering/ordering_graph.cc:83-105`, `src/runtime/interval.cc:173-240` (what is read of a node) | composed of `Train`, `Runtime` and `OrderingGraph`; distances and limits of nodes are given as functions, the limit before the first node is a parameter |
| `KssXml` | `parse_kss_timetable.cc` on documents and directories, `train.cc:74-84` | composed of `Kss`, `ServiceDays`, `TrainSeries` and `Transform`; stations and their routes are functions of names; error statistics and logging left out; numbers are exact |
| `RouteBuild` | `src/infrastructure/parsers/iss/parse_iss.cc:702-803` | paths from `RoutePath`, extra speed limits and ETCS as parameters; node numbers as a function |
| `Interlocking` (`Plan`, `averageLength`, `getInterlocking`) | `get_interlocking.cc:268-332` | division by zero is the outcome `none`; logging and timers left out |
| `ErrorStats` | `include/soro/base/error.h`, `kss_error.cc`, `route_transform_error.cc`, `rolling_stock_error.cc`, `parse_kss_timetable.cc:469-499,579-609` | the map of counts is a function, counters do not overflow, every work item is a thread of its own; lock, load, store and unlock are separate steps |
| `Debug` | `include/soro/utls/sassert.h` | a failed assertion is an exception with its line number; texts of messages are left out |
| `ExclusionSetDebug` | `exclusion_set.cc`, `exclusion_set.h:29-33` with assertions | as `ExclusionSet`; assertions that compare the bit vectors with the ids they are computed from are kept as written |
| `CalendarDebug` | `bitfield.cc`, `bitfield.h`, `train.cc:30-110` with assertions | as `Calendar` and `Departures` |
| `KssDebug` | `parse_kss_timetable.cc:47-141` with assertions | `year_month_day::ok` of the date library is written from its published source; comparing two dates is comparing their days |
| `InterlockingDebug` | `interlocking_route.cc:127-224`, `get_interlocking.cc`, `station_route.cc:12-191` with assertions | as `StationRoute` and `Interlocking`; the assertion on the size of a station route is checked where its nodes are iterated, not where the interlocking is created |
| `OrderingGraphDebug` | `ordering_graph.cc` with assertions | as `OrderingGraph`; all timestamps belong to main signals |
| `RuntimeDebug` | `runtime.cc`, `interval.cc`, `interval.h` with assertions | as `Runtime`; not modelled: assertions of the train iteration (train.cc:196-235), that the start node exists (interval.cc:18), that limits are numbers (interval.cc:26, 37); `is_halt` in interval.h:47, 52 always holds |
| `ExclusionDebug` | `exclusion_elements.cc`, `get_exclusion.cc`, `get_exclusion_graph.cc`, `has_cycle.h` with assertions | as `ExclElements`, `Exclusion`, `HasCycle` |
| `TrainDebug` | `train.cc` (iteration), `station_route_to_interlocking_route.cc` with assertions | as `Train`, `Transform`; the generator is run to its end |
| `ParseDebug` | `include/soro/utls/parse_int.h`, `parse_fp.h` (build with assertions) | the branch with `std::from_chars`; rationals instead of floating point numbers, no range errors, no inf and nan |
| `KssTextDebug` | `parse_kss_timetable.cc:143-299, 301-341, 389-442` (build with assertions) | as `Kss` and `KssXml` |
| `RouteDebug` | `src/infrastructure/parsers/iss/parse_iss.cc:697-838`, `src/infrastructure/line.cc:7-36` | with assertions; halts, checkpoint, neighbouring stations and length left out (other modules); `std::sort` by contract |
| `Routing` | `web/server/src/soro_server.cc:14-135`, `web/client/src/util/SoroClient.ts:133-242` | regular expressions as lists of items with backtracking; contract of `net::query_router`: first matching route in order, matched from the beginning of the path, whole path or a beginning of it as a parameter; GET only; no percent encoding |
| `WebClient` | `web/client/src/stores/sidebar-store.ts`, `ordering-graph.vue`, `soro-id-input.vue`, `extended-search.vue`, `infrastructure-map.vue` (legend) | one event at a time, answers as events that name an open request; the server is a parameter; `import` of graphology as a contract; drawing left out |
| `Tabs` | `web/client/src/golden-layout/golden-layout-adapter.vue:56-223`, `web/client/src/stores/golden-layout-store.ts:29-64`, `web/client/src/App.vue:34-66` | the library golden-layout is a contract (tabs are bound and unbound once, saved layouts are copied); position and size on the screen and the loading of the Vue components not modelled |
| `Settings` | `web/client/src/stores/settings-store.ts`, `web/client/src/vuetify.ts`, `web/client/src/style.ts:7-30` | the storage of the browser is written by this client only; actions end before the next event |
| `IsPath` | `is_path.h`, `element.h:344-354`, `element.cc:63-115,179-187` in the debug build | neighbours are slots of the model of the network, in the order of the array; a null pointer in it that is reached is undefined behaviour |
| `StationPanel` | `station.vue`, `sidebar.vue`, `infrastructure-map.vue:351-383` | vue's watchers and mounting run before the next event; an answer is the pair of infrastructure and id that was asked for; the switches of the routes are not part of it (`WebClient` has them) |
| `InfraMap` | `web/client/src/components/infrastructure/infrastructure-map.vue`, `map-style.ts`, `element-types.ts` | one map; maplibre as a contract (no changes while the style is loaded, `setStyle` replaces visibilities, filters and data); loading of icons is part of `load`; station and interlocking routes in one list; bounding box, clicks and zoom ranges left out |
| `Menu` | `web/client/src/components/base/soro-select.vue`, `soro-datetimerange.vue`, `web/client/src/components/sidebar/menu/menu.vue` | on the store of `WebClient`; watchers run at the end of an event; times are not before 1970; disabled fields ignore events |
| `HttpClient` | `web/client/src/util/HttpClient.ts` | names and values that `Headers` refuses are left out, JSON documents without their text, the response is an argument |
| `RouteSwitch` | `web/client/src/components/base/soro-switch.vue`, `components/sidebar/station/station.vue`, `stores/sidebar-store.ts` | one of the two kinds of routes, labels and drawing left out, the server is a predicate on infrastructure and route, rendering by keys as one event |

## What is not modelled

The HTTP layer of the web server, the tiles database, the pybind module, the GPU code, memory mapped serialisation (cista), the
XML parser (pugixml; documents are trees), logging, the file system beyond a map from paths to contents, the thread pool itself,
floating point rounding. Functions of the files above that are not cited in a model file.

## Findings (the code does not do what a user would expect; each proved in Lean)

| id | theorem | what happens |
|---|---|---|
| C06 | `C06_equivalent_negation` | `equivalent` discards the result of a shift: bitfields with the same days but different first days are reported different |
| C07 | `C07_departures_negation` | a run that departs before the interval and is still running in it is not reported if it departs on the previous day |
| C15 | `C15_set_on_empty_negation` | `set` on the empty exclusion set leaves its last bit marker invalid, so it no longer compares correctly |
| C16 | `C16_zero_threads` | `get_exclusion` with zero worker threads produces nothing |
| C23 | `C23_tie_cycle` | trains with equal usage times can create a cycle in the ordering graph |
| C24 | `C24_cyclic_loses_reachability` | removing transitive edges from a cyclic graph loses reachability |
| C29 | `C29_start_edges_twice_negation` | traversal sees the edges of a start node twice if the start lies on a cycle |
| C36 | `C36_halting_twice` | a route is listed twice in `halting_at` if passenger and freight halt coincide |
| C37 | `C37_isolated_negation` | an isolated station route without signals gets no interlocking route |
| C38 | `C38_repeated_route` | an interlocking route using a station route twice is not iterated correctly |
| C39 | `C39_beyond` | `contains` is true beyond the end of a route |
| C41 | `C41_negation`, `C41_omitted_negation` | extra speed limits are reported at all later nodes; limits at omitted nodes hide later ones |
| C69 | `C69_next_negation` | `ordering_node::next` can return a node of another train |
| C59 | `C59_release_negation` | `narrow` wraps silently in release builds |
| C60 | `C60_release_garbage` | `parse_int` ignores trailing characters and returns the maximum for what is no number in release builds |
| C61 | `C61_empty_separator` | `split` with an empty separator never ends |
| C65 | `C65_below` | piecewise functions extrapolate the first piece below its lower bound |
| C72 | `C72_negation` | comparison of string views ignores their sizes |
| C66 | `C66_before_first_negation` | inserting into a distribution before its first point is undefined or throws |
| C73 | `C73_negation` | quantities can be equal and less at once |
| C74 | `C74_negative_negation` | negative times are rounded towards zero, not to the nearest multiple |
| C76 | `C76_speed_negation`, `C76_lost_mass_negation` | iterate reports speeds one too high and drops probabilities below 0.01 |
| C78 | `C78_negation` | tenth and higher powers are not printed |
| C79 | `C79_negation`, `C79_plain_negation` | a recursive generator drops the exception of a nested one that has not yielded yet; a plain generator drops all exceptions |
| C44 | `C44_cycle_negation` | three elements within 0.02 km can be ordered in a cycle, so sorting is undefined |
| C46 | `C46_mirror_negation`, `C46_loop_negation` | elements at the same kilometrage come in the same order in both directions; `to` the end of a loop is its start alone |
| C82 | `C82_turn`, `C82_negation` | At a switch or cross, if the two opposite sections belong to one line and meet with the same end (both start or both end there), `get_node` takes no swap and a train coming in at the stem, branch or end point gets the node of trains from the start: it is led back to where it came from. |
| C82 | `C82_km` | A train reaching the start point of a kilometrage jump from a section that ends there (or the end point from one that starts there) alternates between two nodes for ever. |
| C83 | `C83_loop` | `complete_borders` pairs borders without regard to `low_border_`; a train between two low or two high borders alternates between the border nodes for ever. |
| C84 | `C84_negation` | A border whose neighbour station is known but has no border back with the same line and track sign keeps `neighbour_element_ == nullptr`, which is dereferenced when the border section is made. |
| C47 | `C47_loop_negation` | iterating a train over an interlocking route that uses a station route twice cuts the loop out |
| C48 | `C48_blocked` | a sequence point whose node is not visited keeps all later ones from being attached |
| C49 | `C49_turns_off_negation` | the only route going on from a signal turns off the plan and is longer than the rest of it: reported as success (`transform_to_interlocking`, the `break`) |
| C49 | `C49_aligned_negation` | a route ends at the last node of a planned station route: the offset advances, the node index still refers to the previous station route, and the last station route is taken for covered |
| C85 | `C85_twice_negation` | a runtime checkpoint at the main signal between two routes is returned twice, the following stops are never attached |
| C86 | `C86_endless_negation` | a route of one node is appended to the path forever |
| C86 | `C86_out_of_bounds_negation` | first route starting before and ending behind the plan: `points_` is read out of bounds |
| C86 | `C86_rejected_negation` | a route running beyond the end of the plan: `covers` compares an end offset in another station route, error `NO_IR` |
| C50 | `C50_taken_back_negation`, `C50_forgotten_negation` | a regular service after an exclusion takes it back; a special service before the first regular one is forgotten |
| C51 | `C51_past_end_negation`, `C51_days_dropped` | `PT15` is read past its end; `P1DT2H` is two hours |
| C52 | `C52_no_days_negation` | the interval of a timetable with a train without service days reads beyond the calendar |
| C88 | `C88_stop_mode_negation` | a stop mode other than 2, 3, 4 throws out of the parser and discards the whole timetable |
| C89 | `C89_order_negation` | train ids depend on the unspecified order of the directory |
| C53 | `C53_distance_negation` | `brake` adds up the speeds at the beginning of each step, so the last but one distance can be beyond the physical braking distance put into the last result: the distance decreases |
| C54, C55 | `C54_standing`, `C55_standing` | `coast` at speed zero and `accelerate` of a standing train without surplus force never end |
| C55 | `C55_limit_negation` | the last result of `accelerate` can be faster than target and top speed |
| C91 | `C91_cut_negation` | `accelerate` drops the step over the maximum distance and moves the result before it there without changing its time: the train gets up to half a second for free |
| C57 | `C57_events_negation` | a border within a centimetre behind another one is merged into its interval: the event lies beyond the border |
| C57 | `C57_chain_negation` | `last_ms = list.size()` is the wrong index if the signal is merged into the interval before: a limit for the last signal does not reach it |
| C95 | `C95_halts_negation` | of two halts within a centimetre the first is lost (only an assertion in debug builds) |
| C96 | `C96_refused_negation` | a signal shortly before a halt: lowering by whole m/s ends at 0 and throws |
| C97 | `C97_end_negation` | a speed limit at the node where the way back ends is not looked at |
| C56 | `C56_order_negation` | a halt without planned departure (INVALID, 2^32-1) is left at that point in time; all later points in time wrap round and are before it |
| C100 | `C100_ends_negation` | a main signal 5 cm behind a halt: the first acceleration step is longer than the interval and dropped, the train stands and coast(0, d) never ends |
| C102 | `C102_cycle_negation` | path_exists(x, x) is false although x lies on a cycle |
| C104 | `C104_missing_negation` | sections are found by their track elements: a switch between two sections without track elements is no exclusion element of a route over it, so conflicting routes do not exclude each other |
| C104 | `C104_out_of_bounds_negation` | a route from a bumper along a section without track elements into one more section: the bumper is searched in the wrong section, the span has negative size |
| C105 | `C105_ring_negation` | in a ring of tracks without a speed limit that affects the train, the search for the limit at the start of the train follows `reverse_ahead` for ever |
| C105 | `C105_jump_negation` | next to a kilometrage jump whose start is the end of a section, `reverse_ahead` of the last node of the section is the jump |
| C107 | `C107_end_negation` | `get_path_length_from_sections` dereferences the end iterator on every path (used by the tests only) |
| C107 | `C107_track_negation` | on a path ending with a track element its result depends on what is read there |
| C108 | `C108_ring_negation` | `get_path` does not end if the course leads into a ring without the last node (e.g. a route to a signal of the other direction), "Could not find path" is not reported |
| C108 | `C108_short_negation` | a course with too few decisions is read beyond its end (`sr.course_[course_idx]`) |
| C112 | `C112_first_coincides_negation` | track elements are counted from 0 instead of 1, so the first one gets the very position of the first element of the section |
| C114 | `C114_same_place` | stations equally far from the only station with coordinates get the same place |
| C115 | `C115_invalid_point` | one element without coordinates makes the bounding box of a station invalid |
| C118 | `C118_full_turn_negation` | `PI` is 3.1415, so `rotate_point_around_by(p, anchor, 360)` is not `p` |
| C119 | `C119_direction_negation` | elements below the centre of their station in the layout are placed in a direction off by 2(π-3.1415) rad (`360 - bearing`) |
| C121 | `C121_no_threads_negation` | if `std::thread::hardware_concurrency()` does not know the number of threads it returns 0, and the export divides by zero |
| C126 | `C126_direction_negation` | neighbours within 0.01 degrees of longitude are treated as if they were straight north or south, the curve leaves an element with a neighbour to its west to the south |
| C127 | `C127_same_element_negation` | two extra speed limits at the same element: the second one and all limits at later elements are never reported |
| C128, C129 | `C128_same_name_negation`, `C129_same_name_negation` | two routes with the same name in a station: release builds drop the first from the tables without an error |
| C133 | `C133_overwrite_negation` | the age of a saved infrastructure is compared with the write time of the directory, which does not change when a file in it is overwritten: stale infrastructure is served |
| C134 | `C134_restart_negation` | saved timetables are put on the list of paths to parse, but a saved file is not a directory and is skipped: with serialization, every start after the first serves no timetables |
| C135 | `C135_missing_negation` | the numbers of elements and exclusion sets are not checked: a number too large is undefined behaviour instead of 'not found' |
| C135 | `C135_unknown_infrastructure` | the request for the names of the timetables of an unknown infrastructure throws |
| C136 | `C136_identifier_negation` | the tests for extern and operational identifiers of halts are swapped: a lone identifier cannot be found, an empty name is listed |
| C138 | `C138_collision_negation` | names are compared by 32-bit hashes: a node named NotizIsxkrp is read as a main signal |
| C139 | `C139_garbage_negation` | in the release build texts that are no numbers are not rejected: 12abc is 12, abc is the largest number |
| C141 | `C141_place_negation` | a limit at 'Hier' acts from the last signal and one at 'Signal' acts here |
| C141 | `C141_collision_negation` | the places and trains of limits are compared by hash, VorZrvmff is read as Signal |
| C142 | `C142_both_sides_negation` | halts with platforms on both sides (HalteplatzRzBeide) are read as halts without platforms |
| C143 | `C143_unknown_attribute_negation` | an unknown attribute of a station route is written outside of the array |
| C144 | `C144_index_negation` | get_iss_files(.../Index.xml) reads the directory as index and always fails |
| C146 | `C146_duplicate_negation`, `C146_large_number_negation` | further entries of a line are dropped; line numbers above 65535 are read as 65535 |
| C148 | `C148_shared_name_negation` | the vector of coordinates has one entry per short name but is indexed by station: out of bounds if two stations share a short name |
| C150 | `C150_ambiguous_negation`, `C150_view_negation` | series `a-b` of company `c` and series `a` of company `b-c` share a key: found under both names, rejected if both exist; the size of the string views is ignored, so a view into a longer text finds another series |
| C151 | `C151_speed_limit_negation` | the stationary speed limit is read without replacing commas: 99,5 is read as 99 |
| C152 | `C152_stale_negation`, `C152_history_negation`, `C152_extension_negation` | the map file is written only if there is none: after a change of an infrastructure the server serves the new infrastructure with the old tiles; infrastructures `a.x` and `a.y` share the files `a.osm` and `a.mdb` |
| C153 | `C153_sources_negation` | the checks of the source directories (`!exists && is_directory`) are never true: a missing directory ends the program with an uncaught exception |
| C154 | `C154_trailing_blank_negation`, `C154_missing_file_negation` | A blank at the end of a line of `exclusion_sets` is read as route 2^32-1 and used as index (out of range write). A missing file gives no exclusion sets without any report, so no orderings at all. |
| C155 | `C155_tool_negation`, `C155_loop_negation` | `export_exclusion_graph` sets `exclusion_graph_` but not `exclusion_elements_`; `get_exclusion` computes the graph only if both are set, so the exported file is always empty. A route that ends where it starts is not in its own set and its pairs are written twice. |
| C156 | `C156_sections_negation` | `get_infra_stats` adds half the number of border nodes to the sections, but borders to stations that are not in the files are removed without a section, so the statistics report sections that do not exist. |
| C157 | `C157_wrapped_negation`, `C157_wrapped_save_negation`, `C157_overwrite_negation`, `C157_moved_away_negation` | `infrastructure(infrastructure_t const*)` sets only `access_`; moving such an object sets `access_` to its own empty infrastructure, saving it writes the empty one. Saving to a file that another object has loaded changes that object. A loaded object keeps its pointer when it is moved away and dangles when the target dies. |
| C158 | `C158_text_negation` | in release builds 2022-02-30 is read as the second of March, month 13 as the next January, separators are not looked at, texts without digits give year -1, shorter texts are read beyond their end |
| C159 | `C159_absolute_negation` | dates before 1970 come after all others, times from 2106-02-07 06:28:16 on start again in 1970 |
| C160 | `C160_halt_negation`, `C160_runtime_negation` | the exponent of the geometric distribution is one too small (first delay counts as trial zero): halts add up to 4, no delay has probability 3; travel times are also divided by the variance instead of the number of speeds and doubled: more than 17; speeds 0 and from 65530 on break the loop |
| C161 | `C161_missing_file_negation` | without a clique file nothing is reported and steps of different trips are never ordered, whatever conflicts |
| C161 | `C161_pairs_negation` | a clique file that covers all exported edges leaves out routes without conflicts; two trips over the same route are then not ordered |
| C162 | `C162_order_negation` | a regular service listed behind a special one takes an exclusion back |
| C99 | `C99_not_refused_negation` | a signal at the place of a speed limit loses the limit it announces for braking; the train is too fast there and has no room to brake before a halt that follows soon |
| C163 | `C163_break_in_negation` | a train that enters at a main signal gets a timestamp for that signal, too; the constructor of the ordering graph then writes behind its nodes (release builds) |
| C163 | `C163_same_second` | two main signals passed in the same second have equal start times; the order of their usages is then left to `std::sort` |
| C165 | `C165_no_departure_negation` | a train whose first halt has no departure is accepted; its departure is 2^32 - 1, so it leaves one second before the midnight of its day |
| C165 | `C165_backwards_negation` | a train that arrives at its last halt before it departs at its first one is accepted |
| C166 | `C166_mixed_negation` | the version is checked for the first directory entry only: files for other versions are read, and in another order the same timetable is refused |
| C166 | `C166_other_entry_negation` | if the directory lists another file first, the right timetable is refused; if it lists a directory first, an exception is thrown |
| C167 | `C167_mislabelled` | a left out main signal that is listed under another type still ends interlocking routes, but trains do not see it |
| C01 | `C01_wrong_length` | a mask missing its last character makes the last day of the calendar a service day (the terminating zero is no '0'); of longer masks the rest is dropped (release build) |
| C169 | `C169_crash_negation` | `print_interlocking_stats` divides by the number of routes: an infrastructure without main signals and connections, or with ETCS-only station routes, crashes `get_interlocking` |
| C171 | `C171_repeated_limit_negation` | a limit behind the last signal that repeats the limit in force is overwritten by a later limit for the last signal, also by a higher one: interval.cc compares values to find out where the replaced limit ends |
| C83 | `C83_ends_negation` | two connected borders that both are ends (or both starts) of their sections: a train circles between them and never enters the other station |
| C110 | `C110_jump_negation` | a kilometrage jump whose start is the end of a section: get_path (parse_iss.cc:559-583) does not end |
| C111 | `C111_from_negation` | two connected borders that both are ends of their sections: from_station_ stays empty |
| C172 | `C172_set` | inserting into a set without a member throws in a debug build and leaves a set without its last id in a release build |
| C174 | `C174_twice_witness` | a special service that includes a service day: right calendar in the release build, failed assertion in the debug build |
| C175 | `C175_circle` | a generated route from a signal around a circle to the same station route: iterated by the release build, failed assertion in the debug build |
| C176 | `C176_too_few_times` | with fewer timestamps than needed the release build leaves nodes without id, route and train in the graph and skips routes of the path; the debug build is stopped by an assertion |
| C176 | `C176_other_trip` | `next` at the end of a trip returns a node of another trip of the same train; the assertion compares trains only |
| C176 | `C176_wrong_train` | `next` in the middle of a trip: failed assertion although the trip goes on; the release build returns a node of another train (C69) |
| C177 | `C177_stop_lost` | of two stops at the same place the release build keeps the second only: the train does not wait for the departure of the first; the debug build is stopped by an assertion |
| C177 | `C177_unnoticed` | an unknown departure on the way makes the times overflow and the train arrives before it left (C56); no assertion notices |
| C178 | `C178_unnoticed` | no assertion notices that the bumper at the start of a route is searched in a section it is not on (C104): undefined behaviour in both builds |
| C179 | `C179_unnoticed` | the assertion of the transformation counts points: a checkpoint returned twice hides a stop that was lost because the station route has no halt for the train |
| C174 | `C174_separators` | the characters between the numbers of a date are not checked, also with assertions |
| C181 | `C181_ranges` | times like 99x99y99abc pass the assertions |
| C181 | `C181_unnoticed` | a duration that ends without a unit passes the assertions and is read past its end; units like D are dropped with their number |
| C182 | `C182_checkpoint` | a train with a passing time at a station route without runtime checkpoint is stopped by an assertion, before the error code for this case is returned |
| C182 | `C182_twice` | a train that gets a sequence point twice is accepted without assertions and stopped with them |
| C183 | `C183_construction`, `C183_release` | an element to leave out that is not on the path, or named twice, is stopped by an assertion; the release build ignores it. Two routes with one name: stopped, or the last one wins |
| C184 | `C184_inside` | a position in a gap between segments: stopped by an assertion; the release build returns a segment that does not contain it |
| C51 | `C51_no_number` | hours or minutes without a number take an hour or a minute off modulo 2^32, in release builds |
| C187 | `C187_stations_negation` | the client asks for `/infrastructure/x/stations`, the route demands a slash at the end (`stations/$`): the list of stations is never served to it |
| C187 | `C187_search_negation` | queries with blanks, umlauts or other characters are not matched by the route of searches and answered as missing files |
| C186 | `C186_unreachable` | infrastructures with other characters in their names, for example a point, are loaded and listed, but no request reaches them |
| C189 | `C189_overtaken_negation`, `C189_failed_negation`, `C189_other_infra_negation`, `C189_late_negation` | answers are stored whatever was chosen since: the interval of another timetable, or of another infrastructure, stays in the sidebar, and an interval chosen early is replaced |
| C190 | `C190_overlap_negation`, `C190_failed_negation` | two requests for ordering graphs in flight: the first answer fills the graph of the second request, the second answer is refused at its first node, the graph of the old interval stays |
| C191 | `C191_comma_negation` | `,17` is accepted as train ids, the client asks for `NaN,17`, and the server looks for a file |
| C192 | `C192_late_negation`, `C192_overtaken_negation`, `C192_failed_negation`, `C192_infra_negation` | the search shows results of an earlier text or of another infrastructure |
| C193 | `C193_deleted_negation` | a route deleted before the answer to its request is highlighted afterwards and cannot be seen as deleted |
| C194 | `C194_reset_negation`, `C194_shared_negation` | resetting the legend assigns the constant array itself: what is checked afterwards belongs to the initial controls of all maps |
| C197 | `C197_reload_negation` | After a saved layout is loaded while its tabs are open, the next tab takes the index of an open one, whose component is replaced. |
| C197 | `C197_zero_negation` | If a layout with the tab of index 0 is loaded while several tabs are open, this tab is given another index than the one it is bound to, and the loading throws. |
| C200 | `C200_loose_negation`, `C200_empty_negation` | `neighbours` calls `id()` of every entry of the array until one fits; at a border without partner at which its section ends the first entries are null, so `is_path` dereferences a null pointer for every path through it; `is_path` reads the first element of an empty path |
| C201 | `C201_three_borders_negation` | `complete_borders` joins a border with every border of the neighbour that has its line and track sign; the last one wins, while all of them lead to it: a train can run from a border to one that is not its neighbour, and `get_distance` fails an assertion |
| C202 | `C202_overtaken_negation`, `C202_failed_negation` | `fetchStation` takes every answer, also one for a station clicked earlier; after a failed request the station before stays |
| C202 | `C202_same_id_negation`, `C202_never_clicked_negation` | choosing an infrastructure keeps `currentStation`: a click on a station with the same id in the new infrastructure is no change, so the old one stays; opening the panel again asks for the old id in the new infrastructure |
| C203 | `C203_theme_negation` | a change of the theme replaces the style of the map; the filter of directions is lost, so elements of an unchecked direction are drawn until the next reset or change of a direction |
| C204 | `C204_theme_negation`, `C204_infrastructure_negation` | after a change of the theme, and on the map of another infrastructure, highlighted routes are not drawn until the list changes again |
| C205 | `C205_reopened_negation`, `C205_cleared_negation` | the fields of the menu are created empty and only filled by changes: after the menu was left and selected again they are empty although infrastructure, timetable and range are chosen; clearing the range empties the field only |
| C206 | `C206_basic_negation` | `setBasicAuth` puts the colon outside of the base64 text; the header never carries credentials |
| C206 | `C206_no_headers_negation` | a client created without headers has a plain object instead of `Headers`; setting a header throws |
| C206 | `C206_options_negation` | headers passed with a call are replaced by those of the client |
| C206 | `C206_falsy_negation` | bodies that count as false are dropped |
| C207 | `C207_quick_negation` | a switch turned on and off before the server answers is off and its route stays highlighted |
| C207 | `C207_reopened_negation` | a panel opened again before the answer has the switch off, the route becomes highlighted |
| C207 | `C207_unknown_negation` | the switch of a route the server does not know stays on, nothing is highlighted |
| C207 | `C207_infrastructure_negation` | highlighted routes survive a change of the infrastructure and turn on switches of other routes with the same id |
| C207 | `C207_no_infrastructure_negation` | without an infrastructure a switch turns on and nothing is asked |

## Plan per property

The table is kept current; see `MANIFEST.json` for theorem names.

| id | property | module | approach |
|---|---|---|---|
| C01 | A bitfield built from a mask answers exactly the mask | Bitfield | make_bitfield, at; proved by list indexing |
| C02 | Setting a service day is visible and touches no other day | Bitfield | set; case split before/inside/after the range; histories by induction |
| C03 | Union of calendars is the union of their days | Bitfield | operator|=; shift lemmas |
| C04 | Iterating a calendar visits exactly its days, in order, once | Bitfield | iterator as index machine; induction on remaining range |
| C05 | from/to bracket exactly the days of a time window | Bitfield | from/to iterators; same machine |
| C06 | equivalent() holds exactly for calendars with the same days | Bitfield | equivalent compares unshifted bits: negation by witness, one direction as `_partial` |
| C07 | departures(interval) yields exactly the runs overlapping the interval | Departures | iterator machine of train.h; exact characterisation; negation for over-midnight runs; `_partial` for the rest |
| C08 | Trips and trip_count agree | Departures | trip_count = number of trips; unfiltered departures |
| C09 | make_exclusion_set represents exactly the given ids | ExclusionSet | bit window model; membership/iteration |
| C10 | Exclusion set union is set union | ExclusionSet | |=; membership of result |
| C11 | Exclusion set difference is set difference | ExclusionSet | -= and compact; membership of result |
| C12 | Exclusion sets stay well-formed under every history of operations | ExclusionSet | invariant preserved by each operation, induction over histories |
| C13 | Equality of exclusion sets is equality of members | ExclusionSet | canonical form: extensionality |
| C14 | compare/contains decide the subset order | ExclusionSet | compare; negation for empty/empty |
| C15 | Inserting a single id | ExclusionSet | set; negation on the empty set, `_partial` otherwise |
| C16 | The parallel used-by mapping equals the sequential one | UsedBy | interleaving semantics of worker steps; confluence to the sequential result |
| C17 | Exclusion graph adjacency | ExclusionGraph | merge minus neighbours; symmetry |
| C18 | Routes to exclusion sets is the inverse of exclusion sets to routes | ExclusionGraph | inverse relation by fold induction |
| C19 | Open exclusion elements are the closed ones without the ends | ExclusionGraph | erase |
| C20 | Trips own contiguous, disjoint chains of ordering nodes | OrderingGraph | construction fold; ranges partition |
| C21 | In and out edges of the ordering graph mirror each other | OrderingGraph | edge insertion, dedup and removal keep mirror invariant |
| C22 | All users of an exclusion set are ordered | OrderingGraph | chain of consecutive usages gives paths |
| C23 | The ordering graph is acyclic when usage times increase | OrderingGraph | potential function argument; cycle witness with ties |
| C24 | Transitive edge removal keeps reachability and is minimal | Transitive | DFS max_depth characterised; reachability by well-founded induction on DAG |
| C25 | has_exclusion_paths is a correct verdict | Traversal | BFS reachability correctness |
| C26 | Reported cycles are real and shortest | Cycle | BFS tree invariant, shortest closed walk |
| C27 | has_cycle decides cyclicity | HasCycle | recursive DFS with visited/finished; white path argument |
| C28 | bfs and dfs visit exactly the reachable nodes | Traversal | worklist invariant |
| C29 | bfs and dfs visit every reachable edge exactly once | Traversal | negation by witness; `_partial` if start is on no cycle |
| C30 | merge_unique is the sorted union | Algo | merge + unique |
| C31 | multi_set_merge is the sorted union of all ranges | Algo | heap as multiset with arbitrary choice of minimum |
| C32 | overlap decides whether sorted lists share an element | Algo | two pointer loop |
| C33 | slice, remove_until and remove_after keep exactly the named part | Algo | list slices |
| C34 | sort_and_intersect is the multiset intersection | Algo | set_intersection multiset semantics |
| C35 | Station route graph predecessors invert successors | Interlocking | fold inversion |
| C36 | Interlocking index structures are exact | Interlocking | fold inversion, dense ids |
| C37 | Generated interlocking routes are signal to signal | Interlocking | recursive generation against path specification |
| C38 | Iterating an interlocking route is the concatenation of its parts | RouteIteration | list concatenation |
| C39 | contains agrees with iteration | RouteIteration | membership of sub paths |
| C40 | Station route iteration yields the requested nodes with their omitted flag | RouteIteration | generator loop; omitted pointer invariant |
| C41 | Extra speed limits are reported at their node only | RouteIteration | negation by witness; `_partial` for what holds |
| C42 | Every station route has exactly one kind | RouteIteration | boolean partition |
| C43 | Reverse edges mirror forward edges | Network | connect_nodes reverse edges |
| C44 | The element order used for sorting sections is a strict order | ElementOrder | negation by witness; `_partial` with separated kilometrages |
| C45 | A line segment lookup returns the segment containing the position | Network | lower_bound on segments |
| C46 | Section iteration forward and backward are mirror images | Network | section iteration |
| C47 | Every visited node of a train is visited in path order, once per occurrence | Train | iterate_train as concatenation |
| C48 | Sequence points are attached in order and each at most once | Train | greedy matching loop |
| C49 | The interlocking path of a train is connected and covers its station routes | Transform | loop invariant: path connected, prefix covered |
| C50 | Special service days override regular ones, last one wins | Kss | fold over services using C02/C03 |
| C51 | Duration parsing | Kss | character machine; UB outcome explicit |
| C52 | The timetable interval covers all runs | Kss | min/max fold |
| C53 | Braking reaches the target speed and accounts time and distance consistently | Physics | step loop over rationals |
| C54 | Coasting covers the distance at constant speed | Physics | step loop over rationals |
| C55 | Acceleration never exceeds its limits | Physics | step loop over rationals |
| C56 | Stop times are respected | Runtime | fold over intervals |
| C57 | The interval list is ordered by distance and its limits chain | IntervalList | fold invariant |
| C58 | A recursive generator yields its nested sequences flattened in order | Generator | leaf/parent pointer machine refines flattening |
| C59 | narrow conversion is exact or rejected | Utls | range arithmetic |
| C60 | Integer parsing accepts exactly the decimal numerals of the type's range | Utls | from_chars model |
| C61 | split and join are inverse | Utls | split model |
| C62 | optional with sentinel obeys the optional laws | Utls | sentinel optional |
| C63 | Unit arithmetic keeps dimensions | Units | type lists as lists of tags |
| C64 | Polynomial evaluation by Horner's scheme | Utls | Horner |
| C65 | Piecewise functions evaluate the piece containing the argument | Utls | piecewise |
| C66 | A delay distribution keeps its probability mass on insertion | Dpd | insert; negation and `_partial` |
| C67 | Tolerant equality is not an equivalence | ElementOrder | witness for non-transitivity |
| C68 | Timetable parse support check reports the first applicable error | Kss | ordered checks |
| C69 | next returns the following route of the same trip | OrderingGraph | negation by witness; `_partial` |
| C70 | Annotations of a constructed station route name the right nodes | StationRoute | loops of parse_iss.cc; induction |
| C71 | Successors of a station route continue it on the same track | Interlocking | element map lookup lemma |
| C72 | Comparing string views compares their texts | Utls | strcmp over memory; negation, `_partial` for terminated views |
| C73 | Comparisons of quantities are consistent | Units | negation for close values, `_partial` for others |
| C74 | Rounding to granularity gives the nearest multiple | Dpd | division lemmas; negation for negative numbers |
| C75 | The sum of a distribution is its total probability | Dpd | fold as expectation |
| C76 | Iterating a distribution reports every inserted probability at its point | Dpd | negations, exact characterisation as `_partial` |
| C77 | The maximum of two delay distributions is computed exactly | Dpd | C66 for histories, product of sums |
| C78 | Printed units identify units | Units | unique readability of the string; negation beyond 9 |
| C79 | Exceptions of generators reach the consumer | Generator | exact behaviour as `_partial`; negations |
| C80 | Loops over a plain generator continue where the last one stopped | Generator | induction on the body |
| C81 | The nodes of a section form a chain | Network | Invariants of the rising and falling scan, then of all sections, then of connect_nodes |
| C82 | Trains pass section elements | Network | `arrive` against `enter`, case by type and point |
| C83 | Trains pass borders | Network | slots of borders |
| C84 | Borders are paired | Border | induction over the loop with the set of finished pairs |
| C85 | The sequence points of a train are its planned points in order | Transform | loop invariant along the path |
| C86 | The transformation to interlocking routes ends with a result or a justified error | Transform | rank of the last node; witnesses |
| C87 | Times of day are read exactly | Kss | digits |
| C88 | A defective train does not affect other trains | Kss | induction over the file |
| C89 | Train ids are positions and independent of the directory order | Kss | permutation; witness |
| C90 | Accepted construction trains are read as given | Kss | stages in order, composition with C49 and C68 |
| C91 | Nobody outruns their speed | Physics | closed forms of the loops |
| C92 | Force curves | Physics | Horner, contiguity |
| C93 | Top speed and force | Physics | fold of minima |
| C94 | Every recorded node is in the interval list once | Interval | skeleton of the loop, prefix induction |
| C95 | One interval per border | Interval | skeleton, rows |
| C96 | Limits are lowered until the train can brake | Interval | measure from the back of the list, fixed point |
| C97 | The limit at the start | Interval | first match |
| C98 | One timestamp per recorded node | Runtime | fold over intervals, events sorted by distance |
| C99 | A calculated interval list can be driven | Runtime | invariant: speed at most limit; stable list gives room for braking |
| C100 | The running time calculation ends | Runtime | settling outcomes, room behind stops |
| C101 | The simulation graph follows the trains | SimGraph | closed form of the nodes |
| C102 | path_exists is reachability | SimGraph | events of the traversal (C28) |
| C103 | The simulation computes every node once | SimGraph | invariant: todo is exactly the set of ready nodes not finished |
| C104 | Exclusion elements are those driven over | ExclElements | legs along sections; used sections by fold; parts of orders |
| C105 | The way back is the straight one | ReverseAhead | classification of all links by their source |
| C106 | Lengths of paths and sections agree | PathLength | slots identify points; telescoping sums |
| C107 | The length by sections | PathLength | value past the end as parameter |
| C108 | The path of a station route follows its course | `RoutePath` | induction on rounds; pigeonhole on node and number of decisions for the bound |
| C109 | Station routes share a path exactly if they take the same one | `RoutePath` | invariant of the loop over the routes |
| C110 | The path of a station route consists of the elements of its sections | `RoutePath` | induction on the sections, links of the network from C81 to C83 |
| C111 | Stations of the connected borders | `RoutePath` | next and reverse edges of borders from C83 and C105 |
| C112 | Track elements are laid out between the ends of their section | `Layout` | induction on the elements, sections are independent |
| C113 | Layouts of stations start at zero and keep their shape | `Layout` | fold invariants |
| C114 | Stations without coordinates are placed between the stations around them | `Layout` | levels of the breadth first search from C28; invariant of the passes |
| C115 | The bounding box is the smallest one | `Layout` | fold invariants |
| C116 | distance | Gps | haversine formula equals arccos of the scalar product; triangle inequality of angles |
| C117 | move and bearing | Gps | components along up, north and east |
| C118 | rotation | Gps | rotation of the components; loop invariant of the best rotation |
| C119 | positions of elements | Gps | composition of the former over all stations |
| C120 | cartesian coordinates | Gps | inverse functions on their ranges |
| C121 | ids and nodes of the OSM export | Osm | loop specifications, permutation by sorting, chunks of the threads cover the list |
| C122 | ends of ways exist | Osm | from C121 and the ids of interpolations |
| C123 | connections of the OSM export | Osm | invariant of the way map over the traversal |
| C124 | curves stay in a box | Curve | convex combinations, monotone arcsin, cone of angles |
| C125 | curves are symmetric | Curve | symmetry of the weights and of the parameters |
| C126 | direction of auxiliary points | Curve | case analysis over the gradient |
| C127 | extra speed limits of constructed routes | RouteTable | loop specification, refinement to C41 |
| C128 | routes by name | RouteTable | last assignment wins, ids are positions |
| C129 | routes by first element | RouteTable | grouping as filter |
| C130 | parameters of ordering graph requests | OrderingJson | C60, C61 and uniqueness of splitting |
| C131 | ordering graph document | OrderingJson | loop specification, permutation of the trip index, C20, C21 |
| C132 | answers to ordering graph requests | OrderingJson | from C130 and C131 |
| C133 | infrastructures after a start | ServerStart | invariant over histories: saved files not older than the entry hold its content |
| C134 | timetables after a start | ServerStart | loop specification, contents of the saved files |
| C135 | requests by number | InfraServer | parsing of digits (Utls), look-ups in consistent tables |
| C136 | search index | InfraServer | membership in the concatenated results, both directions |
| C137 | search request | InfraServer | look-up of the guessed indices |
| C138 | names and types | TypeNames | the hash step is injective; vocabulary by evaluation |
| C139 | decimal numbers | ParseFp | spans of digits |
| C140 | kilometrages | ParseFp | C139 |
| C141 | speed limits from XML | IssElement | first children, C138 hashes, C139 numbers |
| C142 | data of elements | IssElement | vocabulary by evaluation |
| C143 | station routes from XML | IssElement | induction over attributes and limits |
| C144 | files of the index | IssFiles | induction over the list of files; prefixes of categories exclude each other |
| C145 | full station names | IssFiles | last assignment wins |
| C146 | lines | IssFiles | first emplace wins; tables by evaluation |
| C147 | ETCS requirement | IssFiles | C45 and C146 |
| C148 | coordinates of stations | IssFiles | positions in a list without repetition |
| C149 | forces of the core data | TrainSeries | polynomials compared at all speeds by ring |
| C150 | lookup of vehicles | TrainSeries | invariant of the map of series; joined keys are injective without hyphens |
| C151 | default values | TrainSeries | fold over the documents |
| C152 | tiles of the served infrastructures | Tiles | invariant of histories on top of ServerStart |
| C153 | checks of main | Tiles | case distinction |
| C154 | Exclusion sets of a file | Cliques | inverse of split and getline, unique sorted results, C18 |
| C155 | Exported exclusion graph | Cliques | iteration of C09 with C17 |
| C156 | Statistics of rail plans | InfraStats | invariant of the created elements and ids, multiplicity of main nodes, double counting of borders |
| C157 | Moving, saving and loading | Serializable | refinement of a value semantics: invariant of owned mappings and pointers |
| C158 | Dates of timetable files | Dates | calendar as successor function, induction over days; era arithmetic by omega |
| C159 | Points in time | Dates | arithmetic modulo 2^32 |
| C160 | Disruption distributions | Disruption | insertion history of C66; invariant of the nested loops |
| C161 | Conflicting trips are ordered | `Conflicts` | composition of C104, C16, C17, C154, C18, C22, C23 |
| C162 | Served dates from texts | `ServiceDays` | composition of C158, C50, C07 |
| C163 | The ordering graph fits the calculated running times | Trip | counting the signals of the positions of a path; composition of C37, C47, C48, C56, C94 and C23 |
| C164 | A train of a timetable document is read as it is described | KssXml | what documents say as relations; each part read as said, then composition of C68, C87, C51, C150, C162 |
| C165 | Accepted trains depart at their first stop and arrive later at their last | KssXml | witnesses against it; the translation with times projects to the one of C85 |
| C166 | A timetable is read only with the infrastructure version it was made for | KssXml | exact behaviour for the first entry; witnesses against it |
| C167 | Same main signals | RouteBuild | composition of `newPath`, `omittedLoop` and the interlocking input; equivalence with a condition on the names in the files |
| C168 | From files to the ordering | Dispatch | composition of C161, C163 and C167; induction over walks gives that paths lead to later steps |
| C169 | creation of the interlocking | `Props/InterlockingWhole` | composition of C36 and C37; emptiness of the generated routes characterised by sources of the acyclic graph |
| C170 | The error report counts every skipped train element once, however the threads run | ErrorStats | invariant of the threads (mutual exclusion, nothing lost), measure for the end, count of the files by induction |
| C171 | A speed limit for the last signal replaces exactly the limit in force behind that signal | IntervalSignal | the limit activated last as a fold, invariant of the list of intervals and of the index of the last signal over the path |
| C172 | assertions of exclusion sets | ExclusionSetDebug | both builds as functions; the invariant of reachable sets implies every assertion |
| C173 | assertions of calendars and departures | CalendarDebug | the same with the invariant of calendars and the position of iterators |
| C174 | assertions on service days | KssDebug | the counter equals the number of days plus the surplus, modulo 2^64, after every service |
| C175 | assertions of interlocking routes | InterlockingDebug | both builds as functions; sums of bucket sizes; ids of station routes against positions |
| C176 | assertions of the ordering graph | OrderingGraphDebug | first train that does not fit; lifting of the release functions |
| C177 | assertions of the running time calculation | RuntimeDebug | verdicts composed along the calculation; separation of intervals from C57 |
| C178 | assertions of the exclusion data | ExclusionDebug | used sections by induction along the route; sortedness of collected elements; invariant of the search |
| C179 | assertions of train iteration and transformation | TrainDebug | C175 for the parts of the path; double counting of points and routes on top of C85 |
| C180 | With assertions exactly the numbers are read | ParseDebug | grammar of numbers as a separate relation, both directions of from_chars |
| C181 | With assertions exactly the well formed times and durations are read | KssTextDebug | grammar of pieces with units as an inductive relation, strong induction over the text |
| C182 | trains of a document with assertions | KssTrainDebug | each part of the reader refines the release reader; sequences by induction over the points |
| C183 | Construction of station routes in a build with assertions | `RouteDebug` | induction over the routes with the tables so far; counting of the omitted positions |
| C184 | Segments of a line in a build with assertions | `RouteDebug` | border of the ordered list as for C45 |
| C185 | Forces and mass of a train | `Physics`, Props `ForceBalance` | chain of steps, sums over the vehicles |
| C186 | Requests reach the handler of their address | `Routing` | literal prefixes tell routes apart, backtracking of groups, parse relation for the converse |
| C187 | Client and server agree | `Routing`, Props `RoutingClient` | C186 with decimal numerals; composed with C135 and C130 |
| C188 | Memory of nested generators | `Generator`, Props `GeneratorMemory` | invariant: the promises that are alive are the chain of awaits from the root to the leaf |
| C189 | Selections of the sidebar | `WebClient` | invariant: the last open request is the one for the current choice, or it is answered |
| C190 | Ordering graph shown | `WebClient` | four states of a client that waits |
| C191 | Train ids | Props `WebClientInput` | texts split at commas, composed with C187; characters after the last `=` |
| C192 | Search | Props `WebClientInput` | the last open request is that of the text |
| C193 | Highlighted routes | Props `WebClientInput` | asked or shown |
| C194 | Legends | Props `WebClientInput` | maps that share the constant array are those after a reset |
| C195 | Timetable from its documents | `KssXml`, Props `KssDirectory` | each file in turn, numbers by position |
| C196 | Tabs with their own components | `Tabs` | invariant: unused indexes have no component; start of the client: only index 0 is unused |
| C197 | Layouts loaded at any time | `Tabs` | invariant for layouts without indexes; witnesses for saved ones |
| C198 | Theme and preference | `Settings` | invariant over events and restarts |
| C199 | Primary colour | `Settings` | invariant over events and restarts |
| C200 | Neighbours and paths | `IsPath` | invariant of the reading of sections: every element knows the one behind it; links lead to neighbours |
| C201 | Distances in the debug build | `IsPath` | links lead to mutual neighbours |
| C202 | Station panel | `StationPanel` | invariant over events: the last open request, or what is shown, is what was clicked last |
| C203 | The map draws what the legend says | `InfraMap` | invariant of layers over all events; filter by the last refreshing event |
| C204 | The map draws the highlighted routes | `InfraMap` | induction over events |
| C205 | Fields of the menu | `Menu` | relation between field and store kept by every event, for `=` and for `= or empty` |
| C206 | HTTP helper | HttpClient | induction over the calls that set headers; base64 decoding as a specification, round trip and a colon never decodes |
| C207 | Switches of routes | RouteSwitch | invariants over runs: on implies highlighted or asked for, off implies neither if the user waits |
