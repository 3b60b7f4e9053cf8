{"id": "C01", "title": "A bitfield built from a mask answers exactly the mask", "statement": "If a service calendar is built from a first date, a last date and a 0/1 mask with one character per day, then asking the calendar about any day of the range answers true exactly when that day's character is '1'; asking about a day outside the range is rejected.", "quantifier": "every first/last date at most 512 days apart, every mask of matching length, every date", "why_tests_cant": "the number of masks is 2^512 and of date ranges unbounded; tests sample a few", "anchors": ["src/timetable/bitfield.cc:make_bitfield", "src/timetable/bitfield.cc:bitfield::at"]}
{"id": "C02", "title": "Setting a service day is visible and touches no other day", "statement": "After setting one date to v the calendar answers v for this date, gives unchanged answers for every other date it covered, answers false for all days newly covered by the extension, and covers exactly the smallest range containing the old range and the date.", "quantifier": "every well-formed calendar, every date such that the extended range still has at most 512 days, every value, and by induction every history of such updates", "why_tests_cant": "the effect depends on the position relative to the range (before, inside, after) and on all previous updates", "anchors": ["src/timetable/bitfield.cc:bitfield::set", "src/timetable/bitfield.cc:bitfield::at"]}
{"id": "C03", "title": "Union of calendars is the union of their days", "statement": "The or of two calendars runs on a date iff one of the two does, its range is the smallest covering both, and the order of the operands does not matter for any answer.", "quantifier": "every pair of well-formed calendars whose joint range has at most 512 days", "why_tests_cant": "pairs of 512 bit masks with arbitrary relative offsets", "anchors": ["src/timetable/bitfield.cc:bitfield::operator|=", "src/timetable/bitfield.cc:bitfield::operator|"]}
{"id": "C04", "title": "Iterating a calendar visits exactly its days, in order, once", "statement": "begin()..end() yields the set days in strictly increasing order without omission or repetition; count() is the number of days visited; first_set_date/last_set_date are the first and the last visited day; get_set_days returns the same days.", "quantifier": "every well-formed calendar", "why_tests_cant": "every pattern of gaps and every range length has to be right, including empty calendars and gaps at both ends", "anchors": ["src/timetable/bitfield.cc:bitfield::iterator", "src/timetable/bitfield.cc:bitfield::get_set_days", "src/timetable/bitfield.cc:bitfield::count", "src/timetable/bitfield.cc:bitfield::first_set_date", "src/timetable/bitfield.cc:bitfield::last_set_date"]}
{"id": "C05", "title": "from/to bracket exactly the days of a time window", "statement": "Iterating from from(s) to to(e) with s <= e visits exactly the set days d with day(s) <= d <= day(e), in increasing order.", "quantifier": "every well-formed calendar, every pair of times s <= e, also far outside the range", "why_tests_cant": "unbounded windows and 2^512 masks; off by one errors appear only at range ends", "anchors": ["src/timetable/bitfield.cc:bitfield::from", "src/timetable/bitfield.cc:bitfield::to"]}
{"id": "C06", "title": "equivalent() holds exactly for calendars with the same days", "statement": "Two calendars are equivalent iff they run on the same set of days, independently of the range they store. (The code compares the unshifted bits, so only one direction can hold.)", "quantifier": "every pair of well-formed calendars", "why_tests_cant": "the claim is about all pairs of representations of the same set of days", "anchors": ["src/timetable/bitfield.cc:bitfield::equivalent"]}
{"id": "C07", "title": "departures(interval) yields exactly the runs overlapping the interval", "statement": "Iterating the departures of a train in an interval yields every service day whose run (first departure to last arrival) overlaps the interval, each once and in increasing order, and no other day. (The code starts at the day of the interval start, so runs crossing midnight into the interval are missed; exactness holds for all runs starting on or after that day.)", "quantifier": "every train calendar, every first departure/last arrival, every interval start <= end", "why_tests_cant": "the set of intervals and calendars is unbounded; the failing case only appears for over-midnight trains", "anchors": ["src/timetable/train.cc:train::departures", "src/timetable/train.cc:train::iterator", "src/timetable/train.cc:train::event_interval"]}
{"id": "C08", "title": "Trips and trip_count agree", "statement": "The number of trips reported for a train equals the number of trips enumerated, one trip per service day, and unfiltered departures enumerate all of them.", "quantifier": "every train with a well-formed calendar whose runs fit the time type", "why_tests_cant": "all calendars", "anchors": ["src/timetable/train.cc:train::trips", "src/timetable/train.cc:train::trip_count", "src/timetable/train.cc:train::departures"]}
{"id": "C09", "title": "make_exclusion_set represents exactly the given ids", "statement": "For a set made from sorted ids: membership, iteration, expanded_set and count all describe exactly the given ids; iteration is strictly increasing.", "quantifier": "every strictly increasing list of ids below 2^32-64", "why_tests_cant": "the representation is a window of 64 bit blocks; all window positions and gaps matter", "anchors": ["src/infrastructure/exclusion/exclusion_set.cc:make_exclusion_set", "src/infrastructure/exclusion/exclusion_set.cc:exclusion_set::operator[]", "src/infrastructure/exclusion/exclusion_set.cc:exclusion_set::expanded_set", "src/infrastructure/exclusion/exclusion_set.cc:exclusion_set::count"]}
{"id": "C10", "title": "Exclusion set union is set union", "statement": "After a |= b, an id is in a iff it was in a or in b, for all window positions of both; a | b does the same without changing the operands.", "quantifier": "every pair of well-formed exclusion sets (also empty and identical)", "why_tests_cant": "windows can overlap, nest or be disjoint on either side", "anchors": ["src/infrastructure/exclusion/exclusion_set.cc:exclusion_set::operator|=", "src/infrastructure/exclusion/exclusion_set.cc:exclusion_set::operator|"]}
{"id": "C11", "title": "Exclusion set difference is set difference", "statement": "After a -= b, an id is in a iff it was in a and not in b; a - b does the same without changing the operands.", "quantifier": "every pair of well-formed exclusion sets (also empty and identical)", "why_tests_cant": "removing bits at the window ends triggers compaction in many different ways", "anchors": ["src/infrastructure/exclusion/exclusion_set.cc:exclusion_set::operator-=", "src/infrastructure/exclusion/exclusion_set.cc:exclusion_set::operator-", "src/infrastructure/exclusion/exclusion_set.cc:exclusion_set::compact"]}
{"id": "C12", "title": "Exclusion sets stay well-formed under every history of operations", "statement": "Starting from made sets, after any sequence of union, difference, insertion and clear the internal ok() condition holds: window aligned to blocks, first/last stored member are really the least/greatest members, bits outside are zero.", "quantifier": "every finite history of operations over every sets", "why_tests_cant": "unbounded histories", "anchors": ["src/infrastructure/exclusion/exclusion_set.cc:exclusion_set::ok", "src/infrastructure/exclusion/exclusion_set.cc:exclusion_set::compact", "src/infrastructure/exclusion/exclusion_set.cc:exclusion_set::operator|=", "src/infrastructure/exclusion/exclusion_set.cc:exclusion_set::operator-="]}
{"id": "C13", "title": "Equality of exclusion sets is equality of members", "statement": "Two exclusion sets obtained by any histories of operations have the same window and bits iff they have the same members.", "quantifier": "every pair of sets reachable by any histories", "why_tests_cant": "two different histories for the same set of members have to end in identical representations", "anchors": ["include/soro/infrastructure/exclusion/exclusion_set.h:exclusion_set", "src/infrastructure/exclusion/exclusion_set.cc:exclusion_set::compact"]}
{"id": "C14", "title": "compare/contains decide the subset order", "statement": "For sets that are not both empty, compare answers equivalent/less/greater/unordered exactly according to inclusion, and contains(b) holds iff every member of b is a member of a. (Two different empty sets compare as greater.)", "quantifier": "every pair of well-formed exclusion sets", "why_tests_cant": "all window offsets and block contents", "anchors": ["src/infrastructure/exclusion/exclusion_set.cc:exclusion_set::compare", "src/infrastructure/exclusion/exclusion_set.cc:exclusion_set::contains"]}
{"id": "C15", "title": "Inserting a single id", "statement": "set(id) on a set adds exactly this id and leaves a well-formed set that compares like any other set with these members. (False in the code for the empty set: the last-member fields keep the INVALID sentinel.)", "quantifier": "every well-formed set and every id below 2^32-64", "why_tests_cant": "id may be before, inside or behind the window", "anchors": ["src/infrastructure/exclusion/exclusion_set.cc:exclusion_set::set"]}
{"id": "C16", "title": "The parallel used-by mapping equals the sequential one", "statement": "For every number of worker threads and every interleaving of their steps the element -> interlocking routes mapping is the same: route r is listed (once, sorted) at element e iff e is an exclusion element of r.", "quantifier": "every number of threads >= 1, every number of routes, every element lists, every schedule of the threads", "why_tests_cant": "schedules and thread counts cannot be enumerated; the last batch takes the remainder", "anchors": ["src/infrastructure/exclusion/get_exclusion.cc:get_closed_element_used_by"]}
{"id": "C17", "title": "Exclusion graph adjacency", "statement": "In the exclusion graph route v is a neighbour of route u iff they share an exclusion element and v neither starts where u ends nor ends where u starts; the relation is symmetric.", "quantifier": "every set of routes, every assignment of exclusion elements, start and end nodes", "why_tests_cant": "relation over all pairs of routes of any network", "anchors": ["src/infrastructure/exclusion/get_exclusion_graph.cc:get_exclusion_graph", "include/soro/utls/algo/multi_set_merge.h:multi_set_merge"]}
{"id": "C18", "title": "Routes to exclusion sets is the inverse of exclusion sets to routes", "statement": "Exclusion set s is listed for route r iff r is a member of s; lists are sorted, and without duplicates if the sets have none.", "quantifier": "every list of exclusion sets over routes below the route count", "why_tests_cant": "all clique files", "anchors": ["src/infrastructure/exclusion/get_exclusion.cc:get_irs_to_exclusion_sets"]}
{"id": "C19", "title": "Open exclusion elements are the closed ones without the ends", "statement": "For every route the open elements are exactly the closed elements other than the route's first and last element.", "quantifier": "every route and element list", "why_tests_cant": "all networks", "anchors": ["src/infrastructure/exclusion/exclusion_elements.cc:get_open_exclusion_elements"]}
{"id": "C20", "title": "Trips own contiguous, disjoint chains of ordering nodes", "statement": "Every trip of the ordering graph gets a contiguous range of nodes, one per interlocking route of the train's path in path order, the ranges partition all nodes and node ids equal positions.", "quantifier": "every timetable, path, calendar and filter", "why_tests_cant": "any number of trains, trips and path lengths", "anchors": ["src/simulation/ordering/ordering_graph.cc:ordering_graph::ordering_graph", "src/simulation/ordering/ordering_graph.cc:ordering_graph::trip_nodes"]}
{"id": "C21", "title": "In and out edges of the ordering graph mirror each other", "statement": "Before and after transitive edge removal, v is listed as successor of u iff u is listed as predecessor of v, and no list has duplicates.", "quantifier": "every timetable and exclusion sets, every tie breaking of the sort", "why_tests_cant": "any edge multiset produced by the exclusion sets", "anchors": ["src/simulation/ordering/ordering_graph.cc:ordering_graph::ordering_graph", "src/simulation/ordering/remove_transitive_edges.cc:remove_transitive_edges"]}
{"id": "C22", "title": "All users of an exclusion set are ordered", "statement": "For any two ordering nodes using routes of a common exclusion set there is a path from the one with the earlier start to the one with the later start, in the graph before transitive edge removal and - if acyclic - also after it.", "quantifier": "every timetable, exclusion sets and tie breaking of the sort", "why_tests_cant": "quantifies over all pairs of usages of any timetable", "anchors": ["src/simulation/ordering/ordering_graph.cc:ordering_graph::ordering_graph", "src/simulation/ordering/check_exclusion_paths.cc:has_exclusion_paths"]}
{"id": "C23", "title": "The ordering graph is acyclic when usage times increase", "statement": "If along every trip usage start times strictly increase and no two usages in a common exclusion set start at the same time, the ordering graph has no cycle; with ties a cycle is possible.", "quantifier": "every timetable satisfying the time conditions", "why_tests_cant": "cycles may be arbitrarily long", "anchors": ["src/simulation/ordering/ordering_graph.cc:ordering_graph::ordering_graph"]}
{"id": "C24", "title": "Transitive edge removal keeps reachability and is minimal", "statement": "On acyclic ordering graphs removal keeps exactly the edges that are not implied by a longer path: reachability is unchanged and no remaining edge is implied by others. (On cyclic graphs reachability can be lost.)", "quantifier": "every finite acyclic ordering graph", "why_tests_cant": "reachability over all node pairs of any graph", "anchors": ["src/simulation/ordering/remove_transitive_edges.cc:get_transitive_edges", "src/simulation/ordering/remove_transitive_edges.cc:remove_transitive_edges"]}
{"id": "C25", "title": "has_exclusion_paths is a correct verdict", "statement": "The check returns true iff for every two different ordering nodes whose routes share an exclusion set there is a path in one of the two directions.", "quantifier": "every ordering graph and exclusion sets", "why_tests_cant": "reachability over all pairs", "anchors": ["src/simulation/ordering/check_exclusion_paths.cc:has_exclusion_paths", "src/simulation/ordering/check_exclusion_paths.cc:path_exists", "src/simulation/ordering/check_exclusion_paths.cc:get_reachable_nodes"]}
{"id": "C26", "title": "Reported cycles are real and shortest", "statement": "get_shortest_cycle_from_node returns nothing iff the node is on no cycle; otherwise the returned list is a closed walk along edges ending in the start node, of minimum length; get_cycle returns a cycle iff the graph has one, and it is globally shortest.", "quantifier": "every finite graph and start node", "why_tests_cant": "cycles of any length in any graph", "anchors": ["src/simulation/ordering/get_cycle.cc:get_shortest_cycle_from_node", "src/simulation/ordering/get_cycle.cc:get_cycles", "src/simulation/ordering/get_cycle.cc:get_cycle"]}
{"id": "C27", "title": "has_cycle decides cyclicity", "statement": "has_cycle returns true iff the directed graph has a cycle, and always terminates.", "quantifier": "every finite directed graph", "why_tests_cant": "all graphs", "anchors": ["include/soro/utls/graph/has_cycle.h:has_cycle"]}
{"id": "C28", "title": "bfs and dfs visit exactly the reachable nodes", "statement": "Both traversals terminate; work_on_node is called exactly once for every node other than the start reachable from it, and for no other; the second argument is a node with an edge to the first.", "quantifier": "every finite graph and start node", "why_tests_cant": "all graphs", "anchors": ["include/soro/utls/graph/traversal.h:bfs", "include/soro/utls/graph/traversal.h:dfs"]}
{"id": "C29", "title": "bfs and dfs visit every reachable edge exactly once", "statement": "work_on_edge is called exactly once for every edge leaving a reachable node. (False in the code if the start lies on a cycle: its edges are visited twice.)", "quantifier": "every finite graph and start node", "why_tests_cant": "the failing case needs a cycle through the start node", "anchors": ["include/soro/utls/graph/traversal.h:bfs", "include/soro/utls/graph/traversal.h:dfs"]}
{"id": "C30", "title": "merge_unique is the sorted union", "statement": "For sorted inputs the result is strictly increasing and contains an element iff one of the inputs does; unsorted inputs are rejected.", "quantifier": "every pair of lists", "why_tests_cant": "all lists", "anchors": ["include/soro/utls/algo/merge_unique.h:merge_unique"]}
{"id": "C31", "title": "multi_set_merge is the sorted union of all ranges", "statement": "For strictly increasing ranges the result is strictly increasing and contains an element iff some range does, whatever order the heap pops equal heads in; it terminates.", "quantifier": "every number of ranges, every contents, every tie breaking of the priority queue", "why_tests_cant": "heap order is unspecified for ties; any number of ranges", "anchors": ["include/soro/utls/algo/multi_set_merge.h:multi_set_merge"]}
{"id": "C32", "title": "overlap decides whether sorted lists share an element", "statement": "overlap returns true iff both sorted lists have a common element; overlap_non_sorted does the same for arbitrary lists; get_overlap returns the common elements in order.", "quantifier": "every pair of lists", "why_tests_cant": "all lists", "anchors": ["include/soro/utls/algo/overlap.h:overlap", "include/soro/utls/algo/overlap.h:overlap_non_sorted", "include/soro/utls/algo/overlap.h:get_overlap"]}
{"id": "C33", "title": "slice, remove_until and remove_after keep exactly the named part", "statement": "slice(v,a,b) keeps exactly positions a..b-1 for a <= b <= size, with clasping as documented; remove_until keeps the suffix from the first match, remove_after the prefix up to the last match, and both keep nothing without match.", "quantifier": "every list, predicate and bounds", "why_tests_cant": "all lists and predicates", "anchors": ["include/soro/utls/algo/slice.h:slice", "include/soro/utls/algo/slice.h:slice_clasp", "include/soro/utls/algo/remove_until.h:remove_until", "include/soro/utls/algo/remove_after.h:remove_after"]}
{"id": "C34", "title": "sort_and_intersect is the multiset intersection", "statement": "The result is sorted and contains each value as often as the smaller of its multiplicities in the inputs; for duplicate-free inputs it is the set intersection. The inputs are only reordered.", "quantifier": "every pair of lists", "why_tests_cant": "all lists", "anchors": ["include/soro/utls/algo/sort_and_intersect.h:sort_and_intersect", "include/soro/utls/algo/sort_and_intersect.h:intersect"]}
{"id": "C35", "title": "Station route graph predecessors invert successors", "statement": "Station route p is listed as predecessor of s as often as s is listed as successor of p.", "quantifier": "every set of station routes and successor lists", "why_tests_cant": "all networks", "anchors": ["src/infrastructure/station/station_route_graph.cc:get_station_route_graph"]}
{"id": "C36", "title": "Interlocking index structures are exact", "statement": "Route r is listed at starting_at[n] (ending_at[n]) exactly once iff its first (last) node is n and nowhere else; the lists are sorted; sr_to_participating_irs lists r for exactly its station routes; ids are dense and equal positions.", "quantifier": "every list of interlocking routes", "why_tests_cant": "all networks", "anchors": ["src/infrastructure/interlocking/get_interlocking.cc:get_starting_at", "src/infrastructure/interlocking/get_interlocking.cc:get_ending_at", "src/infrastructure/interlocking/get_interlocking.cc:get_sr_to_participating_irs", "src/infrastructure/interlocking/get_interlocking.cc:get_interlocking_routes", "src/infrastructure/interlocking/get_interlocking.cc:get_station_to_interlocking_routes"]}
{"id": "C37", "title": "Generated interlocking routes are signal to signal", "statement": "Every generated route is a chain of station routes each a successor of the previous, starts at a main signal or at the front of a route without predecessors, ends at a main signal or at the end of a route without successors, and contains no main signal strictly inside; conversely every such chain without ETCS-only routes is generated.", "quantifier": "every acyclic station route graph, signal positions and ETCS requirements", "why_tests_cant": "all networks; recursion over all paths", "anchors": ["src/infrastructure/interlocking/get_interlocking.cc:get_interlocking_routes_from_sr", "src/infrastructure/interlocking/get_interlocking.cc:get_internal_interlocking_route", "src/infrastructure/interlocking/get_interlocking.cc:get_leading_interlocking_route", "src/infrastructure/interlocking/get_interlocking.cc:get_trailing_interlocking_route"]}
{"id": "C38", "title": "Iterating an interlocking route is the concatenation of its parts", "statement": "iterate yields the nodes of the first station route from the start offset, all nodes of the middle ones, and of the last one up to the end offset; size is the number of nodes yielded; to(x) followed by from(x) yields the same as iterate.", "quantifier": "every interlocking route with valid offsets and every split position", "why_tests_cant": "all networks and positions", "anchors": ["src/infrastructure/interlocking/interlocking_route.cc:interlocking_route::iterate", "src/infrastructure/interlocking/interlocking_route.cc:interlocking_route::size", "src/infrastructure/interlocking/interlocking_route.cc:interlocking_route::from_to", "src/infrastructure/interlocking/interlocking_route.cc:interlocking_route::from", "src/infrastructure/interlocking/interlocking_route.cc:interlocking_route::to"]}
{"id": "C39", "title": "contains agrees with iteration", "statement": "contains(sr, idx) holds iff iteration visits position idx of station route sr, for positions inside the station route.", "quantifier": "every interlocking route, station route and position", "why_tests_cant": "all networks and positions", "anchors": ["src/infrastructure/interlocking/interlocking_route.cc:interlocking_route::contains", "src/infrastructure/interlocking/interlocking_route.cc:interlocking_route::iterate_station_routes"]}
{"id": "C40", "title": "Station route iteration yields the requested nodes with their omitted flag", "statement": "from_to(a,b) yields exactly nodes a..b-1 in order, each marked omitted iff its index is in the omitted list; splitting the range at any point gives the same sequence of nodes and omitted flags.", "quantifier": "every station route with increasing omitted indices, every a <= b <= size", "why_tests_cant": "all routes and bounds", "anchors": ["src/infrastructure/station/station_route.cc:station_route::from_to", "src/infrastructure/station/station_route.cc:fast_forward_indices"]}
{"id": "C41", "title": "Extra speed limits are reported at their node only", "statement": "While iterating a station route the extra speed limit is reported exactly at the node it belongs to. (In the code the last limit stays attached to all later nodes.)", "quantifier": "every station route with extra speed limits", "why_tests_cant": "the stale value only shows after the limit's node", "anchors": ["src/infrastructure/station/station_route.cc:station_route::from_to"]}
{"id": "C42", "title": "Every station route has exactly one kind", "statement": "A station route is exactly one of through, in, out and contained route.", "quantifier": "every station route", "why_tests_cant": "all routes", "anchors": ["src/infrastructure/station/station_route.cc:station_route::is_through_route", "src/infrastructure/station/station_route.cc:station_route::is_in_route", "src/infrastructure/station/station_route.cc:station_route::is_out_route", "src/infrastructure/station/station_route.cc:station_route::is_contained_route"]}
{"id": "C43", "title": "Reverse edges mirror forward edges", "statement": "After connecting the nodes, u is listed as reverse edge of v exactly as often as v is next or branch node of u.", "quantifier": "every node graph", "why_tests_cant": "all networks", "anchors": ["src/infrastructure/graph/graph_creation.cc:connect_nodes"]}
{"id": "C44", "title": "The element order used for sorting sections is a strict order", "statement": "The comparison used to sort elements by kilometrage is a strict weak order, so sorting is well defined. (False: kilometrages are compared with tolerance; true if distinct kilometrages differ by at least the tolerance.)", "quantifier": "every triple of elements", "why_tests_cant": "transitivity over all triples of reals", "anchors": ["src/infrastructure/parsers/iss/parse_iss.cc:order_impl", "src/infrastructure/parsers/iss/parse_iss.cc:get_type_order_key", "include/soro/base/fp_precision.h:equal"]}
{"id": "C45", "title": "A line segment lookup returns the segment containing the position", "statement": "For a line with adjoining segments get_segment(km) returns the segment whose range contains km, the first one for smaller and the last one for larger positions.", "quantifier": "every non-empty list of adjoining segments and every position", "why_tests_cant": "all lists and positions", "anchors": ["src/infrastructure/line.cc:get_segment"]}
{"id": "C46", "title": "Section iteration forward and backward are mirror images", "statement": "from, to and from_to on a section yield the contiguous part between the given elements in the given direction; the falling iteration is the reverse of the rising one between swapped ends. (The last part is false for elements at the same kilometrage, which come in the same order in both directions, and for sections that start and end at the same element; it holds if all track elements are apart.)", "quantifier": "every section and pair of contained elements", "why_tests_cant": "all sections", "anchors": ["include/soro/infrastructure/graph/section.h:section::from_to", "include/soro/infrastructure/graph/section.h:section::from", "include/soro/infrastructure/graph/section.h:section::to"]}
{"id": "C47", "title": "Every visited node of a train is visited in path order, once per occurrence", "statement": "Iterating a train yields the concatenation of the node sequences of its interlocking routes with the shared node between consecutive routes yielded once, restricted to the part between first and last stop.", "quantifier": "every train path of consecutive interlocking routes", "why_tests_cant": "all paths and networks", "anchors": ["src/timetable/train.cc:train::iterate", "src/timetable/train.cc:iterate_train"]}
{"id": "C48", "title": "Sequence points are attached in order and each at most once", "statement": "Iterating a train attaches the sequence points to visited nodes in timetable order, each at most once, and all of them if their nodes occur in the visited sequence in that order.", "quantifier": "every train and node sequence", "why_tests_cant": "all interleavings of points and nodes", "anchors": ["src/timetable/train.cc:train::iterate"]}
{"id": "C49", "title": "The interlocking path of a train is connected and covers its station routes", "statement": "When the transformation of station routes to interlocking routes succeeds, every route of the result starts at the node where its predecessor ends, and the sequence of station routes is covered in order.", "quantifier": "every station route sequence and every interlocking", "why_tests_cant": "all timetables and networks", "anchors": ["src/timetable/parsers/station_route_to_interlocking_route.cc:transform_to_interlocking", "src/timetable/parsers/station_route_to_interlocking_route.cc:get_prefix_length", "src/timetable/parsers/station_route_to_interlocking_route.cc:get_longest_prefix_interlocking_routes"]}
{"id": "C50", "title": "Special service days override regular ones, last one wins", "statement": "The parsed calendar runs on a date iff the last special service mentioning the date includes it, or no special service mentions it and some regular service mask includes it.", "quantifier": "every list of services and special services within 512 days", "why_tests_cant": "all orders of services and overrides", "anchors": ["src/timetable/parsers/kss/parse_kss_timetable.cc:parse_services"]}
{"id": "C51", "title": "Duration parsing", "statement": "For a string PT with any sequence of number+unit fields (H, M, S) the parsed duration is the sum of the fields in seconds; strings without a unit letter are rejected. (The code reads past the end in the last case.)", "quantifier": "every well-formed duration string; every string for the rejection", "why_tests_cant": "all strings", "anchors": ["src/timetable/parsers/kss/parse_kss_timetable.cc:parse_duration"]}
{"id": "C52", "title": "The timetable interval covers all runs", "statement": "The interval computed for a timetable contains the first departure and last arrival of every train on every service day and is the smallest such interval.", "quantifier": "every non-empty timetable", "why_tests_cant": "all timetables", "anchors": ["src/timetable/parsers/kss/parse_kss_timetable.cc:get_interval"]}
{"id": "C53", "title": "Braking reaches the target speed and accounts time and distance consistently", "statement": "brake terminates, its last result has exactly the target speed and the physical braking distance, time and distance never decrease and speed never increases.", "quantifier": "every positive deceleration, every initial speed >= target speed >= 0 (over exact numbers)", "why_tests_cant": "step loop with unbounded step count over all reals", "anchors": ["src/runtime/runtime_physics.cc:brake"]}
{"id": "C54", "title": "Coasting covers the distance at constant speed", "statement": "coast terminates for positive speed, its last result has exactly the requested distance, all results have the same speed and times never decrease; for speed zero and positive distance it never terminates.", "quantifier": "every speed and distance", "why_tests_cant": "step loop with unbounded step count", "anchors": ["src/runtime/runtime_physics.cc:coast"]}
{"id": "C55", "title": "Acceleration never exceeds its limits", "statement": "Every result of accelerate has speed at most the limit, distance at most the maximum distance and never decreasing time, distance and speed.", "quantifier": "every train physics with non-negative acceleration, every speeds and distances", "why_tests_cant": "step loop over all reals", "anchors": ["src/runtime/runtime_physics.cc:accelerate"]}
{"id": "C56", "title": "Stop times are respected", "statement": "For every halt the calculated departure is no earlier than the planned departure and no earlier than arrival plus minimum stop time; event times never decrease along the train's path.", "quantifier": "every interval list with non-negative running times", "why_tests_cant": "all trains", "anchors": ["src/runtime/runtime.cc:runtime_calculation", "src/runtime/runtime.cc:determine_event_timestamps"]}
{"id": "C57", "title": "The interval list is ordered by distance and its limits chain", "statement": "Intervals have strictly increasing distances, every event lies between the previous border and its own, and each interval's left limit equals its predecessor's right limit, also after rewriting limits back to the last signal and after brake adjustment.", "quantifier": "every train node sequence with non-negative distances", "why_tests_cant": "all sequences of nodes and speed limits", "anchors": ["src/runtime/interval.cc:get_interval_list", "src/runtime/interval.cc:insert_last_signal_spl", "src/runtime/interval.cc:adjust_speed_limits", "include/soro/runtime/interval.h:interval::append"]}
{"id": "C58", "title": "A recursive generator yields its nested sequences flattened in order", "statement": "Iterating a recursive generator yields, for every nesting of generators and values, the values in depth-first left-to-right order, each once.", "quantifier": "every finite nesting of generators", "why_tests_cant": "all nestings and depths", "anchors": ["include/soro/utls/coroutine/recursive_generator.h"]}
{"id": "C59", "title": "narrow conversion is exact or rejected", "statement": "A checked narrowing conversion returns a value only if it is mathematically equal to the argument, otherwise it is rejected.", "quantifier": "every value of every pair of integral types", "why_tests_cant": "2^64 values times type pairs", "anchors": ["include/soro/utls/narrow.h"]}
{"id": "C60", "title": "Integer parsing accepts exactly the decimal numerals of the type's range", "statement": "parse succeeds iff the whole string is a decimal numeral (optional minus for signed types) whose value fits the type and then returns that value; printing and parsing is the identity.", "quantifier": "every string and every integral type", "why_tests_cant": "all strings", "anchors": ["include/soro/utls/parse_int.h:try_parse_int"]}
{"id": "C61", "title": "split and join are inverse", "statement": "Joining the parts of a split string with the separator gives back the string, no part contains the separator, and the number of parts is one more than the number of separators (zero for the empty string).", "quantifier": "every string and separator", "why_tests_cant": "all strings", "anchors": ["include/soro/utls/string.h:split"]}
{"id": "C62", "title": "optional with sentinel obeys the optional laws", "statement": "has_value holds iff a non-sentinel value is stored; and_then/transform/or_else/value_or satisfy the monad laws on values other than the sentinel; storing the sentinel reads as empty.", "quantifier": "every value and function", "why_tests_cant": "all functions and values", "anchors": ["include/soro/utls/container/optional.h"]}
{"id": "C63", "title": "Unit arithmetic keeps dimensions", "statement": "Multiplying and dividing quantities yields a unit whose exponent of each base unit is the sum or difference of the operands' exponents, simplified so that no base unit appears in numerator and denominator; hence a*b/b has the unit of a.", "quantifier": "every pair of units", "why_tests_cant": "all lists of base units", "anchors": ["include/soro/utls/strong_types/fraction.h", "include/soro/utls/strong_types/type_list.h"]}
{"id": "C64", "title": "Polynomial evaluation by Horner's scheme", "statement": "Evaluating a polynomial gives the sum of coefficients times powers.", "quantifier": "every coefficient list and argument (over exact numbers)", "why_tests_cant": "all reals and degrees", "anchors": ["include/soro/utls/math/polynomial.h"]}
{"id": "C65", "title": "Piecewise functions evaluate the piece containing the argument", "statement": "For pieces with increasing bounds, evaluation uses the unique piece whose half-open range contains the argument and rejects arguments beyond the last bound.", "quantifier": "every list of adjoining pieces and every argument", "why_tests_cant": "all reals and pieces", "anchors": ["include/soro/utls/math/piecewise_function.h"]}
{"id": "C66", "title": "A delay distribution keeps its probability mass on insertion", "statement": "Inserting probability at a granular point increases the mass exactly there. (The code mishandles points before the first stored one.)", "quantifier": "every distribution and point", "why_tests_cant": "all points and masses", "anchors": ["include/soro/simulation/dpd.h"]}
{"id": "C67", "title": "Tolerant equality is not an equivalence", "statement": "Approximate equality of quantities is reflexive and symmetric; it is not transitive, so it must not be used as a key comparison.", "quantifier": "all triples of values", "why_tests_cant": "transitivity ranges over all triples", "anchors": ["include/soro/base/fp_precision.h:equal"]}
{"id": "C68", "title": "Timetable parse support check reports the first applicable error", "statement": "A construction train is accepted iff it is not CTC, has at least two points, no break-in or break-out, starts and ends with a halt and every point passes its check; otherwise the reported error is the first failing condition in that order.", "quantifier": "every construction train", "why_tests_cant": "all combinations of defects", "anchors": ["src/timetable/parsers/kss/parse_kss_timetable.cc:is_supported"]}
{"id": "C69", "title": "next returns the following route of the same trip", "statement": "ordering_node::next returns the node of the next interlocking route of the same trip. (False: it returns the successor with the least id, which may belong to another train.)", "quantifier": "every ordering graph and node with a next route", "why_tests_cant": "any timetable, exclusion sets and node", "anchors": ["src/simulation/ordering/ordering_graph.cc:ordering_node::next"]}
{"id": "C70", "title": "Annotations of a constructed station route name the right nodes", "statement": "After parsing, the omitted indices of a station route are strictly increasing and name exactly the nodes whose element is omitted; the halt and checkpoint index is the last node that matches the named element.", "quantifier": "every node list, omitted set and halt element", "why_tests_cant": "any route and any annotation", "anchors": ["src/infrastructure/parsers/iss/parse_iss.cc:770-803"]}
{"id": "C71", "title": "Successors of a station route continue it on the same track", "statement": "The successors of a station route are exactly the routes of the following station that start at the element behind its last node; routes ending inside a station or at a track end have none.", "quantifier": "every infrastructure and station route", "why_tests_cant": "any topology", "anchors": ["src/infrastructure/station/station_route_graph.cc:get_successors"]}
{"id": "C72", "title": "Comparing string views compares their texts", "statement": "The string comparison helper returns true iff the two views denote the same characters. (False: it compares up to the terminating zero and ignores the sizes; it holds for zero-terminated views.)", "quantifier": "every pair of views and memory contents", "why_tests_cant": "all strings and what follows them in memory", "anchors": ["include/soro/utls/string.h:equal"]}
{"id": "C73", "title": "Comparisons of quantities are consistent", "statement": "For two quantities of one unit exactly one of less, equal and greater holds. (False: equality is tolerant and the order is exact; it holds for values at least 0.01 apart.)", "quantifier": "every pair of values", "why_tests_cant": "all pairs of reals", "anchors": ["include/soro/utls/strong_types/fraction.h:operator==", "include/soro/utls/strong_types/fraction.h:operator<"]}
{"id": "C74", "title": "Rounding to granularity gives the nearest multiple", "statement": "round_to_nearest_multiple returns a multiple at least distance from its argument. (False for negative numbers, which are rounded towards zero.)", "quantifier": "every integer and positive granularity", "why_tests_cant": "all integers", "anchors": ["include/soro/simulation/dpd.h:round_to_nearest_multiple"]}
{"id": "C75", "title": "The sum of a distribution is its total probability", "statement": "sum adds the probabilities of all entries, no entry left out or counted twice.", "quantifier": "every distribution", "why_tests_cant": "all distributions", "anchors": ["include/soro/simulation/dpd.h:sum", "include/soro/simulation/dpd.h:subsum"]}
{"id": "C76", "title": "Iterating a distribution reports every inserted probability at its point", "statement": "iterate yields each time (and speed) with its probability. (False: reported speeds are one granule too high, and probabilities below 0.01 are not reported.)", "quantifier": "every distribution", "why_tests_cant": "all distributions and points", "anchors": ["include/soro/simulation/dpd.h:iterate"]}
{"id": "C77", "title": "The maximum of two delay distributions is computed exactly", "statement": "fold_max never fails on well-formed distributions; the probability of the result being at most t is the product of the probabilities of its arguments being at most t, and the totals multiply.", "quantifier": "every pair of distributions and every t", "why_tests_cant": "all pairs of distributions", "anchors": ["src/simulation/sim_graph.cc:fold_max"]}
{"id": "C78", "title": "Printed units identify units", "statement": "Two quantities print the same unit iff their units convert into each other. (False for base units to the tenth power or higher, which are not printed.)", "quantifier": "every pair of units", "why_tests_cant": "all units", "anchors": ["include/soro/utls/strong_types/fraction.h:get_fraction_unit_str"]}
{"id": "C79", "title": "Exceptions of generators reach the consumer", "statement": "If the body of a generator throws, the consumer sees the values before it and then the exception. (False: a recursive generator drops the exception of a nested generator that has not yielded yet and goes on; a plain generator turns every exception into the end of the sequence. It holds when no nested generator throws before its first value.)", "quantifier": "every tree of nested generators", "why_tests_cant": "any nesting depth and any point of failure", "anchors": ["include/soro/utls/coroutine/recursive_generator.h:yield_value", "include/soro/utls/coroutine/generator.h:unhandled_exception"]}
{"id": "C80", "title": "Loops over a plain generator continue where the last one stopped", "statement": "begin does not advance a plain generator: after n increments a loop sees exactly the values but the first n, in order.", "quantifier": "every generator and every n", "why_tests_cant": "any sequence", "anchors": ["include/soro/utls/coroutine/generator.h:begin"]}
{"id": "C81", "title": "The nodes of a section form a chain in both directions", "statement": "After parsing, connecting the nodes uses no null pointer; for either direction the nodes of a section are linked one after the other without branches, are of the types of the input elements for that direction (a meta element if there are none), share undirected elements, and the last leads to the section element at that end.", "quantifier": "every network in which each point of each section element belongs to one section", "why_tests_cant": "all networks", "anchors": ["src/infrastructure/parsers/iss/parse_iss.cc:parse_section", "src/infrastructure/graph/graph_creation.cc:connect_nodes", "src/infrastructure/graph/graph_creation.cc:set_neighbour"]}
{"id": "C82", "title": "Trains pass switches, crosses, line switches and jumps as laid out", "statement": "A train reaching a section element at a point gets, without and with changing the track, to the sections at the points opposite to it and to no other. (False: at a switch or cross whose opposite sections of one line meet with the same end it is sent back; at a kilometrage jump whose start point is the end of a section it circles. It holds when sections are oriented.)", "quantifier": "every network, element and point", "why_tests_cant": "all networks and all orientations of sections", "anchors": ["src/infrastructure/graph/graph_creation.cc:get_node", "src/infrastructure/graph/graph_creation.cc:connect_nodes"]}
{"id": "C83", "title": "Trains pass from station to station", "statement": "A train leaving its section at a border goes on to the section at the border of the neighbouring station, and stops where there is none. (False for two borders that are both low or both high: the train circles between the two; it holds otherwise.)", "quantifier": "every network and pair of borders", "why_tests_cant": "all networks", "anchors": ["src/infrastructure/graph/graph_creation.cc:connect_border", "src/infrastructure/graph/graph_creation.cc:connect_nodes"]}
{"id": "C84", "title": "Borders of neighbouring stations are paired", "statement": "complete_borders connects every border with its counterpart and makes exactly one section per pair, rising from high to low border. (False: a border to a known station without counterpart dereferences a null pointer; it holds when every border has exactly one counterpart.)", "quantifier": "every list of borders", "why_tests_cant": "all sets of stations and borders", "anchors": ["src/infrastructure/parsers/iss/parse_iss.cc:complete_borders"]}
{"id": "C85", "title": "The sequence points of a train are its planned points in order", "statement": "When the transformation of station routes to interlocking routes succeeds, its sequence points are, route by route, the planned points standing on the route, in timetable order, each once. (False: a point at the main signal where two routes meet is returned twice, after which the iteration of the train attaches none of the following points.)", "quantifier": "every stop sequence and every interlocking", "why_tests_cant": "all timetables and networks", "anchors": ["src/timetable/parsers/station_route_to_interlocking_route.cc:get_sequence_points", "src/timetable/parsers/station_route_to_interlocking_route.cc:transform_to_interlocking"]}
{"id": "C86", "title": "The transformation to interlocking routes ends with a result or a justified error", "statement": "The transformation ends, reads only planned points, and accepts a plan that one interlocking route covers. (False in all three parts, with witnesses; it ends whenever the routes lead in one direction.)", "quantifier": "every stop sequence and every interlocking", "why_tests_cant": "all timetables and networks, unbounded running time", "anchors": ["src/timetable/parsers/station_route_to_interlocking_route.cc:transform_to_interlocking", "src/timetable/parsers/station_route_to_interlocking_route.cc:get_first_ir", "src/timetable/parsers/station_route_to_interlocking_route.cc:covers"]}
{"id": "C87", "title": "Times of day are read exactly", "statement": "A time HH:MM:SS.ss is read as its whole seconds after midnight, plus one day with a night leap; the hundredths are dropped.", "quantifier": "every time string of this form", "why_tests_cant": "all digits and suffixes", "anchors": ["src/timetable/parsers/kss/parse_kss_timetable.cc:parse_time_offset"]}
{"id": "C88", "title": "A defective train does not affect other trains", "statement": "A train is taken over with all its construction trains iff it is released and all of them are fine; otherwise its first error is counted and the trains around it are read as if it were absent. (False for an unknown stop mode: an exception leaves the parser.)", "quantifier": "every timetable file", "why_tests_cant": "all combinations of defective and fine trains at every position", "anchors": ["src/timetable/parsers/kss/parse_kss_timetable.cc:parse_kss_train", "src/timetable/parsers/kss/parse_kss_timetable.cc:parse_timetable_file", "src/timetable/parsers/kss/parse_kss_timetable.cc:parse_sequence"]}
{"id": "C89", "title": "Train ids are positions and independent of the directory order", "statement": "Every train of a parsed timetable has its position as id, and the id of a train does not depend on the order in which the directory lists the files. (The second part is false.)", "quantifier": "every list of files", "why_tests_cant": "the order of directory iteration is unspecified", "anchors": ["src/timetable/parsers/kss/parse_kss_timetable.cc:set_ids", "src/timetable/parsers/kss/parse_kss_timetable.cc:parse_kss_timetable"]}
{"id": "C90", "title": "Accepted construction trains are read as given", "statement": "A construction train is accepted iff all its points name known stations and routes, its vehicles are known, it is supported and the transformation to interlocking routes succeeds; its points have the station route and stop mode given in the file, and its path is a chain of interlocking routes. Otherwise an unknown point is reported first.", "quantifier": "every construction train, every infrastructure", "why_tests_cant": "all combinations of points and stages", "anchors": ["src/timetable/parsers/kss/parse_kss_timetable.cc:parse_construction_train", "src/timetable/parsers/kss/parse_kss_timetable.cc:parse_sequence"]}
{"id": "C91", "title": "Nobody outruns their speed", "statement": "From one result of coast, brake or accelerate to the next one no more distance is covered than the greater of the two speeds covers in the time between them.", "quantifier": "every speed, distance and train physics", "why_tests_cant": "loops of unbounded length over all reals", "anchors": ["src/runtime/runtime_physics.cc:accelerate", "src/runtime/runtime_physics.cc:brake", "src/runtime/runtime_physics.cc:coast"]}
{"id": "C92", "title": "Force curves evaluate to their mathematical value", "statement": "A polynomial evaluates to the sum of its factors times the powers of the input; a function of pieces that follow each other evaluates the piece whose half open range contains the input and throws from the end of the last piece on.", "quantifier": "every factor list, every list of contiguous pieces, every input", "why_tests_cant": "all degrees, piece counts and inputs", "anchors": ["include/soro/utls/math/polynomial.h:operator()", "include/soro/utls/math/piecewise_function.h:operator()"]}
{"id": "C93", "title": "A train is as fast as its slowest part and always finds its force below that", "statement": "The top speed of a train is the minimum of its own limit and those of all its vehicles; below it no evaluation of a force curve throws if every curve extends to its vehicle's top speed.", "quantifier": "every train with at least one vehicle", "why_tests_cant": "all vehicle lists and speeds", "anchors": ["src/rolling_stock/train_physics.cc:max_speed", "src/runtime/runtime_physics.cc:accelerate"]}
{"id": "C94", "title": "Every recorded node is in the interval list once", "statement": "get_interval_list(train, types, infra): the events of all intervals, read from first to last, are exactly the not omitted nodes of the train's path whose type is in types, in path order, each with the distance driven up to it, provided the path ends at an interval border (a halt). Otherwise they are the nodes up to the last border.", "quantifier": "all paths, all event types, all speed limits, all train physics", "why_tests_cant": "Depends on how borders, omitted nodes and merged intervals follow one another along arbitrarily long paths.", "anchors": ["src/runtime/interval.cc:173-246", "include/soro/runtime/interval.h:31-42"]}
{"id": "C95", "title": "One interval per border with its halt and limit", "statement": "get_interval_list: without speed limits that hold from the last signal on there is one interval for every border (main signal, halt, effective speed limit) of the path, in order, with its distance, its halt and a right limit no higher than the speed limit in force behind it; no halt is lost.", "quantifier": "all paths, all speed limits, all train physics", "why_tests_cant": "Needs all sequences of borders, also those on the same spot, where two intervals are merged.", "anchors": ["src/runtime/interval.cc:173-246", "include/soro/runtime/interval.h:31-42"]}
{"id": "C96", "title": "Limits are lowered until the train can brake everywhere", "statement": "get_interval_list: lowering the limits ends; in the list returned every interval is at least as long as the braking distance from the speed allowed in it to the speed required at its end; limits are only ever lowered; a list for which some positive speed would do is not refused.", "quantifier": "all paths, all speed limits, all train physics with a deceleration", "why_tests_cant": "A fixed point over the whole list: lowering one limit can make another interval too short. Termination is not testable.", "anchors": ["src/runtime/interval.cc:48-93", "src/runtime/interval.cc:242-243"]}
{"id": "C97", "title": "The limit at the start is the closest one behind", "statement": "get_initial_spl(train, infra): the limit of the closest speed limit behind the start, on the way back as far as it goes, that affects the train; the default limit if there is none.", "quantifier": "all infrastructures, all trains", "why_tests_cant": "The way back may be arbitrarily long; its last node is special.", "anchors": ["src/runtime/interval.cc:14-46"]}
{"id": "C98", "title": "One timestamp per recorded node", "statement": "runtime_calculation(train, infra, types): if the path ends at a halt, the timestamps are those of the recorded nodes, one each and in path order; the halt indices returned with them are exactly the positions of the timestamps at halts.", "quantifier": "all paths, all train physics, all event types", "why_tests_cant": "Phases are cut and merged in each interval; an event on a phase border could be lost or found twice for some lengths only.", "anchors": ["src/runtime/runtime.cc:197-280"]}
{"id": "C99", "title": "A calculated interval list can be driven", "statement": "runtime_calculation: on the interval list of get_interval_list the calculation never runs out of room for braking, no event is left without a time and no limit is exceeded; the phases of each interval add up to its length, the speed at its end is at most the limit there and zero at a halt.", "quantifier": "all paths, all speed limits, all train physics that can accelerate below their top speed", "why_tests_cant": "An invariant between two modules that holds for all lists the first one computes.", "anchors": ["src/runtime/runtime.cc:65-132", "src/runtime/runtime.cc:134-193"]}
{"id": "C100", "title": "The running time calculation ends", "statement": "runtime_calculation returns for every train that can accelerate below its top speed and every path with positive limits.", "quantifier": "all paths, all train physics with a positive least acceleration", "why_tests_cant": "Termination of nested loops is not testable.", "anchors": ["src/runtime/runtime.cc:65-132", "src/runtime/runtime_physics.cc:coast"]}
{"id": "C101", "title": "The simulation graph follows the trains", "statement": "sim_graph(infra, tt): every train of the timetable owns a contiguous range of nodes; a node is connected to the next node of the same train and to none else, at both ends; the graph has no cycle.", "quantifier": "all timetables with numbered trains", "why_tests_cant": "All numbers and orders of trains.", "anchors": ["src/simulation/sim_graph.cc:60-118"]}
{"id": "C102", "title": "path_exists is reachability", "statement": "sim_graph::path_exists(from, to) is true iff to can be reached from from along train and ordering edges.", "quantifier": "all simulation graphs, all pairs of nodes", "why_tests_cant": "All graphs, with cycles too.", "anchors": ["src/simulation/sim_graph.cc:152-168"]}
{"id": "C103", "title": "The simulation computes every node once, after those it waits for", "statement": "simulate: the loop ends, no node is computed twice, every node is computed after all nodes it waits for, and in a graph without cycles every node is computed.", "quantifier": "all simulation graphs, every computation that finishes exactly its node", "why_tests_cant": "All graphs; termination.", "anchors": ["src/simulation/sim_graph.cc:197-224", "src/simulation/sim_graph.cc:22-29"]}
{"id": "C104", "title": "Exclusion elements are those driven over", "statement": "get_exclusion_elements(route): the switches, crossings, signals, halts and ends on the part of the track the route drives over, in either direction, no others. Hence two routes over the same one exclude each other unless one starts where the other one ends.", "quantifier": "all infrastructures, all routes over any number of sections", "why_tests_cant": "All shapes of routes and sections, also sections without track elements.", "anchors": ["src/infrastructure/exclusion/exclusion_elements.cc:49-148"]}
{"id": "C105", "title": "The way back is the straight one", "statement": "node::reverse_ahead(): never throws; returns nullptr only where no node leads to the node, otherwise a node leading there; inside a section it is the node before; at a switch reached over stem or branch it is the stem; at a cross the node of the same track; over borders it goes on to the neighbouring station. Repeating it ends.", "quantifier": "all networks, all nodes, every order of the nodes", "why_tests_cant": "The test counts null pointers only (its TODO: check the path).", "anchors": ["src/infrastructure/graph/node.cc:10-17", "src/infrastructure/graph/element.cc:121-177", "src/runtime/interval.cc:32-42"]}
{"id": "C106", "title": "Lengths of paths and sections agree", "statement": "get_path_length_from_elements: a path over connected sections is as long as the sections' stored lengths together, in either direction; the length of a path is that of its parts; the distances of the nodes at which intervals are cut never fall and are the lengths of the path so far. The kilometrage of a switch, cross or other section element towards a section is that of the point the section is attached to.", "quantifier": "all networks, all kilometrages that rise or fall along each section, all paths", "why_tests_cant": "All combinations of element types, points and section ends.", "anchors": ["include/soro/infrastructure/path/length.h:13-42", "src/infrastructure/graph/element.cc:63-119", "src/infrastructure/graph/element.cc:179-187", "src/infrastructure/parsers/iss/parse_iss.cc:48-56", "src/runtime/interval.cc:190-192"]}
{"id": "C107", "title": "The length by sections equals the length by elements", "statement": "get_path_length_from_sections(path) reads only elements of the path and yields the same length as get_path_length_from_elements(path).", "quantifier": "all networks, all paths", "why_tests_cant": "Reading past the end goes unnoticed in tests; all paths.", "anchors": ["include/soro/infrastructure/path/length.h:44-93"]}
{"id": "C108", "title": "The path of a station route follows its course", "statement": "The nodes of the path of a station route are exactly those of the way from its start that takes the only next node, or at a node with a choice the one the course decides on, where every switch and every cross with an arc that is passed uses up one decision, up to the first occurrence of the node of its end. An exception is thrown exactly if this way ends before; the main signals and ETCS starts and ends of the path are all those on it, except the main signals left out.", "quantifier": "for all node graphs, routes and courses", "why_tests_cant": "The way depends on the graph, on the number of switches passed before and on the course; tests follow a few routes of a few stations, and do not show missing decisions or routes that never get to their end.", "anchors": ["src/infrastructure/parsers/iss/parse_iss.cc:559-648"]}
{"id": "C109", "title": "Station routes share a path exactly if they take the same one", "statement": "After the paths were deduplicated every station route has the path that would have been built for it alone, two station routes have the same path object exactly if start, end, course and the set of left out main signals are the same, and every stored path belongs to a route. It fails exactly if it fails for one of the routes.", "quantifier": "for all lists of station routes and all graphs", "why_tests_cant": "Whether a path is shared depends on all routes before it, by start element; a wrongly shared path only shows for routes that differ in one of the parts compared.", "anchors": ["src/infrastructure/parsers/iss/parse_iss.cc:520-546", "src/infrastructure/parsers/iss/parse_iss.cc:650-700"]}
{"id": "C110", "title": "The path of a station route consists of the elements of the sections its course leads over", "statement": "If a train that follows the course of a station route runs over given sections, the path of the route consists of exactly the elements of these sections between the start and the end of the route, in their order, and a route between borders or ends of tracks is as long as its sections together.", "quantifier": "for all well laid networks, sequences of sections, courses, starts and ends", "why_tests_cant": "It connects the input of the parser (sections, points of switches, courses) with node graphs of any size, over arbitrarily many switches.", "anchors": ["src/infrastructure/parsers/iss/parse_iss.cc:559-604", "src/infrastructure/graph/graph_creation.cc", "src/infrastructure/path/length.cc"]}
{"id": "C111", "title": "A station route comes from and leads to the stations of the connected borders", "statement": "A station route that ends (starts) at a border leads to (comes from) the station of the border connected to it, if that is another station. It leads to and comes from no station if there is no connected border, at bumpers and ends of track, and at signals and other directed elements inside a section of its own station.", "quantifier": "for all networks, routes and assignments of elements to stations", "why_tests_cant": "The stations are read off the next node and the first reverse edge, whose order depends on the order of all nodes; tests see few borders.", "anchors": ["src/infrastructure/parsers/iss/parse_iss.cc:743-757"]}
{"id": "C112", "title": "Track elements are laid out between the ends of their section in their order", "statement": "After the layout of the track elements was calculated, every track element of a section lies on the line from the first to the last element of the section, strictly behind the track elements before it and strictly between the two ends; the other elements keep the coordinates of the rail plan.", "quantifier": "for all sections, in whatever direction they run, and all coordinates", "why_tests_cant": "The position depends on the direction of the section, its length and the number of track elements before; tests look at single sections. The claim fails for the first track element of every section.", "anchors": ["src/infrastructure/layout/layout.cc:27-62"]}
{"id": "C113", "title": "Layouts of stations start at zero and keep their shape", "statement": "After adjusting, the coordinates of the elements of every station are at least zero, the least x and the least y coordinate are zero, and differences between elements of a station are as before. The centre of a station is the middle of the smallest rectangle around its elements.", "quantifier": "for all stations and coordinates", "why_tests_cant": "Minimum, translation and centre are computed for each station from the same vector one after the other; tests see one layout only.", "anchors": ["src/infrastructure/layout/layout.cc:121-147", "src/infrastructure/layout/layout_to_gps.cc:259-271"]}
{"id": "C114", "title": "Stations without coordinates are placed between the stations around them", "statement": "Interpolating station coordinates terminates, keeps given coordinates, and places a station without coordinates at the mean, weighted by distance, of exactly those stations with coordinates that are reached over stations without coordinates, hence within their bounding box; with a single such station to its left, with none at a fixed place. Afterwards every station has valid coordinates.", "quantifier": "for all graphs of stations, all subsets of stations with coordinates and all coordinates", "why_tests_cant": "The result depends on a breadth first search in the graph of stations, on repeated passes whose end depends on the last station only, and on unsigned weights; tests know the coordinates of their few stations.", "anchors": ["src/infrastructure/layout/layout_to_gps.cc:24-140", "include/soro/utls/graph/traversal.h:15-55"]}
{"id": "C115", "title": "The bounding box of a set of points is the smallest one", "statement": "The bounding box of a non-empty range of points contains all of them and is contained in every box that does. One point without coordinates makes its south west corner invalid; the box of no points contains no point.", "quantifier": "for all ranges of points", "why_tests_cant": "All points of arbitrarily many; tests use a few.", "anchors": ["include/soro/utls/coordinates/gps.h:29-47"]}
{"id": "C116", "title": "The distance between two points is the length of the arc between them", "statement": "gps::distance is the radius of the earth times the angle between the two points seen from the centre of the earth. It is symmetric, never negative, at most half the circumference, satisfies the triangle inequality and is zero only for equal points.", "quantifier": "for all pairs and triples of points", "why_tests_cant": "Holds for all real coordinates, including the poles, the date line and opposite points; tests compare a few distances with tolerances.", "anchors": ["src/utls/coordinates/gps.cc:37-49"]}
{"id": "C117", "title": "Moving by distance and bearing reaches the point they were taken from", "statement": "gps::move follows the great circle in the direction of the bearing: the point reached is exactly as far away as was moved, and p.move(p.distance(q), p.bearing(q)) is q.", "quantifier": "for all points, bearings and distances up to half the circumference", "why_tests_cant": "Three formulas with different branches of inverse functions have to agree for all real inputs.", "anchors": ["src/utls/coordinates/gps.cc:37-83"]}
{"id": "C118", "title": "Rotating a station is a rotation by the best of 72 angles", "statement": "Rotating points around an anchor keeps their distances from it and from each other, rotations add up, a rotation by zero and one by a full turn change nothing. Each station is turned by one multiple of five degrees below 360, with which the sum of distances between its borders and their neighbours is least.", "quantifier": "for all anchors, points, angles, and all stations, borders and coordinates", "why_tests_cant": "Holds for all real angles and all combinations of stations; the code uses 3.1415 for pi, so full turns are not the identity, which tests with tolerances do not show.", "anchors": ["src/infrastructure/layout/layout_to_gps.cc:142-224", "include/soro/utls/coordinates/coordinates.h:7"]}
{"id": "C119", "title": "Elements are placed around their station as in the layout", "statement": "layout_to_gps puts every element ten metres per unit of the layout away from its station, whatever rotations are chosen, keeps the distances between elements of a station when rotating it, and puts the elements in the direction they have in the layout.", "quantifier": "for all layouts, stations and coordinates", "why_tests_cant": "Composition of a polar transformation, a move on the sphere and a rotation for all real inputs. The direction is off for all elements below the centre, by an angle tests with tolerances do not show.", "anchors": ["src/infrastructure/layout/layout_to_gps.cc:226-315", "include/soro/utls/coordinates/polar.h:9-19"]}
{"id": "C120", "title": "Conversions between longitude and latitude and cartesian coordinates are inverse", "statement": "gps::to_cartesian yields a point on the sphere, cartesian::to_gps of it yields the same longitude and latitude, and to_cartesian of to_gps yields the same point of the sphere.", "quantifier": "for all points with longitudes in [-180, 180] and latitudes in [-90, 90] and all points of the sphere", "why_tests_cant": "Holds for all real coordinates; tests take a few.", "anchors": ["src/utls/coordinates/gps.cc:29-35", "src/utls/coordinates/cartesian.cc:8-13"]}
{"id": "C121", "title": "The OSM export contains every station and element exactly once, with unique ids", "statement": "The document made by export_to_osm has exactly one node for every station and exactly one for every element, the latter with the id of the element; every other node is a point of an interpolation. No id is used twice among all nodes and ways, and the document does not depend on the number of threads that write it.", "quantifier": "for all infrastructures and all numbers of threads", "why_tests_cant": "Ids are assigned in four stages that have to stay apart, and the work is split by the number of threads of the machine; tests run on one machine with one infrastructure.", "anchors": ["web/server/src/modules/tiles/osm_export/osm_export.cc:126-214"]}
{"id": "C122", "title": "Ways of the OSM export end at existing nodes", "statement": "Both ends of every way in the document made by export_to_osm are ids of nodes of the document.", "quantifier": "for all infrastructures and all numbers of threads", "why_tests_cant": "Ways are collected before the ids of interpolation nodes are known; a single dangling reference makes the document unusable.", "anchors": ["web/server/src/modules/tiles/osm_export/osm_export.cc:63-124", "web/server/src/modules/tiles/osm_export/osm_export.cc:200-214"]}
{"id": "C123", "title": "The OSM export connects exactly the elements that are next to each other", "statement": "In the document made by export_to_osm, two neighbouring elements of one station are connected by exactly one way and two neighbouring elements of different stations by exactly one chain of ways over fifty points that no other chain uses. There are no other ways.", "quantifier": "for all infrastructures, also with loops and several tracks between the same elements", "why_tests_cant": "Every connection is seen from both sides and in any order; that it is exported exactly once depends on a map filled during the traversal.", "anchors": ["web/server/src/modules/tiles/osm_export/osm_export.cc:72-124", "src/infrastructure/parsers/iss/parse_iss.cc:982-992"]}
{"id": "C124", "title": "Curves between stations stay near the elements they connect", "statement": "All points of an interpolation between two elements lie in the box of longitudes and latitudes around the two elements, enlarged by 0.2 pi/180 degrees for every kilometre between them. The curve starts at the one element and ends at the other, and it stays in every box that has its four control points.", "quantifier": "for all positions on the globe whose box does not cross the poles or the date line, and all neighbours", "why_tests_cant": "The points are computed in space and projected back with inverse functions; that they cannot leave the box holds for all real parameters and can only be sampled by tests. The existing test only checks the type of the points.", "anchors": ["web/server/src/modules/tiles/osm_export/interpolation.cc:15-133"]}
{"id": "C125", "title": "A curve between two elements is the same from both sides", "statement": "compute_interpolation(e2, e1) has exactly the points of compute_interpolation(e1, e2) in reverse order, so the picture of a track between two stations does not depend on the order in which the elements are exported.", "quantifier": "for all pairs of elements and all positions", "why_tests_cant": "Quantifies over all real coordinates; relies on the choice of the parameters being symmetric.", "anchors": ["web/server/src/modules/tiles/osm_export/interpolation.cc:109-133"]}
{"id": "C126", "title": "Curves leave an element in the direction away from its other neighbour", "statement": "The auxiliary point of an element lies on the straight line from its other neighbour through the element, beyond the element, so that tracks have no kink at the element. An element without another neighbour is its own auxiliary point.", "quantifier": "for all positions of the elements and their neighbours", "why_tests_cant": "The code distinguishes nine cases by the gradient; a wrong sign in one of them shows only for neighbours in that direction.", "anchors": ["web/server/src/modules/tiles/osm_export/interpolation.cc:39-107"]}
{"id": "C127", "title": "Extra speed limits of a station route are attached to the path in its order", "statement": "A constructed station route has exactly the extra speed limits of the file, each at the first node of its element on the path and listed in the order of the path, so that every one of them is reported at its node when the route is iterated.", "quantifier": "for all paths and all sets of extra speed limits, in whatever order the file lists them", "why_tests_cant": "Relates the order of the file, the sorted list and the iteration that advances through both lists in parallel, for all combinations.", "anchors": ["src/infrastructure/parsers/iss/parse_iss.cc:805-829", "src/infrastructure/station/station_route.cc:106-182"]}
{"id": "C128", "title": "Every station route is found by its name", "statement": "Station routes are numbered in the order of the file without those that are only published, the id of a route is its position in station_routes_, and station_routes_ of a station finds every route of the station by its name.", "quantifier": "for all files", "why_tests_cant": "Depends on names and skipped routes of whole files; timetables refer to routes by name, so a missing route silently changes trains.", "anchors": ["src/infrastructure/parsers/iss/parse_iss.cc:713-741", "src/infrastructure/parsers/iss/parse_iss.cc:881-893"]}
{"id": "C129", "title": "element_to_routes_ has exactly the routes that start at an element", "statement": "For every element, element_to_routes_ of a station lists exactly the routes of the station whose first node is at the element, each once, in whatever order the map of names is visited.", "quantifier": "for all files, all stations and all orders of the map", "why_tests_cant": "The table is grouped from a map with unspecified order; the station route graph and interlocking routes are built from it.", "anchors": ["src/infrastructure/parsers/iss/parse_iss.cc:838-852"]}
{"id": "C130", "title": "Requests for ordering graphs are accepted exactly if their parameters are sensible", "statement": "The parameters from, to and trainIds of a request for an ordering graph are accepted iff from and to are decimal 32-bit numbers with from not after to, and trainIds is empty or a comma separated list of such numbers; the graph is then built for exactly this interval and these trains.", "quantifier": "for all texts of the three parameters", "why_tests_cant": "All strings: overflow, leading zeros, empty entries and reversed intervals interact between the splitting and the number parser.", "anchors": ["web/server/src/modules/ordering/serve_ordering_graph.cc:118-158", "include/soro/base/time.h:62-71", "include/soro/utls/string.h:77-95"]}
{"id": "C131", "title": "The served ordering graph is the ordering graph", "statement": "The JSON document of an ordering graph contains every node and every edge of the graph exactly once and no other edges, both ends of an edge are nodes of the document, offset is the position in the path of the trip, relativeTrainId numbers the trips in order of their departure, totalTrains is the number of trips and maxTrainLength the length of the longest path.", "quantifier": "for all infrastructures, timetables and filters, and all results of the unstable sort", "why_tests_cant": "The document is written trip by trip from an index that is kept separately from the nodes; completeness depends on the construction for all timetables.", "anchors": ["web/server/src/modules/ordering/serve_ordering_graph.cc:18-116", "src/simulation/ordering/ordering_graph.cc:67-209"]}
{"id": "C132", "title": "A request for an ordering graph returns exactly the requested trains", "statement": "A request for an ordering graph is answered by not found iff infrastructure or timetable are unknown, by bad request iff the parameters are not acceptable, and otherwise by a document with a node for a route of a departing train iff no trains are listed or the train is listed.", "quantifier": "for all requests, infrastructures and timetables", "why_tests_cant": "End to end over parsing, construction and serialisation, for all requests and timetables.", "anchors": ["web/server/src/modules/ordering/serve_ordering_graph.cc:160-188"]}
{"id": "C133", "title": "A started server serves the current infrastructures", "statement": "After any history of server starts and changes to the infrastructure source directory, a start of the server serves exactly the directories in the source directory, each with its present content, no matter what was saved by earlier starts.", "quantifier": "for all histories of starts, with and without --regenerate, and of creating, removing and changing entries; with and without serialization", "why_tests_cant": "A cache validity property over unbounded histories with a clock; tests only start servers on fixed resources.", "anchors": ["web/server/src/modules/infrastructure/infrastructure_module.cc:25-81"]}
{"id": "C134", "title": "A started server serves the current timetables", "statement": "A start of the server offers for every infrastructure exactly those timetables of the source directory that can be parsed for it, also if timetables were saved by an earlier start.", "quantifier": "for all source directories, infrastructures and contents of the saved files", "why_tests_cant": "Concerns repeated starts with a cache written in between, and all combinations of infrastructures and timetables.", "anchors": ["web/server/src/modules/timetable/timetable_module.cc:35-96", "src/timetable/timetable.cc:12-74", "src/timetable/parsers/kss/parse_kss_timetable.cc:39-48"]}
{"id": "C135", "title": "Requests by number are answered by the right object or by not found", "statement": "A request for a station, element, station route, interlocking route or exclusion set of an infrastructure by its number is answered by the object with this number (with its routes and their first and last elements, its interlocking routes, the positions along its way), and by 'not found' if the infrastructure or the object does not exist, however large the number.", "quantifier": "for all consistent infrastructures and all parameters consisting of digits", "why_tests_cant": "A statement over all numbers and infrastructures, including out of range ones that are undefined behaviour; tests cover no request handler.", "anchors": ["web/server/src/modules/infrastructure/serve_station.cc:15-69", "web/server/src/modules/infrastructure/serve_station_route.cc:14-42", "web/server/src/modules/infrastructure/serve_interlocking_route.cc:14-43", "web/server/src/modules/infrastructure/serve_element.cc:42-66", "web/server/src/modules/infrastructure/serve_exclusion_set.cc:13-31", "web/server/src/modules/timetable/serve_timetable_names.cc:8-18"]}
{"id": "C136", "title": "The search index lists exactly the names of the objects of an infrastructure", "statement": "Every name of every object (codes and full names of stations, padded numbers of elements and interlocking routes, names of main signals, switches and halts, identifiers of halts, names of station routes) has an entry in the search index, every entry carries a name of the object it refers to, the box of the positions of the object, and the type of an element. Numbers are padded to at least three digits.", "quantifier": "for all consistent infrastructures", "why_tests_cant": "A soundness and completeness statement over all infrastructures; there is no test of the search.", "anchors": ["web/server/src/modules/search/search_module.cc:14-145", "web/server/include/soro/server/modules/search/search_module.h:11-34"]}
{"id": "C137", "title": "A search is answered by the matching entries of the index", "statement": "A search in an unknown infrastructure is answered by 'not found', a query of less than three characters by 'bad request', any other by the entries of the index the guesser names, in its order, each referring to an existing object of the infrastructure with the box of its positions.", "quantifier": "for all consistent infrastructures, queries and guessers that name existing entries", "why_tests_cant": "Holds for every query and guesser; there is no test of the request.", "anchors": ["web/server/src/modules/search/serve_search.cc:34-66", "web/server/src/modules/search/search_module.cc:51-145"]}
{"id": "C138", "title": "The name of an XML node determines type and direction of its element", "statement": "get_type maps every name of the vocabulary to the type it names, names ending in S (F) denote rising (falling) elements of directed types, names outside of the vocabulary denote no element; the classes of types are disjoint and cover all types, and types have distinct texts in documents.", "quantifier": "for all texts", "why_tests_cant": "The lookup compares 32-bit hashes instead of texts, so the claim about unknown names ranges over all texts; tests only see known names.", "anchors": ["src/infrastructure/graph/type.cc:12-140", "include/soro/infrastructure/graph/type.h:12-125", "include/soro/utls/string.h:15-32", "src/infrastructure/parsers/iss/parse_helpers.cc:31-34"]}
{"id": "C139", "title": "Decimal numbers are read exactly, anything else is rejected", "statement": "parse_fp reads a decimal number with comma (if commas are replaced) or point as the number it writes; texts that are not a decimal number are rejected.", "quantifier": "for all texts", "why_tests_cant": "A parser correctness claim over all texts.", "anchors": ["include/soro/utls/parse_fp.h:14-86"]}
{"id": "C140", "title": "Kilometrages are read exactly", "statement": "parse_kilometrage reads 'a' and 'a+b' as 1000 a and 1000 (a + b) metres, and the length of a section is the distance of the kilometrages of its ends.", "quantifier": "for all decimal numbers a and b with comma or point", "why_tests_cant": "Covers all decimal texts; tests only see the kilometrages of the sample infrastructures.", "anchors": ["src/infrastructure/parsers/iss/parse_helpers.cc:11-25", "src/infrastructure/parsers/iss/parse_iss.cc:48-56"]}
{"id": "C141", "title": "Speed limits are read as the file says", "statement": "The kind, the trains concerned, the speed, the length, the origin and the place where it begins to act of a speed limit are those its XML node says; nodes with an unknown place or unknown trains are rejected.", "quantifier": "for all XML nodes", "why_tests_cant": "Covers all nodes with all combinations of children and all texts; tests see the limits of the sample infrastructures.", "anchors": ["src/infrastructure/parsers/iss/parse_track_element.cc:21-107", "include/soro/infrastructure/graph/element_data.h:38-80"]}
{"id": "C142", "title": "Elements get the data of their node", "statement": "A halt has the name, the identifiers, the kind of trains and the platform sides its XML node says; slopes, ends of train detection, main signals and speed limits have the data of their node and all other elements have none.", "quantifier": "for all XML nodes with a name of the vocabulary", "why_tests_cant": "Covers all nodes; tests see the elements of the sample infrastructures.", "anchors": ["src/infrastructure/parsers/iss/parse_track_element.cc:109-175"]}
{"id": "C143", "title": "Station routes are read as the file says", "statement": "Name, ends, stops, checkpoint, course, omitted nodes and speed limits of a station route are those of its XML node; an attribute of the route is set iff it is listed; limits at warning boards are left out.", "quantifier": "for all XML nodes", "why_tests_cant": "Covers all nodes with all lists of attributes, nodes and limits; tests see the routes of the sample infrastructures.", "anchors": ["src/infrastructure/parsers/iss/parse_station_route.cc:14-88", "include/soro/infrastructure/parsers/iss/iss_string_literals.h:225-253"]}
{"id": "C144", "title": "An infrastructure consists of the files of its index", "statement": "get_iss_files, given a directory with an index or the index itself, returns the files listed in the index by category (rail plans, core data, regulatory stations, regulatory lines), in the order of the index; a listed file that does not exist is an error; the version is that of the index.", "quantifier": "for all file systems, directories and indices", "why_tests_cant": "Covers all lists of files and all file systems; tests only load the sample infrastructures by directory.", "anchors": ["src/infrastructure/parsers/iss/iss_files.cc:13-63", "src/infrastructure/parsers/iss/parse_iss.cc:1197-1215"]}
{"id": "C145", "title": "Stations have their full names", "statement": "A station is named by the last entry for its short name (ds100) in the regulatory files and by its short name if there is none.", "quantifier": "for all regulatory files and stations", "why_tests_cant": "Covers all lists of entries with repetitions over several files.", "anchors": ["src/infrastructure/regulatory_data.cc:16-39", "src/infrastructure/parsers/iss/parse_iss.cc:1184-1195"]}
{"id": "C146", "title": "All lines of the regulatory files are known", "statement": "Each line of the regulatory files is known by its number with all its segments: their kilometrages and whether they have signals, LZB and ETCS; unknown kinds of segments are an error.", "quantifier": "for all regulatory files", "why_tests_cant": "Covers all numbers, kilometrages and repetitions over several files.", "anchors": ["src/infrastructure/regulatory_data.cc:41-125"]}
{"id": "C147", "title": "Routes require ETCS iff their line has no signals", "statement": "A station route requires ETCS iff it has an ETCS start and the segment of the line there has no signals.", "quantifier": "for all regulatory files with joined segments and all positions on the line", "why_tests_cant": "Ranges over all positions and all lists of segments; combines parsing and binary search.", "anchors": ["src/infrastructure/station/station_route.cc:58-67", "src/infrastructure/line.cc:7-44", "src/infrastructure/regulatory_data.cc:41-125"]}
{"id": "C148", "title": "Stations have the coordinates of their row", "statement": "parse_station_coords gives each station the coordinates of the last row with its short name, invalid coordinates if there is none or a coordinate is empty.", "quantifier": "for all lists of stations and rows", "why_tests_cant": "Covers all files and all lists of stations, also with repeated short names.", "anchors": ["src/infrastructure/parsers/parse_station_coords.cc:18-62", "src/infrastructure/parsers/iss/parse_iss.cc:994-1003"]}
{"id": "C149", "title": "Forces of a vehicle are those of the core data in SI units", "statement": "A variant of a train series whose tractive forces follow each other is read as a vehicle whose tractive force at every speed is 1000 times the kilonewtons given by the piece for this speed in km/h, none beyond the last piece, and whose running resistance is that of the factors in the data; weight, top speed and name are those of the data. Other variants are skipped.", "quantifier": "for all variants in the core data and all speeds", "why_tests_cant": "Conversion of polynomials between units at all real speeds and all factors; tests compare a few sampled vehicles.", "anchors": ["src/rolling_stock/parse_train_series.cc:19-170", "include/soro/rolling_stock/train_series.h:41-62"]}
{"id": "C150", "title": "Vehicles are found by series, owner and variant", "statement": "get_traction_vehicle returns the vehicle of the variant with this number of the series with this number and owner, and nothing if the core data have no such series or usable variant; core data with two series of the same number and owner are rejected.", "quantifier": "for all core data and all numbers, owners and variants", "why_tests_cant": "Covers all combinations of names and repeated entries over several files; tests look up a few known vehicles.", "anchors": ["src/rolling_stock/rolling_stock.cc:7-33", "src/rolling_stock/parse_train_series.cc:128-202", "src/infrastructure/parsers/iss/parse_iss.cc:1099-1137"]}
{"id": "C151", "title": "Default values are those of the last core data file that has them", "statement": "Line class, route formation time, brake path and stationary speed limit of an infrastructure are those of the last core data file with default values, the limit converted to m/s; they stay invalid if no file has any.", "quantifier": "for all lists of core data files", "why_tests_cant": "Covers all lists of files and all numbers.", "anchors": ["src/infrastructure/parsers/iss/parse_iss.cc:1085-1137"]}
{"id": "C152", "title": "Tiles show the served infrastructure", "statement": "After a start of the server, the map tiles served for an infrastructure are those of the infrastructure it serves under this name.", "quantifier": "for all histories of starts and changes of the source directory, with and without --regenerate", "why_tests_cant": "Depends on the write times and contents left by all earlier starts; tests start the server at most once.", "anchors": ["web/server/src/modules/tiles/tiles_module.cc:50-101", "web/server/src/modules/infrastructure/infrastructure_module.cc:25-81"]}
{"id": "C153", "title": "The server refuses to start without its files", "statement": "If a file or directory the server needs (resource directory, coordinates, profile, infrastructure sources, timetable sources) does not exist, it ends with an error message and exit code 1; otherwise it runs.", "quantifier": "for all file systems and settings", "why_tests_cant": "Tests never start the server with missing directories.", "anchors": ["web/server/src/main.cc:26-66", "web/server/include/soro/server/server_settings.h:7-76"]}
{"id": "C154", "title": "The exclusion sets of an infrastructure are those of its file", "statement": "Loading an infrastructure makes the exclusion sets of its `exclusion_sets` file available, each with ascending routes and the sets in dictionary order; two routes share an exclusion set iff the file lists them in a common line; the order of lines and of routes in a line does not matter; a file that is missing or malformed is reported.", "quantifier": "all files, all numbers of routes", "why_tests_cant": "files are unbounded, and what a missing file or a blank at the end of a line does is not visible in the result of one example file", "anchors": ["src/infrastructure/exclusion/read_cliques.cc:13-36", "src/infrastructure/exclusion/get_exclusion.cc:16-32", "src/infrastructure/exclusion/get_exclusion.cc:100-128", "include/soro/infrastructure/exclusion/exclusion.h:23-27"]}
{"id": "C155", "title": "The exported exclusion graph has every pair of routes once", "statement": "The tool that exports the exclusion graph writes a line for every route, and every pair of different routes that exclude each other occurs exactly once, in the line of the route with the higher number, in ascending order; nothing else is written.", "quantifier": "all infrastructures, all thread counts and schedules of the computation", "why_tests_cant": "the pairs are a relation over all routes; missing and doubled pairs of unusual routes do not occur in small examples, and the tool itself is not tested", "anchors": ["tools/export_exclusion_graph/src/export_exclusion_graph.cc:37-53", "tools/export_exclusion_graph/src/export_exclusion_graph.cc:70-78", "src/infrastructure/exclusion/get_exclusion_graph.cc:14-64", "src/infrastructure/exclusion/get_exclusion.cc:114-120"]}
{"id": "C156", "title": "The statistics of the rail plan files are those of the infrastructure", "statement": "`get_infra_stats` of a set of rail plan files reports for every type exactly the number of elements of that type that loading the files creates (kilometrage jumps, line switches, switches and crossings, whose nodes occur two, three or four times, are counted once), the number of stations of the files, and the number of sections of the infrastructure including the sections between borders.", "quantifier": "all well-formed rail plans", "why_tests_cant": "the counts of nodes and of created elements come from two different passes over the files; that they agree for every plan, in every order of nodes and with every sharing of main nodes, is a counting argument that a comparison for one example file cannot give", "anchors": ["src/infrastructure/parsers/iss/get_infra_stats.cc:13-78", "src/infrastructure/parsers/iss/parse_iss.cc:208-266", "src/infrastructure/parsers/iss/graph_creation.cc:13-48", "src/infrastructure/parsers/iss/parse_iss.cc:892-981"]}
{"id": "C157", "title": "Infrastructures and timetables keep their data when moved, saved and loaded", "statement": "An infrastructure or timetable shows (`*`, `->`) the data it was constructed with, wraps or was loaded with as long as it lives, wherever it is moved (into containers, returned from functions), whatever happens to the objects it was moved from; a saved file loads as what was saved; no living object gives access to freed memory.", "quantifier": "all sequences of constructing, wrapping, loading, moving, destroying and saving, all data", "why_tests_cant": "whether a pointer into an object or a mapping is still right depends on the whole history of moves and destructions", "anchors": ["include/soro/utls/serializable.h:20-82", "src/infrastructure/infrastructure.cc:7-14", "src/timetable/timetable.cc:20-46"]}
{"id": "C158", "title": "Dates of timetable files are the days they name", "statement": "A date text such as 2022-11-19 of a KSS service is read as that date; dates are numbered by the days since 1970-01-01, consecutive days of the Gregorian calendar get consecutive numbers, earlier dates get smaller ones, and every number is converted back to the one date it stands for. The bit mask of a service therefore decides on the days from its start date on, one character for each day. A text that is no date is refused.", "quantifier": "for all dates of the calendar, all numbers of days, all texts, all masks of up to 512 days", "why_tests_cant": "The calendar has infinitely many days with rules of periods 4, 100 and 400 years; a test checks some days around the ones in its fixture.", "anchors": ["src/timetable/parsers/kss/parse_kss_timetable.cc:63-125", "include/soro/timetable/bitfield.h", "include/soro/base/time.h"]}
{"id": "C159", "title": "Points in time convert there and back", "statement": "Seconds relative to an anchor and absolute points in time determine each other; midnight of a point in time is the first second of its day; arrival and departure of a run on a date lie exactly the scheduled seconds after the midnight of that date, and later dates give later points in time.", "quantifier": "for all anchors, points in time, dates and relative times", "why_tests_cant": "The 32 bit arithmetic wraps only for dates nobody puts into a test.", "anchors": ["include/soro/base/time.h:34-60", "src/timetable/sequence_point.cc:24-32"]}
{"id": "C160", "title": "Disruption distributions are probability distributions", "statement": "get_halt_distribution and get_runtime_distribution are defined for every arrival and speed; their probabilities are not negative and add up to one: delays of less than five minutes are distributed geometrically, speeds uniformly within the variance of five km/h.", "quantifier": "for all arrivals and all 16 bit speeds", "why_tests_cant": "The functions are not called by any test; edge speeds (0, close to 65535) would have to be tried one by one.", "anchors": ["include/soro/simulation/disruption.h:9-56", "include/soro/simulation/dpd.h"]}
{"id": "C161", "title": "Trips over conflicting routes are ordered, from the network to the ordering graph", "statement": "Take a network with its routes, let get_exclusion compute the exclusion elements and the exclusion graph, let a clique file cover that graph, and construct the ordering graph of a timetable. Then any two steps of trips whose routes drive over a common switch, crossing, signal or halt, neither starting where the other one ends, are connected in the ordering graph from the one that starts earlier to the one that starts later, and not the other way round.", "quantifier": "all networks, routes, legs, thread counts, schedules, heap choices, sorting algorithms, clique files, timetables, filters and pairs of steps", "why_tests_cant": "the claim spans six modules that are tested separately on one sample network; whether a pair is lost between them depends on the combination of routes, cliques, threads and times", "anchors": ["src/infrastructure/exclusion/get_exclusion.cc:100-128", "src/infrastructure/exclusion/exclusion_elements.cc:150-155", "src/infrastructure/exclusion/read_cliques.cc:13-36", "src/simulation/ordering/ordering_graph.cc:67-209"]}
{"id": "C162", "title": "A train departs exactly on the dates that the texts of its services name", "statement": "For a KSS train whose services are given as texts (startDate, endDate, bitMask, or date and type of a special service), departures of an interval are exactly the midnights of the dates of the Gregorian calendar that are served and whose run is under way in the interval: a date is served iff the last special service for it includes it, or there is none and some bit mask has a one at the position of the date.", "quantifier": "all lists of services over up to 512 days between 1970 and 2106, all masks, departure and arrival times, intervals and dates", "why_tests_cant": "the claim goes from the text of the file over the calendar and the bit field to the iterator of departures; tests check single parts for a few dates of one fixture", "anchors": ["src/timetable/parsers/kss/parse_kss_timetable.cc:63-141", "src/timetable/bitfield.cc", "src/timetable/train.cc:24-61"]}
{"id": "C163", "title": "The ordering graph fits the calculated running times", "statement": "ordering_graph: a train that runs from halt to halt over n interlocking routes gets n - 1 timestamps from runtime_calculation with main signals as event types, in order of the path and none before the departure; so the constructor accesses no route, node or exclusion set out of range, the start times of the routes never decrease along a trip, and if usages of the same second stay in the order in which they were added, the graph has no cycle.", "quantifier": "all networks, interlockings, timetables, train physics and running times below 2^32 seconds", "why_tests_cant": "Links four modules (interlocking routes, iteration of trains, running times, ordering graph) for all networks; a test sees one network, and the assertion that compares the counts is off in release builds.", "anchors": ["src/simulation/ordering/ordering_graph.cc:83-171", "src/runtime/runtime.cc:197-255", "src/timetable/train.cc:168-256", "src/infrastructure/interlocking/get_interlocking.cc:148-263"]}
{"id": "C164", "title": "A train of a timetable document is read as it is described", "statement": "parse_kss_timetable: a construction train whose elements are written as described is accepted iff all its service points and traction units are known to the infrastructure, it has none of the defects of the support check and its sequence can be translated to interlocking routes; it then has the number, dates, stops with times, vehicles of the core data, weight, length, speed and flags of the document, no exception is thrown, and the trains of a document are construction trains of its released trains.", "quantifier": "all documents, infrastructures, interlockings and core data", "why_tests_cant": "Links XML reading, service days, times, durations, core data, support check and route translation for all documents; tests parse one sample timetable and compare counts.", "anchors": ["src/timetable/parsers/kss/parse_kss_timetable.cc:63-141", "src/timetable/parsers/kss/parse_kss_timetable.cc:234-341", "src/timetable/parsers/kss/parse_kss_timetable.cc:389-499"]}
{"id": "C165", "title": "Accepted trains depart at their first stop and arrive later at their last", "statement": "parse_kss_timetable: every accepted train has a departure at its first stop and an arrival at its last stop that is not earlier, and its stops come in the order of the document.", "quantifier": "all documents, infrastructures and interlockings", "why_tests_cant": "The checks that the times are valid are assertions of the getters and off in release builds; sample timetables have all times.", "anchors": ["src/timetable/parsers/kss/parse_kss_timetable.cc:239-292", "src/timetable/parsers/kss/parse_kss_timetable.cc:343-387", "src/timetable/train.cc:74-93"]}
{"id": "C166", "title": "A timetable is read only with the infrastructure version it was made for", "statement": "parse_kss_timetable: if a file of the timetable was made for another version of the infrastructure, the timetable is refused with INFRASTRUCTURE_VERSION_MISMATCH, otherwise it is not, in whatever order the directory lists its entries.", "quantifier": "all directories, documents and infrastructures", "why_tests_cant": "The order of directory entries is unspecified and test timetables consist of files of one version and nothing else.", "anchors": ["src/timetable/parsers/kss/parse_kss_timetable.cc:507-533", "src/timetable/parsers/kss/parse_kss_timetable.cc:546-597"]}
{"id": "C167", "title": "Trains and the interlocking see the same main signals", "statement": "calculate_station_routes: for all station routes built from the files, the main signals recorded for the interlocking (main_signals_) are exactly the main signals a train running over the station route sees (not in omitted_nodes_), if and only if every main signal a route leaves out is called a main signal in its list of omitted nodes; sizes and positions recorded for the interlocking fit the paths. (Without that condition it is false: an omitted main signal listed under another type ends interlocking routes but is seen by no train.)", "quantifier": "all networks, routes of files, omitted nodes, numberings of nodes", "why_tests_cant": "both lists are computed by separate loops over separate inputs (the declared type in one, the element in the other), and shared by deduplicated paths; tests use consistent files only", "anchors": ["src/infrastructure/parsers/iss/parse_iss.cc:606-630", "src/infrastructure/parsers/iss/parse_iss.cc:702-803"]}
{"id": "C168", "title": "From the files to an ordering by calculated times", "statement": "Build the station routes from the files, the exclusion sets from the sections of the network and a clique file that covers the exclusion graph, calculate the running times of trains that run from halt to halt, and construct the ordering graph. Then nothing is accessed out of range, the graph has no cycle, two steps of trips over conflicting routes are connected from the earlier to the later one and not back (in the same second: from the one that comes first in the timetable), and every path of the graph leads to later steps.", "quantifier": "all networks, files, cliques, threads and schedules, trains, physics, and sorting algorithms that keep usages of the same second in order", "why_tests_cant": "the claim spans parser, interlocking, exclusion, timetable, running times and ordering graph; tests check one sample network and each module on its own", "anchors": ["src/infrastructure/parsers/iss/parse_iss.cc:702-803", "src/infrastructure/exclusion/get_exclusion.cc:100-128", "src/runtime/runtime.cc:197-255", "src/simulation/ordering/ordering_graph.cc:67-209"]}
{"id": "C169", "title": "The interlocking of every consistent infrastructure can be created and finds all its routes", "statement": "For an infrastructure whose station routes form an acyclic graph with matching predecessors and successors, get_interlocking returns an interlocking whose routes are the generated ones numbered by position, and starting_at_, ending_at_, halting_at_, sr_to_participating_irs_ and station_to_irs_ name exactly the routes that start, end or halt at the node, use the station route, or use a station route of the station.", "quantifier": "all infrastructures (any number of stations, station routes, main signals, nodes), including those without any signal", "why_tests_cant": "Test infrastructures all have main signals; whether creation works for every infrastructure, and that all five index structures are complete at once, is a statement over all networks.", "anchors": ["src/infrastructure/interlocking/get_interlocking.cc:268-332", "src/infrastructure/interlocking/get_interlocking.cc:23-138"]}
{"id": "C170", "title": "The error report of the timetable parser counts every skipped train element once, however the threads run", "statement": "After parse_kss_timetable has parsed its files in parallel, the report has for every error a line with its message and the number of train elements that were skipped for it exactly if there are some; every train element is either read or counted under exactly one error; different errors have different messages; the counting never deadlocks.", "quantifier": "all sets of files, all contents, all interleavings of the work items at the level of lock, load, store and unlock", "why_tests_cant": "A lost update or deadlock shows only under particular schedules, which a test cannot enumerate; the counts have to agree for every set of files.", "anchors": ["include/soro/base/error.h:14-43", "src/timetable/parsers/kss/parse_kss_timetable.cc:469-499", "src/timetable/parsers/kss/parse_kss_timetable.cc:579-609", "src/timetable/parsers/kss/kss_error.cc:12-41"]}
{"id": "C171", "title": "A speed limit that holds from the last signal on replaces exactly the limit in force behind that signal", "statement": "get_interval_list, also with speed limits announced for the last signal: there is one interval for every border of the path, and the limit behind it is no higher than the one that was activated last. A limit for the last signal is activated at the last main signal before it (at the first border if there is none), any other limit at its own element; of several limits activated at the same place the last one of the path counts. In particular a limit for the last signal never lifts a limit that begins behind that signal.", "quantifier": "all paths, all sequences of both kinds of speed limits, signals and halts, all train physics", "why_tests_cant": "The list is rewritten backwards up to the signal and forwards again up to the next change; errors depend on how several limits overlap, and a test fixes one overlap.", "anchors": ["src/runtime/interval.cc:109-171", "src/runtime/interval.cc:200-240"]}
{"id": "C172", "title": "The assertions of exclusion sets hold, so debug and release builds agree on them", "statement": "Exclusion sets in a build with assertions: make_exclusion_set returns the set of the release build for sorted ids below 2^32-64 and is stopped by an assertion for all other ids. On sets that any history of calls produced, |=, -=, the overlap tests and iteration throw nothing and return what the release build returns. set(id) does so for every set with a member, and is stopped by an assertion for every set without one.", "quantifier": "all lists of ids, all sets reachable by any history of calls, all ids", "why_tests_cant": "Assertions are compiled out of release builds and depend on the windows of both operands; a test sees only the pairs of windows it sets up.", "anchors": ["src/infrastructure/exclusion/exclusion_set.cc:43-446"]}
{"id": "C173", "title": "The assertions of calendars and departures hold, so debug and release builds agree on them", "statement": "Calendars in a build with assertions: make_bitfield, set and |= return what the release build returns if the joint range has at most 512 days and the mask has one character per day, and are stopped by an assertion otherwise. Iterating a calendar or a part of it, get_set_days, and iterating the departures of a train in an interval throw nothing and return what the release build returns. first_set_date and last_set_date do so for calendars with a service day and are stopped by an assertion for the others.", "quantifier": "all calendars, masks, days, intervals, and all trains whose runs lie in the range of the time type", "why_tests_cant": "The assertions relate dates, indices and positions of iterators that move past each other in only few windows; a test covers single windows.", "anchors": ["src/timetable/bitfield.cc:12-282", "include/soro/timetable/bitfield.h:60-140", "src/timetable/train.cc:30-110"]}
{"id": "C174", "title": "The assertions on service days stop exactly the lists with needless entries that do not cancel out", "statement": "parse_services in a build with assertions: dates that exist, written with ten characters, are read as in the release build; other dates are stopped by an assertion. The calendar is that of the release build if the first service is a regular one and the number of days that are added although they are service days already equals the number of days that are excluded although they are none. In all other cases an assertion stops the parser. So a list in which no entry is needless is accepted, and one that includes a service day once more, which the release build reads correctly, is not.", "quantifier": "all lists of regular and special services within 512 days, as days and as texts", "why_tests_cant": "The counter of the assertion and the calendar are updated independently for each entry and compared only at the end, so that the result depends on the whole list; a test fixes one list.", "anchors": ["src/timetable/parsers/kss/parse_kss_timetable.cc:47-141", "src/timetable/bitfield.cc:228-230"]}
{"id": "C175", "title": "The assertions of interlocking routes hold, except for routes that come back to where they begin", "statement": "In a build with assertions no assertion stops get_interlocking, and the result is that of the release build. Iterating an interlocking route returns what the release build returns if it has a single station route or begins and ends on different ones, and is stopped by an assertion otherwise. Where no circle of station routes exists, this is so for every generated route; in a circle with one signal the generated route is stopped although the release build iterates it correctly. Iterating a part of a route without repeated station routes is the same in both builds unless the end is before the begin or a station route is not part of the route, and is stopped by an assertion in these cases.", "quantifier": "all infrastructures, interlocking routes and positions", "why_tests_cant": "The assertions compare ids of station routes instead of positions, which makes a difference only in networks with circles; a test fixes one network.", "anchors": ["src/infrastructure/interlocking/interlocking_route.cc:127-224", "src/infrastructure/interlocking/get_interlocking.cc:60-332", "src/infrastructure/station/station_route.cc:12-191"]}
{"id": "C176", "title": "The assertions of the ordering graph stop exactly the trains whose path does not fit their timestamps", "statement": "In a build with assertions and with ids in range, constructing an ordering graph gives the graph of the release build if every requested train that departs in the interval has one interlocking route more than timestamps of main signals, which holds for all trains from halt to halt with calculated running times. Otherwise it is stopped by an assertion. trip_nodes returns what the release build returns for the trips of the graph and is stopped by an assertion for all others. next is stopped by an assertion if there is no successor or the successor with the least id belongs to another train, and returns that successor otherwise, even if it belongs to another trip of the same train.", "quantifier": "all timetables, filters, tables of exclusion sets and sorting algorithms", "why_tests_cant": "Which assertions can fail depends on the whole timetable; the release build continues silently with nodes that belong to nothing.", "anchors": ["src/simulation/ordering/ordering_graph.cc:83-229"]}
{"id": "C177", "title": "The assertions of the running time calculation stop exactly the calculations without sensible times", "statement": "In a build with assertions, for a train that neither breaks in nor out, whose stops are at least a centimetre apart and whose calculation ends in the release build, runtime_calculation reports the timestamps of the release build if the first departure is known, the events at the first border happen at a stop, all arrivals but the first are known and no departure is before its arrival. Otherwise it is stopped by an assertion. For trains from a stop on whose running time fits into 32 bits only an arrival at the time that stands for an unknown one stops it. Two stops at the same place always stop it.", "quantifier": "all physical trains, routes, speed limits, stop times and start times", "why_tests_cant": "Whether an assertion fails depends on the whole calculation; the release build goes on silently and drops stops or reports times that have wrapped around.", "anchors": ["src/runtime/runtime.cc:196-283", "src/runtime/interval.cc:173-246", "include/soro/runtime/interval.h:31-54"]}
{"id": "C178", "title": "The assertions of the exclusion data stop exactly the routes without track elements on one section", "statement": "In a build with assertions, collecting the exclusion elements of an interlocking route gives the result of the release build if the route has a track element and every track element on it is on exactly one section, and is stopped by an assertion otherwise. For a route along sections this means: it is stopped exactly if there is no track element for its direction on any of its sections, in which case the release build reads from an empty vector. With the exclusion elements collected by the program no assertion of the mapping from elements to routes and of the exclusion graph fails, whatever the number of threads and their interleaving. The assertion of has_cycle never fails.", "quantifier": "all sections, routes, thread counts, schedules and graphs", "why_tests_cant": "Interleavings and graphs cannot be enumerated, and the debug assertions are no proof that the release build is safe.", "anchors": ["src/infrastructure/exclusion/exclusion_elements.cc:49-155", "src/infrastructure/exclusion/get_exclusion.cc:78-97", "src/infrastructure/exclusion/get_exclusion_graph.cc:14-64", "include/soro/utls/graph/has_cycle.h:14-55"]}
{"id": "C179", "title": "The assertions stop trains that start or end at a passed point, and paths on which planned stops are missing or doubled", "statement": "In a build with assertions, iterating a well-formed train gives the nodes of the release build if its path has one interlocking route only, or if it begins and ends with a stop unless it breaks in or out, and is stopped by an assertion otherwise. A train over several routes whose first stop has no place for such a train is stopped by an assertion too. transform_to_interlocking returns what the release build returns if every planned point that is a stop or has a time stands on exactly one route of the path; it is stopped by its assertion if all stand on a route and one on several, or if none stands on several and one on none. This is shown where the returned points are those standing on the chosen routes (C85). The assertion compares numbers only: a lost stop together with a doubled checkpoint passes.", "quantifier": "all infrastructures, interlocking routes, trains and stop sequences", "why_tests_cant": "Which points are found depends on where the signals are relative to the stops in the whole network; the release build loses stops silently.", "anchors": ["src/timetable/train.cc:168-240", "src/timetable/parsers/station_route_to_interlocking_route.cc:195-284"]}
{"id": "C180", "title": "With assertions exactly the numbers are read", "statement": "In a build with assertions parse_int returns iff the whole text is a numeral whose value belongs to the type, and parse_fp returns iff the whole text is a floating point number (with a comma only where commas are replaced); the value is that of a release build. Every other text - trailing characters, an empty text, a number out of range, a comma that is not replaced - is stopped by an assertion.", "quantifier": "for all texts and all integral types", "why_tests_cant": "A statement about all texts: tests try a few.", "anchors": ["include/soro/utls/parse_int.h:41-53", "include/soro/utls/parse_fp.h:21-86"]}
{"id": "C181", "title": "Times and durations of a timetable in a build with assertions", "statement": "In a build with assertions the times and durations of a timetable document are read exactly when their text has the right shape: a time must have eleven characters with two digits each for hours, minutes and seconds, a duration must begin with PT and have whole numbers before H and M and a number before S. Such texts give the same seconds in both builds; a time of a wrong shape and a duration without PT or with a missing or malformed number before H, M or S are stopped by an assertion instead of being read as something else.", "quantifier": "all texts, all night leap flags, all sequences of fields", "why_tests_cant": "The texts form an infinite set; tests show a handful of well formed times and durations but not that no other text passes and that builds never disagree.", "anchors": ["src/timetable/parsers/kss/parse_kss_timetable.cc:143-205", "include/soro/utls/parse_int.h:41-53", "include/soro/utls/parse_fp.h:21-86"]}
{"id": "C182", "title": "Trains of a timetable document in a build with assertions", "statement": "Whatever a timetable document contains, a build with assertions that reads a construction train to the end returns what the release build returns. A train written as described, with times of eleven characters, services the assertions accept and no passing time at a station route without a runtime checkpoint, is refused with the same error in both builds; if the release build accepts it, the build with assertions accepts it iff as many sequence points are kept on the interlocking routes as points of the document are stops or have a departure, and is stopped by an assertion otherwise. A train with known points and a passing time at a route without checkpoint is stopped by an assertion.", "quantifier": "all documents, all infrastructures whose station routes are known, all interlockings", "why_tests_cant": "Documents and infrastructures form an infinite set; tests read some documents in one build and cannot show that the builds never disagree.", "anchors": ["src/timetable/parsers/kss/parse_kss_timetable.cc:242-299", "src/timetable/parsers/kss/parse_kss_timetable.cc:400-442", "src/timetable/parsers/station_route_to_interlocking_route.cc:195-290"]}
{"id": "C183", "title": "Construction of station routes in a build with assertions", "statement": "For routes whose paths have no node twice and whose omitted elements are known and directed: a build with assertions constructs the station routes of an infrastructure exactly as the release build does if no two routes of a station have the same name, every extra speed limit has its element on the path of its route, and every element to leave out is on that path and named once. In all other cases it is stopped by an assertion. The release build constructs the routes whenever the limits are on their paths: a name given twice stands for the last route with it, and elements to leave out that are elsewhere have no effect.", "quantifier": "all lists of station routes, all elements, all orders std::sort may produce", "why_tests_cant": "Infrastructure files form an infinite set; tests parse one or two of them in one build and cannot tell which files the assertions accept.", "anchors": ["src/infrastructure/parsers/iss/parse_iss.cc:697-838"]}
{"id": "C184", "title": "Segments of a line in a build with assertions", "statement": "get_segment returns the same segment with and without assertions before, behind and on a line of adjoining segments. On a line with ordered segments and gaps, a position in a gap is stopped by an assertion, while the release build returns the segment before the gap, which does not contain the position. A line without segments is stopped by an assertion, where the release build reads from an empty vector.", "quantifier": "all lines, all positions", "why_tests_cant": "Positions are real numbers and lines are arbitrary lists; tests look up some positions on complete lines.", "anchors": ["src/infrastructure/line.cc:7-36"]}
{"id": "C185", "title": "Speed changes as the forces of all vehicles and the mass of the train demand", "statement": "From one result of accelerate to the next one half a second passes, and the change of speed times the mass of the train (increased by 6 % for rotating parts) is half the difference of the sums of the tractive forces and of the resistances of all vehicles at the speed before; the distance grows by the mean speed, unless it is cut at the maximum distance. A train brakes like its first vehicle: brake covers exactly (v^2 - w^2) / (2 d) with the deceleration d of that vehicle.", "quantifier": "all trains, speeds and distances", "why_tests_cant": "Forces are arbitrary curves over arbitrarily many vehicles; tests compare some running times of a few trains with stored values.", "anchors": ["src/runtime/runtime_physics.cc:38-112", "src/rolling_stock/train_physics.cc:25-49", "include/soro/si/constants.h:9"]}
{"id": "C186", "title": "Requests reach the handler of their address with its parameters", "statement": "A GET request for one of the addresses documented in soro_server.cc, with letters, digits, '_' and '-' as names and digits as numbers, is answered by the handler of this address, which gets the names and numbers as parameters, in order; a slash at the end may be left out or added where the route has an optional one. All other requests go to the handler of static files without parameters, except tiles with another character than the point or with text after mvt. So every handler gets as many parameters as it reads.", "quantifier": "all paths, all names, numbers and lists of train ids, and both kinds of matching (whole path or its beginning)", "why_tests_cant": "Routes overlap (station, stations, station_route; timetable, timetables, ordering) and are tried in order with backtracking; tests of the server request a few fixed addresses.", "anchors": ["web/server/src/soro_server.cc:25-134", "web/server/src/modules/ordering/serve_ordering_graph.cc:164", "web/server/src/modules/timetable/serve_timetable.cc:30"]}
{"id": "C187", "title": "What the web client asks for is answered by the handler meant", "statement": "Every request of the web client about infrastructures, bounding boxes, stations, routes, elements, searches, timetables and ordering graphs is answered by the handler for it, with the names of the call and decimal numerals of its numbers as parameters; so the server answers with the station that was asked for, and reads the interval and the train ids that the client wrote.", "quantifier": "all calls of the client, all names, numbers and lists of trains, all infrastructures", "why_tests_cant": "Client and server are written in two languages and agree only by the texts of the paths; no test runs both.", "anchors": ["web/client/src/util/SoroClient.ts:133-242", "web/server/src/soro_server.cc:25-134", "web/server/src/modules/ordering/serve_ordering_graph.cc:117-156"]}
{"id": "C188", "title": "Nested generators are destroyed when they are finished", "statement": "While a loop consumes a recursive generator, the coroutines that are alive are exactly those on the way from the outermost generator to the one that yielded the current value, each waiting for the next one; when the loop ends, also by an exception, only the outermost one is left. So the memory in use depends on the depth of the nesting only, not on the number of values or of generators that were run before.", "quantifier": "all bodies of generators with arbitrarily deep and arbitrarily many nested generators, and all moments of the iteration", "why_tests_cant": "Leaks of coroutine frames are not visible in the values; tests compare the values of a few generators.", "anchors": ["include/soro/utls/coroutine/recursive_generator.h:58-166"]}
{"id": "C189", "title": "The selections in the sidebar of the web client fit together", "statement": "When all requests of the sidebar are answered, the timetables offered are those of the infrastructure chosen last, and the interval is that of the timetable chosen last, unless the user has chosen another interval since; without a timetable there is no interval.", "quantifier": "all sequences of choices and answers, in any interleaving and for any number of open requests", "why_tests_cant": "Which answer arrives when is up to the network; a test sees a few interleavings, usually those in which every answer comes before the next choice.", "anchors": ["web/client/src/stores/sidebar-store.ts:183-224"]}
{"id": "C190", "title": "The ordering graph shown is that of the current selection", "statement": "When all requests are answered, the ordering graph that is shown is the graph of the server for the chosen infrastructure, timetable, interval and train ids, and no graph if the server has none.", "quantifier": "all sequences of choices and answers", "why_tests_cant": "The graph depends on the interleaving of answers and choices; a test tries a few of them.", "anchors": ["web/client/src/components/ordering/ordering-graph.vue", "web/client/src/stores/sidebar-store.ts:183-224"]}
{"id": "C191", "title": "Train ids that are entered are the ids that are asked for", "statement": "A text that lists numbers separated by commas is accepted by the field for train ids, nothing else is, and the request of the client is read by the server as a request for exactly these trains.", "quantifier": "all texts, all names of infrastructures and timetables, all intervals", "why_tests_cant": "The set of texts is infinite, and the field, the client and the regular expression of the server have to agree on it.", "anchors": ["web/client/src/components/base/soro-id-input.vue:36-57", "web/client/src/util/SoroClient.ts:217-241", "web/server/src/soro_server.cc:109-123"]}
{"id": "C192", "title": "The search shows the results of the text that is entered", "statement": "When all requests are answered, the results shown are those of the text in the search field for the chosen infrastructure; there are none if the text has less than three characters.", "quantifier": "all sequences of texts, answers and changes of the infrastructure", "why_tests_cant": "Every key press sends a request, and the answers may arrive late or in another order; tests type one text and wait.", "anchors": ["web/client/src/components/sidebar/search/extended-search.vue:91-134"]}
{"id": "C193", "title": "Highlighted routes are those added and not deleted", "statement": "A route is highlighted on the map when it was added and not deleted since, and the server has answered; a route that was deleted and not added since, or was never added, is not highlighted.", "quantifier": "all sequences of adding and deleting routes and of answers in any order", "why_tests_cant": "The interleavings of user actions and answers are unbounded.", "anchors": ["web/client/src/stores/sidebar-store.ts:114-133", "web/client/src/stores/sidebar-store.ts:148-181"]}
{"id": "C194", "title": "The legend of a map shows what was checked on this map", "statement": "A control of the legend is checked on a map iff it was checked there, or is one of the initial controls, and was not unchecked since; a reset restores the initial controls, and what is done on one map does not change the others.", "quantifier": "all sequences of checking, unchecking and resetting on any number of maps", "why_tests_cant": "Sharing of an array between maps and resets shows only in sequences that tests of one map do not run.", "anchors": ["web/client/src/components/infrastructure/infrastructure-map.vue:46-53", "web/client/src/components/infrastructure/infrastructure-map.vue:201-226"]}
{"id": "C195", "title": "A timetable consists of the trains of all its documents", "statement": "parse_kss_timetable: a directory for the version of the infrastructure is read as exactly the trains of all its timetable files, in the order of the files and numbered from zero; a timetable file that is no document makes the whole timetable unreadable, other entries do not matter.", "quantifier": "all directories, documents and infrastructures", "why_tests_cant": "The number of files and their contents are unbounded; test timetables have few files and all are well-formed.", "anchors": ["src/timetable/parsers/kss/parse_kss_timetable.cc:476-483", "src/timetable/parsers/kss/parse_kss_timetable.cc:546-597"]}
{"id": "C196", "title": "Every tab of the web client has its own component, in all sessions", "statement": "However tabs are opened and closed, each open tab shows a component of its own, of the kind it was opened for; opening and closing a tab leaves the others as they are; when the client is started again it has the tabs that were open, however they were arranged.", "quantifier": "all sequences of opening and closing tabs over any number of sessions, all arrangements of the tabs", "why_tests_cant": "Indexes are given out, returned and saved; a clash needs a particular history of closing, saving and starting again.", "anchors": ["web/client/src/golden-layout/golden-layout-adapter.vue:56-142", "web/client/src/golden-layout/golden-layout-adapter.vue:193-223", "web/client/src/stores/golden-layout-store.ts:29-64", "web/client/src/App.vue:34-66"]}
{"id": "C197", "title": "A layout can be loaded while tabs are open", "statement": "loadGLLayout: a layout can be loaded at any time; afterwards the tabs are those of the layout and each shows its own component, also after further tabs are opened.", "quantifier": "all layouts and all sequences of opening, closing and loading", "why_tests_cant": "Layouts are trees of any size, and the effect of an index that is given out twice shows only when a later tab takes it.", "anchors": ["web/client/src/golden-layout/golden-layout-adapter.vue:72-142"]}
{"id": "C198", "title": "The theme shown is the preferred one", "statement": "In every session of the web client the theme is the one preferred last, in this session or an earlier one, and that of the operating system, which may change at any time, if this was preferred last or nothing was.", "quantifier": "all sequences of choices, changes of the operating system and restarts", "why_tests_cant": "Store, vuetify, storage and a listener have to agree after any history; tests check single actions with mocks.", "anchors": ["web/client/src/stores/settings-store.ts:21-39", "web/client/src/stores/settings-store.ts:58-121", "web/client/src/App.vue:61-62"]}
{"id": "C199", "title": "The primary colour is the one chosen last", "statement": "In every session the primary colour of both themes is the one chosen last, in this session or an earlier one, and the colour of the themes if none was chosen; the settings show the same colour.", "quantifier": "all sequences of choices of colours and preferences, changes of the operating system and restarts", "why_tests_cant": "The colour is stored also when only a theme was chosen; whether this shows depends on the history and on the colours of both themes.", "anchors": ["web/client/src/stores/settings-store.ts:41-86", "web/client/src/stores/settings-store.ts:123-126", "web/client/src/style.ts:7-30"]}
{"id": "C200", "title": "Neighbours are mutual, and every way of a train is a path", "statement": "is_path: every sequence of nodes a train can run along, the path of every station route and the elements of every section in both directions are paths; nothing else is a path than sequences of elements that follow each other in a section or are partners; what is a path is one in the other direction; an element is a neighbour of each of its neighbours, and only borders without partner lack neighbours.", "quantifier": "all networks, all ways in them, all station routes and sections", "why_tests_cant": "The neighbours of an element come from the sections that end at it, those inside a section from two passes and those of borders from a third one; a missing one shows only on the ways over it.", "anchors": ["include/soro/infrastructure/path/is_path.h:11-40", "include/soro/infrastructure/graph/element.h:344-354", "src/infrastructure/parsers/iss/parse_iss.cc:892-943"]}
{"id": "C201", "title": "Measuring a way fails no assertion", "statement": "get_distance in the debug build: measuring the distances along any way of a train fails no assertion and gives the distances of the release build.", "quantifier": "all networks, all ways in them, all kilometrages", "why_tests_cant": "Whether two elements are neighbours of each other depends on how borders were joined and sections were read; tests measure few ways.", "anchors": ["src/infrastructure/graph/element.cc:63-115", "src/infrastructure/graph/element.cc:179-187", "src/runtime/interval.cc:190-192"]}
{"id": "C202", "title": "The station panel shows the station clicked last", "statement": "A click on a station of the map brings the panel to the screen, and once the server has answered it shows this station of the current infrastructure; closing and opening the panel again shows the same station; nothing is shown that was not asked for.", "quantifier": "all sequences of clicks, choices of infrastructures, buttons of the sidebar, answers and failures", "why_tests_cant": "Watchers, mounting and answers interleave; a wrong station shows only for particular orders of clicks and answers, or for equal ids in two infrastructures.", "anchors": ["web/client/src/components/sidebar/station/station.vue:41-108", "web/client/src/components/sidebar/sidebar.vue:77-104", "web/client/src/components/infrastructure/infrastructure-map.vue:351-383"]}
{"id": "C203", "title": "The map draws exactly the elements whose type and direction are checked in the legend", "statement": "Once the map of an infrastructure is loaded, an element is drawn if and only if its type is checked in the legend and, unless it is a station, its direction is checked; the controls checked are found again when the page is opened anew.", "quantifier": "all stored and initial controls, all sequences of checking, unchecking, resetting, changes of theme, infrastructure and highlighted routes, and loads of maps, all types and both directions", "why_tests_cant": "The controls can be changed in any order before and after the map is loaded, and the style of the map is replaced by other parts of the page; tests try a few clicks.", "anchors": ["web/client/src/components/infrastructure/infrastructure-map.vue:112-286", "web/client/src/components/infrastructure/map-style.ts:141-209"]}
{"id": "C204", "title": "The map draws exactly the highlighted routes", "statement": "While a map is loaded it draws exactly the station and interlocking routes which are highlighted in the sidebar.", "quantifier": "all sequences of changes of the highlighted routes, the legend, the theme and the infrastructure, and of loads of maps", "why_tests_cant": "Whether a route stays drawn depends on what else happens later on the page, in every order; tests try a few orders.", "anchors": ["web/client/src/components/infrastructure/infrastructure-map.vue:55-70", "web/client/src/components/infrastructure/infrastructure-map.vue:112-177", "web/client/src/components/infrastructure/map-style.ts:14-36"]}
{"id": "C205", "title": "The fields of the menu show the current selection", "statement": "The selects and the range of time in the menu of the web client show the infrastructure, timetable and range that are currently selected, and a range that is picked becomes the current one, exact to the second.", "quantifier": "all servers, all sequences of choices, cleared fields, answers in any order, and changes between the menu and other parts of the sidebar", "why_tests_cant": "The fields keep copies of what is selected, which are updated by watchers only when something changes; whether they agree depends on everything that happened before. Tests try one change.", "anchors": ["web/client/src/components/base/soro-select.vue:25-67", "web/client/src/components/base/soro-datetimerange.vue:20-67", "web/client/src/components/sidebar/menu/menu.vue:27-52", "web/client/src/components/sidebar/sidebar.vue:18-22"]}
{"id": "C206", "title": "The HTTP helper of the web client sends what it is told to", "statement": "A request goes to the address made of base and endpoint with the method, the body and the headers given, each header as set last, names compared without case; a server reads the token or the user and password from it that were set; the document of the answer is given exactly for successful answers with one.", "quantifier": "all sequences of calls that set headers, all requests, bodies and answers, all user names and passwords", "why_tests_cant": "Which credentials a server reads follows from encoding and decoding of all texts, and headers depend on all calls before. Tests look at single requests.", "anchors": ["web/client/src/util/HttpClient.ts:7-26", "web/client/src/util/HttpClient.ts:45-65", "web/client/src/util/HttpClient.ts:67-95"]}
{"id": "C207", "title": "A switch of a route in the station panel is on exactly when its route is highlighted", "statement": "Once no request about a route is open, the switch of the route in the station panel is on exactly when the route is among the highlighted routes; the panel has a switch exactly for each route it shows, and a click changes that switch only.", "quantifier": "all sequences of opening, closing and changing the panel, clicks, answers in any order and changes of the infrastructure, all routes", "why_tests_cant": "Switch and list are kept apart and meet only through requests whose answers arrive in any order; tests mount one switch and click once.", "anchors": ["web/client/src/components/base/soro-switch.vue:45-59", "web/client/src/components/sidebar/station/station.vue:9-34", "web/client/src/components/sidebar/station/station.vue:105-107", "web/client/src/stores/sidebar-store.ts:114-133", "web/client/src/stores/sidebar-store.ts:148-186"]}
