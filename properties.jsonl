{"id": "C01", "title": "Disjoint-set queries report exactly the connectivity that was built", "statement": "After any sequence of add and unite calls in which unite is given representatives (values returned by find/findByHandle), two added items have the same find result exactly when they are connected by the pairs that were united, and every find terminates and returns the handle of an added item (or the not-found value for an item that was never added).", "quantifier": "every history of add/unite/find operations and every pair of items, of any length", "why_tests_cant": "The claim ranges over all operation histories; path compression mutates the structure on reads, so a finite set of histories cannot settle it.", "anchors": ["include/utils/UnionFind.h: UnionFind::add, find, findByHandle, unite"]}
{"id": "C02", "title": "Uniting arbitrary members is safe", "statement": "unite(a, b) merges the sets of a and b whichever member handles are passed, and a later find still terminates. (The code does NOT satisfy this: with non-representative handles it can leave the sets unmerged or create a parent cycle.)", "quantifier": "every reachable structure and every pair of valid handles", "why_tests_cant": "A test only samples histories; the failure needs a particular history (unite of a child with its own root).", "anchors": ["include/utils/UnionFind.h: UnionFind::unite, findByHandle"]}
{"id": "C03", "title": "A parallel loop runs its body exactly once per index", "statement": "parallel_for over [first,last) executes the body for every index exactly once and for no other index, whatever the range length, worker count, chunk size factor and chunks per worker; the loop returns only when all bodies have completed; each block of chunk_size_factor consecutive indices stays on one worker.", "quantifier": "all range lengths, thread counts >= 1 worker, chunk factors, chunks-per-worker values, and all interleavings of workers", "why_tests_cant": "The chunk arithmetic has rounding in two places and the completion protocol depends on the schedule; neither can be enumerated.", "anchors": ["include/utils/ThreadPool.h: parallel_for", "src/utils/ThreadPool.cpp: ThreadPool::worker, push_task"]}
{"id": "C04", "title": "Ordered consumer sees every produced item once and in order", "statement": "run_multiple_producers_ordered_consumer consumes exactly the values produced for first, first+1, ..., last-1, each once and in increasing order, for every interleaving of the worker threads; at most one thread is inside the consumer at a time.", "quantifier": "all schedules, all worker counts, all ring sizes >= 1, all range lengths", "why_tests_cant": "Needs all thread interleavings; a stress test only samples schedules.", "anchors": ["include/utils/ThreadPool.h: MultipleProducersOrderedConsumer::run, worker, wait, produce, consume_many"]}
{"id": "C05", "title": "The ordered consumer never overruns its ring buffer", "statement": "At every moment of every execution at most max_pending items are in flight (being produced, stored or consumed), and storing a produced item never overwrites an item that has not been consumed.", "quantifier": "all schedules, worker counts and ring sizes", "why_tests_cant": "An overwrite would need one rare interleaving; only an invariant over all reachable states excludes it.", "anchors": ["include/utils/ThreadPool.h: MultipleProducersOrderedConsumer"]}
{"id": "C06", "title": "The ordered pipeline cannot deadlock", "statement": "In every reachable state of the ordered producer/consumer in which not all items have been consumed, at least one worker can take a step; so if worker threads keep being scheduled, all items are eventually consumed and all workers exit.", "quantifier": "all reachable states over all schedules", "why_tests_cant": "Deadlock freedom is a statement about every reachable state; tests only visit a few.", "anchors": ["include/utils/ThreadPool.h: MultipleProducersOrderedConsumer::wait, worker, consume_many"]}
{"id": "C07", "title": "The pipeline returns only after all work is done", "statement": "run() of the ordered producer/consumer returns only when every worker has finished and every item has been consumed, even if condition variables wake up spuriously (which the C++ standard allows). (The code does NOT satisfy this: it waits with `if`, not `while`.)", "quantifier": "all schedules including spurious wake-ups", "why_tests_cant": "Spurious wake-ups cannot be provoked on demand in a unit test.", "anchors": ["include/utils/ThreadPool.h: MultipleProducersOrderedConsumer::run"]}
{"id": "C08", "title": "Thread pool runs each submitted task once, in FIFO order of start, and join drains the queue", "statement": "Every task pushed to the pool is started exactly once, tasks are started in the order in which they were pushed, and when join returns no task is left unstarted.", "quantifier": "all histories of push/worker/join steps, all interleavings", "why_tests_cant": "Quantifies over schedules.", "anchors": ["src/utils/ThreadPool.cpp: ThreadPool::push, worker, join", "include/utils/ThreadPool.h: ThreadPool::work_while"]}
{"id": "C09", "title": "Coordinates written to G-code denote exactly the internal micrometre value", "statement": "For every 32-bit micrometre coordinate c, the text written for it is a plain decimal number in millimetres that parses back to exactly c/1000, with at most three decimals, no trailing zero after the decimal point and no dangling decimal point.", "quantifier": "all coordinates in the 32-bit range", "why_tests_cant": "There are 2^32 inputs and several digit-count branches; the value range is not enumerable in unit tests and the claim is about each.", "anchors": ["include/utils/string.h: writeInt2mm, MMtoStream"]}
{"id": "C10", "title": "Decimal trimming never changes the number", "statement": "Writing a real number with a given precision yields the same numeric value as the plain fixed-point rendering at that precision, with redundant trailing zeros and a dangling decimal point removed and nothing else changed.", "quantifier": "all fixed-point renderings: any sign, any number of integer digits, any precision including 0", "why_tests_cant": "Unbounded digit strings and precisions.", "anchors": ["include/utils/string.h: writeDoubleToStream"]}
{"id": "C11", "title": "Setting lookup resolves in the documented order", "statement": "Reading a setting returns the value stored in the container itself if there is one; otherwise, if the setting is limited to an extruder, the value seen by that extruder (ignoring the limit for that step); otherwise the value seen by the parent container; otherwise it is an error. Setting a value in one container is immediately visible there and never changes the value another container holds itself.", "quantifier": "every tree of containers, every assignment of values and limits, every key", "why_tests_cant": "The inheritance graph is unbounded and mixes two lookup relations; claims about termination and precedence range over all graphs.", "anchors": ["src/settings/Settings.cpp: Settings::get<std::string>, getWithoutLimiting, add, has"]}
{"id": "C12", "title": "Setting lookup always terminates and agrees with has()", "statement": "For every well-founded parent chain, get(key) terminates with a value exactly when has(key) is true. (The code does NOT satisfy this: with a limit_to_extruder whose extruder lacks the key, has() recurses forever although a parent holds the value, and get() recurses forever if nobody does.)", "quantifier": "every tree of containers and every limit assignment", "why_tests_cant": "Needs the existence of an infinite recursion for some configuration and its absence for all others.", "anchors": ["src/settings/Settings.cpp: Settings::has, get<std::string>, getWithoutLimiting"]}
{"id": "C13", "title": "Base64 encoding is reversible", "statement": "convertTobase64 maps any byte string to a string over the base64 alphabet of length 4*ceil(n/3), padded with '=', from which the RFC 4648 decoding returns the original bytes.", "quantifier": "all byte strings of any length", "why_tests_cant": "Unbounded inputs.", "anchors": ["include/utils/string.h: convertTobase64"]}
{"id": "C14", "title": "Comments cannot inject commands", "statement": "Whatever text is passed to writeComment, every line of what is written starts with ';' and, stripped of these markers, is the text passed in.", "quantifier": "all texts, including embedded newlines", "why_tests_cant": "Unbounded inputs.", "anchors": ["src/gcode_export/gcodeExport.cpp: GCodeExport::writeComment, writeLine"]}
{"id": "C15", "title": "Start/end G-code templates follow if/elif/else/endif semantics", "statement": "Resolving a template that is a well-formed sequence of text, {expression} and {if}/{elif}/{else}/{endif} blocks outputs exactly: text and expression values outside blocks, and of each block only the branch of the first condition that evaluates to true (or the else branch); conditions after the first true one are not evaluated; the result is empty or ends with a newline.", "quantifier": "all templates (any number of blocks and branches) whose expressions have commas only in front of a quote or of an extruder number, and all evaluation environments", "why_tests_cant": "Unbounded templates; a state machine over tokens.", "anchors": ["src/gcode_export/GcodeTemplateResolver.cpp: resolveGCodeTemplate, processExpression, processStatement"]}
{"id": "C16", "title": "A malformed template is returned unchanged", "statement": "If a nested if, an elif/else/endif outside a block, or a failing expression in an active position is met while resolving, the result is the raw input template (newline-terminated); otherwise no part of a {\u2026} marker survives in the output.", "quantifier": "all templates and environments", "why_tests_cant": "Unbounded templates and error positions.", "anchors": ["src/gcode_export/GcodeTemplateResolver.cpp: resolveGCodeTemplate, processExpression"]}
{"id": "C17", "title": "A condition that is not a boolean is treated as true", "statement": "An if/elif condition that evaluates to a non-boolean value selects its branch, as the warning printed by the engine says. (The code does NOT satisfy this: the state is left unchanged, so an if block is then rejected at its endif, and an elif is treated as false.)", "quantifier": "all templates with a non-boolean condition", "why_tests_cant": "Needs the interplay of the state machine with what follows the condition.", "anchors": ["src/gcode_export/GcodeTemplateResolver.cpp: processExpression"]}
{"id": "C18", "title": "The emitted moves put the nozzle where the planner asked", "statement": "For every sequence of travel and extrusion requests, extruder switches and z-hops, a printer that interprets the emitted motion commands (modal X/Y/Z: omitted axes keep their value) is, after each request, at the requested X/Y corrected by the active nozzle offset, and at the requested height.", "quantifier": "all histories of exporter calls and all coordinates", "why_tests_cant": "Omitting unchanged axes makes each line depend on the complete history.", "anchors": ["src/gcode_export/gcodeExport.cpp: writeTravel, writeExtrusion, writeFXYZE, writeMoveBFB, switchExtruder, startExtruder"]}
{"id": "C19", "title": "Lowering after a z-hop returns the nozzle to the layer height", "statement": "After a z-hop start and the corresponding z-hop end, with any speed, height and retract/prime split ratios, the printer's Z is the layer height again. (The code does NOT satisfy this when the hop end is split in two moves: the second Z is suppressed and the nozzle stays partially raised.)", "quantifier": "all heights, layer heights, ratios, speeds and histories", "why_tests_cant": "The failure depends on a hidden position cache.", "anchors": ["src/gcode_export/gcodeExport.cpp: writeZhopStart, writeZhopEnd, writeZhop, writeFXYZE"]}
{"id": "C20", "title": "Absolute and relative extrusion push the same filament", "statement": "For every sequence of exporter calls, the filament position reached by a printer interpreting the emitted E words is the same whether the exporter runs in absolute or in relative extrusion mode, and equals the exporter's own E accounting. (With a non-zero flow-rate extrusion offset the relative mode deviates; the proved part excludes it and a witness shows the deviation.)", "quantifier": "all histories of extrusion, retraction, unretraction, resets and extruder switches", "why_tests_cant": "Depends on full history.", "anchors": ["src/gcode_export/gcodeExport.cpp: writeFXYZE, writeRawRetract, writeUnretractionAndPrime, writeRetraction, resetExtrusionValue"]}
{"id": "C21", "title": "Retraction is neutral for the amount of material extruded", "statement": "Retracting and priming back (any number of times, including at extruder switches and resets) never changes the reported amount of extruded filament, and after an extrusion move the filament is never left retracted; the reported total of an extruder equals the sum of the volumes requested for it plus prime volumes.", "quantifier": "all histories of exporter calls", "why_tests_cant": "Counter resets, switches and retractions interleave arbitrarily.", "anchors": ["src/gcode_export/gcodeExport.cpp: getCurrentExtrudedVolume, getTotalFilamentUsed, resetExtrusionValue, writeRetraction, writeUnretractionAndPrime, switchExtruder"]}
{"id": "C22", "title": "The retraction count limit is enforced", "statement": "Within any window of extrusion shorter than retraction_extrusion_window (volume-wise, as configured) at most retraction_count_max non-forced retractions are emitted.", "quantifier": "all histories of retractions and extrusions", "why_tests_cant": "A sliding window over an unbounded history.", "anchors": ["src/gcode_export/gcodeExport.cpp: writeRetraction"]}
{"id": "C23", "title": "Suppressed duplicate commands never leave the machine in a stale state", "statement": "For fan speed, nozzle and bed temperature, acceleration and jerk: after any sequence of requests, a printer that obeys the emitted commands has exactly the state of the last request (per extruder/fan), although repeated requests are not re-emitted.", "quantifier": "all sequences of requests", "why_tests_cant": "Deduplication depends on full history, including waits, cross-extruder switches and shared heaters.", "anchors": ["src/gcode_export/gcodeExport.cpp: writeFanCommand, writeSpecificFanCommand, writeTemperatureCommand, writeBedTemperatureCommand, writePrintAcceleration, writeTravelAcceleration, writeJerk"]}
{"id": "C24", "title": "The reported print bounding box contains every extruded position", "statement": "The total bounding box reported in the header contains every machine position at which the exporter emitted a move, and is the smallest such box.", "quantifier": "all histories of moves", "why_tests_cant": "Unbounded histories.", "anchors": ["src/gcode_export/gcodeExport.cpp: writeFXYZE, writeMoveBFB", "src/utils/AABB3D.cpp: AABB3D::include"]}
{"id": "C25", "title": "Layer plans are written once each, in order, with bounded look-ahead", "statement": "For any sequence of layers handed to the plan buffer followed by flush, the layers are written to G-code exactly once each in the order handed in, and never more than buffer size + 1 layers are held at a time. (Temperature commands are inserted on the way; that step has undefined behaviour when nozzle temperatures are disabled, and with final print temperatures when the last layer switches extruders after cooling that reaches back over two layers, because flushing inserts its commands a second time.)", "quantifier": "all numbers of layers", "why_tests_cant": "Unbounded sequences.", "anchors": ["src/LayerPlanBuffer.cpp: LayerPlanBuffer::handle, processBuffer, flush, push"]}
{"id": "C26", "title": "Temperature commands are inserted at the requested time before the end", "statement": "Inserting a temperature command a given time before the end of an extruder plan puts it in the path in which that moment falls, with the offset from the start of that path such that the printing time remaining after it equals the requested time; if the plan is shorter, it is put at the very start.", "quantifier": "all plans (any number of paths and durations) and all requested times", "why_tests_cant": "Unbounded lists of durations and arbitrary times.", "anchors": ["src/LayerPlanBuffer.cpp: LayerPlanBuffer::insertPreheatCommand", "src/ExtruderPlan.cpp: ExtruderPlan::insertCommand"]}
{"id": "C27", "title": "Preheat computation ends the standby period at the right temperature", "statement": "The warm-up/cool-down split computed for a window of idle time never plans more heating time than the window, never goes below the standby temperature asked for or above the initial one, and heating from the computed lowest point for the computed time reaches exactly the target temperature; likewise for warming up and cooling down. (False of the code when the window is too short for the plain change of temperature, where no heating is planned, and for the cool-down plan when the middle temperature is not reached, where the shares of heating and cooling are swapped.)", "quantifier": "all windows, temperatures and positive heat-up/cool-down speeds", "why_tests_cant": "Real-valued parameter space.", "anchors": ["src/Preheat.cpp: Preheat::getWarmUpPointAfterCoolDown, getCoolDownPointAfterWarmUp, getTimeToGoFromTempToTemp, getTemp"]}
{"id": "C28", "title": "Wall beads fill the available thickness without overfilling", "statement": "For every strategy combination the factory can build and every thickness and bead count, compute returns as many locations as widths, no negative widths, and the widths plus the left-over never exceed the thickness (except where thin walls are deliberately widened); the even (non-widened) parts are mirror-symmetric.", "quantifier": "all thicknesses, bead counts, widths, thresholds and nestings of strategies", "why_tests_cant": "Integer truncation and nesting of decorators; unbounded parameter space.", "anchors": ["src/BeadingStrategy/*.cpp: compute, getOptimalBeadCount, getOptimalThickness, getTransitionThickness", "src/BeadingStrategy/BeadingStrategyFactory.cpp: makeStrategy"]}
{"id": "C29", "title": "Path ordering prints every path exactly once and respects order requirements", "statement": "The optimised order is a permutation of the added paths, and whenever it was required that one path precede another it does, for every acyclic set of order requirements and for every choice made by the nearest-path heuristic (with and without outer-wall grouping, forward and reversed). (Order requirements about values that were not added, or with paths that have no vertices, are undefined behaviour in the code, and cyclic ones drop paths; shown by witnesses.)", "quantifier": "all path sets, all acyclic order relations, all geometric choices", "why_tests_cant": "The greedy traversal depends on distances and hash order; permutations are unbounded.", "anchors": ["include/PathOrderOptimizer.h: PathOrderOptimizer::optimize, getOptimizedOrder, getOptimizerOrderWithConstraints, reverseOrderPaths"]}
{"id": "C30", "title": "The minimum spanning tree really spans and is minimal", "statement": "For every list of distinct points the tree has n-1 edges, connects all points and has minimal total length among all spanning trees; adjacentNodes and leaves report exactly its neighbours and degree-one vertices. (Duplicate points are undefined behaviour in the code; shown by a witness.)", "quantifier": "all finite sets of distinct points", "why_tests_cant": "Unbounded point sets; ties make many trees possible.", "anchors": ["src/utils/MinimumSpanningTree.cpp: MinimumSpanningTree::prim, adjacentNodes, leaves, vertices"]}
{"id": "C31", "title": "Slice heights are strictly increasing and follow the tolerance mode", "statement": "For every positive layer thickness and initial thickness, the slicing heights of the layers are strictly increasing and layer n is at the height documented for the tolerance mode; with adaptive layers they are the adaptive positions.", "quantifier": "all layer counts, thicknesses and modes", "why_tests_cant": "Unbounded layer counts.", "anchors": ["src/slicer.cpp: Slicer::buildLayersWithHeight"]}
{"id": "C32", "title": "Slicing a closed mesh yields closed contours", "statement": "For every closed, consistently oriented triangle mesh and every slicing plane, the directed segments produced by the triangles form a closed contour: at each mesh edge or vertex where the plane cuts the mesh as many segments end as start, including when vertices, edges or whole triangles lie exactly on the plane.", "quantifier": "all closed meshes and all planes, including degenerate positions", "why_tests_cant": "The degenerate cases are combinatorial over all meshes.", "anchors": ["src/slicer.cpp: Slicer::buildSegments, buildZHeightsForFaces, project2D"]}
{"id": "C33", "title": "Cut points are accurate", "statement": "The coordinate computed for the intersection of a mesh edge with a plane differs from the exact intersection by less than one unit, is exact when the plane passes through an end point, stays within the coordinate range of the edge, and differs by at most one unit when the edge is traversed in the other direction.", "quantifier": "all edges and planes between the edge's end points", "why_tests_cant": "Integer division rounding with all sign combinations.", "anchors": ["src/slicer.cpp: Slicer::interpolate"]}
{"id": "C34", "title": "Polygon building uses every segment exactly once", "statement": "Connecting segments into loops terminates and puts each segment in exactly one loop or open polyline, consecutive segments in a chain are connected across the recorded face/vertex adjacency with a gap shorter than the first-phase tolerance, and chains reported as polygons return to their first segment.", "quantifier": "all segment sets and adjacency tables, including inconsistent ones", "why_tests_cant": "Unbounded, includes malformed meshes.", "anchors": ["src/slicer.cpp: SlicerLayer::makeBasicPolygonLoops, makeBasicPolygonLoop, getNextSegmentIdx, tryFaceNextSegmentIdx"]}
{"id": "C35", "title": "Stitching loses no geometry and bridges only small gaps", "statement": "Joining open polylines conserves the points: the points of all polygons and polylines afterwards are those before; each original polyline survives as a contiguous (possibly reversed, and not reversed in the first phase) piece; each newly created connection is between two original end points closer than the maximum distance and each end point is used at most once.", "quantifier": "all sets of polylines, all maximum distances", "why_tests_cant": "Bookkeeping maps are updated after each join; correctness depends on the whole history of joins.", "anchors": ["src/slicer.cpp: SlicerLayer::connectOpenPolylinesImpl, planPolylineStitch, joinPolylines, TerminusTrackingMap::updateMap, findPossibleStitches"]}
{"id": "C36", "title": "The stitch priority is a proper ordering", "statement": "The comparison used to order possible stitches in the priority queue is a strict weak ordering, as the standard library requires. (The code does NOT satisfy this: two equally long stitches can each compare less than the other.)", "quantifier": "all pairs and triples of stitches", "why_tests_cant": "Order axioms quantify over all triples.", "anchors": ["src/slicer.cpp: SlicerLayer::PossibleStitch::operator<"]}
{"id": "C37", "title": "Adaptive layers tile the model height with allowed layer heights", "statement": "For every model, the adaptive layers start with the initial layer height, every further layer uses one of the allowed heights (base +- variation in whole steps, positive), each z position is the sum of the heights so far, the computation terminates, and the last layer is above the model top while the one before is not (apart from the minimum of two layers).", "quantifier": "all models (any face slopes and extents) and all positive step sizes", "why_tests_cant": "Loop over the model height with data-dependent choices.", "anchors": ["src/settings/AdaptiveLayerHeights.cpp: calculateAllowedLayerHeights, calculateLayers"]}
{"id": "C38", "title": "Grid lookup never misses a nearby element", "statement": "A radius query on a spatial grid visits every stored element whose location is within the (square) radius of the query point, for any positive cell size and any coordinates including negative ones; the nearest-element query returns an element with minimal distance among those closer than the radius, or nothing if there is none.", "quantifier": "all element sets, cell sizes, query points and radii", "why_tests_cant": "Truncating division around zero and unbounded coordinates.", "anchors": ["src/utils/SquareGrid.cpp: toGridCoord, processNearby", "include/utils/SparseGrid.h: getNearby, getNearest, processNearby", "include/utils/SparsePointGrid.h: insert"]}
{"id": "C39", "title": "Bounding boxes are exact", "statement": "The box computed for a set of points contains exactly the points within the coordinate-wise extremes; adding points is order independent; two boxes are reported as hitting exactly when they share a point (the documentation says boundary contact is excluded - the code includes it); a box contains another exactly when it contains all its points.", "quantifier": "all finite point sets and all pairs of boxes", "why_tests_cant": "Unbounded sets; algebraic laws.", "anchors": ["src/utils/AABB.cpp: include, contains, hit, calculate, area, expand", "src/utils/AABB3D.cpp: include, hit, offset, expandXY"]}
{"id": "C40", "title": "The time estimate is physically consistent", "statement": "For every sequence of moves, each planned block has an acceleration, cruise and deceleration phase that do not overlap and together cover its length, entry speeds never exceed the nominal speed or what can be decelerated from over the remaining blocks, and the estimated total is the non-negative sum over features; the time of a block is that of the run with these phases at constant acceleration. (Moves must not be slower than 0.05 mm/s, the planner's least speed; where a junction must be passed below it, the planned speeds may differ from reachable ones by that speed: witnesses.)", "quantifier": "all move sequences, feed rates, accelerations and jerks (over the reals)", "why_tests_cant": "Unbounded look-ahead.", "anchors": ["src/timeEstimate.cpp: plan, plannerReversePass, plannerForwardPass, recalculateTrapezoids, calculateTrapezoidForBlock, calculate"]}
{"id": "C41", "title": "Layer numbers and storage positions correspond one to one", "statement": "A layer container with raft layers gives each layer number from minus the raft count upwards its own slot, out-of-range numbers are detected by the checked accessors, and iteration visits the layers in increasing order.", "quantifier": "all raft counts, sizes and layer numbers", "why_tests_cant": "Index arithmetic with negative numbers over unbounded ranges.", "anchors": ["include/utils/LayerVector.h: LayerVector"]}
{"id": "C42", "title": "Escaped text can be read back", "statement": "Reading the text streamed through Escaped as the content of a C string literal returns the original text.", "quantifier": "all NUL-free texts", "why_tests_cant": "Unbounded inputs.", "anchors": ["include/utils/string.h: Escaped"]}
{"id": "C43", "title": "Case-insensitive comparison identifies exactly the strings equal up to ASCII case", "statement": "stringcasecompare returns 0 exactly when the two strings are equal after lowering ASCII letters, and swapping its arguments negates the result.", "quantifier": "all pairs of NUL-terminated strings", "why_tests_cant": "Unbounded inputs.", "anchors": ["include/utils/string.h: stringcasecompare"]}
{"id": "C44", "title": "The zero test agrees with what is written", "statement": "wouldWriteZero(value, precision) is true exactly when the number written for the value at that precision is zero.", "quantifier": "all finite values and precisions 0..9", "why_tests_cant": "Uncountably many values; the disagreement sits in half a unit of the last place.", "anchors": ["include/utils/string.h: PrecisionedDouble::wouldWriteZero, writeDoubleToStream"]}
{"id": "C45", "title": "A misspelt value of an enumeration setting is recognised as unknown", "statement": "Reading an enumeration setting returns the enumerator whose name equals the stored text, and the documented default for every other text. (The code compares 64-bit hashes, so this holds for all names and for every text differing from a name in one character, but not for all texts: a colliding text selects an enumerator.)", "quantifier": "all texts", "why_tests_cant": "The hash has collisions, but finding or excluding them needs reasoning about all strings.", "anchors": ["src/settings/Settings.cpp: Settings::get<EPlatformAdhesion> and the other enumeration getters", "include/utils/types/string_switch.h: hash_enum"]}
{"id": "C46", "title": "Integer and flag settings read back the number written", "statement": "For the decimal text of an integer (with leading blanks and trailing garbage) the integer getter returns that integer, the flag getter is true exactly for non-zero, and the layer-number getter returns one less.", "quantifier": "all integers and texts of that form", "why_tests_cant": "Unbounded inputs.", "anchors": ["src/settings/Settings.cpp: Settings::get<int>, get<bool>, get<LayerIndex>"]}
{"id": "C47", "title": "Every emitted move is executed at the requested speed", "statement": "After a travel or extrusion call that writes a line, the printer's feed rate (the last F word it received) is sixty times the requested speed, whatever calls came before. (Not for the BFB flavour, which sets its own rates.)", "quantifier": "all histories of exporter calls, all requested speeds", "why_tests_cant": "F words are omitted when the exporter believes the speed unchanged, so correctness depends on the whole history.", "anchors": ["src/gcode_export/gcodeExport.cpp: writeFXYZE, writeTravel, writeExtrusion, writeUnretractionAndPrime, writeRetraction"]}
{"id": "C48", "title": "A wipe returns the nozzle to where it came from", "statement": "After the nozzle-wipe script the nozzle is at the X, Y and height it had before. (False of the code when the nozzle was raised by a z-hop and the wipe does not hop: it ends higher by the hop.)", "quantifier": "all histories, all wipe settings, any number of strokes", "why_tests_cant": "Unbounded strokes and histories; interplay with a hop in progress.", "anchors": ["src/gcode_export/gcodeExport.cpp: insertWipeScript, writeZhopStart, writeZhopEnd"]}
{"id": "C49", "title": "Outlines of a watertight model are closed before any stitching", "statement": "Loading the triangles of a solid (each directed edge in one triangle, its opposite in another, different corners more than the melding distance apart) and slicing it at any height, the first phase of polygon building makes closed polygons only, so nothing is left to be stitched. (False of the code when a segment shorter than the gap tolerance ends at a vertex that lies exactly on the plane: it is taken for a polygon of its own.)", "quantifier": "all watertight triangle lists, all heights and tolerance modes, all hash functions of the vertex table", "why_tests_cant": "Needs a global argument over all meshes: that a walk along the segments can only get stuck where it began.", "anchors": ["src/mesh.cpp: Mesh::addFace, findIndexOfVertex, finish, getFaceIdxWithPoints", "src/slicer.cpp: Slicer::buildSegments, SlicerLayer::makeBasicPolygonLoop, getNextSegmentIdx"]}
{"id": "C50", "title": "Thicker walls never get fewer lines, and no line is narrower than allowed", "statement": "For every strategy the factory can build: the optimal number of lines is at most one more than allowed and does not decrease with the thickness; it rises above n at the thickness that the strategy reports for the transition from n to n + 1 lines; and at the optimal number no line is narrower than the thresholds for adding or splitting the middle line allow.", "quantifier": "all thicknesses, widths, thresholds and limits", "why_tests_cant": "Two separately written computations (number and transition thickness) must agree for every thickness; unbounded parameter space.", "anchors": ["src/BeadingStrategy/*.cpp: getOptimalBeadCount, getTransitionThickness, getOptimalThickness, compute", "src/BeadingStrategy/BeadingStrategyFactory.cpp: makeStrategy"]}
{"id": "C51", "title": "A line laid over the grid visits exactly the cells it touches", "statement": "Walking a line through the grid visits every cell that contains a point of the line, only cells the line touches, none twice, starts in the start cell, and always ends in the end cell (the assertion behind the loop is unreachable). So a query along a line returns every stored line that shares a point with it, and a radius query on a line grid returns every line that comes within the square radius.", "quantifier": "all cell sizes, all integer end points (negative ones included), all sets of stored lines", "why_tests_cant": "Truncating division around zero, slopes and unbounded lengths: a missed cell shows only for special lines.", "anchors": ["src/utils/SquareGrid.cpp: processLineCells", "include/utils/SparseGrid.h: processLine, processNearby", "include/utils/SparseLineGrid.h: insert"]}
{"id": "C52", "title": "Raft layers are numbered without gaps below the model", "statement": "With a raft, the negative layer numbers are from the build plate up one base layer, the configured interface layers, the configured surface layers and then the filler layers, whose number is the one whose heights come nearest to the air gap; every layer from 0 up belongs to the model. Without a raft there are no extra layers.", "quantifier": "all settings and all layer numbers", "why_tests_cant": "Several separately computed counts must fit together for all values.", "anchors": ["src/raft.cpp: getLayerType, getTotalExtraLayers, getFillerLayerCount, getFillerLayerHeight, getZdiffBetweenRaftAndLayer0, getLayersAmount"]}
{"id": "C53", "title": "The rounding divisions round as their names say", "statement": "The signed divisions give the largest integer not above, the smallest not below, and a nearest integer to the exact quotient (halves away from zero) for every sign combination; likewise the unsigned ones. (Division by zero is undefined behaviour: the documented exception is never thrown.)", "quantifier": "all dividends and divisors that do not overflow", "why_tests_cant": "Infinite domain with sign cases.", "anchors": ["include/utils/math.h: round_divide_signed, ceil_divide_signed, floor_divide_signed, round_divide, round_up_divide"]}
{"id": "C54", "title": "Temperature commands are written once, in order and not late", "statement": "When an extruder plan is written, every move is written once in order and every inserted temperature command exactly once, those for the same moment in the order of their insertion, never later than before the move during which its moment falls and never before its path starts. (It can be written too early within its path: at the start of a path the code compares with the duration of the path before.)", "quantifier": "all plans, all lists of commands in any order", "why_tests_cant": "Unbounded lists; the merge of sorted commands with moves depends on all offsets.", "anchors": ["src/LayerPlan.cpp: LayerPlan::writeGCode", "src/ExtruderPlan.cpp: ExtruderPlan::handleInserts, handleAllRemainingInserts"]}
{"id": "C55", "title": "No nozzle is ever told to leave its configured temperature range", "statement": "If the temperatures configured for an extruder (printing, first layer, initial, final, minimum for cool layers, standby) lie in a range and standby is the lowest of them, every temperature command in the written layers lies in the range of its extruder, widened only by the temperature differences of the paths. (Needed: with standby above the initial temperature the code can plan a temperature below all configured ones.)", "quantifier": "all sequences of layers and extruder plans, all settings", "why_tests_cant": "Commands come from five places and are computed from times and temperatures of arbitrarily many earlier plans.", "anchors": ["src/LayerPlanBuffer.cpp: insertTempCommands, insertPreheatCommand_multiExtrusion, computeStandbyTempPlan, insertFinalPrintTempCommand, insertPrintTempCommand, insertInLayerTempCommands", "src/Preheat.cpp: getWarmUpPointAfterCoolDown"]}
{"id": "C56", "title": "Estimated moves respect the limits of the machine", "statement": "For every move the time estimate uses the requested speed, reduced only as far as needed so that no axis exceeds its maximum speed; an acceleration not above the requested one and on no axis above its maximum; and at the junction with the previous move a speed that keeps the change of speed of every axis within its jerk. (The part on acceleration does not hold for moves that extrude more than they move: witness.)", "quantifier": "all moves, histories of moves and settings", "why_tests_cant": "Unbounded histories; real-valued limits on four axes interact.", "anchors": ["src/timeEstimate.cpp: TimeEstimateCalculator::plan"]}
{"id": "C57", "title": "Short layers are slowed down to the minimum layer time", "statement": "A layer that is estimated to take less than the minimum layer time (the largest of its extruders; a different one with long overhangs) is printed more slowly: the moves stay the same, no extrusion gets faster, travels keep their speed, no extrusion gets slower than the minimum speed, and afterwards the layer with its final wait takes the minimum layer time up to a hundredth of a second, and no longer; it waits only if all extrusions already have the minimum speed. A layer that takes long enough stays as it is. (Several parts hold only under conditions, each with a witness: layers that need less slow-down than to their slowest speed come out too short; with several extruders the wait ignores the other ones.)", "quantifier": "all layers: any number of extruder plans, paths and moves, all speeds and settings", "why_tests_cant": "Unbounded lists; the solution of a rational equation for the common speed must be right for all lengths and speeds.", "anchors": ["src/LayerPlan.cpp: LayerPlan::processFanSpeedAndMinimalLayerTime, ExtruderPlan::forceMinimalLayerTime, computeNaiveTimeEstimates", "include/pathPlanning/TimeMaterialEstimates.h"]}
{"id": "C58", "title": "The fan follows the layer number and the layer time", "statement": "The fan speed rises linearly from the first layer's to the regular one at the configured layer, and in layers shorter than the configured threshold on to the maximum, which it has exactly when the layer takes no longer than the minimum layer time; it never leaves the range of the configured speeds; a path with its own fan speed is printed with that one, other extrusions with the one of the layer, and travels do not change the fan. (Needs a threshold above the minimum layer time: otherwise short layers get the regular speed.)", "quantifier": "all layers, layer numbers, settings and paths", "why_tests_cant": "Piecewise linear in three unbounded parameters; the time compared is the one after slowing down.", "anchors": ["src/LayerPlan.cpp: processFanSpeedForMinimalLayerTime, processFanSpeedForFirstLayers, LayerPlan::writeGCode", "src/pathPlanning/GCodePath.cpp: getFanSpeed", "include/FanSpeedLayerTime.h"]}
{"id": "C59", "title": "Back pressure compensation keeps speeds between the nominal and the flow-equalising one", "statement": "Travels, bridges and paths without width keep their speed. For the others compensation 0 keeps the speed, compensation 1 makes the speed inversely proportional to the width (so the flow is that of a line of nominal width), values in between give speeds in between, and the speed never drops below a thousandth.", "quantifier": "all paths, widths and compensation factors", "why_tests_cant": "Infinite domain.", "anchors": ["src/ExtruderPlan.cpp: applyBackPressureCompensation"]}
{"id": "C60", "title": "Gradual flow keeps the route", "statement": "Limiting the flow acceleration splits moves and lowers speeds, and does nothing else: every move is replaced with moves of the same kind that lead from its start to its end along the same line (up to a unit of rounding for each split), none faster than before and none with speed zero; travels stay exactly as they are, a plan whose extrusions all have the same flow stays as it is, and the splitting ends for every plan.", "quantifier": "all plans: any number of paths and points, all speeds, volumes, accelerations and step sizes above zero", "why_tests_cant": "Unbounded lists, two passes in opposite directions that split each other's pieces; rounding of every split point.", "anchors": ["include/gradual_flow/Processor.h: process", "include/gradual_flow/FlowLimitedPath.h: FlowLimitedPath::partition, toClassicPath, GCodeState::processGcodePaths, processGcodePath"]}
{"id": "C61", "title": "With gradual flow the flow changes gradually", "statement": "From one extrusion to the next the flow changes at most by the maximum flow acceleration times the step size, up and down, except upwards after a retraction or a travel longer than the reset duration; the layer ends at most one such step above the flow of its first extrusion; and a flow is kept at least for one step before it is raised again. (The last part is false of the code: witness.)", "quantifier": "all plans, accelerations and step sizes", "why_tests_cant": "Unbounded sequences of paths; the state (flow and time left of the step) is carried over all of them in two passes.", "anchors": ["include/gradual_flow/FlowLimitedPath.h: GCodeState::processGcodePaths, processGcodePath", "include/gradual_flow/Processor.h: process"]}
{"id": "C62", "title": "Every layer is printed with the extruders it needs, with few tool changes", "statement": "On every layer every extruder that has something to print there (walls, infill, skin, support, skirt, brim or raft) has exactly one turn; without prime tower an extruder with nothing to print has none; the layer begins with the extruder that was used last if that one has something to print there, so that no order of the same extruders needs fewer tool changes; and the layer plan begins with the extruder with which the layer before it ended. (Completeness is false for spiralized models and the gap above a raft: witnesses.)", "quantifier": "all settings, any number of extruders, models, parts and layers, with and without raft, support and prime tower", "why_tests_cant": "The flags of all meshes, layers and features combine; the last extruder is carried through all layers.", "anchors": ["src/FffGcodeWriter.cpp: calculateExtruderOrderPerLayer, getUsedExtrudersOnLayer, findUsedExtruderIndex", "src/sliceDataStorage.cpp: getExtrudersUsed"]}
{"id": "C63", "title": "Extruders are primed before they print", "statement": "No extruder has a turn in the print before it was primed: extruders with a prime blob are primed at the start of the print, the others right before their turn on the layer on which they are first used. (False if that turn is the first of its layer, and for extruders that print on a prime tower before that layer: witnesses.)", "quantifier": "all prints: any number of layers and extruders, raft or not, prime tower or not", "why_tests_cant": "The first use depends on all layers; a missed prime shows only in multi-material prints with unusual settings.", "anchors": ["src/FffGcodeWriter.cpp: setExtruder_addPrime, calculatePrimeLayerPerExtruder, processLayer, startRaftLayer, endRaftLayer"]}
{"id": "C64", "title": "The prime tower is there whenever an extruder must be primed", "statement": "Above the height of the prime tower at most one extruder prints; up to that height each tool change on a layer primes the new extruder on the tower, with the normal tower every extruder of the print also prints its part of the tower on each of these layers, and the interleaved tower has something to print on every layer, so that it never hangs in the air. (The height misses support on the first layer: witness.)", "quantifier": "all prints: any number of layers and extruders", "why_tests_cant": "The height is the second largest of the heights of all extruders, over all meshes, support and adhesion.", "anchors": ["src/FffPolygonGenerator.cpp: computePrintHeightStatistics", "src/PrimeTower/PrimeTowerNormal.cpp: getExtruderPrime", "src/PrimeTower/PrimeTowerInterleaved.cpp: getExtruderPrime, polishExtrudersUses"]}
{"id": "C65", "title": "Overlapping models are printed once", "statement": "Where models overlap, every point of a layer is printed as part of exactly one of them: the one with the lowest mesh order; of models with the same order the first, or with alternating order on every other layer the last. Nothing that a model covers is lost, and infill meshes, support meshes and surfaces stay as they are. (False where outlines were made wider than the bounding box of their model: witness.)", "quantifier": "any number of models, orders and layers, and all outlines", "why_tests_cant": "Each pair of models is carved in place and in sequence; the result for a point depends on all pairs.", "anchors": ["src/multiVolumes.cpp: carveMultipleVolumes", "src/utils/AABB3D.cpp: hit"]}
{"id": "C66", "title": "Cutting meshes only hand over areas", "statement": "What cutting meshes cover is removed from the meshes they cut and given to exactly one cutting mesh, and nothing outside the cut meshes is printed because of a cutting mesh: a cutting mesh without extruder of its own gets what it covers of the cut meshes unless an earlier one of that kind did, one with its own extruder gets the rest of what it covers unless a later one does.", "quantifier": "any number of meshes and layers, all outlines, all combinations of kinds of meshes", "why_tests_cant": "Every cutting mesh changes the meshes the later ones cut, and becomes such a mesh itself.", "anchors": ["src/multiVolumes.cpp: MultiVolumes::carveCuttingMeshes"]}
{"id": "C67", "title": "Infill meshes replace infill", "statement": "An infill mesh takes exactly its outline out of the infill of the meshes before it, and is printed exactly there; so whatever the order of models and infill meshes, no point gets infill more often than there are models covering it, and none of the infill area gets lost.", "quantifier": "any sequence of models and infill meshes, any number of parts, all outlines", "why_tests_cant": "The infill of each mesh is changed by all later infill meshes, which may overlap each other.", "anchors": ["src/FffPolygonGenerator.cpp: processInfillMesh, processBasicWallsSkinInfill"]}
{"id": "C68", "title": "Skin closes every surface, infill is inside", "statement": "The area inside the walls is divided into skin and infill: they do not overlap, everything is in one of them except infill areas that are too small, and infill stays inside the walls. No infill is nearer to an upper surface than the number of top layers or to a lower one than the number of bottom layers, except where the exposed area is too small; and without expansion there is skin only where it is needed for that or in narrow gaps. (The last two for settings that do not remove or shrink skin or ignore gaps.)", "quantifier": "all layers, outlines, numbers of layers, widths and expansions", "why_tests_cant": "Skin depends on all layers within the top and bottom distance, on six offsets and two removals of small areas.", "anchors": ["src/skin.cpp: generateSkinAndInfillAreas, calculateTopSkin, calculateBottomSkin, applySkinExpansion, applySkinFillSmallInfillGaps"]}
{"id": "C69", "title": "Skin is divided into roofing, flooring and the rest", "statement": "Every part of the skin is printed as roofing, flooring or plain skin, never as two of them: roofing where there is air within the roofing layers above, flooring where there is air within the flooring layers below. (That all of it is printed is false with roofing and two or more layers of flooring: witness.)", "quantifier": "all layers, outlines, numbers of roofing and flooring layers", "why_tests_cant": "The areas depend on many layers and on settings of both kinds at once.", "anchors": ["src/skin.cpp: generateSkinRoofingFlooringFill, generateFilledAreaAbove, generateFilledAreaBelow", "src/utils/polygonUtils.cpp: mergeThinOverlap"]}
{"id": "C70", "title": "Outer surfaces for combing", "statement": "The top-most surface of a part is exactly what has nothing on the layer above, and the bottom-most surface exactly what has nothing on the layer below. (The second is false: witness.)", "quantifier": "all layers and outlines", "why_tests_cant": "It must hold for every pair of layers.", "anchors": ["src/skin.cpp: generateTopAndBottomMostSurfaces", "src/LayerPlan.cpp: computeCombBoundary"]}
{"id": "C71", "title": "Gradual infill halves the density with each step", "statement": "With gradual infill the density of the infill lines at a place is the full one divided by two for every full step height of infill above it, up to the number of steps; the computation ends for all settings. (False for connected patterns other than cross, and for steps of less than half a layer: witnesses.)", "quantifier": "all layers, parts, infill areas, step heights and numbers of steps", "why_tests_cant": "The areas of the densities overlap and their line distances add up; the number of layers looked at is unbounded.", "anchors": ["src/skin.cpp: generateGradualInfill", "src/FffGcodeWriter.cpp: processSingleLayerInfill"]}
{"id": "C72", "title": "Combined infill layers fill every layer once", "statement": "If the infill of several layers is printed at once with greater thickness, the infill area of every layer is still filled exactly once at every place, and infill that is on all layers of a group is printed once with their whole thickness. (False where an infill mesh has taken infill away: witness.)", "quantifier": "any number of layers and parts, all infill areas, all thicknesses", "why_tests_cant": "Each layer is changed by the layers above and below it in turn.", "anchors": ["src/skin.cpp: combineInfillLayers"]}
{"id": "C73", "title": "Infill as support holds up what it should", "statement": "With infill only as support, the uppermost layer keeps its infill; a layer keeps all infill that is below kept infill, and all that is not below the inside of the layer above by more than the overhang distance; it keeps nothing else and never gains infill, so kept infill stands on a column of infill.", "quantifier": "any number of layers and parts, all infill areas and angles", "why_tests_cant": "What a layer keeps depends on what all layers above kept.", "anchors": ["src/skin.cpp: generateInfillSupport"]}
{"id": "C74", "title": "Support stays clear of models", "statement": "Support is never where a model is on the same layer, and keeps the X/Y distance from all models, or where the Z distance has priority the minimum X/Y distance. (False for the distance from other meshes if the Z distance has priority, and where models overlap: witnesses.)", "quantifier": "all models, layers and support settings", "why_tests_cant": "It must hold for all shapes, on every layer, after eight steps that each change the areas.", "anchors": ["src/support.cpp: generateSupportAreasForMesh", "src/sliceDataStorage.cpp: getLayerOutlines"]}
{"id": "C75", "title": "Distance between support and model in height", "statement": "Between support and a model above it there are at least as many empty layers as the top distance takes, and between support and a model below it at least as many as the bottom distance takes. (Only true of the layer at exactly the distance: witnesses.)", "quantifier": "all models, layers and distances", "why_tests_cant": "The layers between are not looked at by the code one by one.", "anchors": ["src/support.cpp: generateSupportAreasForMesh, moveUpFromModel"]}
{"id": "C76", "title": "Overhang is supported, and nothing else", "statement": "Whatever overhangs the layers below by more than the support angle allows has support below it, from the top distance down to the build plate or to the bottom distance above a model, unless it is too narrow to be printed or a support blocker is there; and wherever there is support there is overhang above it with no model in between. (False with stairs and no distance: witness.)", "quantifier": "all models, layers, support angles and distances", "why_tests_cant": "Support on a layer depends on all layers above and on several below.", "anchors": ["src/support.cpp: computeBasicAndFullOverhang, generateSupportAreasForMesh, moveUpFromModel, join"]}
{"id": "C77", "title": "Support interface divides support", "statement": "Support roofs, bottoms and the rest of support never overlap, lie in the area of support, and together cover it except above roofs; where the model is within the roof layers above or the bottom layers below, there is no ordinary support.", "quantifier": "any number of meshes with any interface settings, all layers and areas", "why_tests_cant": "Each mesh changes what the ones before it left.", "anchors": ["src/support.cpp: generateSupportRoof, generateSupportBottom, generateSupportInterfaceLayer, splitGlobalSupportAreasIntoSupportInfillParts", "src/sliceDataStorage.cpp: fillInfillParts"]}
{"id": "C78", "title": "Support on the build plate only", "statement": "If support is allowed on the build plate only, it stands on the build plate: below every point of support there is support on all layers. (False where the top distance is cut out of it: witness.)", "quantifier": "all models, layers and distances", "why_tests_cant": "A column has any number of layers.", "anchors": ["src/support.cpp: generateSupportAreasForMesh"]}
{"id": "C79", "title": "No support of a single layer", "statement": "Support at a place above the first layer is never on one layer alone: there is also support there on the layer above or below.", "quantifier": "all models, layers and support settings", "why_tests_cant": "The loop that removes such layers changes the layers it looks at.", "anchors": ["src/support.cpp: generateSupportAreasForMesh"]}
{"id": "C80", "title": "Horizontal expansion of support", "statement": "A horizontal expansion widens support by the distance that is set; a negative one makes it narrower. (It is always wider than set, and a negative one has no effect: witnesses.)", "quantifier": "all areas, distances and line widths", "why_tests_cant": "The expansion is made of steps whose number depends on the distance and the line width.", "anchors": ["src/support.cpp: generateSupportAreasForMesh"]}
{"id": "C81", "title": "Support blockers", "statement": "There is no support for overhang inside of a support blocker. (False within some distance of its border: witness.)", "quantifier": "all models, blockers, layers and support settings", "why_tests_cant": "It must hold for all shapes and layers.", "anchors": ["src/support.cpp: computeBasicAndFullOverhang"]}
{"id": "C82", "title": "Support meshes are printed as support", "statement": "A support mesh is printed as support on all its layers, where it does not come near a model. (False for the last layers of the print: witness.)", "quantifier": "all support meshes, models, layers and settings", "why_tests_cant": "It goes through all steps of support generation.", "anchors": ["src/support.cpp: generateSupportAreasForMesh, handleSupportModifierMesh"]}
{"id": "C83", "title": "Brim and prime tower are taken out of support", "statement": "Taking an area out of support removes exactly that area: it is in no part any more, all else is in as many parts as before and is printed in the same way; and it has defined behaviour for any number of islands. (Undefined for three or more islands of a part, and the line distance of a part may be lost: witnesses.)", "quantifier": "all parts, areas, islands and capacities of the vector", "why_tests_cant": "The vector is changed while a reference to an element is held; whether it moves depends on its capacity.", "anchors": ["src/sliceDataStorage.cpp: excludeAreasFromSupportInfillAreas", "src/SkirtBrim.cpp", "src/PrimeTower/PrimeTower.cpp"]}
{"id": "C84", "title": "Binary STL files are read exactly", "statement": "A binary STL file, or an object from the front end, becomes a mesh of exactly its triangles, in their order and orientation, with each corner at the nearest micrometre to where the file and the transformation put it, whatever its header, normals and attributes are; a file that is too short is refused. (Undefined for coordinates that are not finite and for short texture data, misread for some headers: witnesses.)", "quantifier": "all files, transformations and numbers of triangles", "why_tests_cant": "Files have any number of triangles with any coordinates, and any header.", "anchors": ["src/MeshGroup.cpp: loadMeshSTL, loadMeshSTL_binary", "src/utils/Matrix4x3D.cpp: apply", "src/communication/ArcusCommunicationPrivate.cpp: readMeshGroupMessage"]}
{"id": "C85", "title": "STL files in text format are read exactly", "statement": "An STL file in text format becomes a mesh of exactly its triangles, with any white space, line ends, names and forms of numbers. (False for lines of 1024 bytes or more and for keywords in capital letters: witnesses.)", "quantifier": "all files and transformations", "why_tests_cant": "Texts have any number of lines in any layout.", "anchors": ["src/MeshGroup.cpp: fgets_, loadMeshSTL_ascii, loadMeshSTL"]}
{"id": "C86", "title": "OBJ files are read exactly", "statement": "An OBJ file becomes a mesh of exactly the triangles that its faces describe; a file without any is refused, and no file ends the program. (False for relative indices, vertices with more than three numbers or blanks behind them, the line ends of Windows, and numbers that do not fit: witnesses.)", "quantifier": "all files and transformations", "why_tests_cant": "Texts have any number of lines in any layout; faces refer to vertices anywhere above.", "anchors": ["src/MeshGroup.cpp: loadMeshOBJ, loadMeshIntoMeshGroup"]}
{"id": "C87", "title": "Models are placed and scaled as set", "statement": "In a group with at least one model, every mesh is moved by its position and the origin of the build plate, or centred there with its bottom at its height; then all meshes are scaled by the shrinkage factors from the common centre and from the build plate, each coordinate to less than a micrometre. Without shrinkage the move is exact, and bounding boxes stay the smallest ones.", "quantifier": "all groups of meshes, positions and factors", "why_tests_cant": "Any number of meshes with any vertices contribute to the common centre.", "anchors": ["src/MeshGroup.cpp: finalize, scaleFromBottom, min, max", "src/utils/Matrix4x3D.cpp: scale, apply", "src/mesh.cpp: transform", "include/mesh.h: translate"]}
{"id": "C88", "title": "A mold encloses its model and nothing else", "statement": "With mold_enabled, the printed mold never is where a model is that is to be cast; around the model it has walls of the set width, and above it a roof of the set height; its outside does not overhang by more than the set angle; every point of it is within the width of its model, on a layer above or at most the height of the roof below. Other meshes are printed as they are. (There is no roof above open surfaces, and a gap below the roof of thin parts: witnesses.)", "quantifier": "all meshes, layers and settings", "why_tests_cant": "Each layer depends on all layers above it and on all other molds.", "anchors": ["src/Mold.cpp: Mold::process"]}
{"id": "C89", "title": "Conical overhang makes every overhang printable", "statement": "With conical_overhang_enabled, nothing of the model is removed and the top layer stays; no layer sticks out over the layer below by more than the angle allows; what is added is below the model; small holes that are covered from above stay open. With a negative angle the model gets wider towards the bottom by what the angle says. (Small holes are closed for angles of about 0 or below: witnesses.)", "quantifier": "all models, layers, holes and angles", "why_tests_cant": "Each layer depends on all layers above it.", "anchors": ["src/ConicalOverhang.cpp: ConicalOverhang::apply"]}
{"id": "C90", "title": "Settings on the command line apply to what they follow", "statement": "A setting on the command line applies to what was named last before it: everything, an extruder, a mesh group or a model; of several values the last one counts. Models belong to the group after the last --next and to the extruder named last, and there are as many extruders as the machine or the options say, numbered from 0. Definition files count as settings at their place. (Not so for extruders out of order, more extruders than the vector has room for, the placing of all but the last group, and the rotation of a model: witnesses.)", "quantifier": "all command lines of documented items, all definition files and search paths", "why_tests_cant": "What an argument means depends on all arguments before it.", "anchors": ["src/communication/CommandLine.cpp: CommandLine::sliceNext"]}
{"id": "C91", "title": "Definitions override what they inherit", "statement": "A definition file gives the values of the file from which it inherits, which is the first found in the search path and then in the directory of the file, overridden by its own settings and these by its overrides; settings with children stand for the children. Nothing else changes.", "quantifier": "all trees of definition files, search paths and scenes", "why_tests_cant": "Chains of inheritance have any length and settings any nesting.", "anchors": ["src/communication/CommandLine.cpp: CommandLine::loadJSON, loadJSONSettings, findDefinitionFile"]}
{"id": "C92", "title": "Values of definition files keep their meaning as text", "statement": "A string is taken as it is, true and false by name, a number as a decimal within half a millionth, an array as its elements in brackets with commas between. (Small numbers become 0, and null in an array repeats the element before it: witnesses.)", "quantifier": "all JSON values", "why_tests_cant": "Numbers and nested arrays are unbounded.", "anchors": ["src/communication/CommandLine.cpp: CommandLine::jsonValue2Str"]}
{"id": "C93", "title": "Resolved settings are taken as they are", "statement": "A file of resolved settings gives exactly its values to the scene and to the extruders it names, which exist then, whatever order the parts are visited in; other values and the models stay. (Settings of models go to the whole group, and numbers of extruders depend on the order: witnesses.)", "quantifier": "all files, scenes and orders of a hash table", "why_tests_cant": "The order of a hash table is not under the control of a test.", "anchors": ["src/communication/CommandLine.cpp: CommandLine::sliceNext (-r), readResolvedJsonValues"]}
{"id": "C94", "title": "Faulty command lines are refused", "statement": "Behind any sensible command line, an argument without its value, an unknown option, a setting without value, a model, definition, resolved file or output that cannot be used, a model without rotation or a definition whose parent is not found ends the program with an error code before anything is sliced. (Not so for -e and -m without number, callbacks without value and unknown options with two dashes: witnesses.)", "quantifier": "all command lines and files", "why_tests_cant": "The fault can be at any place behind any arguments.", "anchors": ["src/communication/CommandLine.cpp: CommandLine::sliceNext"]}
{"id": "C95", "title": "Monotonic lines are printed in one direction", "statement": "With monotonic order every line is printed exactly once, and of two lines next to each other the one farther back in the direction of printing is printed earlier, wherever the nozzle is and in whatever order the lines are given; with two passes the lines of every other row are printed in each pass, in that order. (Not so for lines that touch: witness.)", "quantifier": "all sets of lines and loops, directions, distances and starting points, and all orders of hash tables", "why_tests_cant": "The order depends on pointers in hash tables and on all lines together.", "anchors": ["src/PathOrderMonotonic.cpp: PathOrderMonotonic::optimize, makeOrderedPath, getOverlappingLines, findPolylineString"]}
{"id": "C96", "title": "Infill lines cover the inside of the outline once", "statement": "Lines infill consists of parallel lines at multiples of the line distance from the (shifted) origin, the same for every outline. On each of these lines every point that is inside of the outline is covered exactly once and no point outside is, but for a micrometre at the outline, and for places that are thin compared to the line width, which may be left out.", "quantifier": "all outlines with any number of polygons, holes and self-intersections, distances, shifts and rotations", "why_tests_cant": "Whether crossings are counted right depends on every vertex that lies on a scanline.", "anchors": ["src/infill.cpp: Infill::generateLinearBasedInfill, addLineInfill, computeScanSegmentIdx"]}
{"id": "C97", "title": "Zigzag connections", "statement": "Zigzag infill has the same lines as lines infill, and connections that follow the outline from one line to a neighbouring one. Which pieces of the outline are printed depends on the scanlines only: links from even scanlines, and end pieces if they are wanted. Without end pieces at most one connection begins or ends at each end of a line.", "quantifier": "all outlines with any number of polygons, distances, shifts and rotations, and all zigzag settings", "why_tests_cant": "The connector processor is a state machine whose state depends on the whole way around the polygon.", "anchors": ["src/infill/ZigzagConnectorProcessor.cpp: registerVertex, registerScanlineSegmentIntersection, registerPolyFinished", "src/infill.cpp: Infill::generateLinearBasedInfill"]}
{"id": "C98", "title": "Simplifying ends and takes single allowed steps", "statement": "Simplifying a polygon or a line always ends, also if vertices are moved. It proceeds in steps, each of which removes one vertex that the settings allow to remove as the path is at that moment (nearly straight, or two short segments and a small deviation), or replaces a short segment between long ones by the point where they meet. It goes on until nothing can be simplified or only the least number of vertices is left. Vertices keep their order, and a line that does not become empty keeps both ends.", "quantifier": "all polygons and lines, of points and of junctions with widths, and all settings", "why_tests_cant": "The order of removal depends on a queue whose entries become stale with every removal, and vertices move.", "anchors": ["src/utils/Simplify.cpp: Simplify::simplify, importance, remove, nextNotDeleted, previousNotDeleted, detectSmall"]}
{"id": "C99", "title": "Simplified paths stay close and have no needless vertices", "statement": "A simplified path does not deviate more than the maximum deviation from the original, in variable-width lines not more than the maximum area deviation; it has no vertex that is less than 5 micron from the line through its neighbours, no segment shorter than 5 micron, and no vertex between two short segments that could be removed; polygons that are not degenerate do not vanish.", "quantifier": "all polygons and lines, of points and of junctions with widths, and all settings", "why_tests_cant": "Deviations depend on the whole history of removals.", "anchors": ["include/utils/Simplify.h: class Simplify", "src/utils/Simplify.cpp: Simplify::simplify, importance, remove, getAreaDeviation"]}
{"id": "C100", "title": "Coasting leaves out the coasting volume at the end of walls", "statement": "With coasting enabled, every stretch of extrusion between two travels that ends in a wall and has at least the minimal volume is extruded up to some point, from which the nozzle goes on along the rest of the stretch, through all its points, without extruding; the material that is not extruded is exactly the coasting volume. Any other stretch is extruded entirely, and travels stay travels.", "quantifier": "all plans, all coasting volumes and minimal volumes", "why_tests_cant": "The end of a stretch may consist of any number of paths, and the volume may be reached within any of them.", "anchors": ["src/LayerPlan.cpp: LayerPlan::calculatePathsCoasting, LayerPlan::writePathWithCoasting, LayerPlan::writeGCode"]}
{"id": "C101", "title": "Retracting during a travel keeps its route", "statement": "A travel during which the filament is retracted and primed goes through all its points in order and does not leave its route. The retracted amount rises in proportion to the time until the retraction is complete, then stays, then falls in proportion to the time from where priming has to begin. If the filament is to be unretracted before the last move, it is not retracted at the end of the travel.", "quantifier": "all travels of any number of points, all settings", "why_tests_cant": "The ends of retraction and priming may lie in any two segments, in the same one, or at points, and rounding tolerances interact with short segments.", "anchors": ["src/LayerPlan.cpp: LayerPlan::computeAntiOozeTravelSplit, LayerPlan::writeTravelSegment, LayerPlan::writeGCode"]}
{"id": "C102", "title": "Retracting and priming fit into the travel", "statement": "However short a travel is, retracting and priming during it fit into its duration one after the other; with enough time everything is processed, otherwise both are reduced so that the ratio of what is primed to what is retracted stays as in the settings. No amount exceeds the setting or is negative, the amounts rise from standing still to z-hop to travel, and no speed exceeds the setting; if the retraction is to be kept up, it lasts until priming begins.", "quantifier": "all durations of travels and z-hops, all settings of distances, speeds and ratios", "why_tests_cant": "The amounts are rational functions of eight settings with several cases.", "anchors": ["src/LayerPlan.cpp: LayerPlan::computeAntiOozeAmounts, LayerPlan::computeTravelDurations"]}
{"id": "C103", "title": "A spiralized wall is one continuous way up", "statement": "With spiralized contours, the wall is printed as one spiral: each layer begins at the place and height where the one before ended, every move extrudes, none goes down, and the height rises in proportion to the way, by the thickness of the layer over each layer, without a jump.", "quantifier": "all prints of any number of layers, all walls, seams and settings of smoothing", "why_tests_cant": "The spiral is planned per layer, cut into paths by flow and written by nested loops with accumulated lengths; continuity relates all layers.", "anchors": ["src/LayerPlan.cpp: LayerPlan::spiralizeWallSlice, LayerPlan::writeGCode", "src/FffGcodeWriter.cpp: FffGcodeWriter::processSpiralizedWall, FffGcodeWriter::findLayerSeamsForSpiralize", "src/LayerPlanBuffer.cpp: LayerPlanBuffer::addConnectingTravelMove"]}
{"id": "C104", "title": "A spiralized wall is followed once round", "statement": "On each layer the spiral passes every vertex of the wall once, in order from the seam, exactly, or blended with the closest point of the last layer's wall in proportion to the way if contours are smoothed and the walls are within two line widths. The flow is full, but rises from a quarter on the first layer; the last layer is followed once more with falling flow, which ceases below a quarter, for 10 mm at most. The seam is at the vertex closest to that of the last layer, at first at the vertex closest to where the user wants it.", "quantifier": "all walls, seams and settings", "why_tests_cant": "Any polygon can follow any other; closest points are found by search over all edges with truncating integer arithmetic.", "anchors": ["src/LayerPlan.cpp: LayerPlan::spiralizeWallSlice", "src/FffGcodeWriter.cpp: FffGcodeWriter::findSpiralizedLayerSeamVertexIndex", "src/utils/polygonUtils.cpp: PolygonUtils::findClosest, PolygonUtils::findNearestVert", "include/utils/linearAlg2D.h: LinearAlg2D::getClosestOnLineSegment"]}
{"id": "C105", "title": "Stitching joins lines without losing or inventing any", "statement": "When lines are stitched, every line becomes part of exactly one result, once. A line is appended to an end of a chain only if it is of the same kind, at most the maximal distance away, and no other line that fits is closer (unless it is within the snap distance); walls that are not odd are never reversed. No segment longer than the maximal distance is added. A chain is closed only if it has more than two vertices, is at least three times the maximal distance long and its ends are that close; otherwise no line is left that could be appended to either end.", "quantifier": "all lists of lines, both kinds, all distances, and all orders in which the grid yields its elements", "why_tests_cant": "The order of a hash table decides what is visited first; the result depends on all lines at once.", "anchors": ["src/utils/PolylineStitcher.cpp: PolylineStitcher::stitch", "src/utils/ExtrusionLine.cpp: ExtrusionLine::length", "include/utils/SparseGrid.h: SparseGrid::processNearby"]}
{"id": "C106", "title": "Walls are printed in the direction that is set", "statement": "Each non-empty wall is printed exactly once by the extruder set for it. Ordered by inset, a wall further inside is printed after (outside-in) or before (inside-out) those further outside if no inset in between is missing, and gap fillers come after the walls of the inset before theirs. In optimized order each wall that is connected to an outer wall by walls next to each other is printed after (or before) a neighbour one step closer to the outer walls. Alternating walls turn the direction exactly when one of inset and layer is odd. A seam point is a junction at most 5 \u00b5m from the place for it.", "quantifier": "all lists of walls, all ways in which they are nested, both orders and directions, any orders of hash maps and any choices of the nearest path", "why_tests_cant": "The order depends on the nesting of all walls of a part and on the iteration order of hash maps.", "anchors": ["src/InsetOrderOptimizer.cpp: InsetOrderOptimizer::optimize, getRegionOrder, getInsetOrder, getWallsToBeAdded, insertSeamPoint, addToLayer", "include/utils/views/dfs.h: actions::dfs"]}
{"id": "C107", "title": "Walls are followed completely, with the ramps of scarf and speed", "statement": "A wall is printed from its start vertex from vertex to vertex, around or to its other end, in connected parts that go forward on its lines, with widths between those at the ends of a line. Lines of constant width are covered exactly; those of varying width up to 1/(2 resolution) of their length. With a scarf seam the height follows a straight ramp to the layer, to the nearest unit, and never goes down; then the closure covers exactly the length of the scarf again, at the height of the layer. The speed of each part is that of the ramps of acceleration and deceleration at its middle. Parts on ramps are no longer than the split distances. The flow is reduced below the layer and is otherwise as is.", "quantifier": "all walls with junctions of any widths, starts, both directions, open or closed, and settings with positive split distances", "why_tests_cant": "The parts result from four interleaved subdivisions of distances that depend on all vertices before.", "anchors": ["src/LayerPlan.cpp: LayerPlan::addSplitWall, LayerPlan::addWallWithScarfSeam, LayerPlan::writeExtrusionRelativeZ"]}
{"id": "C108", "title": "Walls over air are bridged where they are anchored", "statement": "A place of a line of a wall is printed as a bridge just if it is on a stretch over air of at least the minimum length, and both ends of the line are anchored: within the line itself and up to twice the line width along the wall beyond its end, there is as much supported wall as the line is wide. The decision is always reached. The line is printed from start to end, up to 5 micron; the bridges are in order and no other move touches them. Before a bridge at most 2.5 mm times the coasting setting are coasted, without flow, up to where the bridge starts, and nothing if none follows. After a bridge the line is printed at the speed of the bridge, at least at half the speed, never slower than before, and at full speed after 6 mm.", "quantifier": "all walls, unsupported areas with their intersections, parts of lines, settings and earlier extrusion", "why_tests_cant": "The decision depends on any number of other lines of the wall, and the printing on everything extruded since the last bridge.", "anchors": ["src/bridge/bridge.cpp: wallSegmentUsesBridging, isWallTipAnchored", "src/LayerPlan.cpp: LayerPlan::addWallLine"]}
{"id": "C109", "title": "Where a branch of tree support may be, it can go down", "statement": "From every point outside of the area that a branch of some radius has to avoid on a layer there is a way down to the build plate, or, if it may rest on the model, to a place where it can rest: from layer to layer it moves no further than branches may move (or slowly), and all along it keeps the distances for its radius from the models beside, above and below it (except above a model's first layer), from the border of the build volume, and from support blockers, up to the deviation of the simplification. Where a branch is allowed to rest, the models are under all of it and not in its way. What area is returned does not depend on which areas were requested before. Areas are calculated for a radius that is at least the one requested and that grows with it, and every request is answered if the tips are at most 3 mm thick and branches may move by more than 2 micron per layer.", "quantifier": "all models, settings, radii, layers and histories of requests", "why_tests_cant": "A way passes any number of layers, and the areas come from caches that are filled by an arbitrary history of requests.", "anchors": ["src/TreeModelVolumes.cpp: TreeModelVolumes::getAvoidance, TreeModelVolumes::getCollision, TreeModelVolumes::getPlaceableAreas, TreeModelVolumes::ceilRadius, TreeModelVolumes::safeOffset"]}
{"id": "C110", "title": "Branches do not leap over walls", "statement": "When the area in which a branch may be grows from one layer to the next, every point of the new area is reached from the old one by hops that are no longer than the safe step (or the least step, if that is larger), each of which ends outside of the walls, and one last hop; all together they are no longer than the distance. If walls are to be kept out the last hop ends outside of them too; if only a distance is allowed to be left unchecked, then a point within a wall is within that distance (or one micron per step), provided the least step is not above the safe one or no number of steps is asked for. Where no wall is in the way the area grows by the whole distance.", "quantifier": "all areas, walls, distances, step sizes and numbers of steps", "why_tests_cant": "The path depends on any number of steps, with sizes that depend on all the parameters.", "anchors": ["include/TreeSupportUtils.h: TreeSupportUtils::safeOffsetInc", "src/TreeModelVolumes.cpp: TreeModelVolumes::safeOffset"]}
{"id": "C111", "title": "No branch hangs in the air", "statement": "When points are chosen for the branches of tree support no element is used after it was deleted. Every element that is left has a point, which is in its area, and the elements above from which it comes are left too. Unless it is on the first layer, the branch goes on one layer below, or it ends at the element where it rests on the model, or it ends so one layer further up. If branches rest on the build plate whenever they can, then those that reach the first layer are left as a whole, and if no points were set before, the last of these cases does not occur, and from layer to layer a point moves only as far as the area needs it unless the branch rests there.", "quantifier": "all trees of elements, areas, points and preferences", "why_tests_cant": "Whether an element is left depends on all the elements below it, on any number of layers, and on those deleted before.", "anchors": ["src/TreeSupport.cpp: TreeSupport::createNodesFromArea, setPointsOnAreas, setToModelContact", "src/TreeSupportElement.cpp: TreeSupportElement::setToBuildplateForAllParents"]}
{"id": "C112", "title": "A layer plan prints what was asked for", "statement": "Whatever moves, switches of extruders, primes and changes of mesh are asked for while a layer is planned, if the paths of the plan are followed then exactly the lines are printed that were asked for, in that order, each from where the nozzle was to be at that time and with the extruder, mesh, flow, width and speed asked for; grouping moves into paths changes nothing, and paths that are finished never change later. A travel is not retracted if it is short; otherwise without a way inside of the model it is retracted (and hops) if and only if that is on, and with such a way it never hops and is retracted if and only if that is forced, or it is not ruled out, retraction is on and the way leaves the model or is too long. A plan that starts with a travel has that alone as its first path, and the travel at the end of the layer before leads there.", "quantifier": "all sequences of calls, settings and results of combing", "why_tests_cant": "The path a move is added to depends on all the calls before it.", "anchors": ["src/LayerPlan.cpp: LayerPlan::getLatestPathWithConfig, forceNewPathStart, setExtruder, moveInsideCombBoundary, addTravel, addTravel_simple, planPrime, addExtrusionMove", "src/LayerPlanBuffer.cpp: LayerPlanBuffer::addConnectingTravelMove"]}
{"id": "C113", "title": "Lightning infill supports what it has to support", "statement": "For every stack of layers, the trees of lightning infill are found after finitely many steps; in each layer every point that is to be supported is within the supporting radius of a node of a tree, every tree starts on the outline of that layer, and it is a forest: no node has two parents. Nothing that comes from the layer above is lost or moved by adding new trees and connecting the old ones; a new branch leads to the closest point of the outline or to a node that can be reached without crossing the outline.", "quantifier": "all layers, points to support and geometries", "why_tests_cant": "The trees of a layer depend on all the layers above and on the order in which points are handled.", "anchors": ["src/infill/LightningLayer.cpp: LightningLayer::generateNewTrees, getBestGroundingLocation, attach, reconnectRoots", "src/infill/LightningDistanceField.cpp: LightningDistanceField", "src/infill/LightningGenerator.cpp: LightningGenerator::generateTrees"]}
{"id": "C114", "title": "Lightning trees shrink downwards only as they should", "statement": "From a layer to the one below, pruning removes exactly the parts of the branches that are within the prune distance of the ends; straightening leaves the root and the ends where they are, keeps all forks, moves no node further than the allowed distance and adds none; and realigning keeps exactly the nodes inside the outlines of the layer below and exactly the branches between these that the outlines do not cut.", "quantifier": "all trees, distances and outlines", "why_tests_cant": "Trees can have any shape.", "anchors": ["src/infill/LightningTreeNode.cpp: LightningTreeNode::prune, straighten, realign, propagateToNextLayer, deepCopy"]}
{"id": "C115", "title": "Each branch of a lightning tree is printed once", "statement": "Whatever the random choices are, the lines made from a tree consist of its branches, each exactly once, and each end of a branch begins exactly one line; each line is then shortened at its end by half of the line width measured along the line, and lines of which nothing is left are dropped, no others.", "quantifier": "all trees, random choices and line widths", "why_tests_cant": "The number of ways to follow a tree grows exponentially.", "anchors": ["src/infill/LightningTreeNode.cpp: LightningTreeNode::convertToPolylines, removeJunctionOverlap"]}
{"id": "C116", "title": "The layer view shows what is printed", "statement": "For every sequence of calls while objects are written, in which the position is told after each change of the layer or extruder, in which each object completes all of its layers without gaps and sends nothing for other layers, and in which first layers do not get lower from object to object: after the last object the front-end has received exactly one message for each layer of each object, with its height and thickness, and reading it yields exactly the lines that were asked for on that layer, in order, each with its extruder, type, start, end, width, thickness and speed, apart from jumps, which are marked. Whatever is called, every message that is sent is well-formed: one more point than lines, and one value of each kind for each line.", "quantifier": "all sequences of calls, objects and layers", "why_tests_cant": "Lines are buffered until the layer or extruder changes, so that what is received depends on the whole history.", "anchors": ["src/communication/ArcusCommunication.cpp: ArcusCommunication::PathCompiler, sendOptimizedLayerData, sendLayerComplete, sendLineTo, setLayerForSend, setExtruderForSend", "src/communication/ArcusCommunicationPrivate.cpp: getOptimizedLayerById"]}
{"id": "C117", "title": "The progress bar rises to its end", "statement": "For every sequence of objects, each of which reports progress that does not get smaller, begins below one and ends at one: the amounts that are sent to the front-end are between zero and one, never get smaller, are less than a thousandth of an object behind the true progress after each report, and the last one is exactly one. The progress that is computed from a stage and the progress in it is between zero and one and never gets smaller within a stage or from a stage to a later one.", "quantifier": "all numbers of objects and all progress values", "why_tests_cant": "Tiny steps are suppressed by comparing with the last one sent, across objects.", "anchors": ["src/progress/Progress.cpp: Progress::calcOverallProgress, Progress::init", "src/communication/ArcusCommunication.cpp: ArcusCommunication::sendProgress"]}
{"id": "C118", "title": "Cubic subdivision draws the lines of all its cubes", "statement": "For every mesh, line distance, rotation and height: the sides of the cubes are the line distance times powers of two up to what is needed; the cubes are the root and, of each cube that can be divided, exactly those of the eight parts whose enclosing sphere, grown by the radius addition, meets the outline on a tested layer or is partly inside and partly not; and the lines of a layer consist of exactly the lines of those cubes whose diamond is cut at this height, each in exactly one line, where lines are joined only if one begins where the other ends.", "quantifier": "all trees, sizes and heights", "why_tests_cant": "Cubes that are too far from the layer are left out together with all of their parts, and joined lines are removed while the list is walked.", "anchors": ["src/infill/SubDivCube.cpp: SubDivCube::precomputeOctree, generateSubdivisionLines, isValidSubdivision, addLineAndCombine", "src/geometry/LinesSet.cpp: LinesSet::removeAt"]}
{"id": "C119", "title": "Skirt and brim reach their length and keep their distance", "statement": "For every model, settings of the extruders and geometry: making the skirt or brim ends. Each extruder that takes part gets its planned lines, at half a width, the gap and multiples of the width from the model, made from the inside outwards, and further lines only as long as its minimal length is not reached; at the end the length is reached or there was no room for a further line. Every line lies in the area that is allowed for its extruder, and no line comes closer to an earlier one than half the width of that one and 10 micrometres; lines of extruders that only need their minimal length are outside of everything that is covered.", "quantifier": "all geometries, extruders and settings", "why_tests_cant": "Lines are added while the list of lines is worked off, each starting from an earlier one, so neither its end nor its indices are visible from single calls.", "anchors": ["src/SkirtBrim.cpp: SkirtBrim::generateBrimOffsetPlan, generatePrimaryBrim, generateOffset, generateSecondarySkirtBrim, generateAllowedAreas"]}
{"id": "C120", "title": "Walking through voxels misses no cell", "statement": "For every cell size, line and polygon: walking along it ends and calls the function exactly for cells which it is in or touches, such that every place of it is in one of them; along a line the cells are one beside the other, none is visited twice, and they lead from the cell of the start to one with the end. With a kernel the function is called for exactly the kernel's cells around each of them, and a kernel has exactly the cells of its cube, prism or diamond, without an error by rounding.", "quantifier": "all lines, polygons, cell sizes and kernels", "why_tests_cant": "The next cell is found with fractions of the line, and lines through corners or along borders are cases that a sample of lines hardly contains.", "anchors": ["src/utils/VoxelUtils.cpp: VoxelUtils::walkLine, walkPolygons, walkDilatedPolygons, DilationKernel::DilationKernel", "include/utils/VoxelUtils.h: VoxelUtils::toGridCoord"]}
{"id": "C121", "title": "Interlocking loses no material and makes no overlap", "statement": "For every two meshes and every set of cells: in cells that get an interlocking structure each place belongs to the mesh whose beam is there, if it is within the two meshes together with small gaps closed, and elsewhere nothing changes. So on every layer nothing that was part of a mesh is lost, nothing is added outside of the two meshes together, and meshes that did not overlap still do not. Cells get a structure exactly if they are near the surface of both meshes and not near air. It never reads outside of its lists.", "quantifier": "all meshes, cells and settings of beams", "why_tests_cant": "Losses depend on how the layers, cells and heights of two meshes lie to each other, and only show as missing parts of layers.", "anchors": ["src/InterlockingGenerator.cpp: InterlockingGenerator::generateInterlockingStructure, applyMicrostructureToOutlines, computeUnionedVolumeRegions, generateMicrostructure, addBoundaryCells"]}
{"id": "C122", "title": "The cross pattern covers the square, is one curve and keeps the amount of material", "statement": "For every density: making the curve of the cross pattern ends without going beyond the tree or the list of triangles; its triangles come from the square by dividing triangles in two, and together they have its area. Length asked for in one triangle and not used there is only given to neighbours, so that the sum stays what was asked for; no triangle is divided without the length for it, so the curve before dithering is not longer than what is asked for. The curve leaves each triangle through the side through which it comes into the next, and its points are in the middle of those sides.", "quantifier": "all densities, sizes of the square and numbers of divisions", "why_tests_cant": "Which triangles are divided depends on a history of exchanges of rounded lengths over the whole list; connection breaks only for rare densities.", "anchors": ["src/infill/SierpinskiFill.cpp: SierpinskiFill::SierpinskiFill, createLowerBoundSequence, subdivideAll, bubbleUpConstraintErrors, subdivide, redistributeLeftoverErrors, balanceErrors, settleErrors, diffuseError, generateCross"]}
{"id": "C123", "title": "A combing path leads around the boundary by the shorter way and adds no crossing", "statement": "For every boundary and every start and end: a combing path leads from the start to the end. If it is the direct move, that is short or crosses no boundary. Otherwise it goes around each polygon in its way, by all corners of one side, and by the side that is shorter; making it shorter adds no crossing: each move is on a line that was tested to be clear or on a move of the path before. A move between different sides of a boundary is refused if that is asked for, and no other one is. A path that crosses a boundary is marked, so that the move is retracted.", "quantifier": "all boundaries, start and end points, distances and outcomes of the test for collisions", "why_tests_cant": "The path depends on the order and number of all crossings and on each test for collisions; unit tests compare few paths around one or two shapes.", "anchors": ["src/pathPlanning/LinePolygonsCrossings.cpp: LinePolygonsCrossings::generateCombingPath, calcScanlineCrossings, generateBasicCombingPath, optimizePath", "src/LayerPlan.cpp: LayerPlan::addTravel"]}
{"id": "C124", "title": "A wipe follows the wall for exactly the wanted distance", "statement": "For every wall, start, direction and wipe distance: after the wall the nozzle goes on along the wall without extruding, from corner to corner and around it as often as is needed, and stops where the wanted distance is reached. If the distance is 0 there is no move, if the wall has no length no move leads away, and the planning of the wipe always ends.", "quantifier": "all walls, starting corners, directions, wipe distances and positions", "why_tests_cant": "The number of laps depends on the sizes; unit tests cannot cover all walls, and not that the loop always ends.", "anchors": ["src/LayerPlan.cpp: LayerPlan::addWipeTravel, LayerPlan::addWall"]}
{"id": "C125", "title": "Layers are stacked without gaps, and removing empty first layers puts the model on the plate", "statement": "For every model: the first layer stands on the plate, or above the raft by the gap, and each other one on the one before, but that the first one above a raft is overlapped as far as is asked for. If empty first layers are to be removed, exactly those at the begin are removed that have no parts and no support, from all meshes and the support alike; nothing else is lost or changed in order, and the rest is moved down by the same height, so that it is stacked on the plate as if the removed layers had never been there.", "quantifier": "all numbers of meshes and layers, contents of layers, thicknesses and rafts", "why_tests_cant": "The effect depends on the content of all layers of all meshes together, and on settings for first layers and rafts; unit tests do not cover this part.", "anchors": ["src/FffPolygonGenerator.cpp: FffPolygonGenerator::slices2polygons, sliceModel, isEmptyLayer, removeEmptyFirstLayers"]}
{"id": "C126", "title": "The infill of a part ends as close as possible to the next wall, and all of it is printed", "statement": "For every infill of a part: all its lines, polygons and walls, and the lines below skin, are printed, each once; only lines may be divided. If it does not matter where printing ends they are printed in the preferred order (below skin last; lines, polygons, walls). Otherwise walls are printed last if there are any; if not, the part that has the point closest to the wanted end, and if it consists of lines, that point is the end of one of them. The others keep the preferred order. The last part is planned from the wanted end and reversed.", "quantifier": "all contents of the infill, wanted ends and settings", "why_tests_cant": "The order depends on all points of all parts; no unit test covers this part.", "anchors": ["src/InfillOrderOptimizer.cpp: InfillOrderOptimizer::addPart, optimize, addToLayer, isCloserTo, shouldPrintBefore", "src/geometry/OpenLinesSet.cpp: OpenLinesSet::split"]}
{"id": "C127", "title": "Each point of the infill gets the lines it should have, once", "statement": "For every layer: each point of the infill below skin gets the lines that support the skin, once, and no other infill. Each other point gets the infill of all densities whose areas contain it, each once, and nothing else.", "quantifier": "all layers, skins above and below, areas of densities and settings", "why_tests_cant": "What is printed at a point depends on the skin of the layers above and below, on all areas of densities and on the settings together; unit tests do not cover it.", "anchors": ["src/FffGcodeWriter.cpp: FffGcodeWriter::processSingleLayerInfill, partitionInfillBySkinAbove"]}
{"id": "C128", "title": "Overhanging walls are printed at the speed of their overhang", "statement": "For every straight piece of wall: it is printed completely, along the same straight way. A point that is supported at the overhang angle of the setting is printed at full speed, others with the factor of the first of the angles spread evenly up to 90 degrees at which they are supported, and with the last factor if there is none; only pieces of less than 5 micrometres between two borders may have the speed of a neighbour. (False if the wall begins exactly on a border: witness.)", "quantifier": "all walls, outlines of the layer below, overhang angles and lists of factors", "why_tests_cant": "It must hold for every number of regions and crossings of their borders.", "anchors": ["src/LayerPlan.cpp: LayerPlan::addExtrusionMoveWithGradualOverhang", "src/FffGcodeWriter.cpp: FffGcodeWriter::processInsets"]}
{"id": "C129", "title": "The longest overhang of a layer is known", "statement": "The length that decides whether the minimum layer time for overhangs is used is that of the longest uninterrupted overhang of the walls of the layer. (False if the layer ends with it: witness.)", "quantifier": "all sequences of walls of a layer", "why_tests_cant": "It depends on the whole sequence of moves of the layer.", "anchors": ["src/LayerPlan.cpp: LayerPlan::addExtrusionMoveWithGradualOverhang, ExtruderPlan::forceMinimalLayerTime"]}
{"id": "C130", "title": "Walls at top and bottom surfaces have the settings of the surface exactly there", "statement": "For every straight piece of wall and every set of parts of it in a top (or bottom) surface that do not touch each other: each point is printed with the settings of the surface exactly if it is in one of the parts, unless it is in a piece of at most 5 micrometres between two borders. The line is printed completely, in order, at its height; only before its first move the height may be changed.", "quantifier": "all lines, heights and parts in the surface", "why_tests_cant": "It must hold for every number and order of parts.", "anchors": ["src/LayerPlan.cpp: LayerPlan::addSkinExtrusion"]}
{"id": "C131", "title": "Each feature is printed with the settings made for it, of the extruder or model it belongs to", "statement": "For all settings and every feature: width, flow, speed, acceleration and jerk are the ones set for this feature, of the extruder that prints it or of the model it is part of; changing settings of other extruders or models changes nothing. On the first layer, widths and flows are multiplied by the factors for the first layer. Infill and support of several layers have that many times the flow.", "quantifier": "all settings, layers and features", "why_tests_cant": "It must hold for all assignments of features to extruders and all values.", "anchors": ["src/settings/PathConfigStorage.cpp: PathConfigStorage::PathConfigStorage, PathConfigStorage::getLineWidthFactorPerExtruder", "src/settings/MeshPathConfigs.cpp: MeshPathConfigs::MeshPathConfigs"]}
{"id": "C132", "title": "The first layers are printed more slowly, rising to the normal speed", "statement": "For all settings: on the first layers, the speed, acceleration and jerk of every feature rise in equal steps from those for the first layer (or the normal ones, if they are smaller) to the normal ones, which they have on all layers above; no layer is printed faster than one above it, and none faster than set.", "quantifier": "all settings, layers, features and numbers of slow layers", "why_tests_cant": "It must hold for all numbers of layers and all speeds.", "anchors": ["src/settings/PathConfigStorage.cpp: PathConfigStorage::handleInitialLayerSpeedup, MeshPathConfigs::smoothAllSpeeds", "src/pathPlanning/SpeedDerivatives.cpp: SpeedDerivatives::smoothSpeed"]}
{"id": "C133", "title": "Wavy infill lines are connected along the outline, each end once", "statement": "For every set of lines of gyroid or similar infill and every outline: each connection leads along the outline from the end of a line, past corners, to the next end; no end has two connections, no line is connected with itself, and no loop arises. Of two neighbouring ends one has a connection, unless they are of one line or of lines connected already.", "quantifier": "all lines, outlines and orders of their ends along them", "why_tests_cant": "It must hold for every order of ends along the outline.", "anchors": ["src/infill/AbstractLinesInfill.cpp: AbstractLinesInfill::zigZaggify"]}
{"id": "C134", "title": "A retraction pulls the filament back, and nothing is extruded with it pulled back", "statement": "For every sequence of exporter calls: a retraction that is not refused leaves the filament of the tool in use pulled back by the requested distance, by E words or by the firmware (G10), and one that is refused writes nothing; after an extrusion or priming nothing of that tool is pulled back. (False of the code for firmware retraction with a distance of zero after a tool change.)", "quantifier": "all histories of exporter calls, in absolute and relative mode, with and without firmware retraction", "why_tests_cant": "Histories are unbounded; whether a G11 is due depends on all earlier calls of that tool.", "anchors": ["src/gcode_export/gcodeExport.cpp: GCodeExport::writeRetraction, writeUnretractionAndPrime, writeRawRetract, switchExtruder"]}
{"id": "C135", "title": "Each pass of a search for the best candidate drops exactly those too far from the best", "statement": "The search for the best of some candidates gives an answer whenever there are candidates. With one pass it is the first candidate with the highest weighed score. With more passes, each pass drops exactly the candidates whose score is further from the best than its threshold, and the last pass takes the best of those left.", "quantifier": "all numbers of candidates, passes, criteria, weights, thresholds and scores", "why_tests_cant": "It depends on the order of the scores among all candidates, because they are removed in place.", "anchors": ["src/utils/scoring/BestElementFinder.cpp: BestElementFinder::findBestElement"]}
{"id": "C136", "title": "The seam is where the settings ask for it", "statement": "A wall starts at one of its vertices: not at an overhanging one if another with the same paint does not overhang; not at one with worse paint than another that overhangs as much; and, among vertices alike in this, at the one nearest to the target (shortest, user specified), at the vertex made for the seam, or at a corner that is sharpest within the threshold. An open line starts at its end nearest to where the nozzle is.", "quantifier": "all walls, seam settings, paints, overhangs, distances and angles", "why_tests_cant": "It must hold for all shapes and combinations of criteria.", "anchors": ["include/PathOrderOptimizer.h: PathOrderOptimizer::findStartLocation", "src/utils/scoring/DistanceScoringCriterion.cpp: DistanceScoringCriterion::computeScore", "src/utils/scoring/CornerScoringCriterion.cpp: CornerScoringCriterion::computeScore", "src/utils/scoring/TextureScoringCriterion.cpp: TextureScoringCriterion::computeScore", "src/utils/scoring/ExclusionAreaScoringCriterion.cpp: ExclusionAreaScoringCriterion::computeScore"]}
{"id": "C137", "title": "Seams stay out of disallowed areas when they can", "statement": "If seams are disallowed in some areas and at least one vertex of a wall is outside of them, the wall starts at an allowed vertex: the first one at or after the vertex it would start at otherwise, going round the wall. If no vertex, or every vertex, is allowed, the start does not change.", "quantifier": "all walls, areas and preferred starts", "why_tests_cant": "Vertices are tried round the wall, over its begin; it must hold for each number of vertices and each pattern of allowed ones.", "anchors": ["include/PathOrderOptimizer.h: PathOrderOptimizer::pathIfZseamIsInDisallowedArea"]}
{"id": "C138", "title": "What is painted for a feature is read back from its own bits", "statement": "For texture coordinates that are not negative, the value of a feature is the number in its range of bits of the pixel whose cell contains the coordinates (the last cell beyond 1), with the bytes of the pixel most significant first. Nothing outside of the texture is read, other features never change the value, and a feature that the texture lacks gives none.", "quantifier": "all textures of at most four bytes per pixel, ranges of bits, coordinates and pixels", "why_tests_cant": "All combinations of sizes, ranges and contents.", "anchors": ["include/mesh.h: Image::getPixel, Image::getPixelCoordinates", "src/TextureDataProvider.cpp: TextureDataProvider::getValue"]}
{"id": "C139", "title": "The sharpness of a corner is measured at a fixed distance along the wall", "statement": "For each vertex of a closed wall, the angle is measured between the points before and after it at the query distance along the wall, or at half of its length if that is shorter. The search for them always ends. Each of the two points is on the segment where the distance is reached, within one thousandth of the distance from the begin of that segment and one unit in each coordinate.", "quantifier": "all walls, numbers and lengths of segments, vertices and distances", "why_tests_cant": "Segments of any length are passed in both directions, over the begin of the wall; no sample of walls covers all numbers of segments to pass.", "anchors": ["src/utils/scoring/CornerScoringCriterion.cpp: CornerScoringCriterion::findNeighbourPoint, CornerScoringCriterion::cornerAngle"]}
{"id": "C140", "title": "Density given by an image follows its lightness", "statement": "For each box of the infill the image gives a density from 0 to 1: one minus the mean lightness of the pixels that the box covers, or of the nearest pixel if it covers none. Nothing outside of the image is read. A black image gives full density and a white one none; a darker image never gives less. The image is printed over the whole model, and the pixel under each point of the box is among those used if the image is not distorted.", "quantifier": "all images, sizes, channels, models and query boxes, also outside of the image", "why_tests_cant": "It ranges over all contents and sizes of images and all positions, with truncating divisions at each edge.", "anchors": ["src/infill/ImageBasedDensityProvider.cpp: ImageBasedDensityProvider::ImageBasedDensityProvider, ImageBasedDensityProvider::operator()"]}
{"id": "C141", "title": "A place of a sliced model gets the texture coordinates of the nearest textured place", "statement": "If an end of a sliced segment with texture coordinates is less than 1000 units away, a place gets the coordinates of the nearest such end. Otherwise it gets those of the nearest place of such a segment (up to two units), interpolated between the ends. It gets none only if there is neither.", "quantifier": "all sets of sliced segments, with and without texture coordinates, and all places", "why_tests_cant": "Nearest of all ends and segments, in any number and position.", "anchors": ["src/SlicedUVCoordinates.cpp: SlicedUVCoordinates::SlicedUVCoordinates, SlicedUVCoordinates::getClosestUVCoordinates"]}
{"id": "C142", "title": "Texture coordinates inside of a triangle are interpolated between its corners", "statement": "For each triangle whose corners are not on a line, and each point of its plane, the texture coordinates are between those of the corners as the point is between the corners; each corner gets its own. A point beside the plane gets those of the foot of its perpendicular, and a point is taken to be inside exactly if it is. A triangle whose corners are on a line gives none.", "quantifier": "all triangles, points and texture coordinates", "why_tests_cant": "All shapes and sizes of triangles: products of lengths overflow only for large ones.", "anchors": ["src/slicer.cpp: Slicer::getBarycentricCoordinates, Slicer::interpolateUV", "src/utils/MeshUtils.cpp: MeshUtils::getBarycentricCoordinates, MeshUtils::getUVCoordinates"]}
{"id": "C143", "title": "Splitting an area into parts keeps every contour and covers each point once", "statement": "For each tree of nested contours, each contour is in exactly one part, no part is without an outline, and a point that is in an odd number of contours is in exactly one part, a point in an even number in none.", "quantifier": "all trees of contours, however deep, and all points", "why_tests_cant": "Nesting can have any depth: islands in holes of islands.", "anchors": ["src/geometry/Shape.cpp: Shape::splitIntoParts, Shape::splitIntoPartsProcessPolyTreeNode"]}
{"id": "C144", "title": "Overlapping outlines of a layer are filled as the settings say", "statement": "With 'Remove All Holes', a point is filled exactly if it is in some outline; with 'Union Overlapping Volumes' exactly if its winding number is not zero; with neither exactly if it is in an odd number of outlines. It then is in exactly one part. A surface that is not united has each of its outlines as a part of its own. The highest filled layer of a mesh is the highest with parts or, where surfaces are printed, open lines.", "quantifier": "all outlines that do not cross themselves, all settings, points and numbers of layers", "why_tests_cant": "All combinations of overlapping outlines and directions.", "anchors": ["src/layerPart.cpp: createLayerWithParts, createLayerParts", "src/geometry/Shape.cpp: Shape::splitIntoParts"]}
