# Formal model of CuraEngine in Lean 4 — design

## Layout

* `properties.jsonl` — the English properties (C01, C02, …).
* `lean/Verif/<Area>/Model.lean` — the model of the code, function by function; each definition cites the
  file and lines in `/repo` it models and says where it simplifies.
* `lean/Verif/<Area>/Spec.lean` — small, independent specification notions used by the statements
  (only where the statement needs notions beyond the model's inputs and outputs).
* `lean/Verif/<Area>/*Lemmas.lean` — helper lemmas and invariants.
* `lean/Verif/<Area>/*Props.lean` — the property theorems (`Cxx_…`), each with an `example` showing that a
  concrete non-trivial case meets its hypotheses.
* `MANIFEST.json` — property → theorem names and status.
* `seeded/LOG.jsonl` — mutation tests of the theorems (a bug is put in a scratch copy of the model and the
  project rebuilt; the log says which theorems fail).

## Trusted base

* Lean's kernel (4.33.0) and the axioms listed in the last section: at most `propext`,
  `Classical.choice`, `Quot.sound`. No axioms of our own, no `sorry`, no `native_decide`/`bv_decide`.
* The reading of the C++ code: the model is hand-written from the source; the code is not run.
* Numbers: `coord_t`/`int`/`size_t` are modelled as unbounded `Int`/`Nat` unless the comment on the
  definition says otherwise (overflow is not modelled except where the property is about it).
  `double` is modelled as an exact rational (`Rat`) or real (`ℝ`, only where `sqrt` is needed):
  floating-point rounding is not modelled.
* Threads: a step of a thread is the code between two lock operations (the code holds the mutex in
  between), plus the unlocked call of a user function; condition variables may be notified at any time.
* Hash-container iteration order and geometric heuristics are parameters the theorems quantify over.
* Undefined behaviour (index out of range, dereferencing `end()`, unbounded recursion) is a distinct outcome
  (`Outcome.ub`, `Outcome.diverge` or `none`), never a default value.

## What is modelled and what is not

### UnionFind (include/utils/union_find.h, C01, C02)

Modelled: `add`, `find`, `findByHandle` with path compression, `unite`; the element map and the parent and rank vectors.

Not modelled: iteration order of the hash map.

### ThreadPool (include/utils/ThreadPool.h, src/utils/ThreadPool.cpp, C03–C08)

Modelled: `parallel_for` chunking and its completion counter, the pool's task queue, `MultipleProducersOrderedConsumer` with any number of workers, as transition systems.

Not modelled: the C++ memory model below the mutex, exceptions thrown by tasks, thread start and join of the operating system.

### Text (include/utils/string.h, base64, comments; C09, C10, C13, C14, C44)

Modelled: `writeInt2mm`, `MMtoStream`, `PrecisionedDouble`/`writeDoubleToStream`, `convertTobase64`, `writeComment`, `wouldWriteZero`.

Not modelled: the C library's `snprintf` digits for doubles (the decimal rounding is specified instead), locale, transliteration tables.

### Settings (include/settings/Settings.h, src/settings/Settings.cpp; C11, C12, C42–C47)

Modelled: container tree, parent and `limit_to_extruder` lookups, number, percentage, bool, coordinate, matrix, list and enum parsing, the escape of values in the settings string.

Not modelled: the JSON definition files, `getFlattendSettings`, regular-expression library.

### Template (src/gcode_export/GcodeTemplateResolver.cpp; C15–C17)

Modelled: the state machine over tokens, nested conditions, expression chains, the extruder selection.

Not modelled: the regular expressions themselves (their result is the token list) and the CuraFormulae expression language (an arbitrary partial function).

### GCode (src/gcode_export/gcodeExport.cpp; C18–C22, C24, C48)

Modelled: positions, travel and extrusion moves, retraction, unretraction, firmware retraction, z-hops, tool changes, wipe moves, resets, filament accounting, relative and absolute extrusion, the flavours, the bounding box; and a reference printer that reads the commands.

Not modelled: `writePrimeTrain`, `initializeExtruderTrains`, the file header, M82/M83 around scripts, the text of user scripts.

### Requests (gcodeExport.cpp and FffGcodeWriter.cpp; C23)

Modelled: fan, nozzle, bed, chamber, acceleration and jerk requests with their suppression.

Not modelled: the real heaters.

### Beading (src/BeadingStrategy/*.cpp; C28, C50)

Modelled: distributed, redistribute, widening, outer-wall inset, inner-wall inset and limited strategies and their nesting in the factory.

Not modelled: the skeletal trapezoidation that calls them.

### Slicer (src/slicer.cpp; C31–C36, C49)

Modelled: layer heights, `buildSegments`, `interpolate`, `makeBasicPolygonLoops`, the three phases of open-polyline stitching.

Not modelled: the final cleanup of polygons (Clipper) and the voxel or texture data.

### Grid (SquareGrid, SparseGrid; C38, C51)

Modelled: cells, line and disc walks, nearest search.

Not modelled: the hash table below (a multimap).

### Box (AABB, AABB3D; C39)

Modelled: all operations.

Not modelled: floating-point area.

### Layers (LayerVector, raft.cpp, math.h; C41, C52, C53)

Modelled: index arithmetic, raft layer counts and types, rounding divisions.

Not modelled: raft geometry.

### Order (include/PathOrderOptimizer.h; C29)

Modelled: `optimize` with and without order requirements, grouping of outer walls, loops, start vertices and directions.

Not modelled: seam choice, combing distances and grid neighbourhoods (arbitrary parameters).

### Adaptive (src/settings/AdaptiveLayerHeights.cpp; C37)

Modelled: all of it, with arbitrary triangle slopes.

Not modelled: the computation of the slopes.

### Heat (src/LayerPlanBuffer.cpp, src/Preheat.cpp, parts of src/ExtruderPlan.cpp and src/LayerPlan.cpp; C25–C27, C54, C55)

Modelled: the buffer of layer plans, the five places that insert temperature commands, the temperature formulas, the order in which commands and moves are written.

Not modelled: path durations (arbitrary), travel moves between layers.

### Mst (src/utils/MinimumSpanningTree.cpp; C30)

Modelled: all of it, for every iteration order of the hash maps.

Not modelled: overflow of squared distances.

### Time (src/timeEstimate.cpp; C40, C56)

Modelled: all of it.

Not modelled: single-precision rounding of the length.

### Cooling (`Verif/Cooling`)

Modelled: src/LayerPlan.cpp: `computeNaiveTimeEstimates`, `forceMinimalLayerTime`, `processFanSpeedForMinimalLayerTime`, `processFanSpeedForFirstLayers`, `processFanSpeedAndMinimalLayerTime`, the fan command of `writeGCode`; src/ExtruderPlan.cpp: `applyBackPressureCompensation`; include/FanSpeedLayerTime.h, TimeMaterialEstimates.h; `GCodePath::getFanSpeed`

Not modelled: paths are given by the lengths of their moves; how `max_overhang_length_` is computed; `was_retracted` is constantly false in the code and in the model; rounding of doubles

### Flow (`Verif/Flow`)

Modelled: include/gradual_flow/FlowLimitedPath.h and Processor.h: conversion of the paths, `partition`, `processGcodePath`, `processGcodePaths`, `toClassicPath`, `process`

Not modelled: the length of a segment (any symmetric function without negative values); the settings that switch it on; rounding of doubles

### Extruders (`Verif/Extruders`)

Modelled: src/sliceDataStorage.cpp: `getExtrudersUsed`, `getExtruderIsUsed`; src/FffGcodeWriter.cpp: `getStartExtruder`, `calculateExtruderOrderPerLayer`, `getUsedExtrudersOnLayer`, `calculatePrimeLayerPerExtruder`, `findUsedExtruderIndex`, `setExtruder_addPrime`, `startRaftLayer`, `endRaftLayer` and the extruders of `processLayer`; src/FffPolygonGenerator.cpp: `computePrintHeightStatistics`; src/PrimeTower: `getExtruderPrime`, `polishExtrudersUses`, the planning in `addToGcode`

Not modelled: what is generated (areas are empty or not); the geometry of the tower; the plugin adhesion; `print_layer_count` and `total_layers` are the same number; one mesh group

### Volumes (`Verif/Volumes`)

Modelled: src/multiVolumes.cpp: `carveMultipleVolumes`, `carveCuttingMeshes`; src/FffPolygonGenerator.cpp: `processInfillMesh` and the order in which meshes are processed

Not modelled: areas are sets of points, so the rounding of corners by Clipper is not modelled; surface modes; `generateMultipleVolumesOverlap`; the walls and skin of an infill mesh are a parameter (`WallsOk`)

### Skin (`Verif/Skin`)

Modelled: src/skin.cpp: `generateSkinAndInfillAreas`, `calculateTopSkin`, `calculateBottomSkin`, `applySkinExpansion`, `applySkinFillSmallInfillGaps`, `generateSkinRoofingFlooringFill`, `generateTopAndBottomMostSurfaces`, `generateInfillSupport`, `generateGradualInfill`, `combineInfillLayers`; src/FffGcodeWriter.cpp: the distances between lines in `processSingleLayerInfill`

Not modelled: areas are sets of points; offsets and the removal of small or thin areas are parameters with a contract (`Ops.Ok`); simplification is the identity; `combineInfillLayers` for parts with one density; which lines an infill pattern consists of

### Support (`Verif/Support`)

Modelled: src/support.cpp: `computeBasicAndFullOverhang`, `generateOverhangAreasForMesh`, `generateSupportAreas`, `generateSupportAreasForMesh`, `moveUpFromModel`, `join`, `generateSupportRoof`, `generateSupportBottom`, `generateSupportInterfaceLayer`, `splitGlobalSupportAreasIntoSupportInfillParts`; src/sliceDataStorage.cpp: `SupportLayer::fillInfillParts`, `SupportLayer::excludeAreasFromSupportInfillAreas` with the capacity of its vector

Not modelled: areas are sets of points; offsets and the removal of small areas are parameters with a contract (`Ops.Ok`, met by offsets with round corners); towers and the varying X/Y distance are arbitrary areas; tree support; the outlines of several models are a list, since the code does not unite them and Clipper uses the even-odd rule

### Loading and placing models (`Verif/Load`)

Modelled: src/MeshGroup.cpp: `fgets_`, `loadMeshSTL_ascii`, `loadMeshSTL_binary`, `loadMeshSTL`, `loadMeshOBJ` (with its regular expressions), `loadMeshIntoMeshGroup`, `MeshGroup::min`, `max`, `finalize`, `scaleFromBottom`; src/utils/Matrix4x3D.cpp: `apply`, `scale`; src/mesh.cpp: `transform`; include/mesh.h: `translate`; src/communication/ArcusCommunicationPrivate.cpp: the faces of `readMeshGroupMessage`

Not modelled: files are lists of bytes; how the text of a number is rounded to single precision is a parameter, other calculations with fractions are exact; texture coordinates and images only as far as reading them can fail; regular expressions by what they match; files that cannot be opened

### Molds and conical overhang (`Verif/Mold`)

Modelled: src/Mold.cpp: `Mold::process`; src/ConicalOverhang.cpp: `ConicalOverhang::apply`

Not modelled: areas are sets of points; offsets, smoothing and simplifying are parameters, with a contract for offsets; the width of open polylines; the size of a hole (which holes are small is a parameter); `Mesh::expandXY`

### Command line (`Verif/Cli`)

Modelled: src/communication/CommandLine.cpp: `sliceNext`, `loadJSON`, `loadJSONSettings`, `jsonValue2Str`, `readResolvedJsonValues`, `findDefinitionFile`; src/settings/Settings.cpp: `add`, `get<std::string>`; include/utils/views/split_paths.h

Not modelled: the file system, the parser of JSON, the loading of models and the order of hash tables are parameters; pointers into vectors carry the number of reallocations, so that a dangling pointer is undefined; JSON numbers are rationals; log messages; the commands `connect`, `help`

### Monotonic order (`Verif/Monotonic`)

Modelled: src/PathOrderMonotonic.cpp, include/PathOrderMonotonic.h, include/PathOrder.h: `detectLoops`

Not modelled: doubles are rationals, coordinates have no bounds; the order of hash sets and of the grid of end points are parameters; `backwards_` (nothing reads it for lines)

### Lines and zigzag (`Verif/Lines`)

Modelled: src/infill.cpp: `computeScanSegmentIdx`, `addLineInfill`, `generateLinearBasedInfill` without `connect_lines_`; src/infill/ZigzagConnectorProcessor.cpp

Not modelled: the rotation of the plane and its inverse are parameters; `int` and `coord_t` have no bounds; of `crossings_per_scanline` only the bounds; `use_endpieces_` etc. are parameters

### Simplification (`Verif/Simplify`)

Modelled: src/utils/Simplify.cpp (`simplify` and all it calls); of src/utils/linearAlg2D.cpp `getDistFromLine`, `getDist2FromLineSegment`

Not modelled: the intersection of lines (floats) is a parameter, exact in the examples; `coord_t` has no bounds; the square root and divisions of doubles are exact before rounding

### Coasting (`Verif/Coasting`)

Modelled: src/LayerPlan.cpp:1583-1695, 3916-3974 (`calculatePathsCoasting`, `writePathWithCoasting`), the calls in `writeGCode`

Not modelled: positions are any type with lengths and interpolation, volumes are exact; the height of the position at the beginning is not distinguished; speeds, temperatures and retraction are left out

### Retraction during travels (`Verif/Ooze`)

Modelled: src/LayerPlan.cpp:2546-2825 (`computeTravelDurations`, `computeAntiOozeAmounts`, `computeAntiOozeTravelSplit`, `writeTravelSegment`), the calls in `writeGCode`

Not modelled: positions are any type with lengths and interpolation, numbers are exact; the sum of lengths has no bounds (an `int` in the code); what the exporter makes of the amounts is modelled in `Verif/GCode`; the ratios are 0 if the firmware retracts

### Spiralized outer contours (`Verif/Spiral`)

Modelled: src/LayerPlan.cpp:2931-3092 (`spiralizeWallSlice`), 3783-3841 (writing), 53-84, 574-593; src/FffGcodeWriter.cpp:184-290, 2535-2568 (seams, `processSpiralizedWall`); src/LayerPlanBuffer.cpp:117-162

Not modelled: one mesh and extruder, only the spiralized walls; lengths are a parameter; the angle that decides whether to move the seam on is a parameter; doubles are exact; an index outside of a wall is an error

### Stitching polylines (`Verif/Polylines`)

Modelled: src/utils/PolylineStitcher.cpp; src/utils/ExtrusionLine.cpp:15-33; src/geometry/Polyline.cpp:135-145

Not modelled: for polylines and walls of varying width; on the model of the grid, whose order of elements is arbitrary; integers have no bounds; lines that are closed already do not occur; a line without vertices is an error

### The order of walls (`Verif/Walls`)

Modelled: src/InsetOrderOptimizer.cpp; include/utils/views/dfs.h

Not modelled: on the model of the path ordering (`Verif/Order`); the areas of bounding boxes and whether a wall is within another one are parameters, as is the order in which hash maps yield their elements; of `insertSeamPoint` the part after the closest point has been found; integers have no bounds

### Following a wall (`Verif/Scarf`)

Modelled: src/LayerPlan.cpp: addSplitWall, addWallWithScarfSeam, writeExtrusionRelativeZ

Not modelled: what is passed to the function that adds a segment, without the distance to the next bridge; floating point numbers are exact and integers have no bounds; running on without end is a distinct result

### Walls over air (`Verif/Bridge`)

Modelled: src/bridge/bridge.cpp: wallSegmentUsesBridging, isWallTipAnchored; src/LayerPlan.cpp: addWallLine; src/geometry/Shape.cpp: intersectionsWithSegment; src/utils/linearAlg2D.cpp: lineLineIntersection, segmentSegmentIntersection

Not modelled: whether a point is inside the mask is a parameter; intersections are shares of the line, exact; on the line that is printed places are exact distances from its start, the rounding of points is left out; the configs for roofing and flooring are not modelled

### Areas that branches avoid (`Verif/Tree`)

Modelled: src/TreeModelVolumes.cpp: ceilRadius, getCollision, calculateCollision, getCollisionHolefree, calculateCollisionHolefree, getPlaceableAreas, calculatePlaceables, safeOffset, getAvoidance, calculateAvoidance, calculateAvoidanceToModel, calculateCollisionAvoidance, getMaxCalculatedLayer; include/utils/math.h: sign

Not modelled: areas are sets of points; the offsets and the simplification of polygons are parameters with assumptions in Spec; calculateAccumulatedPlaceable0 is a parameter; threads and precalculate are left out

### Offsets in steps (`Verif/Tree/Inc*`)

Modelled: include/TreeSupportUtils.h: safeOffsetInc

Not modelled: as in Verif/Tree; distances are not negative, as the documentation of the function expects; safeUnion is taken not to change the area

### Where branches are placed (`Verif/Nodes`)

Modelled: src/TreeSupport.cpp: createNodesFromArea, setPointsOnAreas, setToModelContact; src/TreeSupportElement.cpp: setToBuildplateForAllParents

Not modelled: elements are numbers and an access to a deleted one is the outcome none; which points the areas provide is a parameter; messages are not modelled; SUPPORT_TREE_ONLY_GRACIOUS_TO_MODEL is false

### How the moves of a layer are planned (`Verif/Travel`)

Modelled: src/LayerPlan.cpp: getLatestPathWithConfig, forceNewPathStart, setExtruder, moveInsideCombBoundary, addTravel, addTravel_simple, planPrime, addExtrusionMove; src/LayerPlanBuffer.cpp: addConnectingTravelMove

Not modelled: settings are looked up in a table; Comb::calc and moveInside are parameters; acceleration, jerk and inserts of commands are not modelled

### Lightning infill (`Verif/Lightning`)

Modelled: src/infill/LightningTreeNode.cpp, LightningLayer.cpp (generateNewTrees, getBestGroundingLocation, attach, reconnectRoots), LightningDistanceField.cpp, LightningGenerator.cpp (generateTrees)

Not modelled: trees with numbered nodes instead of pointers to parents; closest points, crossings, what is inside, what is nearby and the cells that are visited are parameters with stated assumptions; the order of the points is given; the choice of rand is arbitrary; convertToLines without the intersection with the outline

### Layer view and progress (`Verif/View`)

Modelled: src/communication/ArcusCommunication.cpp (PathCompiler, sendOptimizedLayerData, sendLayerComplete, sendProgress), ArcusCommunicationPrivate.cpp (getOptimizedLayerById), src/progress/Progress.cpp (init, calcOverallProgress), src/Scene.cpp (processMeshGroup, what is sent)

Not modelled: messages as values; the map of layers as a list, the order of sending is not claimed; the conversion to float is an arbitrary function; doubles of the progress as rational numbers; the socket is not modelled

### Cubic subdivision (`Verif/SubDiv`)

Modelled: src/infill/SubDivCube.cpp, src/geometry/LinesSet.cpp (removeAt)

Not modelled: sizes with roots, the rotation and the ends of a line in a cube are arbitrary functions, with bounds where needed; the distance to the outline of a layer is an arbitrary function; the square root of the part of the sphere is compared exactly

### Skirt and brim (`Verif/Skirt`)

Modelled: src/SkirtBrim.cpp (generateBrimOffsetPlan, generate, generatePrimaryBrim, generateOffset, generateShieldBrim, generateSecondarySkirtBrim, generateAllowedAreas), include/SkirtBrim.h

Not modelled: areas and lines are sets of points; offsets, lengths, joining and what a shield covers are arbitrary functions; the first layer outlines are given; the simplification at the end and the support brim are not modelled

### Voxels (`Verif/Voxel`)

Modelled: src/utils/VoxelUtils.cpp (DilationKernel, walkLine, walkPolygons, walkDilatedPolygons, dilate), include/utils/VoxelUtils.h (toGridPoint)

Not modelled: parts of a line are rational numbers instead of doubles; the function that is called always says to go on; walking areas is not modelled

### Interlocking (`Verif/Interlock`)

Modelled: src/InterlockingGenerator.cpp (generateInterlockingStructure, addBoundaryCells, computeUnionedVolumeRegions, generateMicrostructure, applyMicrostructureToOutlines)

Not modelled: areas are sets of places in the turned coordinates of the beams; closing gaps and the cells of skins are arbitrary; handleThinAreas is not modelled

### Cross infill (`Verif/Sierp`)

Modelled: src/infill/SierpinskiFill.cpp, include/infill/SierpinskiFill.h

Not modelled: rational numbers instead of doubles; the length of the curve in a triangle and the length asked for are arbitrary functions; rounding the corners (pockets) and where on a side the 3D pattern is are not modelled; the list of nodes by depth is taken to have a place for the largest depth where it is read

### Combing (`Verif/Comb`)

Modelled: src/pathPlanning/LinePolygonsCrossings.cpp (all functions)

Not modelled: the rotation, the distance, the corners moved outside of a polygon, going a part of the way and the test with the grid of lines are arbitrary functions; integers do not overflow; which boundary is used (src/pathPlanning/Comb.cpp) is not modelled

### Wiping (`Verif/Wipe`)

Modelled: src/LayerPlan.cpp:872-907 (addWipeTravel)

Not modelled: the length of a move and going a part of a move are arbitrary functions (a length is not negative); lengths do not overflow

### Heights of layers (`Verif/FirstLayers`)

Modelled: src/FffPolygonGenerator.cpp:302-343 (heights of the layers of a mesh), 752-783 (isEmptyLayer), 785-834 (removeEmptyFirstLayers)

Not modelled: layers of one thickness besides the first one (no adaptive layers); the content of a layer is the number of its parts; surfaces of meshes without volume and the number of the last filled layer are left out; integers do not overflow

### Order of the infill (`Verif/InfillOrder`)

Modelled: src/InfillOrderOptimizer.cpp:22-228 (addPart, optimize and the order in addToLayer), 522-557 (shouldPrintBefore, isCloserTo), src/geometry/OpenLinesSet.cpp:25-42 (split)

Not modelled: walls are only known by a number; where a random start is, and how one part is added to the layer plan, is not modelled; integers do not overflow

### Infill below skin (`Verif/BelowSkin`)

Modelled: src/FffGcodeWriter.cpp:2168-2389 (areas and densities in processSingleLayerInfill), 2476-2513 (partitionInfillBySkinAbove)

Not modelled: regions are sets of points; growing, shrinking, removing small areas and holes, and making a bridge printable are arbitrary functions; the pattern within an area is not modelled here (see Lines)

### Speed of overhanging walls (`Verif/Overhang`)

Modelled: src/LayerPlan.cpp:595-793 (addExtrusionMoveWithGradualOverhang), src/FffGcodeWriter.cpp:2735-2784 (regions and factors), include/LayerPlan.h:168-170

Not modelled: where the border of a region crosses the line is given, as rational numbers instead of floats; a region is the set of the places of the line in it; growing the supported region by the angle is a predicate that is monotonic in the angle

### Walls at top and bottom surfaces (`Verif/SkinLine`)

Modelled: src/LayerPlan.cpp:795-867 (addSkinExtrusion)

Not modelled: the parts of the line in the surface are given, by their distances from its begin; rational numbers; ties of rounding

### Settings of the features (`Verif/Configs`)

Modelled: src/settings/PathConfigStorage.cpp:17-253; src/settings/MeshPathConfigs.cpp:13-190; src/pathPlanning/SpeedDerivatives.cpp:9-19

Not modelled: rational numbers; types of the features, fan speeds, offsets of the height and changes of temperature

### Connected wavy infill (`Verif/Gyroid`)

Modelled: src/infill/AbstractLinesInfill.cpp:48-216 (zigZaggify)

Not modelled: which ends of lines are on a side of the outline, and their order along it, are given

### Seam (`Verif/Seam`)

Modelled: src/utils/scoring/BestElementFinder.cpp, DistanceScoringCriterion.cpp, CornerScoringCriterion.cpp:13-117, TextureScoringCriterion.cpp, ExclusionAreaScoringCriterion.cpp; include/PathOrderOptimizer.h:709-852 (pathIfZseamIsInDisallowedArea, findStartLocation)

Not modelled: scores are elements of an ordered field; distances, corner angles, random numbers, paint, overhang and whether seams are disallowed are given for the vertices; the target of the fallback passes is the value of the bounding box that no longer exists

### Textures (`Verif/Paint`)

Modelled: include/mesh.h:65-121 (Image), src/TextureDataProvider.cpp:22-41, src/SlicedUVCoordinates.cpp, src/slicer.cpp:1194-1230 (getBarycentricCoordinates, interpolateUV), src/utils/MeshUtils.cpp:26-63

Not modelled: coordinates are rational; distances are compared by their squares; llrint is any rounding to a nearest integer

### Density images (`Verif/Density`)

Modelled: src/infill/ImageBasedDensityProvider.cpp:36-98

Not modelled: integers are unbounded, doubles are rational; loading the file is not modelled

Everything else in `/repo` is not modelled: polygon clipping and offsetting (Clipper), the lines of infill patterns, tree support, bridge angles, arachne's skeletal trapezoidation, combing, plugins, and the Arcus communication layer.

## Plan per property

| id | what is modelled | how it is proved |
|---|---|---|
| C01 | `UnionFind` as the three vectors; `findByHandle` with path compression, as a fuel recursion on the parent vector | forest invariant (rank function), refinement to the equivalence closure of the united pairs |
| C02 | same | negation with a concrete witness (cycle; unmerged set); partial = C01 precondition |
| C03 | chunk arithmetic of `parallel_for` and the completion counter as a transition system | arithmetic lemmas; invariant over all steps |
| C04–C06 | `MultipleProducersOrderedConsumer` as a transition system with any number of workers | inductive invariant over all reachable states; deadlock freedom from the invariant |
| C07 | `run()` with the `if` wait and spurious wake-ups | negation by a reachable witness trace; partial: without spurious wake-ups |
| C08 | thread pool queue transition system | history invariant |
| C09 | `writeInt2mm` over character lists | parser/renderer round trip |
| C10, C44 | suffix-trimming code of `writeDoubleToStream` over character lists | value preservation by induction over the digits |
| C11, C12 | settings containers as a finite graph with parent and limit links; lookups with fuel | characterisation of results; divergence witnesses |
| C13 | `convertTobase64` | RFC 4648 decoder round trip by induction in blocks of three |
| C14 | `writeComment` over character lists | induction over the text |
| C15–C17 | token-level state machine of the resolver | equality with a structured big-step semantics over template ASTs; witnesses for the non-boolean condition |
| C18–C24, C48 | `GCodeExport` state machine emitting abstract commands; a reference printer interpreting them | refinement: simulation relation between exporter state and printer state, induction over call histories |
| C25, C54, C55 | plan buffer as a queue; insertion and writing of commands | history invariant; merge lemma; range invariant over the inserted commands |
| C26 | `insertPreheatCommand` over lists of path durations | induction over the list |
| C27 | Preheat formulas over `Rat` | field arithmetic |
| C28, C50 | all beading strategies over `Int`/`Rat` | case analysis, induction over nesting |
| C29 | constrained path ordering with an arbitrary choice function | invariant over the DFS worklist; acyclicity by a rank function |
| C30 | Prim's algorithm | cut-property exchange argument |
| C31 | `buildLayersWithHeight` | arithmetic |
| C32, C49 | `buildSegments` case analysis on abstract closed oriented meshes | chain-complex argument: boundary sum over faces vanishes |
| C33 | `interpolate` with truncated division | integer division bounds |
| C34 | `makeBasicPolygonLoops` | termination measure and partition invariant |
| C35 | stitching with the terminus map | refinement invariant over joins |
| C36 | comparator | negation by witness; partial: the properties that do hold |
| C37 | adaptive layers with arbitrary triangle data | loop invariant |
| C38, C51 | grid arithmetic, walks, nearest search | monotonicity of truncated division; fold invariant |
| C39 | AABB/AABB3D | order theory |
| C40, C56 | planner over `ℝ` | look-ahead invariants over the reverse and the forward pass |
| C41, C52, C53 | `LayerVector`, raft layer counts, rounding divisions | index arithmetic |
| C42, C43, C45–C47 | parsing and printing of setting values and enumerations | round trips; exhaustive case analysis of the hash switch |
| C57–C59 | layer of extruder plans over `Rat`, decision tree of the slow-down | sums over paths, rational equation for the common speed; witnesses for the failing branches |
| C60, C61 | gradual flow on lists of paths, forward and backward pass | invariants of the loops over the list of paths already emitted; refinement of moves into pieces |
| C62, C63, C64 | usage flags, order of the extruders on each layer, prime tower uses and the sequence of tool changes and primes | the order is compared with an independent list of what is to be printed (`Needs`); invariants over the layers for the chain of extruders and the primed set; the second largest height from the sorted indices |
| C65, C66, C67 | areas as sets of points; the loops over pairs of volumes, over cutting meshes and over infill meshes | the owner of a point is characterised by the orders alone, by an invariant over the pairs (the best holder never loses) and over the cutting meshes; a conservation law for the number of infill areas of a point |
| C68, C69, C70 | areas as sets of points, the computations of a part from the outlines of the layers near it | set algebra for arbitrary operations that satisfy the contract; the layers looked at are characterised by a small specification (`Solid`, `Exposed`, `SolidAbove`, `SolidBelow`) |
| C71 | the loops over steps and layers with a bound on the iterations (they may not end), and the distances between the lines | invariant over the steps (what is left lies that many layers deep); the densities of overlapping patterns are summed as a geometric series |
| C72 | the loops over layers, thicknesses and pairs of parts | a conservation law: what is printed with greater thickness is taken off a layer below at the same time, for every point |
| C73 | the loop from the uppermost layer down | induction over the layers |
| C74, C75, C78, C79 | areas as sets of points; the loop from the top to the bottom as a fold over the layers | every step after the loop only removes; what each of them removed is tracked for one point |
| C76, C80, C82 | overhang, expansion and the loop | induction down the layers: a disk that is wide enough and away from models goes through every step; conversely support comes from overhang above it |
| C77 | roofs and bottoms mesh by mesh, then the islands | an invariant over the meshes: a point of support is in exactly one of the areas left, the roofs and the bottoms, or was removed above a roof |
| C81 | as C76 | from C76: support comes from overhang within a distance of it |
| C83 | the vector of parts with its capacity, references into it, and the removal of parts by moving the last one | the loop is related to what becomes of each part; removing from the highest index down is a permutation of filtering |
| C84 | bytes of IEEE 754 numbers, triangles of 50 bytes, the choice between text and binary | induction over the triangles; a specification of the bytes of a number is read back |
| C85, C86 | lines, words and numbers, character by character | a specification writes files, with any white space, signs, fractions and exponents; reading what it writes gives the triangles |
| C87 | offsets, the common bounding box and the scaling matrix | monotonicity of rounding; the bounding box by a fold over the meshes |
| C88, C89 | the loops from the top layer down, over sets of points | induction over the layers, with the contract of the offsets |
| C90, C94 | the loop over the arguments as a state machine over the scene with pointers | refinement to a specification that reads the list of items backwards; invariant between scene and items, induction over the items |
| C91 | `loadJSON` with bounded recursion depth, over JSON trees | induction over the derivation of what a file does |
| C92 | `jsonValue2Str` | round trip with a decimal parser; induction over arrays |
| C93 | `-r` over JSON trees, hash order a parameter | induction over the parts, permutation invariance |
| C95 | `optimize` with its strings, links and rows as total functions over lists | invariant of the links; counting along the chains by induction over the rank in the sorted list; order of the rows by their keys |
| C96 | scanlines, their crossings with all edges, sorting and pairing | the crossings at a scanline are the edges that meet it; pairs of a sorted list cover what has an odd number of crossings below; indices stay in bounds |
| C97 | the events along every polygon and the connector processor as a state machine | the run of the state machine equals the pieces between crossings, by induction over the events; neighbouring scanlines by following the cell of the scan |
| C98 | vertices with deletion marks, the neighbours that are left, the queue with re-evaluation, the rounds | the loops refine a relation of single steps on numbered paths: invariant over the inner loop with the measure of entries and stale entries, induction on the vertices that are left for the outer one |
| C99 | as C98 | a round without removal has tried every vertex, so no step is possible; distances under rounding by Lagrange's identity; counterexamples for the deviation, the area and the count |
| C100 | chunks of the reversed paths, the search for the start of coasting with its two thresholds, the moves that are written | invariants of the loops over points and paths (accumulated volume, the path found so far), then the decomposition of the plan into chunks around a stretch; counterexamples for widths and settings |
| C101 | the splitting of a travel by time from either end, the state machine that writes the segments | the loop finds the segment in which the time elapses (induction over the points, reversed for priming); the two segments are in order because the durations fit (C102); the state machine in three phases; counterexamples for overshooting and for unretracting |
| C102 | durations and amounts as rational functions of the settings, the travel and the z-hop | algebra in the three cases; counterexample for amounts while still with a z-hop |
| C103 | `spiralizeWallSlice`, how its moves become paths, how paths are written, for a layer and for all layers | paths are flattened to steps (a refinement of the nested loops), heights by induction over the steps; the layers by induction with the nozzle's place as invariant; counterexamples for several walls, different thicknesses and the last layer |
| C104 | the same, with the choice of the seams | positions and flows by induction over the vertices; the closest point of a wall by induction over its edges; the taper's end by the index at which the flow ceases; counterexample for the wanted position |
| C105 | `PolylineStitcher::stitch` with its search in the grid, for all three instances | the visitor as a decision (accept, score), its fold over the cells by induction; the chain while it grows as an invariant that refers to the lines left at the end; a bound for the rounds from the number of lines |
| C106 | `InsetOrderOptimizer`: which walls are printed by an extruder, the requirements by inset and by region, the seam point, alternating directions | nesting as an invariant over the walls sorted by area; the graph of neighbours is a forest because each wall has one next larger neighbour; so the depth-first searches find the shortest ways; the requirements raise the depth and have no cycle; then C29 |
| C107 | `addSplitWall`: pieces of one width, parts for the scarf and for changes of speed, the closure; `writeExtrusionRelativeZ` | the loops end because each round advances by at least one unit; invariants over the rounds: place on the line, height and factors of speed as functions of the distance; the sum over a ring does not depend on where it starts |
| C108 | `wallSegmentUsesBridging`, `isWallTipAnchored` for any mask and wall; `addWallLine` with coasting and acceleration | membership in the list of parts by induction over the intersections; the search for an anchor is a refinement of the length supported within a distance, and ends because the wall has a line of positive length; the printing of a line by induction over rounds and bridges |
| C109 | radii, collision, placeable and avoidance areas with the caches they are kept in | the areas of a history of requests are shown to be those of a recursion over the layers (invariant of the caches, induction over the requests); a way down from a point outside is built by induction over the layers: a point that survives the offset inwards of the layer below has a point outside of it within the distance |
| C110 | `safeOffsetInc`, and `safeOffset` for the counterexample | the size and number of the steps by case distinction and division with remainder; the path of hops by induction over the steps; the whole distance is covered by following the segment, also by induction over the steps |
| C111 | `createNodesFromArea` and the functions it calls | an invariant over the elements that are left of a layer and those that are to be removed, kept by each of the ways in which an element is treated; induction over the elements and the layers |
| C112 | the functions that add moves to the plan of a layer | each move is characterised by the path it leaves at the end of the plan; the route by which the paths are followed is related to what was asked for by induction over the moves |
| C113 | the trees of lightning infill: new trees, connecting those from above, and the loop over the layers | the points left to be supported decrease in each round, as each has its cell; forests are compared by their nodes and branches up to order; invariants through all layers by induction |
| C114 | prune, straighten, realign and propagateToNextLayer | induction over trees; the result of each step is characterised by nodes and branches |
| C115 | convertToPolylines and removeJunctionOverlap | induction over trees; the pieces of the lines are a permutation of the branches, whatever rand yields |
| C116 | the buffer of lines, the map of layers with offsets, and sending when all objects are finished | a message is read by a specification of its format; what is buffered and what is stored together is an invariant; induction over the calls of an object and over the objects |
| C117 | the stages and their times, and what is sent of the progress of several objects | invariants over the values that are told; a stage begins where the one before ends |
| C118 | the sides, the tree of cubes, the test whether a cube is worth it, drawing with its early exit, and joining lines | induction over the tree; a cube that is left out is so far away that none of its parts has a line; joined lines are chains of the given ones |
| C119 | the plan of lines, the rounds with lines added until the length is enough, the shield, the other extruders, and the area that is allowed | the rounds are an inductive relation; what is to be done fits to what was made as an invariant; a measure of work gives the end; areas that are allowed only shrink |
| C120 | the cells a line, the sides of polygons and their surroundings are in, and kernels | the place on the line at which a cell is left is an invariant of the loop; the cells left to the end are a measure; the integer test of a kernel is compared with fractions |
| C121 | which cells get a structure, the beams of a cell, and what is subtracted from and added to each layer | the structure after the loop over the cells by induction; which beam a place is in by division with rest; then a case distinction per place |
| C122 | the tree of triangles, how lengths are exchanged between neighbours, which triangles are divided, dithering and the points of the curve | errors as a flow from node to node that each step keeps; the value of each triangle stays above a bound; the size of entry and exit never grows along the curve, so that no node without parts is divided; dithering keeps the curve connected |
| C123 | combing within one boundary: crossings, ways around polygons, and making the path shorter | the shortened path as an invariant of the loop: each move is on a tested line or on one move of the basic path, and so is the move from its end to the point before; the two loops around a polygon against lists of corners; parity of crossings by counting the sides to the right of both ends |
| C124 | wiping along a wall | the loop as an invariant over the corners passed, against the way walked along the closed wall; termination by the length of one lap |
| C125 | heights of layers, and removing empty first layers | the heights by their formula; the loop over empty layers by an invariant; removing as a map over meshes, compared with heights that are assigned anew |
| C126 | order of the parts of the infill, and where printing them ends | sorting and moving as permutations; the search for the closest point as an invariant of a fold over all points; dividing a line by induction on it |
| C127 | infill below skin and of all densities: what is printed at each point | counting of jobs at a point, by induction over the densities |
| C128 | dividing a wall at the borders of the regions of speed | invariant of the loop: what is left of the crossings, and that after each crossing the region is the one of the index; induction on the rounds; leaving out short pieces and merging as lemmas about the first move that reaches a place |
| C129 | length of the longest overhang of a layer | fold over the moves with the longest run as specification |
| C130 | dividing a wall where it is in a top or bottom surface | the number of ends of parts before a place, as parity: the sorted set without duplicates has the same parity as the list of all ends, and the loop changes the settings at each of them |
| C131 | which settings are used for each printed feature | by cases of the features, for all settings: a table of the names in the specification, and independence of the settings of the other extruders and models |
| C132 | slowing down of the first layers | the interpolated value as a linear ramp; monotonicity from it; for the other features the speeds are the same on all layers |
| C133 | connecting the lines of gyroid and similar infill along the outline | an invariant of the walk round the outline: the connections drawn, the one being drawn, and that each pair of neighbouring ends is served |
| C134 | the exporter of `Verif/GCode` and a printer that executes `G10` and `G11` per tool | agreement of the exporter's record with the printer as an invariant over call histories; with E words from the accounting of C20 and C21 |
| C135, C136 | choosing the best of some candidates in several passes, and the seam of a wall with it | an invariant of the removal in place: what the iterator to the best candidate reads; the weights make paint and overhang decide before distance and angle |
| C137 | areas where seams are disallowed | induction over the vertices that may still be tried, with positions modulo the number of vertices |
| C138 | reading what is painted on a model | arithmetic of shifts and bytes; an invariant of the loop over the bytes of a pixel |
| C139 | the points between which the angle of a corner is measured | induction over the segments that the loop passes, once round the wall; error bounds of the truncating divisions |
| C140 | density of infill given by an image | the loops as sums over a rectangle of pixels; bounds and order of means; arithmetic of truncating divisions |
| C141 | texture coordinates of a place of a sliced model | the grid of C38 for near ends; the loop over segments finds a least distance; clamped projections are nearest, and rounding moves them by less than one unit |
| C142 | texture coordinates in a triangle | the identity of Lagrange for the denominator, and linear algebra; bounds of products for the 64-bit arithmetic |
| C143 | parts of an area | mutual induction over the tree of contours |
| C144 | parts of layers | C143 with what Clipper promises as a hypothesis; sums of winding numbers of outlines of one direction |

## Where the code does not do what its documentation or the property says

Found while modelling. Those with a theorem name are proved about the model; the others are recorded only.

**Union-find, threads**

* Uniting members that are not representatives can make a cycle or leave the sets separate (C02).
* `ThreadPool`'s ordered consumer waits with `if`: a spurious wake-up breaks the order (C07); a start index below minus the number of slots is undefined (C05).
* `chunks_per_worker = 0` divides by zero.

**Text**

* `writeInt2mm(0)` reads before its buffer, and coordinates are cut to 32 bits (C09).
* A carriage return passes through comments (C14).
* `inf`/`nan` with precision ≥ 3 trims out of bounds; a precision above 9 makes an invalid format.
* `wouldWriteZero` and the written text disagree (C44).

**Settings**

* `limit_to_extruder` can recurse forever (C12).
* Enumerations are decoded by a hash: other words collide with valid ones, e.g. "rayK"; any text with a colon after six characters is taken for a plugin (C45).
* Values in the settings string are not escaped.

**Template**

* A condition that is not boolean leaves the state unchanged, so that the wrong branch is written (C17).
* Keywords are recognised without a word boundary; `stoi` may throw; a negative extruder number is undefined.

**G-code export**

* The `z += 1` trick at a tool change makes the next move to exactly that height omit its Z word (C18).
* A split end of a z-hop leaves the nozzle raised (C19, C48), and passes E units as millimetres.
* Firmware retraction with travel amounts distorts the filament report (C21); with a flow offset relative extrusion drifts (C20).
* BFB moves never update the bounding box (C24).
* A wipe while hopped ends higher.

**Requests**

* A fan request is suppressed although the fan is off when the speed rounds to the same text (C23).
* MAKERBOT ignores the fan number; a wait for the bed is suppressed when only M140 was sent; the first layer of a later mesh group assumes the bed temperature of the group before (C23).

**Beading**

* Widths can exceed the thickness by one unit per inner line (C28_overfull) and be negative (C28_negative).
* `max_bead_count` 0 or 1 indexes out of range; `Redistribute::toString` recurses forever.

**Slicer**

* `interpolate` rounds with the wrong sign from above (C33).
* Outlines stay open after a vertex-ended segment shorter than 13 µm (C49).
* `PossibleStitch::operator<` is no strict weak order (C36).
* Zero layers index out of range.

**Grid, boxes**

* The cell around zero has twice the size, so the documented bound does not hold (C38).
* `AABB3D` starts with 32-bit limits (C39_points3_counterexample).
* `hit` counts touching boxes although documented otherwise; the documented exceptions of math.h are never thrown.

**Path order**

* With order requirements an empty path is undefined, unknown successors are undefined, cycles drop paths (C29_cycle_drops_paths, C29_unknown_path, C29_empty_path).

**Adaptive layers**

* Step 0 never ends, no positive height is undefined (C37_step_zero, C37_no_height); layers can get thinner by two steps although one is documented (C37_two_steps).

**Plan buffer**

* `flush` erases the last plan twice when a final print temperature is inserted (C25_double_erase), and temperature control disabled dereferences the end of an empty list (C25_disabled_counterexample).
* Commands at a path's start compare with the duration of the path before and may come too early (C54_early_counterexample).
* In `getCoolDownPointAfterWarmUp` the shares are swapped (C27_cool_down_counterexample); short windows plan no heating at all (C27_short_window_counterexample).
* A planned standby temperature can be below every configured one (C55_standby_counterexample).
* `insertFinalPrintTempCommand`'s path index may wrap around; the walk for pre-cooling goes into plans of other extruders; `static layer_1` in `writeGCode` is computed once per process.

**Raft**

* `Raft::getTotalThickness` takes `raft_surface_z_offset` from the interface extruder; a filler count of 0 divides by zero.

**Minimum spanning tree**

* A point given twice dereferences the end of an empty map (C30_duplicate).

**Time estimate**

* Moves slower than 0.05 mm/s get a deceleration that starts behind their end (C40_slow_counterexample).
* The acceleration is raised, not lowered, when more is extruded than moved (C56_acceleration_counterexample).
* At junctions below 0.05 mm/s the planned speeds are out of reach (C40_motion_counterexample).
* The exporter never calls `setPosition`, so that after `G92 E0` the next move counts the whole extruded length once more.

**Cooling**

* A layer that needs less slow-down than to its slowest speed comes out shorter than the minimum layer time: speeds instead of times are interpolated (C57_short_counterexample).
* If one path is configured slower than the minimum speed, others are slowed below the minimum too (C57_below_minimum_counterexample).
* If the times at the slowest and at the minimum speed differ by less than 0.01 s, speeds can become negative (C57_negative_speed_counterexample).
* The final wait ignores the time of other extruders (C57_wait_counterexample), and a last plan that only travels switches the slow-down off (C57_travel_only_counterexample).
* If the fan threshold is not above the minimum layer time, short layers get the regular fan speed because the difference of durations is cut off at zero (C58_threshold_counterexample).
* `was_retracted` is never updated, so that priming never counts; the estimate ignores the back pressure factor; plans before the last one with the same extruder are not counted in the time of the others.

**Gradual flow**

* When a path is shorter than what is left of the step, the time it takes and not the time left is kept (`discretized_duration_remaining = max(0, remaining - remaining_partition_duration)`): the flow rises too early (C61_rate_counterexample) or never over equal short paths (C61_stuck_counterexample).
* A step size of zero hangs the slicer (C60_zero_step).
* A plan whose first path has no points is undefined behaviour (C60_empty_first).
* The backward pass never starts anew at long travels, so that the flow before a pause is limited by the flow after it.
* Line width factors and back pressure compensation are ignored in the flow; lengths ignore the height.

**Extruders**

* In the gap layers above a raft `getExtrudersUsed` marks `support_infill_extruder_nr`, but `processLayer` prints the support there with `support_extruder_nr_layer_0`: if they differ, it is dropped (C62_filler_counterexample).
* With `magic_spiralize` only the extruder of the outer wall counts as used in the print, so that skin of the bottom layers with another extruder is dropped (C62_spiral_counterexample).
* An extruder that is first used as the first one of a layer is never primed, because the layer plan already starts with it (C63_first_of_layer_counterexample).
* With a normal prime tower, an extruder prints tower support on the layers below the one on which it is primed (C63_tower_counterexample).
* `extruder_prime_layer_nr` is not reset between mesh groups; a raft with `skirt_brim_extruder_nr` -1 is treated as no adhesion by `getStartExtruder`; if no extruder is used at all, the last one is chosen.
* The extruder of the support on the first layer and prime blobs are missing from the print height statistics (C64_layer0_counterexample).
* With a single primed extruder the base of an interleaved tower starts at the inner radius of its prime rings (`last_extruder_toolpaths.outer_radius` is overwritten).

**Volumes**

* `carveMultipleVolumes` skips pairs of models whose bounding boxes do not touch, but the boxes only include `xy_offset`, not `xy_offset_layer_0`, mold or conical overhang: models made wider by these overlap and are printed twice there (C65_wider_counterexample).

**Skin**

* With roofing and two or more flooring layers both switched on, skin that has air above, a layer directly below, and air further below within the flooring layers (a plate of two layers, for instance) is neither skin, nor roofing, nor flooring: it is not filled at all (C69_hole_counterexample).
* `generateTopAndBottomMostSurfaces` (src/skin.cpp:510) looks at the layer above for the surfaces with nothing below, too: combing that avoids the outer surfaces crosses bottom surfaces and avoids places that are not (C70_bottom_counterexample).
* Gradual infill with connected lines (zig-zag, or `zig_zaggify_infill`) and a pattern other than cross gives every area but the last half of the density it should have, since the areas do not overlap but the distances are those for overlapping ones (C71_connected_counterexample).
* If `gradual_infill_step_height` is less than half of the layer height and gradual steps are on, the number of layers of a step and the increment of the loop over the layers above are 0: the loop never ends (C71_hang_counterexample).
* `processSingleLayerInfill`: if a part has infill below skin, `in_outline = infill_not_below_skin` replaces the area of each density, and the support of the skin is generated once per density. `infill_lines_here` is never filled, so its clipping has no effect. (Read, not modelled.)
* `combineInfillLayers` intersects with the whole infill area of the lower part, not with what is left of it for the part: where an infill mesh has taken infill from the lower layer, the thick infill of the layer above fills it a second time (C72_mesh_counterexample).

**Support**

* With the default `support_xy_overrides_z` (Z overrides X/Y), support of one mesh keeps no distance at all from other meshes on layers above the first (C74_other_counterexample). Where two models overlap it goes through them, since `getLayerOutlines` does not unite the outlines and `difference` uses the even-odd rule (C74_overlap_counterexample).
* The top distance is only enforced for the layer exactly that far above, the bottom distance for the layer exactly that far below: with thin models there is support right below or right above them (C75_top_counterexample, C75_bottom_counterexample).
* `moveUpFromModel` applies the stairs to one layer too many: the outline of `step_bottom_layer_nr` is one layer above the layer they are last applied to. Without distances between support and model, and with stairs, support right below a sloped edge is removed, with the whole column below it (C76_stairs_counterexample). If the step would begin below the build plate they are applied without any outline.
* Support on the build plate only can float: the top distance is cut out afterwards (C78_floating_counterexample).
* The loop of the horizontal expansion runs once too often: the comment says the expansion is rounded down, but it is always more than what is set (C80_far_counterexample). A negative expansion has no effect (C80_negative_counterexample). If the support line width is less than 2 micrometres the step is 0 and the loop does not end (read, not modelled).
* Support blockers block the overhang, but the overhang is extended afterwards, into the blocker by up to 0.1 mm plus the overhang distance of all layers looked at (C81_edge_counterexample). `detectOverhangPoints` subtracts blockers that are not united, so two overlapping ones cancel each other out (read, not modelled).
* A support mesh is not printed on the last layers of the print, as many as the top distance takes and one more, although it has no top distance (C82_last_counterexample).
* `excludeAreasFromSupportInfillAreas` holds a reference to an element of `support_infill_parts` while it appends to the vector. If a part falls apart into three or more islands and the vector grows, it reads freed memory (C83_undefined_counterexample). The parts that are added also lose the line distance of their own (C83_distance_counterexample).
* `generateGradualSupport` looks at the settings of the infill of the model (`zig_zaggify_infill`, `infill_pattern`) instead of those of support to decide whether lines are connected (read, not modelled).

**Loading models**

* A coordinate that is infinite or not a number, in a binary STL file or from the front end, is converted to an integer: undefined behaviour (C84_nan_counterexample). A binary file whose header begins with "solid" and has lines that look like vertices is taken for a text (C84_solid_counterexample). Texture coordinates from the front end that are too short are read past their end (C84_uv_counterexample).
* In a text in STL format a line of 1024 bytes or more silently ends the reading: what follows is missing (C85_long_counterexample). "solid" may be in capital letters, but "vertex" may not: such a file is taken for a binary one (C85_capitals_counterexample). A last line without an end is ignored.
* In OBJ files relative (negative) indices are read without their sign (C86_relative_counterexample); vertices with a weight, a colour or a blank at the end of the line are skipped, which shifts the numbers of all later ones (C86_weight_counterexample, C86_blank_counterexample); files with the line ends of Windows are refused (C86_windows_counterexample); a number that does not fit ends the program with an exception (C86_tiny_counterexample, C86_huge_counterexample), and so does a file without an extension, of any format (C86_extension_counterexample). Texture coordinates with two numbers, which is the usual form, are not recognised, since their pattern wants three (read, not modelled).
* A group without any model, for instance of infill meshes only, is moved away by kilometres when it is scaled: `MeshGroup::min` and `max` begin with the limits of different types (C87_nothing_counterexample).
* `Mesh::clear` does not reset the bounding box; the file with texture coordinates is looked for in the current directory, not beside the model (read, not modelled).

**Molds and conical overhang**

* A part of a model that is thinner than the roof of its mold has no roof directly above it if the mold has upright walls: the roof is that many layers above the part's own layers, with a gap between (C88_roof_counterexample). An open surface has no roof at all (C88_surface_counterexample).
* With conical overhang and an angle of (nearly) 0 small holes are closed whatever `conical_overhang_hole_size` says (C89_hole_counterexample); with a negative angle they are closed from the side (C89_foot_counterexample).

**Command line**

* `sliceNext` reserves room for half as many extruders as there are arguments. If a machine has more, the vector is moved and `last_extruder`, `last_settings` and the parents of models dangle: undefined behaviour (C90_reallocation_counterexample, C90_late_extruder_counterexample).
* `-e3` before `-e1`: the extruders 1 to 3 all get the number 3 (C90_numbers_counterexample); with `-r` the same depends on the order of a hash table (C93_numbers_counterexample).
* Only the last mesh group is finalised, groups before a `--next` are not moved to their place (C90_placed_counterexample). An argument that merely begins with `--next` counts as a group (C90_groups_counterexample).
* `mesh_rotation_matrix` given for a model applies to the next model (C90_rotation_counterexample).
* `-d` replaces the search path, although the help says that it adds to it (C90_paths_counterexample); the directory of the loaded file is searched last (C91_directory_counterexample).
* A definition that inherits from itself is loaded until the stack is full (C91_cycle_counterexample). A document or `children` that is no object is undefined behaviour (C91_document_counterexample). A missing definition of an extruder is ignored (C91_extruder_counterexample).
* Numbers are written with 6 decimals, 1e-7 becomes 0 (C92_small_counterexample). In arrays an element without text repeats the one before it (C92_array_counterexample).
* With `-r` the settings of a model go to the mesh group, and so to the models behind it (C93_models_counterexample). A limit to an extruder that does not exist is undefined behaviour (C93_limit_counterexample).
* `--progress_cb` and the like as last argument read behind the arguments (C94_callback_counterexample). `-e` and `-m` without number end by an uncaught exception (C94_number_counterexample). Unknown options with two dashes are accepted (C94_unknown_counterexample).

**Monotonic order**

* A line that ends where another begins is printed twice if it is also next to a third line (C95_twice_counterexample).
* The first line of a string of lines is started at the end closest to the nozzle, even if that is where the string goes on (C95_string_counterexample).
* Loops are printed last, although the comment says that they are printed first; of two passes the second one is printed first (C95_passes_partial).

**Lines and zigzag**

* Whether a tiny end piece of a zigzag is printed depends on the vertex at which the polygon begins: the piece at which the way around ends is not checked (C97_tiny_end_counterexample).
* The special case for a single scanline in a connected zigzag never has an effect: the first scanline has no crossings (lines_good).
* A line at the right side of the bounding box is left out, as is one at the left side (C96_right_side).

**Simplification**

* The documentation says that the simplified path does not deviate more than the maximum deviation. It may deviate without limit: the distance of a vertex is measured to the infinite line through its neighbours, so spikes are cut off (C99_spike_counterexample); and deviations add up (C99_drift_counterexample).
* A polygon with more than three vertices may vanish: `current_removed` is reset in every round, so the limit of three vertices only holds within a round (C99_vanish_counterexample).
* The area deviation of a symmetric change of width counts as nothing: a line that is twice as wide in the middle becomes a thin line, even if no deviation is allowed (C99_width_counterexample).

**Coasting**

* The volume left out is calculated from the configured line width: where lines are wider or narrower, more or less than the coasting volume is left out, in proportion to the width factor (C100_width_counterexample).
* With a coasting volume above the minimal volume before coasting, walls with a volume between them are not printed at all: the nozzle travels along them (C100_minimal_counterexample).
* Only the last path of a stretch decides whether there is coasting (C100_last_counterexample).
* Not modelled: the first position of an extruder plan has the absolute height while the points of the paths have heights relative to the layer (src/LayerPlan.cpp:3518), so the length of the first segment is too large; and with a coasting volume of 0 a stretch whose last segment has no length divides 0 by 0.

**Retraction during travels**

* Unretracting before the last move of a travel (`unretract_before_last_travel_move`) is undone: the state machine writes the amounts computed beforehand after it, so the filament is retracted again during the last move or at its end, also with the default settings without retraction during travels (C101_unretract_counterexample).
* If retraction ends (or priming begins) within a millisecond behind a point, the ratio on the segment is above 1 and the nozzle overshoots the point, then goes back (C101_overshoot_counterexample).
* With a z-hop, a prime speed below the retraction speed and a short travel, the amount to retract while standing still is negative: filament is pushed out before the travel (C102_blob_counterexample).
* A piece of debugging code is left in src/LayerPlan.cpp:3631-3635 (without effect but a log message); the lengths of a travel are summed up in an `int` (2 m).

**Spiralized contours**

* After a spiral all other paths of the layer are written at half the layer's thickness, travels as extrusions of nothing without retraction: with a second part or polygon the nozzle goes down through what it has printed (C103_rest_counterexample).
* With a first layer that is thicker than the others (and no bottom layers) or adaptive layers the spiral ends above where the next layer begins (C103_first_counterexample).
* On the last layer the length of the taper counts as well, so that the spiral reaches about half of the height and the rest is climbed in one move (C103_top_counterexample).
* The seam's index in a part's first polygon is used for all of its polygons: memory outside of a polygon with fewer vertices is read (C103_hole_counterexample).
* The seam is at the vertex before the one that is closest to the position the user specifies (C104_hint_counterexample).

**Stitching polylines**

* Closing a chain is preferred for a single odd wall and made less likely by 10 µm for even walls and polylines; the comment says that contours of even walls are preferably closed (src/utils/PolylineStitcher.cpp:128,182-186; C105_even_counterexample).

**The order of walls**

* When the inner walls have an extruder of their own and the order is optimized, no requirements are made, because they start from outer walls, so the inner walls may be printed against the direction that is set (src/InsetOrderOptimizer.cpp:405-450; C106_separate_counterexample).
* With `material_alternate_walls` the start index of closed walls is mirrored too, although it does not depend on the direction: the seam moves to another vertex on every other layer (src/InsetOrderOptimizer.cpp:191-195; C106_alternate_counterexample).
* The width of an inserted seam point weighs the widths of the ends of its segment the wrong way round (src/InsetOrderOptimizer.cpp:308-311; C106_width_counterexample).
* By inset, walls are only ordered with respect to the next inset: if an inset has no walls the ones around it are not ordered (src/InsetOrderOptimizer.cpp:492-508; C106_gap_counterexample).

**Following a wall**

* A line of varying width is divided into pieces of rounded length, so that the nozzle stops up to half a unit per piece before or beyond its end, and the next line starts there (src/LayerPlan.cpp:1441; C107_vertex_counterexample).
* When a wall is followed backwards, the segment index passed on is that of the segment on the other side of the vertex reached, by which bridges are looked up (src/LayerPlan.cpp:1540, src/bridge/bridge.cpp:847-848; C107_index_counterexample).
* A small feature is printed at the height of the layer without a ramp, but its closure is printed as well: the length of the scarf is extruded twice (src/LayerPlan.cpp:1448-1455, 1876-1880; C107_small_counterexample).
* If a wall is shorter than the deceleration length its first part is faster than the ramp of the speed, because the ramp is taken to begin there (src/LayerPlan.cpp:1367, 1528-1529; C107_short_counterexample).
* A split distance of 0 within a scarf or where the speed changes makes the loop run forever (src/LayerPlan.cpp:1458-1470; C107_split_counterexample).
* On the ramp of a scarf the flow is the mean of that at the start of a part and that at the height of the layer, because the end only takes the offset of the path into account: too much is extruded (src/LayerPlan.cpp:2857; C107_flow_counterexample); the start ratio of the scarf and the factor at the origin of a part are computed but not used (src/LayerPlan.cpp:1366, 1556).

**Walls over air**

* A line that passes through a corner of the unsupported area has two intersections there, one with each side, so that it is taken to leave the area where it enters it: it is not bridged (src/geometry/Shape.cpp:884-901, src/utils/linearAlg2D.cpp:293-302; C108_corner_counterexample).
* A part of a line that starts where a bridge ends, or ends where one starts, gets a bridge of no length; the volume for coasting is reset and the rest is printed slowly (src/bridge/bridge.cpp:890-898; C108_touch_counterexample).
* On layers with a bridge anywhere, a line with a reduced speed (as on the ramps before and after a seam) is printed faster after each millimetre, because the acceleration meant for lines after bridges is applied to it (src/LayerPlan.cpp:1198-1202, 1272; C108_slow_counterexample). After a bridge, however, the acceleration does not carry over to the next line, because the factor is passed by value.
* If a bridge starts soon after the end of a line the whole coasting distance is coasted at the end of that line, and then what is left up to the bridge is coasted too (src/LayerPlan.cpp:1144-1167; C108_early_counterexample).
* The distance to the next bridge is not updated after a bridge, so that only the first bridge of a line is coasted to (src/LayerPlan.cpp:1247-1263; C108_second_counterexample).
* The flow is meant to be increased while accelerating after a bridge, but is only changed for speed factors above 1, which do not occur (src/LayerPlan.cpp:1125).
* The search for an anchor goes around from the last to the first point of a wall even if the wall is open (src/bridge/bridge.cpp:794-797).
* If an end of a line is outside and no intersection is found, the first element of an empty list is read (src/bridge/bridge.cpp:776).

**Areas that branches avoid**

* The sign of the distance is kept in a uint8_t, so that for an offset inwards (all of them are) it is 255: the step is positive and 255 times as large as intended, and the whole offset is done at once. The smaller steps that are to keep branches from leaping over thin walls never happen (src/TreeModelVolumes.cpp:911-926).
* If branches may move no more than 2 micron per layer the distance is 0, and it is divided by a step of 0 (src/TreeModelVolumes.cpp:914-919; C109_still_counterexample).
* If the radius of the tips is above 1.5 mm the difference to 1500 is negative, and dividing it by a size_t makes it about 2^63: the sum overflows (src/TreeModelVolumes.cpp:1263-1270; C109_radius_counterexample).
* The layers that are kept free above a model do not include those above its part on the first layer (src/TreeModelVolumes.cpp:668; C109_first_layer_counterexample).
* getCollision locks the mutex of the avoidance areas while it reads the collision areas, which are written under another mutex (src/TreeModelVolumes.cpp:331-362).
* The progress of the precalculation is support_rests_on_model ? 0.4 : 1 * ..., so that the factor is applied to one alternative only.
* The areas where branches can rest are cleared from the support blockers of the layer below, under a condition on the layer itself (src/TreeModelVolumes.cpp:673-683).

**Offsets in steps**

* Because of the sign in a uint8_t the areas that branches avoid are offset in a single step: a point behind a wall is not avoided although it cannot be reached in safe steps (src/TreeModelVolumes.cpp:914; C110_leap_counterexample).
* If the least size of steps (half the distance of the support lines) is above the size that is safe and more than one step is asked for, the number of steps is replaced while the size is reduced, so that the last, unchecked step may be larger than both and than what was to be left unchecked (include/TreeSupportUtils.h:251-259; C110_rest_counterexample).
* With a distance below the least number of steps it is divided by zero (include/TreeSupportUtils.h:254-264; C110_zero_counterexample).
* For a negative distance the difference to the steps is unsigned, so that a step outwards is made before it is offset inwards (include/TreeSupportUtils.h:240-242); the documentation excludes such distances, and delta_slow_fast is one if the slow distance is above the fast one (src/TreeSupport.cpp:1142).
* setToModelContact reads found_partial_placement without its being set, and passes use_min_xy_dist as the parameter that says whether branches may rest on the model (src/TreeSupport.cpp:1500-1545).

**Where branches are placed**

* With another rest preference than the build plate, an element one layer below the place where a branch rests on the model may be left: its point was set from the element on the first layer, which is removed, and the loop that deletes the elements in between stops one layer too early (src/TreeSupport.cpp:1483; C111_gap_counterexample). If the element had no point yet, it is removed when its layer is visited.
* On the first layer, an element that cannot rest properly gets another point after the points above were derived from its first one (src/TreeSupport.cpp:1567-1573; C111_follow_counterexample).
* (-1, -1) stands for a point that is not set, so that a branch whose point is moved there by chance is taken for unset (src/TreeSupport.cpp:1391, 1399, 1599).

**How the moves of a layer are planned**

* A travel with ForceRetract::NOT_RETRACTED is retracted when combing is off or fails (src/LayerPlan.cpp:477-520; C112_not_retracted_counterexample).
* A travel with ForceRetract::RETRACTED is retracted although retraction_enable is off, when there is combing (src/LayerPlan.cpp:401-412; C112_forced_counterexample).
* The move inside before a retraction is added to the same path that is retracted, so that the retraction comes before it, contrary to the comment (src/LayerPlan.cpp:341-345, 515-520; C112_inside_counterexample).
* The fan speed is not compared when a line is added to a path, so lines with other fan speeds take that of the last one (src/LayerPlan.cpp:64-66, 588; C112_fan_counterexample).
* If a plan starts with a switch of extruders its first extruder plan may be empty while the first destination is known; the asserts in addConnectingTravelMove then read a path that is not there (src/LayerPlan.cpp:289-292, src/LayerPlanBuffer.cpp:129-130; C112_empty_counterexample). The callers start a plan with the extruder that is used first.
* Comb::getModelBoundary returns the outside boundary where the model boundary was computed (src/pathPlanning/Comb.cpp:40-49); read only.

**Lightning infill**

* The number of infill walls is handed over as the thickness of the walls in micrometres, so the trees end only that many micrometres from the edge of the infill (src/infill/LightningGenerator.cpp:37, 56, 120-124; C113_walls_counterexample).
* When a tree from above is connected to another one, the line from its root is checked against the outline, but the node closest to the other tree is connected, whose line is not checked (src/infill/LightningLayer.cpp:182-210; C113_reconnect_counterexample). The lines are cut by the outline later.
* A point of the distance field that shares its cell with another one is never removed, and the loop does not end (src/infill/LightningDistanceField.cpp:35-39, 52-68; C113_same_cell_counterexample). Points are at multiples of the size of a cell, so that this does not occur (C113_cells). A supporting radius below 6 makes the size of a cell zero; read only.
* A line that is as long as what is taken off is kept with two equal points (src/infill/LightningTreeNode.cpp:409-412).

**Layer view and progress**

* The travel to the next object is written before its first layer is set, so it is shown in a layer far above, or in one that no object has (src/FffGcodeWriter.cpp:551-562, src/LayerPlan.cpp:3369; C116_between_counterexample).
* Numbers of the layers of the next object begin after the number of layers, not after the last number. With a raft whose filler layers are left out the top layers of an object and the first ones of the next become the same (src/FffGcodeWriter.cpp:142-156, src/communication/ArcusCommunication.cpp:370, ArcusCommunicationPrivate.cpp:36-53; C116_raft_counterexample).
* After a switch of the extruder the position is sent without height, and the next line is shown as starting on the build plate (src/gcode_export/gcodeExport.cpp:1531; C116_switch_counterexample).
* A group of meshes of which none is a model is counted as an object but is never finished: no layers are sent, and the progress goes back (src/Scene.cpp:72-86; C116_no_model_counterexample, C117_no_model_counterexample).
* What is sent after the last object never reaches the front-end (src/FffGcodeWriter.cpp:4246-4255; C116_end_counterexample).
* The last progress that was sent is not reset for a new object (src/communication/ArcusCommunication.cpp:445-460; C117_only_end_counterexample).
* A setting that is limited to the extruder whose number is the number of extruders is looked up behind the end of the list: the check uses greater instead of not less (src/communication/ArcusCommunication.cpp:522-528); read only.

**Cubic subdivision**

* The sizes of the cubes are kept in a static list that is never emptied. A second mesh adds its sizes behind those of the first, but uses the first ones: with another line distance its infill has the density of the first mesh (src/infill/SubDivCube.cpp:23, 43-56; C118_second_mesh_counterexample).
* Only each third layer is tested, so that a cube that meets the mesh on a layer between may not be divided (src/infill/SubDivCube.cpp:203; C118_third_layer_counterexample).
* The rotation is static as well. Lines are drawn after all meshes are prepared, so the angle of the last mesh is used for the lines of all, within cubes that were placed with their own angle (src/infill/SubDivCube.cpp:26, 82-85, 255-266); read only.

**Skirt and brim**

* The length of lines is counted before pieces shorter than 3 mm are removed, so the minimal length may be taken as reached although less, or nothing, is printed (src/SkirtBrim.cpp:276-299; C119_short_counterexample).
* Holes are added to the area that is allowed after parts of other extruders were subtracted from it. If a part of an extruder with a lower number fills the hole of a part, brim inside the hole may be printed on it (src/SkirtBrim.cpp:619-652; C119_hole_counterexample).
* Adjacent outlines are never merged and simplified: the loop that should do so runs over a temporary array that holds copies (src/SkirtBrim.cpp:433-440); read only.
* Brim for shields is filled by shrinking until nothing is left, which does not end if the line width is zero (src/SkirtBrim.cpp:492-497); read only.

**Voxels and interlocking**

* Where the first mesh ends below the second one, the loop that collects the region of a layer leaves at the first mesh without that layer and never looks at the second one, so the region is empty; the second mesh loses the beams of the first one there and nothing takes their place (src/InterlockingGenerator.cpp:231-238; C121_short_counterexample).
* A cell below the first layer is chosen if the depth is larger than the avoided boundary; its layers are negative numbers that are used as indices of a vector (src/InterlockingGenerator.cpp:301-305, also 109-114; C121_below_counterexample).
* A prism or diamond kernel of an even size leaves out only cells on its negative side (src/utils/VoxelUtils.cpp:30-41; C120_even_counterexample).
* The cell of a coordinate that is an exact negative multiple of the cell size is one too low (include/utils/VoxelUtils.h:162); harmless as the border is part of both.
* Polygons are moved by half a cell only if both directions are to be moved (src/utils/VoxelUtils.cpp:120); read only.

**Cross infill**

* `subdivideAll` does not look whether the two triangles it divides together have the same size, so that the curve goes from one triangle into the next through a side of another size (src/infill/SierpinskiFill.cpp:218-238; C122_counterexample). `diffuseError` does look.
* From one half of the square to the other the curve leaves through the diagonal and comes in through the upper side (src/infill/SierpinskiFill.cpp:74-75; C122_middle_counterexample).
* `getDepthOrdered` resizes its list to max_depth after making it one longer, so that nodes at the largest depth are written outside of it, and `bubbleUpConstraintErrors` reads there (src/infill/SierpinskiFill.cpp:189-195, 252-254); read only.
* `redistributeLeftoverErrors` doubles negative errors within its range instead of clearing them (src/infill/SierpinskiFill.cpp:366-372); harmless, as the sum is the same.
* `isConstrainedBackward`, `isConstrainedForward` and `redistributeLeftoverErrors` read the node before the first and after the last one before they check that there is one (src/infill/SierpinskiFill.cpp:351-352, 595, 603); read only.

**Combing**

* If the basic path already crosses a boundary this is noticed, but the mark is set on the basic path and not on the one that is returned, so the move is not retracted for it (src/pathPlanning/LinePolygonsCrossings.cpp:222, read in src/LayerPlan.cpp:451; C123_mark_counterexample).
* A polygon without points is read at its last point (src/pathPlanning/LinePolygonsCrossings.cpp:25 and 78); it is a separate outcome of the model, and excluded by hypothesis.

**Wiping**

* A wipe after an open wall treats it as a closed one: from the end it leads straight toward the begin, off the wall (src/LayerPlan.cpp:1955-1959 does not look at whether the wall is closed; C124_open_counterexample).
* The test for a wall of circumference 0 does not count the way of the side that closes it (src/LayerPlan.cpp:883); with all points equal but a last position elsewhere the loop would not end. It is excluded by hypothesis (the last position is always on the wall).

**Heights of layers**

* After removing empty first layers the new first one gets the thickness of the old first one, but all heights are moved down by the height of the last removed one; if the first layer is thicker than the others, its bottom is below the plate, and it is pressed into it (src/FffPolygonGenerator.cpp:820-825; C125_thick_counterexample).
* With a raft the height that is subtracted contains that of the raft, so the model would be printed within the raft (src/FffPolygonGenerator.cpp:825; C125_raft_counterexample).

**Infill below skin**

* With gradual infill the lines that support skin are printed once for each density, on top of each other: they are generated into the result itself, and what is cut off for the denser areas is a list that is always empty (src/FffGcodeWriter.cpp:2298-2314; C127_again_counterexample).
* With gradual infill, if there is skin above anywhere, the infill of all densities is printed in all of the infill that is not below skin (src/FffGcodeWriter.cpp:2317; C127_dense_counterexample). If the lines are connected, the last area does not contain the denser ones, which then get no infill at all (src/FffGcodeWriter.cpp:2511; C127_lost_counterexample).
* The infill of several layers and of one layer are added to the layer plan in the operands of one `|`, whose order of evaluation is not defined in C++ (src/FffGcodeWriter.cpp:1914-1916; not modelled).

**Speed of overhanging walls**

* If a wall begins exactly on the border of a region, that counts as inside and also as a crossing: if it then goes into the region, inside and outside are exchanged up to its end (src/LayerPlan.cpp:642-649, 655-662, 688-734; C128_border_counterexample). The same happens if it only touches the border.
* The length of an overhang is only compared with the longest one when a wall follows that does not overhang: the overhang at the end of a layer is left out, however long it is; a layer of which all walls overhang counts as one without overhang, and the minimum layer time for overhangs is not used (src/LayerPlan.cpp:612-626, 3346; C129_not_ended, C129_counterexample).

**Walls at top and bottom surfaces**

* The loop relies on the parts of the line in the surface not touching each other: their ends are put into a set, so that a common end counts once, and the settings are exchanged after it (src/LayerPlan.cpp:812-833; C130_touch_counterexample). Whether the clipping can return such parts is not modelled.

**Settings of the features**

* The flow of the bottom of support is taken from the extruder for its roof, and the flows of the middle and top layers of a raft from the extruder for its base (src/settings/PathConfigStorage.cpp:54, 62, 80-81; C131_bottom_counterexample, C131_raft_counterexample, C131_surface_counterexample). With different extruders, the setting of the extruder that prints has no effect.
* On the first layers, walls in top and bottom surfaces, flooring and the support of skin are not slowed down, although roofing, walls and skin are (src/settings/PathConfigStorage.cpp:168-179, 251-252; C132_others_counterexample): the outer wall of the first layer is printed at full speed where it counts as the wall of a bottom surface.
* Layers below the first one are not slowed down, although the code for the slower speeds handles them explicitly (`std::max(LayerIndex(0), layer_nr)`): it is only called for layers from 0 (src/settings/PathConfigStorage.cpp:149-152; C132_below_counterexample).

**Connected wavy infill**

* The connection over the begin of the outline is drawn to the first line found without checking that this end of it is free; it may have a connection already, so that three lines meet there (src/infill/AbstractLinesInfill.cpp:199-210; C133_twice_counterexample).
* If two pieces belong to one row, the begin of a connection is not recorded (src/infill/AbstractLinesInfill.cpp:182-188). The check that a line is not connected with itself then looks at another line, and a line can be connected with itself (C133_itself_counterexample).
* Loops are avoided only between two lines, although the comment says they are avoided: three lines can be connected to a loop (src/infill/AbstractLinesInfill.cpp:153-156; C133_loop_counterexample).

**Retraction**

* With firmware retraction, a retraction by a distance of zero of a tool that is pulled back already (by a tool change) writes another G10 and records the tool as primed; the next line is printed without a G11 (src/gcode_export/gcodeExport.cpp:1289-1312; C134_zero_distance_counterexample).

**Template, extruder numbers**

* A comma outside quotes is taken for the one in front of the extruder number, so that `{f(a,b)}` comes back raw although the expression has a value (C15_comma_counterexample).
* An extruder expression with a text that is no number ends the program with an exception of `stoi`, and one with a negative or very large number is undefined behaviour (C16_not_an_extruder_number).

**Seam**

* BestElementFinder::findBestElement removes candidates with std::remove_if while the predicate reads the best score through an iterator into the same range. When candidates before the best one are removed, the best one is moved and another one takes its place, so that the rest is compared with a lower score: candidates up to twice the threshold worse than the best stay, and a later pass may choose them (src/utils/scoring/BestElementFinder.cpp:72-78; C135_threshold_counterexample, C136_corner_counterexample).
* The fallback criteria of findStartLocation hold a reference to the maximum of path_bounding_box, a local of the block in which they are made; they are asked after the block has ended (include/PathOrderOptimizer.h:828-845, include/utils/scoring/DistanceScoringCriterion.h): undefined behaviour for each wall with the seam at the sharpest corner. The model lets them read the value the box had.

**Textures**

* MeshUtils::getBarycentricCoordinates multiplies dot products of edges, which are squares of lengths in micrometres, as 64-bit integers. For a triangle with two edges of 60 mm at a right angle the product is 1.3e19, beyond 2^63: undefined behaviour, in practice a wrong denominator and wrong materials on large painted triangles (src/utils/MeshUtils.cpp:33-41; C142_splitter_overflow_counterexample). Slicer::getBarycentricCoordinates computes the same with doubles and is not affected.

## Axioms of each theorem

As printed by `#print axioms` for the theorems of `MANIFEST.json`.

No axioms: `Slicer.C33_end_point_counterexample`, `Box.C39_contains_empty`, `Box.C39_expand_empty`, `Box.C39_points3_counterexample`, `Layers.C41_init`, `Mold.C88_others_partial`, `Tree.Cases.C110_rest_counterexample`, `Lightning.C113_reconnect_counterexample`, `Lightning.C113_walls_counterexample`, `View.Cases.C116_no_model_counterexample`, `Skirt.Cases.C119_hole_counterexample`, `Overhang.C129_counterexample`.

`propext`: `ThreadPool.Ordered.C07_spurious_wakeup_returns_early`, `Settings.C11_add_frame`, `Settings.C12_limited_lookup_diverges`, `Settings.C12_has_diverges`, `Settings.C12_get_and_has_disagree`, `Settings.C12_get_diverges_although_scene_holds_key`, `Text.C14_comment_lines`, `Template.C15_newline_terminated`, `Slicer.C34_bad_table`, `Slicer.C36_not_an_ordering`, `Grid.C38_documented_bound_fails`, `Grid.C38_process`, `Layers.C53_zero`, `Extruders.C62_begin`, `Extruders.C62_spiral_counterexample`, `Extruders.C62_filler_counterexample`, `Extruders.C64_layer0_counterexample`, `Skin.C68_inside`, `Lines.C96_right_side`, `Lines.C97_tiny_end_counterexample`, `Walls.C106_alternate_counterexample`, `Walls.C106_width_counterexample`, `Lightning.C114_realign`, `View.Cases.C116_between_counterexample`, `View.Cases.C116_raft_counterexample`, `View.Cases.C116_switch_counterexample`, `View.Cases.C116_end_counterexample`, `SubDiv.Cases.C118_second_mesh_counterexample`, `SubDiv.Cases.C118_third_layer_counterexample`, `Sierp.C122_edges`, `Sierp.C122_middle_counterexample`, `Wipe.C124_open_counterexample`, `FirstLayers.C125_thick_counterexample`, `FirstLayers.C125_raft_counterexample`, `InfillOrder.C126_added`, `Gyroid.C133_itself_counterexample`, `Seam.C136_open_nearest`, `Parts.C143_all_contours`, `Parts.C143_not_empty`, `Parts.C144_surface`, `Parts.C144_surface_holes`.

`Quot.sound`, `propext`: `UnionFind.C02_unite_member_diverges`, `UnionFind.C02_unite_members_not_merged`, `ThreadPool.C03_parallel_for_terminates`, `ThreadPool.Ordered.C05_negative_start_out_of_bounds`, `Settings.C11_unlimited_lookup`, `Settings.C11_limited_lookup`, `Settings.C11_limited_lookup_exit`, `Settings.C11_add_visible`, `Settings.C11_add_other_key`, `Settings.C12_terminates_and_agrees_partial`, `Settings.C12_limited_and_held_partial`, `Template.C15_template_resolved`, `Template.C16_keyword_outside_block`, `Template.C16_nested_if`, `Template.C16_failing_outside`, `Template.C16_failing_in_block`, `Template.C16_markers_found`, `Template.C16_not_an_extruder_number`, `Template.C17_nonboolean_if_rejected`, `Template.C17_nonboolean_elif_is_false`, `Order.C29_longest`, `Order.C29_loops`, `Order.C29_cycle_drops_paths`, `Order.C29_unknown_path`, `Order.C29_empty_path`, `Slicer.C31_adaptive`, `Box.C39_order`, `Box.C39_hit_inverted`, `Layers.C41_grow`, `Text.C42_escape_reversible`, `Text.C43_case_compare_antisymm`, `Settings.C46_integer_text`, `Slicer.C49_short_segment`, `Layers.C52_order`, `Layers.C52_no_raft`, `Extruders.C63_first_of_layer_counterexample`, `Extruders.C63_tower_counterexample`, `Skin.C68_disjoint`, `Support.C83_undefined_counterexample`, `Simplify.C98_order`, `Spiral.C104_hint_counterexample`, `Polylines.C105_even_counterexample`, `Walls.C106_gap_counterexample`, `Tree.C109_radius`, `Travel.C112_not_retracted_counterexample`, `Travel.C112_forced_counterexample`, `Travel.C112_inside_counterexample`, `Travel.C112_fan_counterexample`, `Travel.C112_empty_counterexample`, `Lightning.C113_same_cell_counterexample`, `Lightning.C114_straighten`, `Lightning.C114_next`, `Lightning.C115_lines`, `Lightning.C115_overlap`, `Lightning.C115_shorten`, `SubDiv.C118_valid`, `SubDiv.C118_tested`, `SubDiv.C118_combine`, `Skirt.C119_allowed`, `Sierp.C122_points`, `Wipe.C124_nowhere`, `Wipe.C124_off`, `InfillOrder.C126_plan`, `Overhang.C129_ended_partial`, `Overhang.C129_not_ended`, `Seam.C135_none`, `Seam.C135_single`, `Parts.C144_highest`.

`Classical.choice`, `Quot.sound`, `propext`: `UnionFind.C01_find_iff_connected`, `UnionFind.C01_return_values`, `UnionFind.C02_unite_representatives_partial`, `ThreadPool.C03_parallel_for_exactly_once`, `ThreadPool.C03_parallel_for_no_deadlock`, `ThreadPool.C03_plan`, `ThreadPool.C03_chunks`, `ThreadPool.Ordered.C04_consumed_in_order`, `ThreadPool.Ordered.C04_all_consumed_on_return`, `ThreadPool.Ordered.C05_ring_never_overrun`, `ThreadPool.Ordered.C05_no_concurrent_slot_access`, `ThreadPool.Ordered.C06_no_deadlock`, `ThreadPool.Ordered.C06_terminates`, `ThreadPool.Ordered.C07_returns_after_workers_partial`, `ThreadPool.Pool.C08_fifo`, `ThreadPool.Pool.C08_join_drains`, `ThreadPool.Pool.C08_no_lost_wakeup`, `Text.C09_coordinate_text_exact_partial`, `Text.C09_stream_text_exact_partial`, `Text.C09_zero_reads_before_buffer`, `Text.C09_wide_coordinate_wraps`, `Text.C10_trimming_keeps_value`, `Text.C10_text_within_half_unit`, `Text.C13_base64_round_trip`, `Text.C14_carriage_return_passes_through`, `Template.C15_comma_counterexample`, `GCode.C18_recorded`, `GCode.C18_travel`, `GCode.C18_extrude`, `GCode.C18_height_partial`, `GCode.C18_travel_height_partial`, `GCode.C18_extrude_height_partial`, `GCode.C18_height_after_tool_change`, `GCode.C19_hop_start`, `GCode.C19_hop_end_partial`, `GCode.C19_split_stays_raised`, `GCode.C19_split_extrudes_raised`, `GCode.C20_accounting_partial`, `GCode.C20_accounting_exact_partial`, `GCode.C20_modes_agree_partial`, `GCode.C20_modes_agree_exact_partial`, `GCode.C20_flow_offset`, `GCode.C21_report_partial`, `GCode.C21_retraction_neutral_partial`, `GCode.C21_pending_prime`, `GCode.C21_primed_after_extrusion_partial`, `GCode.C21_firmware_travel`, `GCode.C22_window`, `GCode.C22_refused`, `GCode.C22_performed`, `GCode.C22_forced`, `GCode.C22_bfb`, `Requests.C23_fan_partial`, `Requests.C23_fan_clear_partial`, `Requests.C23_fan_makerbot_partial`, `Requests.C23_temp`, `Requests.C23_temp_waited`, `Requests.C23_tool`, `Requests.C23_shared`, `Requests.C23_shared_waited`, `Requests.C23_bed_partial`, `Requests.C23_acc`, `Requests.C23_acc_separate`, `Requests.C23_jerk`, `Requests.C23_fan_counterexample`, `Requests.C23_fan_makerbot_counterexample`, `Requests.C23_temp_selects_counterexample`, `Requests.C23_bed_wait_counterexample`, `Requests.C23_bed_assumed_counterexample`, `GCode.C24_contains`, `GCode.C24_smallest_xy`, `GCode.C24_smallest_z_partial`, `GCode.C24_bfb_not_contained`, `Heat.C25_handle`, `Heat.C25_written`, `Heat.C25_flush`, `Heat.C25_no_ub_partial`, `Heat.C25_double_erase`, `Heat.C25_disabled_counterexample`, `Heat.C26_place`, `Heat.C26_short`, `Heat.C26_insert`, `Heat.C26_preheat`, `Heat.C27_time`, `Heat.C27_warm_up_partial`, `Heat.C27_warm_up_short`, `Heat.C27_short_window_counterexample`, `Heat.C27_cool_down_partial`, `Heat.C27_cool_down_counterexample`, `Beading.C28_shape`, `Beading.C28_left_over`, `Beading.C28_widths`, `Beading.C28_fill_partial`, `Beading.C28_thin`, `Beading.C28_apart`, `Beading.C28_limit`, `Beading.C28_overfull`, `Beading.C28_negative`, `Beading.C28_max_zero`, `Beading.C28_thin_single_wall`, `Order.C29_free`, `Order.C29_reverse`, `Order.C29_required`, `Order.C29_grouped`, `Order.C29_nearest`, `Order.C29_first`, `Mst.C30_total`, `Mst.C30_tree`, `Mst.C30_minimal`, `Mst.C30_length`, `Mst.C30_no_cycle`, `Mst.C30_leaves`, `Mst.C30_duplicate`, `Slicer.C31_heights`, `Slicer.C32_balance`, `Slicer.C32_segments`, `Slicer.C33_from_below`, `Slicer.C33_accuracy_partial`, `Slicer.C33_in_range`, `Slicer.C33_directions`, `Slicer.C33_end_points_partial`, `Slicer.C33_accuracy_counterexample`, `Slicer.C34_partition`, `Slicer.C35_stitching`, `Slicer.C35_points`, `Slicer.C35_maximal`, `Slicer.C36_ordering_partial`, `Slicer.C36_first_phase`, `Adaptive.C37_layers`, `Adaptive.C37_positions`, `Adaptive.C37_change`, `Adaptive.C37_fine`, `Adaptive.C37_two_steps`, `Adaptive.C37_step_zero`, `Adaptive.C37_no_height`, `Grid.C38_nearby`, `Grid.C38_nearest`, `Grid.C38_any`, `Box.C39_points`, `Box.C39_smallest`, `Box.C39_hit`, `Box.C39_contains`, `Box.C39_include`, `Box.C39_include_empty`, `Box.C39_expand`, `Box.C39_points3_partial`, `Box.C39_hit3`, `Box.C39_operations3`, `Box.C39_expand3`, `Box.C39_expand3_unused`, `Time.C40_moves`, `Time.C40_phases`, `Time.C40_entry`, `Time.C40_brake`, `Time.C40_speed_up`, `Time.C40_times`, `Time.C40_motion`, `Time.C40_junctions`, `Time.C40_unique`, `Time.C40_full_speed`, `Time.C40_total`, `Time.C40_add_time`, `Time.C40_slow_counterexample`, `Time.C40_motion_counterexample`, `Layers.C41_slot`, `Layers.C41_out_of_range`, `Layers.C41_assign`, `Layers.C41_order`, `Text.C43_case_compare_zero`, `Text.C44_nonzero_is_written_nonzero_partial`, `Text.C44_counted_as_zero_but_written_one`, `Settings.C45_named_value_selected`, `Settings.C45_one_typo_detected`, `Settings.C45_unknown_hash_default`, `Settings.C45_unknown_value_selects_enumerator`, `Settings.C45_getters`, `Settings.C45_getters_range`, `Settings.C45_plugin_values`, `Settings.C45_getters_typo`, `Settings.C45_defaults`, `Settings.C45_colon_counterexample`, `Settings.C46_flag_from_integer`, `Settings.C46_layer_number`, `GCode.C47_travel_speed`, `GCode.C47_extrude_speed`, `GCode.C48_wipe_returns`, `GCode.C48_wipe_height_partial`, `GCode.C48_raised`, `Slicer.C49_outlines_closed_partial`, `Slicer.C49_watertight_partial`, `Slicer.C49_melding`, `Beading.C50_count`, `Beading.C50_monotone`, `Beading.C50_transition`, `Beading.C50_fits`, `Beading.C50_min_width`, `Grid.C51_covers`, `Grid.C51_close`, `Grid.C51_once`, `Grid.C51_ends`, `Grid.C51_meet`, `Grid.C51_meet_only`, `Grid.C51_near`, `Layers.C52_filler`, `Layers.C53_floor`, `Layers.C53_ceil`, `Layers.C53_round`, `Layers.C53_unsigned`, `Heat.C54_partial`, `Heat.C54_early_counterexample`, `Heat.C55_range`, `Heat.C55_standby_counterexample`, `Time.C56_speed`, `Time.C56_acceleration_partial`, `Time.C56_acceleration_counterexample`, `Time.C56_junction`, `Cooling.C57_defined`, `Cooling.C57_moves`, `Cooling.C57_enough`, `Cooling.C57_reached_partial`, `Cooling.C57_speeds_partial`, `Cooling.C57_not_longer_partial`, `Cooling.C57_wait_partial`, `Cooling.C57_short_counterexample`, `Cooling.C57_below_minimum_counterexample`, `Cooling.C57_negative_speed_counterexample`, `Cooling.C57_wait_counterexample`, `Cooling.C57_travel_only_counterexample`, `Cooling.C58_first_layers`, `Cooling.C58_slowed`, `Cooling.C58_interpolated`, `Cooling.C58_range`, `Cooling.C58_command`, `Cooling.C58_threshold_counterexample`, `Cooling.C59_untouched`, `Cooling.C59_factor`, `Flow.C60_route`, `Flow.C60_defined`, `Flow.C60_constant`, `Flow.C60_zero_step`, `Flow.C60_empty_first`, `Flow.C61_rise_partial`, `Flow.C61_fall_partial`, `Flow.C61_end_partial`, `Flow.C61_rate_counterexample`, `Flow.C61_stuck_counterexample`, `Extruders.C62_once`, `Extruders.C62_complete_partial`, `Extruders.C62_idle`, `Extruders.C62_minimal`, `Extruders.C63_primed_partial`, `Extruders.C63_switch_partial`, `Extruders.C64_height_partial`, `Extruders.C64_normal`, `Extruders.C64_prime`, `Extruders.C64_planned`, `Extruders.C64_interleaved`, `Volumes.C65_owner_partial`, `Volumes.C65_disjoint_partial`, `Volumes.C65_union`, `Volumes.C65_others`, `Volumes.C65_wider_counterexample`, `Volumes.C66_models`, `Volumes.C66_keeps`, `Volumes.C66_recolour`, `Volumes.C66_union`, `Volumes.C66_disjoint`, `Volumes.C67_rest`, `Volumes.C67_conserve`, `Volumes.C67_once`, `Skin.C68_cover`, `Skin.C68_hidden_partial`, `Skin.C68_needed_partial`, `Skin.C69_cover_partial`, `Skin.C69_cover_single`, `Skin.C69_disjoint`, `Skin.C69_roofing`, `Skin.C69_flooring`, `Skin.C69_hole_counterexample`, `Skin.C70_surfaces_partial`, `Skin.C70_bottom_counterexample`, `Skin.C71_density_partial`, `Skin.C71_cross`, `Skin.C71_connected_counterexample`, `Skin.C71_hang_counterexample`, `Skin.C72_once_partial`, `Skin.C72_thick`, `Skin.C72_mesh_counterexample`, `Skin.C73_top`, `Skin.C73_support`, `Skin.C73_column`, `Support.C74_clear_partial`, `Support.C74_distance_partial`, `Support.C74_own`, `Support.Cases.C74_other_counterexample`, `Support.Cases.C74_overlap_counterexample`, `Support.C75_top_partial`, `Support.C75_bottom_partial`, `Support.Cases.C75_top_counterexample`, `Support.Cases.C75_bottom_counterexample`, `Support.C76_supported_partial`, `Support.C76_needed_partial`, `Support.Cases.C76_stairs_counterexample`, `Support.C77_once`, `Support.C77_inside`, `Support.C77_cover`, `Support.C77_roof_partial`, `Support.C77_bottom_partial`, `Support.C78_plate_partial`, `Support.Cases.C78_floating_counterexample`, `Support.C79_two`, `Support.C80_reach_partial`, `Support.C80_steps`, `Support.Cases.C80_far_counterexample`, `Support.Cases.C80_negative_counterexample`, `Support.C81_blocked_partial`, `Support.Cases.C81_edge_counterexample`, `Support.C82_printed_partial`, `Support.Cases.C82_last_counterexample`, `Support.C83_exact_partial`, `Support.C83_same_partial`, `Support.C83_defined_partial`, `Support.Cases.C83_distance_counterexample`, `Load.C84_binary_partial`, `Load.C84_header_partial`, `Load.C84_short_partial`, `Load.C84_socket_partial`, `Load.Cases.C84_nan_counterexample`, `Load.Cases.C84_solid_counterexample`, `Load.Cases.C84_uv_counterexample`, `Load.C85_text_partial`, `Load.Cases.C85_long_counterexample`, `Load.Cases.C85_capitals_counterexample`, `Load.C86_obj_partial`, `Load.Cases.C86_relative_counterexample`, `Load.Cases.C86_weight_counterexample`, `Load.Cases.C86_blank_counterexample`, `Load.Cases.C86_windows_counterexample`, `Load.Cases.C86_tiny_counterexample`, `Load.Cases.C86_huge_counterexample`, `Load.Cases.C86_extension_counterexample`, `Load.C87_place`, `Load.C87_unscaled`, `Load.C87_box`, `Load.Cases.C87_nothing_counterexample`, `Mold.C88_cavity_partial`, `Mold.C88_wall_partial`, `Mold.C88_roof_partial`, `Mold.C88_slope_partial`, `Mold.C88_reach_partial`, `Mold.Cases.C88_roof_counterexample`, `Mold.Cases.C88_surface_counterexample`, `Mold.C89_keep_partial`, `Mold.C89_overhang_partial`, `Mold.C89_foot_partial`, `Mold.C89_below_partial`, `Mold.C89_hole_partial`, `Mold.C89_straight_partial`, `Mold.Cases.C89_hole_counterexample`, `Mold.Cases.C89_foot_counterexample`, `Cli.C90_scene_partial`, `Cli.C90_placed_partial`, `Cli.Cases.C90_reallocation_counterexample`, `Cli.Cases.C90_late_extruder_counterexample`, `Cli.Cases.C90_numbers_counterexample`, `Cli.Cases.C90_placed_counterexample`, `Cli.Cases.C90_rotation_counterexample`, `Cli.Cases.C90_groups_counterexample`, `Cli.Cases.C90_paths_counterexample`, `Cli.C91_inheritance`, `Cli.Cases.C91_cycle_counterexample`, `Cli.Cases.C91_directory_counterexample`, `Cli.Cases.C91_document_counterexample`, `Cli.Cases.C91_extruder_counterexample`, `Cli.C92_number_partial`, `Cli.C92_text_partial`, `Cli.Cases.C92_small_counterexample`, `Cli.Cases.C92_array_counterexample`, `Cli.C93_values_partial`, `Cli.Cases.C93_models_counterexample`, `Cli.Cases.C93_numbers_counterexample`, `Cli.Cases.C93_limit_counterexample`, `Cli.C94_refused_partial`, `Cli.Cases.C94_callback_counterexample`, `Cli.Cases.C94_number_counterexample`, `Cli.Cases.C94_unknown_counterexample`, `Monotonic.C95_once_partial`, `Monotonic.C95_monotonic_partial`, `Monotonic.C95_passes_partial`, `Monotonic.C95_twice_counterexample`, `Monotonic.C95_string_counterexample`, `Lines.C96_lines`, `Lines.C97_zigzag`, `Lines.C97_one_link`, `Lines.C97_printed`, `Simplify.C98_steps`, `Simplify.C98_ends`, `Simplify.C98_no_longer`, `Simplify.C98_line_distance`, `Simplify.C98_segment_distance`, `Simplify.C98_moved`, `Simplify.C99_corners_partial`, `Simplify.C99_no_tiny_partial`, `Simplify.C99_spike_counterexample`, `Simplify.C99_drift_counterexample`, `Simplify.C99_width_counterexample`, `Simplify.C99_vanish_counterexample`, `Coasting.C100_coasting_partial`, `Coasting.C100_volume_partial`, `Coasting.C100_width_counterexample`, `Coasting.C100_minimal_counterexample`, `Coasting.C100_last_counterexample`, `Ooze.C101_travel_partial`, `Ooze.C101_exact_partial`, `Ooze.C101_overshoot_counterexample`, `Ooze.C101_unretract_counterexample`, `Ooze.C102_fits`, `Ooze.C102_whole`, `Ooze.C102_proportion`, `Ooze.C102_order`, `Ooze.C102_nonneg_partial`, `Ooze.C102_blob_counterexample`, `Spiral.C103_layer_partial`, `Spiral.C103_written`, `Spiral.C103_print_partial`, `Spiral.C103_chain_partial`, `Spiral.C103_top_partial`, `Spiral.C103_top_counterexample`, `Spiral.C103_rest_counterexample`, `Spiral.C103_first_counterexample`, `Spiral.C103_hole_counterexample`, `Spiral.C104_layer`, `Spiral.C104_top`, `Spiral.C104_speed`, `Spiral.C104_seam_partial`, `Polylines.C105_chains`, `Polylines.C105_segments`, `Polylines.C105_vertices`, `Walls.C106_walls`, `Walls.C106_inset`, `Walls.C106_region`, `Walls.C106_alternate`, `Walls.C106_seam`, `Walls.C106_separate_counterexample`, `Scarf.C107_follow`, `Scarf.C107_heights`, `Scarf.C107_speed`, `Scarf.C107_closure`, `Scarf.C107_wall`, `Scarf.C107_pieces`, `Scarf.C107_small`, `Scarf.C107_flow`, `Scarf.C107_vertex_counterexample`, `Scarf.C107_index_counterexample`, `Scarf.C107_small_counterexample`, `Scarf.C107_short_counterexample`, `Scarf.C107_split_counterexample`, `Scarf.C107_flow_counterexample`, `Bridge.C108_bridges`, `Bridge.C108_line`, `Bridge.C108_coast`, `Bridge.C108_approach`, `Bridge.C108_speed`, `Bridge.C108_corner_counterexample`, `Bridge.C108_touch_counterexample`, `Bridge.C108_slow_counterexample`, `Bridge.C108_early_counterexample`, `Bridge.C108_second_counterexample`, `Tree.C109_collision`, `Tree.C109_way_down`, `Tree.C109_way_to_rest`, `Tree.C109_way_to_free`, `Tree.C109_stands`, `Tree.C109_history`, `Tree.C109_collision_history`, `Tree.C109_answered`, `Tree.Cases.C109_first_layer_counterexample`, `Tree.Cases.C109_still_counterexample`, `Tree.Cases.C109_radius_counterexample`, `Tree.C110_hops`, `Tree.C110_whole`, `Tree.C110_grown`, `Tree.Cases.C110_zero_counterexample`, `Tree.Cases.C110_leap_counterexample`, `Nodes.C111_safe`, `Nodes.C111_held`, `Nodes.C111_area`, `Nodes.C111_kept`, `Nodes.C111_no_gap`, `Nodes.C111_gap_counterexample`, `Nodes.C111_follow_counterexample`, `Travel.C112_route`, `Travel.C112_retract`, `Travel.C112_kept`, `Travel.C112_first`, `Travel.C112_connect`, `Lightning.C113_generate`, `Lightning.C113_layer`, `Lightning.C113_branches`, `Lightning.C113_cells`, `Lightning.C114_prune`, `View.C116_view`, `View.C116_format`, `View.C116_object`, `View.C117_overall`, `View.C117_stages`, `View.C117_bar`, `View.C117_full`, `View.Cases.C117_no_model_counterexample`, `View.Cases.C117_only_end_counterexample`, `SubDiv.C118_sides`, `SubDiv.C118_tree`, `SubDiv.C118_lines`, `Skirt.C119_ends`, `Skirt.C119_length`, `Skirt.C119_lines`, `Skirt.C119_order`, `Skirt.C119_apart`, `Skirt.C119_inside`, `Skirt.C119_stored`, `Skirt.Cases.C119_short_counterexample`, `Voxel.C120_line`, `Voxel.C120_kernel`, `Voxel.C120_polygons`, `Voxel.C120_dilated`, `Voxel.C120_even_counterexample`, `Interlock.C121_beams`, `Interlock.C121_whole`, `Interlock.C121_upper`, `Interlock.C121_ends`, `Interlock.C121_shell`, `Interlock.C121_short_counterexample`, `Interlock.C121_below_counterexample`, `Sierp.C122_triangles`, `Sierp.C122_area`, `Sierp.C122_length`, `Sierp.C122_value`, `Sierp.C122_connected_partial`, `Sierp.C122_counterexample`, `Comb.C123_path`, `Comb.C123_clear`, `Comb.C123_refused`, `Comb.C123_mark_counterexample`, `Wipe.C124_wipe`, `FirstLayers.C125_heights`, `FirstLayers.C125_removed`, `FirstLayers.C125_plate`, `InfillOrder.C126_kept`, `InfillOrder.C126_order`, `InfillOrder.C126_others`, `InfillOrder.C126_walls`, `InfillOrder.C126_closest`, `InfillOrder.C126_end`, `BelowSkin.C127_plain`, `BelowSkin.C127_one`, `BelowSkin.C127_again_counterexample`, `BelowSkin.C127_dense_counterexample`, `BelowSkin.C127_lost_counterexample`, `Overhang.C128_done`, `Overhang.C128_plain`, `Overhang.C128_route`, `Overhang.C128_speed_partial`, `Overhang.C128_regions`, `Overhang.C128_border_counterexample`, `SkinLine.C130_settings`, `SkinLine.C130_route`, `SkinLine.C130_touch_counterexample`, `Configs.C131_own_partial`, `Configs.C131_model`, `Configs.C131_settings`, `Configs.C131_settings_others`, `Configs.C131_thickness`, `Configs.C131_first_flow`, `Configs.C131_first_flow_others`, `Configs.C131_first_width`, `Configs.C131_first_width_others`, `Configs.C131_width`, `Configs.C131_combined`, `Configs.C131_bottom_counterexample`, `Configs.C131_raft_counterexample`, `Configs.C131_surface_counterexample`, `Configs.C132_ramp_partial`, `Configs.C132_rising`, `Configs.C132_steady`, `Configs.C132_others_counterexample`, `Configs.C132_below_counterexample`, `Gyroid.C133_connections_partial`, `Gyroid.C133_twice_counterexample`, `Gyroid.C133_loop_counterexample`, `GCode.C134_pulled_back_partial`, `GCode.C134_primed_partial`, `GCode.C134_firmware_pulled_back_partial`, `GCode.C134_firmware_primed_partial`, `GCode.C134_refused`, `GCode.C134_zero_distance_counterexample`, `Seam.C135_chosen_partial`, `Seam.C135_within_twice_partial`, `Seam.C135_second_pass`, `Seam.C135_exact`, `Seam.C135_threshold_counterexample`, `Seam.C136_in_range`, `Seam.C136_overhang_avoided`, `Seam.C136_painted`, `Seam.C136_nearest`, `Seam.C136_forced`, `Seam.C136_inner_corner_partial`, `Seam.C136_outer_corner_partial`, `Seam.C136_any_corner_partial`, `Seam.C136_weighted_corner_partial`, `Seam.C136_back_partial`, `Seam.C136_corner_counterexample`, `Seam.C136_open_combing`, `Seam.C137_allowed`, `Seam.C137_unchanged`, `Paint.C138_bits`, `Paint.C138_independent`, `Paint.C138_pixel`, `Paint.C138_coordinate`, `Paint.C138_value`, `Paint.C138_no_feature`, `Seam.C139_forward`, `Seam.C139_backward`, `Seam.C139_zero`, `Seam.C139_corner`, `Seam.C139_bound_needed`, `Density.C140_rectangle`, `Density.C140_nearest`, `Density.C140_range`, `Density.C140_uniform`, `Density.C140_darker`, `Density.C140_own_pixel`, `Density.C140_covers`, `Paint.C141_end`, `Paint.C141_segment`, `Paint.C141_none`, `Paint.C142_slicer`, `Paint.C142_splitter_partial`, `Paint.C142_interpolated`, `Paint.C142_inside`, `Paint.C142_splitter_overflow_counterexample`, `Parts.C143_partition`, `Parts.C144_filled`.
