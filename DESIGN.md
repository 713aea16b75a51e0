# cq-cam: formal model in Lean 4 – design

Target: `/repo` (voneiden/cq-cam, Python).  Everything below is about a hand-written Lean model of
that code; nothing here runs the Python.

## 1. Layout

* `lean/Verif/Py/*`       – the Python/numpy primitives the code uses (`round`, `int`, `repr` of a float,
  `arange`, `linspace`, stable sort, `list.index`, exceptions as `Except Err`).
* `lean/Verif/Model/*`    – the model, one Lean file per Python file, branch by branch.  Every definition cites file+lines.
* `lean/Verif/Spec/*`     – specifications that do not use the model: a decimal reader, an RS274/NGC
  (G-code) lexer+interpreter with a machine state, plane geometry (segment membership, closed polylines).
* `lean/Verif/Proofs/*`   – helper lemmas.
* `lean/Verif/Props/*`    – the property theorems `Cnn_…` only, each with a non-vacuity `example`.
* `MANIFEST.json`         – property → theorem names and status.
* `seeded/LOG.jsonl`      – mutation experiments. Each edit is made in a scratch copy and every proof that breaks is
  replaced by a stub there; `lemmas_failed` are the stubbed proofs and `theorems_failed` the property theorems that then
  depend on a stub. A listed theorem has lost its proof; that its statement became false is not shown by this (FF5 is a
  control where it did not). An edit with no `theorems_failed` is one that every property theorem survives.

## 2. Modelling conventions

* Python floats are modelled by exact rationals `ℚ` (every finite double is a rational).  The rounding error
  of individual float operations is modelled only where it was found to matter: the depths of the passes (C97, C98; `Py/Binary64`,
  `Model/Binary64`: every operation rounds to the nearest IEEE double), the scanlines, routes, sample points and moves of 3D surfacing (C130, C145-C148, C153, C154), the positions of tabs (C131, C133), the passes of a profile (C132, C143, C144) and of one with tabs (C149, C150), the order of drilling and drilling (C137, C140), the contours, extent and depths of pockets (C138, C139, C141, C142), whole programs of these operations (C155) and the digits of printed coordinates (C99).  Elsewhere it is
  **not** modelled; NaN and infinities are not modelled at all.  `round(x, p)` is correct rounding
  half-to-even of the exact value, which is what CPython does for doubles; `repr` is modelled on the decimal
  digit string + decimal point position exactly as CPython's `float_repr_style = 'short'` formats it.
* Text is `List Char`.
* Exceptions are values (`Except Err α`); which exception is raised where is part of the model.
* In-place mutation that is observable (`Job.update_tool` writing to `self`, `depth_faces +=` on a dict entry)
  is modelled by returning the mutated object as well; mutation that is not observable is modelled functionally.
* The CAD kernel (OCCT via cadquery), pyclipper, shapely and opencamlib are external.  They appear as explicit
  parameters (functions/records) of the model; assumptions about them are explicit hypotheses of the theorems
  that need them, together with a concrete instance meeting them.
* Loops with a data dependent exit (`while True`, `itertools.count`) become fuel recursion; termination
  properties are proved (enough fuel exists / explicit bound) rather than assumed.

## 3. Plan per property

| id | modelled | proof |
|----|----------|-------|
| C01,C02 | `GCodeWordPrecision.__str__`, `optimize_float`, float repr | spec: decimal reader; digit-list lemmas, half-even bound |
| C03 | `GCodeAxisGroup`, `XYZ`, `IJK` | lexer of the spec recovers the words |
| C04 | `GCodeWord` | exact iff for floats: readable iff decimal exponent in repr's fixed range; negation witness 1e-05 |
| C05,C06 | `MotionCommand.__init__` & subclasses | case analysis |
| C07 | `Circular.__str__` | rounding bound, text-level via lexer |
| C08 | config commands | interpreter from arbitrary machine state |
| C09 | `Operation.to_gcode`, `Job.to_gcode` | induction on operations/commands: interpreter ∘ printer = command semantics |
| C10-C13 | same | invariants on the interpreter trace, induction over operations |
| C14 | `Job.__init__`, `SafetyBlock` | full statement false: witness; partial for the default configuration |
| C15 | comments | full statement false (name containing `)` or newline): witness; partial for other names |
| C16 | `save_gcode` | full statement false for every job: proved negation |
| C17-C23 | `Job.update_tool`, fluent methods as a state machine over operation requests | induction on histories; C18, C20, C23 false in general: witnesses + partial |
| C24-C28 | `rapid_to`, `route_polyface_outers`, `shift_polygon`, `distance_to_path` | induction over contours; C28 false: witnesses + partial |
| C29,C30 | `route_edge`, `route_wires`, `shift_edges` | abstract edge record; induction; C30 false in general: witness + partial |
| C31-C37 | geometry helpers | ordered-field algebra, list induction |
| C38-C40 | depth map, `build_pocket_ops`, poly tree conversion | clipper as parameter that is right at points farther from the outlines than a tolerance; C40 false: witness + partial |
| C41,C42 | `Tree`, `fill_pocket_contour_shrink` | tree as parent-pointer node list; induction; termination by measure |
| C43-C45 | stepdown, `pocket_clipper` | arithmetic on `arange`; composition |
| C46-C48 | `profile`, `Job.profile`, `extract_wires` | loop invariant with explicit bound |
| C49-C51 | tabs, `apply_tabs` | ordered-field arithmetic; induction over transitions and edges; C49, C50, C51 false in general: witnesses + partial |
| C52-C55 | `Drill` | permutation/greedy induction; C55 false: witness + partial |
| C56-C59, C78, C79 | `Surface3D` | list induction, drop cutter and scan engine as parameters; C59, C78, C79 false in general: witnesses + partial |
| C60 | whole program, all operations | exact criterion on the command list by induction; C60 false for 3D surfacing: witness; partial for the others |
| C61-C64, C80 | `LinkedPolygon`, zigzag | state invariant; C63, C64 false in general |
| C65,C66 | whole program | interpreter trace; C65 false: witness |
| C81,C82 | whole programs of library operations (`Spec/Library`, `Props/Rapids`) | invariant "the rapids of a move list start where the tool is" for every router and operation, carried through the run of the text |
| C83-C85 | `pocket_cq.py`, `offset_face`, the choice of the engine in `pocket`; `Model/PocketCq`, `Props/PocketCq`, `Props/PocketCqPath` | kernel of faces as parameter with a contract off the borders; the fill loop shared with C42; C83, C85 false in general: witnesses + partial |
| C86, C87 | selection, projection, offsets and polygons of `Surface3D`; `Model/Op3dCall`, `Spec/SurfaceBoundary`, `Props/SurfaceBoundary` | list induction, faces and wires of the kernel as parameters; both false in general: general violations (holes ignored, reversed and short curves) + partial |
| C88 | scaling around pyclipper; `Model/Scaling`, `Spec/Scaling`, `Props/Scaling` | floor/ceiling arithmetic; every path made by the scaled engine is on the grid (induction over trees and contours); contract of C39 carried over from integers |
| C89, C90 | the fill of a pocket against its regions; `Spec/Coverage`, `Props/Coverage`, example engine in `Props/CoverageExample` | induction over the contours (`Unfolds`): a point farther than the stepover from a contour survives shrinking and the removal of the holes, so it is inside a following contour; engine contracts with a tolerance, for outlines of a kind `G` (for pyclipper: simple polygons on its grid) |
| C91-C93 | `WireClipper`, `_sort_clipper_output`, `ContourStrategy`; `Model/ContourStrategy`, `Spec/ContourStrategy`, `Props/ContourStrategy` | induction over call histories; rotations of lists; the queue loop as generations (strong induction on the rounds); C92 false in general |
| C94 | the whole program of a job with a pocket or holes in it; `Spec/EndToEnd`, `Proofs/Segments`, `Props/EndToEnd` | the parts of the run belong to the calls (`chain_program`), positions of the machine agree with those of the commands by induction over the moves; then C89 and C54, with the error of rounding |
| C95 | the whole program of a job whose operations have arcs; `Spec/EndToEnd`, `Props/Arcs` | positions of the machine agree with the starts of the arcs (as for C94), rounding shifts start, end and centre by at most half a thousandth in each coordinate, and a shift changes a distance by at most its own length; pockets, drilling and profiles are shown to meet the conditions; witness of the violation: a slot with a round end after another contour |
| C96 | the same programs | an arc of the machine is a full turn iff the printed ends agree; ends more than a thousandth apart stay apart; closed circles are split at half the parameter; witness of the violation: an arc of length 0.0004 |
| C97 | `apply_stepdown` and numpy's `arange` with rounding after every operation; `Py/Binary64`, `Model/Binary64`, `Props/Binary64` | error of one operation, number of values of `arange`, error of the i-th value, all by absolute bounds; violated by a computed witness |
| C98 | the depths of `Surface3D` in the same way | the same lemmas; violated by a computed witness |
| C99 | `round`, `optimize_float` and the digits of `repr`: a relation that says which digits are right for a double (`ReprDigits`), not how dtoa finds them | two decimals of at most 15 digits read as the same double are equal (relative error 2^-53 against their distance), canonical digits are unique; witness with 18 digits |
| C100 | the moves of `Surface3D` and the run of the program; `Spec/Surface` (`ClearWay`), `Props/SurfacePath` | every move of a piece joins two points at most an interpolation step apart whose heights are at least those of the shape, so a point of the chord is at most K·step/2 below; connected moves, so the machine starts each move where the model does; the ridge example attains the bound |
| C101 | the whole program of a job with a profile; `Spec/EndToEnd` (`RunsProfile`, `RunsWire`, `RunsEdge`), `Props/ProfileRun` | the moves of `profile` split into wires, contours, passes and edges (C30, C46); the machine performs each move from where the library takes the tool to be (C94); rounding bounds the distance; the violation is the overshoot of C30 carried to a run of the machine |
| C102 | the whole program of a job with a profile with tabs; `Spec/EndToEnd` (`RunsTabProfile`, `FlatContour`, `ZonesFit`), `Spec/Tabs` (`TabbedPass`, `EdgeMarks`, `WireMarks`), `Props/TabRun` | every raised copy of a contour meets the conditions of C51, so each pass is tabbed as marked; then as C101; the violation is C51's lost tab carried to a run of the machine |
| C103 | the whole program of a job with a pocket; `Spec/EndToEnd` (`InRegion`, `FeedsFromTo`, `StaysOver`), `Props/PocketRun` | every sequence of contours has one depth and comes from one region (`allSequences_uniform`) and begins with an approach, so by induction over the blocks of the router every feed move runs along a contour of that region, is a link or a chord of a contour; contours lie in the region (C90); a link goes from inside a contour to the nearest point of the contour, so it meets the contour nowhere else and stays inside it (`Proofs/Parity`: the parity of crossings changes only at the outline); carried to the machine as in C94; the violation is the closing chord of an unlinked contour |
| C104 | the whole pocket call; `Spec/PocketTotal` (`Answers`, `Usable`, `LeavesSome`), `Props/PocketTotal` | every step of the call is total on good contours (router, offset, union, difference, regions), and the filling ends because every round makes the contours smaller by at least a fixed amount; the violation uses an engine that refuses an empty list of contours, as pyclipper's `AddPaths` does |
| C105 | `apply_tabs` and `profile` with wire tabs; `Spec/TabTotal` (`FirstTabApart`), `Props/TabTotal` | if the condition fails, two transitions to tab follow each other on one edge, and by induction over the transitions and edges the connector between them is refused; otherwise C50 gives alternating transitions, whose connectors are vertical lines of positive length |
| C106 | the whole call `pocket` with a stepdown, up to the text and the machine; `Spec/DepthOfCut` (`ContainsRight`, `ClearedAt`), `Props/DepthOfCut` | the commands are the commands of the sequences in order; before a sequence at one depth come all sequences of the region at the depth above, or those of a region that contains it (C43, C44); each of these covers the region (C89); then the moves of the machine are those commands in order (C94) |
| C107 | `profile`, `pocket` with its faces in world coordinates (`Model/Placed`), `drill`, the chain of calls and the text; `Spec/Placement` (`Rigid`, `SameWork`), `Props/Placement` | local coordinates are invariant under a rigid motion of point and plane; everything after the transformation is a function of the local shapes and of job attributes other than the plane, except the cut with the plane in the loop over the passes; two counterexamples |
| C108 | as C103, and `offset_polyface` back to the given faces; `Spec/Gouge` (`OffsetsRight`, `CutsRight`, `ToolIn`), `Props/Gouge`, `Props/GougeExample` | a point of a region is (up to the tolerance) in an area at least as deep and not cut away; an area is in the shrunk outline of a given face, whose contours keep the offset from it; a point too near to a hole or avoid face would be in its grown contours, an odd number of times; counterexample: a link through a wall |
| C109 | as C94 and C108; `Spec/Reach` (`OffsetsTight`, `HolesInside`, `Fits`), `Props/Reach`, `Props/ReachExample` | counting, at the point, the contours made of each face, hole and avoid face (even-odd): the shrunk outline of its face contains it, everything grown does not and stays away, so it is in a region and C94 applies; counterexamples: a square pocket inside a moat, and the hole of an avoid face (a limitation noted in pocket.py:177) |
| C110 | `offset_wire`, `circle_bug_workaround`; `Spec/Circle` (locations of wires, the fault of the kernel), `Props/Circle` | the motion set by the workaround undoes that of the wire it is given: right for the circle, nothing for one of the results; counterexample: a kernel with the fault |
| C111 | all enumerations of `groups.py` (`Model/Groups`, `Model/AllGroups`); `Spec/ModeWords` (what each name stands for), `Props/ModeWords` | by cases over the members, for every machine state; counterexample: the text of one probe mode is not a word |
| C112 | `Job` feeds, `rapidTo`, the routers, `drill`; `Spec/Library`, `Props/PlungeFeed` | the kind of a move determines its feed in every router (with C60); the machine performs the moves with their feed (C94); counterexample: drilling ignores the plunge feed |
| C113 | `scalePt`, `scaledOffset`, `scaledBoolean`; `Spec/IntEngine`, `Proofs/Nudge`, `Props/IntEngine`, `Props/IntEngineExample` | moving the vertices of an outline by up to ε changes the parity of crossings only within ε of it (each edge and its moved copy span a quadrilateral in a half-plane without the point); with it every contract on integers gives the contract for the scaled engine |
| C114 | `profile`, `profileRequest`, `wireProfileRequest`, `routeWires`, `offsetWire`, `stepLayers`; `Spec/ProfileTotal`, `Props/ProfileTotal` | totality of every function on the way, each as an exact characterisation of success and of the exception; the two sides are put together to an equivalence |
| C115 | `profile`, `profileRequest`, `wireProfileRequest`, `routeWires`, `routeEdge`, `interpolateEdgeToVectors`; `Spec/ProfileClear`, `Props/ProfileClear` | every point a move passes over (`Sweeps`: segment or arc) is near a point of the contour's edge it was made for (`Edge.covers`); the kernel's contract puts that point at the offset distance from the part; triangle inequality; with tabs (`Props/TabClear`): every piece and every connector of a pass lies within an edge of the contour (`Within`), by induction along the transitions; on the machine (`Props/ProfileMachine`): C94 gives the rounded moves, rounding moves the points of a segment by less than a thousandth |
| C116 | `shapeToTriangles`, `faceTriangles`, `surfaceBoundaryMesh`, `surface3dMesh`, `combineShape`, `MeshedFace.moved`; `surface3dMeshRequest`; `Spec/Mesh`, `Spec/MeshPath`, `Props/Mesh`, `Props/MeshPath` | points of triangles read from a mesh against points of the face (`OnFace`, nodes put in place by the face's location); the contract of the drop cutter (`DropsClear`) and C56 give clearance; a tool is a set of points that reaches up (`Cutter`); between the ends of the moves and on the machine from C100 and C94 |
| C117 | `Job.show`, `showFrom`, `pictureFor`, `entryName`; `Props/Show` | induction over the operations; names differ because the number ends at the first character that is no digit and decimal numerals are injective; pictures by C67 |
| C118 | `surface3d`, `surfaceBoundary`, `zigzag`, `wirePolygon`, `offsetBoundary`; `Spec/SurfaceTotal`, `Props/SurfaceTotal`, `Props/SolidMore` | every step is total or fails with a known exception; zigzag paths never stand still (their vertices are pairwise different), so the interpolation succeeds; false for narrow faces and for scanlines that hit the first edge |
| C119 | `surface3dCall`; `Props/SurfaceTool` | from C86; false: the moves do not depend on the tool of the job |
| C120 | `passesMoves`, `chopFrom`, `passLimit`, `pieceMoves`; `Spec/SurfaceStep`, `Props/SurfaceStep` | lower limits give pieces that are infixes of those of the pass before, so every cut has a cut on the same line in the pass before; heights `max(depth, h)` change by at most the stepdown; machine by C94; false for top heights above the job plane |
| C121 | `Model/Cache` (`cachedDist2`, `drillC`, `zigzagC`, `surface3dC`, `sortOutputC`, `contourStrategyC`, `runProcess`, `cachedColors`); `Spec/Cache`, `Props/Cache` | refinement: with any right dictionary the cached code returns what the uncached returns and leaves a right dictionary; induction over the calls |
| C122 | `Model/Profile`, `Model/WireRouter`; `Spec/ProfileStep`, `Props/ProfileStep` | the commands of a raised pass are the raised commands (induction over the edges); induction over the passes; followed on the machine by C94; counterexample |
| C123 | all operations; `Spec/Shift`, `Props/Shift`, `Props/ShiftProfile`, `Props/ShiftPocket`, `Props/ShiftSurface`, `Props/ShiftMachine`, `Props/ShiftExample` | function by function, each commutes with the shift, given that the answers of the kernel and the clipper do (the clipper's integer grid is left out here); chains by induction; the machine by C94; counterexamples for turned planes (drilling) and for fractions of a unit (surfacing) |
| C124 | all operations; `Spec/Feeds`, `Props/Feeds`, `Props/FeedsExample` | non-interference: function by function, forgetting the feeds of a job forgets the feeds of its motions and nothing else; chains by induction on both runs; the machine by C94 |
| C125 | `pocket`, `profile`, `surface3d` with and without stepdown; `Spec/OnePass`, `Props/OnePass` | the layers computed with such a stepdown are the single layer computed without; congruence of chains |
| C126 | all operations at two pairs of heights; `Spec/Heights`, `Props/Heights`, `Props/HeightsExample` | relational induction over the routers (positions above the same point; equal once a cut was made); chains by induction on both runs; the machine by C94 |
| C127 | pockets and profiles with and without stepdown; `Spec/AddsPasses`, `Props/AddsPasses`, `Props/AddsPassesExample` | the sequences without stepdown are a sublist of those with it; every sequence is entered by `rapidTo`, whose only feed move is the plunge from the safe height, so feed moves do not depend on what came before; chains by induction on both runs; the machine by C94 |
| C128 | `wire_profile`, `profile`, `surface3d` on lists, `update_tool`, whole chains; `Spec/Split`, `Proofs/Forgetful`, `Props/Split` | the operations never read the operations so far; loops over lists split; giving the tool again changes nothing; chains by induction, the machine by C94 |
| C129 | all operations, `update_tool`, whole chains; `Spec/Split`, `Props/Order`, `Props/OrderExample` | every call runs with settings that depend on its own tool only; the motions of a chain are the list of what each call does alone |
| C130 | `max_bounds`, the scanlines of `ZigZagStrategy.process`, `interpolate_cut_sequence` with IEEE doubles; `Model/Scan64`, `Spec/Scan64`, `Props/Scan64`, `Props/Sample64` | rounding is symmetric, so `arange` upwards is the mirror image of the one of C97; its values and number with error bounds; the errors of each coordinate add up, the triangle inequality for neighbours |
| C131 | `WireTabs` with IEEE doubles; `Model/Tabs64`, `Spec/Tabs64`, `Props/Tabs64`, `Props/Tabs64Wire` | the transitions of every edge are compared with the exact ones: the same number and kinds, positions up to an error bound, if no end of a tab is near a corner; then order, alternation and zones carry over from C50, and the wire from C51.  Violated at corners (witness by evaluation) |
| C132 | the loop over passes of `profile` with IEEE doubles and an imprecise kernel; `Model/Profile64`, `Spec/Profile64`, `Props/Profile64` | induction over the rounds of the loop as for C46, with the errors of the product, of the literal `-0.001` and of the bounding box; the number of passes follows from monotonicity when no pass is within the errors of the tolerance.  Violated as C46 (witness by evaluation) |
| C133 | `EdgeTabs` with IEEE doubles; `Model/EdgeTabs64`, `Spec/EdgeTabs64`, `Props/EdgeTabs64` | Python's float floor division is shown to be the floor; the ends of the tabs are compared with the exact ones; order and disjointness from the margins, and the wire from C51.  Violated for decimal multiples and for small spacings (witnesses by evaluation) |
| C134 | Change of units for drilling, profiles with tabs, pockets, 3D surfacing, chains and the machine; `Spec/Units`, `Spec/UnitsPocket`, `Spec/UnitsSurface`, `Props/Units`, `Props/UnitsProfile`, `Props/UnitsPocket`, `Props/UnitsMachine`, `Props/UnitsExample`, `Props/UnitsPocketExample`, `Props/UnitsSurface`, `Props/UnitsSurfaceExample` | Every function of the model is shown to commute with the conversion, given a kernel that does; constants in the code (0.1 area, 0.001 depth, samples per unit) and the comparison of a squared distance with the stepover are the exceptions, each with a witness.  For 3D surfacing the rounding of the scanned area to whole units is a further exception, with a witness |
| C135 | Whole programs against the finished part as a solid; `Spec/Solid`, `Props/Solid`, `Props/SolidMore`, `Props/SolidExample` | The way of every printed feed move, with the tool of its call, keeps out of the solid; from the runs of chains (C94) and, per operation, from C54, C100, C108 and C115.  Links of pockets are a hypothesis because they violate the claim (witness) |
| C136 | Rotations about the job's Z axis and reflections, on parts, wires, faces, motions, programs and machine moves; `Spec/Turn`, `Props/Turn`, `TurnProfile`, `TurnPocket`, `TurnMachine`, `TurnPlanar`, `TurnExample` | Every modelled step commutes with the turn (distances, arc directions, nearest points, offsets by hypothesis on the engines), by induction on wires, holes, sequences and calls; on the machine from C94.  Witnesses for drilling beside the origin and for surfacing, where it fails |
| C137 | `Model/Drill64`: `dist2`, `_pick_nearest` and the loop of `Drill` on doubles, `pow(x, 2.0)` as a parameter within one unit in the last place; `Spec/Drill64`, `Props/Drill64` | Relative error of `dist2`, then induction on the holes that are left; on a binary grid different squares are apart by more than the error.  A witness shows that the tolerance is needed |
| C138 | `Model/Routers64`: `dist_to_segment_squared`, `distance_to_path` and the router on doubles; `Spec/Contour64`, `Props/Near64`, `Props/Contours64` | Error analysis of the projection (the parameter, the clamp, the point), then the walk around the contour from the rounded point is compared with that from the exact one, point by point; induction on segments and contours |
| C139 | `Model/Pocket64`: `tool_radius`, `calculate_offset`, the loops of `pocket_clipper` and `pocket` on doubles, on top of C97 (passes) and C138 (router); `Spec/Pocket64`, `Props/Pocket64`, `Props/Pocket64Example` | All contours lie on the engine's grid of 2^-31 mm and in a box, so they are doubles and distinct neighbours are apart (hypotheses of C138); induction on regions and sequences for the path; coverage as in C89, with the rounding of C138 added, and C94 for the machine |
| C140 | `Model/Drill64`: `Job.drill` as a call, on doubles (`drillRequest64`); `Props/DrillMachine64` | The feed moves of the drill path are the plunges in the order of the holes (induction on the holes); C94 relates them one by one to the feed moves of the machine; C137 gives the order, rounding and printing are added to the place |
| C141 | as C139 and C108; `Spec/Gouge64`, `Props/Gouge64`, `Props/Gouge64Example` | Every feed move of a sequence begins and ends near its contours (C138, by induction on the contours, all at one depth); the contours are in the region (C103) and the region is where the tool is in the faces (C108); C94 for the machine.  Counterexample: the link of C108 through a wall |
| C142 | as C139, with a stepdown; `Spec/DepthOfCut`, `Spec/Gouge64`, `Props/DepthOfCut64`, `Props/DepthOfCut64Example` | As C106, with the passes of C97 (each at most a stepdown and the error of rounding below the one before), the contours of C138 and the coverage of C139 |
| C143 | `Job.profile`, `Job.wire_profile` on floats (`Model/Profile64`); `Spec/ProfileRun64`, `Props/ProfileRun64` | The passes of C132 for every profile that is not refused, then as C101 and C122; false as C122: witness |
| C144 | `offset_wire` on floats (`Model/Profile64`); `Spec/ProfileClear64`, `Props/ProfileClear64` | As C115, with the distances of both attempts within two millionths of the exact one; false as C115: witness |
| C145 | `ZigZagStrategy`, `LinkedPolygon` and distances to segments on floats (`Model/ZigZag64`); `Spec/ZigZag64`, `Props/ZigZag64` | As C61, with the error of a computed distance bounded by rounding; false on the closing segment: witness |
| C146 | `Surface3D` on floats (`Model/Op3d64`); `Spec/Surface64`, `Props/Surface64` | As C56, C78, C100: paths stay within the boundary's coordinates (C145), so samples are dense enough (C130); false without the allowance for the interpolation step: witness |
| C147 | `Surface3D` on floats (`Model/Op3d64`); `Spec/SurfaceStep`, `Props/SurfaceStep64` | As C120, with the depths of C98; rounding is monotone, so the values of `arange` never rise; false above the job plane: witness |
| C148 | `Surface3D` on floats (`Model/Op3d64`); `Spec/SurfaceReach64`, `Props/SurfaceReach64` | As C79, with the depths of C98 and the samples of C130: consecutive depths differ by the stepdown up to `passError`, so that the depth interval of a pass holds the height of each sample or of its neighbour; false behind steep steps: witness |
| C149 | `profile` with tabs on floats (`Model/TabProfile64`); `Spec/TabRun64`, `Props/TabRun64` | C143 for the passes, C131 and C133 for the tabs (now without exact boxes), then the machine as in C102; false for tabs that end at corners: witness |
| C150 | C149's model with C144's specification; `Spec/TabClear64`, `Props/TabClear64` | transitions in floating point are in order (C131, C133), so pieces and joints lie within the contour as in C115; the machine as in C144; false for the fault of circles: witness |
| C151 | C102's model; `Spec/TabStep` (`PassesDown`), `Props/TabStep` | the places of the tabs do not depend on the height, so consecutive passes are divided alike; induction over the transitions gives a lower bound for a pass and an upper bound for the pass above at each place of the contour; false where passes are left out: witness |
| C152 | C149's model; `Spec/TabStep64`, `Props/TabStep64` | as C151, with the errors of the heights of passes, of the boxes and of the top of the tabs added up; a pass that the kernel finds above the tabs is at most twice the error of the boxes below their top; false where passes are left out: witness |
| C153 | `Model/Mesh64` (`surface3dMesh64`), `Model/Op3d64`; `Spec/MeshPath64`, `Props/Mesh64` | a surfacing over a shape is one with the engine of its triangles, which make up the shape when it has no location; then C146 on the way between samples and C94 on the machine; false for faces with a location: witness |
| C154 | `Model/Op3d64`, `Model/ZigZag64`, `Model/Mesh64`; `Spec/SurfaceTotal64`, `Props/SurfaceTotal64`, `Props/MeshTotal64` | C145 gives the path; it never stands still, and different doubles have a difference that is not rounded to zero, so all directions exist; the number of passes is rounded to at least one; false for narrow faces and for the first edge: witnesses |
| C155 | the `*64` models; `Spec/Library64`, `Spec/Solid`, `Props/Solid64`, `Props/Solid64Example`, `Props/SolidPocket64`, `Props/SolidPocket64Example` | rapids as C81, by the same shape of all operations; the way of every feed move from C137 (drilling), C144 and C150 (profiles), C141 (pockets), C146 and C153 (surfacing), then as C135; false for pockets with walls: a witness |
| C67 | `visualize.py`, `to_ais_shape`, `to_shapes` over a drawing kernel; `Model/Visualize`, `Props/Visualize` | list induction against the relation `Shown`; violated: arcs are not drawn (cadquery refuses an `AddressVector`), the first drawn move starts at the origin of the job plane |
| C74 | `pocket` (areas and refusals) | case analysis over the arguments, offset engine as parameter |
| C75-C77 | `offset_wire`, `profile`, `Job.profile`, `Job.wire_profile` | composition with the wire router; C75, C76 false: witnesses + partial |
| C70,C71 | `SafetyBlock`, `ToolChange`, whole program | interpreter trace |
| C72,C73 | `route_wires`, `WireUtil`/interpolation | induction over edges; step bound |
| C68,C69 | constructor defaults, `cut_clockwise` | case analysis over the whole (finite) table |

## 4. Trusted base

* Lean's kernel, and the axioms `propext`, `Classical.choice`, `Quot.sound`; every theorem of the project depends on these three
  at most.  No axiom is declared, nothing is `sorry`; no `native_decide`, no `bv_decide`.  `decide +kernel` is used only for
  concrete witnesses and examples, and is checked by the kernel.
* The reading of the Python source that the comments of the model record, with the simplifications stated there.
* The reading of G-code in `Spec/GCode.lean` (a part of RS274/NGC: words, modal groups, motions, `G28`/`G30` homing, comments).
* The conventions of section 2: exact rationals for floats except for C97-C99, C130-C133 and C137-C150, external engines as parameters; for C97, C98, C130-C133 and C137-C150 the
  reading of numpy's `arange` in `Model/Binary64` and `linspace` in `Model/Tabs64`, for C99 that of CPython's `round` and `repr`.

### What is modelled, file by file (`src/cq_cam/`)

| file | modelled | not modelled |
|------|----------|--------------|
| `address.py` | `AddressVector` with its conversions, the texts of all words and axis groups | word objects themselves (a word is its text), `__repr__` |
| `groups.py` | every member of every enumeration, with its text | `__repr__` (except of `Unit`) |
| `command.py` | constructors, `__str__` of every command, `to_ais_shape` (C67) | `arrow` attribute; presentation attributes other than colour |
| `fluent.py`, `tool.py` | constructor, `update_tool`, all operation calls as state transitions, `to_gcode`, `save_gcode`, `to_shapes`, `show` | finding `show_object` in `__main__`, the logged warning |
| `routers.py` | everything with a caller | `vertical_edge` (no caller) |
| `utils/utils.py` | vector, vertex, edge and wire helpers used by the operations, `flatten_edges`, `extract_wires`, `cut_clockwise`, `cached_dist2`, `project_face` (which wires the projection has is the kernel's answer), `optimize_float`, `flatten_list` | `drop_z`, `compound_to_edges`, `break_compound_to*`; of `WireClipper` everything but the clip types other than intersection (for the zigzag strategy it is part of the clipping engine) |
| `utils/geometry_op.py` | `PathFace`, distances, tree conversion, the region logic around offsetting and boolean operations, scaling to integers | pyclipper itself (on integers, a parameter; the scaling around it is modelled), `path_to_wire`, `boolean_op_path_list` (no caller) |
| `utils/interpolation.py`, `utils/tree.py`, `utils/linked_polygon.py`, `utils/circle_bug_workaround.py` | all functions but the curve lookup `get_edge_basis_curve` and `__repr__` | `numpy` vector types |
| `operations/pocket.py` | all functions | logging |
| `operations/profile.py`, `operations/tabs.py` | all functions; wire assembly, offsetting and plane cutting as parameters | logging |
| `operations/drill.py` | all of it | – |
| `operations/op3d.py` | path generation, passes, routing, reading the mesh (`shape_to_triangles`); scan engine, meshes left on faces and drop cutter as parameters | the mesher itself; the module-level duplicate of `shape_to_triangles` (unused) |
| `operations/strategy.py` | zigzag strategy, contour strategy, `_sort_clipper_output` | the abstract `Strategy.process`; logging |
| `operations/base_operation.py` | `_o_objects`, `offset_boundary`, `_wp_to_faces`, `FaceBaseOperation.__post_init__` | class plumbing (`Operation.__post_init__`, `to_gcode`, `combine_faces*`); `transform_shapes_to_global` and `break_compound_to_faces` are the kernel's answers |
| `operations/pocket_cq.py` | all functions; faces, fusing and cutting as parameters (not reachable from the fluent API, which always takes the clipper engine) | logging |
| `visualize.py` | `visualize_job`, `visualize_job_as_edges`, `visualize_job_plane`, `cached_occ_color` | OCCT presentation objects |

### External engines

CadQuery/OCCT (edges: positions at parameters and lengths, tangents, offsets, nearest points; wires: bounding box, length),
pyclipper (offset, boolean operations, poly trees), shapely, opencamlib (drop cutter), numpy.  Each is a parameter of the
model.  A theorem needing some of its behaviour takes that as a hypothesis, and a concrete instance meeting it stands beside
the theorem.

### Fluent calls

Properties of programs are stated for every job reachable (`Reach`) by a tree of operation calls from a constructor call, and
for chains (`ChainOK`) of calls.  A call is `RequestOK` on a job if its operation name is harmless, its tool has printable
numbers and the moves it generates there are printable; the moves themselves are arbitrary in those theorems, so they hold for
all operations, also future ones.
