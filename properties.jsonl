{"id": "C01", "title": "Axis words are the nearest thousandth", "statement": "The decimal number printed in any X/Y/Z/I/J/K word of the G-code, read back as a decimal, is the multiple of 10^-precision closest to the commanded coordinate (ties to the even digit); with the default precision 3 it is off by at most 0.0005.", "quantifier": "every coordinate value (any rational; for doubles and the digits Python finds for them see C99) and every precision up to 4 digits (the package uses 3)", "why_tests_cant": "A test fixes a few coordinates; the bound and the tie rule have to hold for every value.", "anchors": ["src/cq_cam/address.py:GCodeWordPrecision.__str__", "src/cq_cam/utils/utils.py:optimize_float"]}
{"id": "C02", "title": "Axis numbers are plain decimals", "statement": "The number in an axis word is an optional minus sign, at least one digit, and optionally a point followed by one to `precision` digits not ending in 0. It never contains an exponent, never is a negative zero and carries no superfluous zeros.", "quantifier": "every coordinate value and every precision up to 4 digits (the package uses 3)", "why_tests_cant": "Formatting corner cases (-0.0004, 1e15, 0.1 added many times) cannot be enumerated.", "anchors": ["src/cq_cam/address.py:GCodeWordPrecision.__str__", "src/cq_cam/utils/utils.py:optimize_float"]}
{"id": "C03", "title": "Axis group prints exactly the known axes", "statement": "The coordinate part of a move prints one word per known axis, in the order X Y Z (I J K for centres), omits an axis exactly when it is unknown, and a reader recovers precisely the known axes with their rounded values.", "quantifier": "every combination of known/unknown axes and every value", "why_tests_cant": "8 presence patterns times unboundedly many values.", "anchors": ["src/cq_cam/address.py:GCodeAxisGroup.__str__", "src/cq_cam/address.py:XYZ", "src/cq_cam/address.py:IJK"]}
{"id": "C04", "title": "Feed, speed and tool words are readable back", "statement": "The F, S, T and H words printed for a value can be read back by a G-code reader as exactly that value.", "quantifier": "every integer value and every finite float", "why_tests_cant": "Python's float repr switches to exponent notation outside [1e-4,1e16); only a proof over all digit strings finds the boundary.", "anchors": ["src/cq_cam/address.py:GCodeWord.__str__", "src/cq_cam/address.py:Feed", "src/cq_cam/address.py:Speed", "src/cq_cam/address.py:ToolNumber", "src/cq_cam/address.py:ToolLengthOffset"]}
{"id": "C05", "title": "Omitted axes keep their value", "statement": "Constructing a move with a start position fills each axis the caller left out with the start's value and leaves each given axis unchanged; without a start nothing is filled in.", "quantifier": "every start (present or absent) and every combination of given axes", "why_tests_cant": "Statement about all partial positions.", "anchors": ["src/cq_cam/command.py:MotionCommand.__init__", "src/cq_cam/command.py:MotionCommand.abs"]}
{"id": "C06", "title": "Plunges and retracts are vertical", "statement": "Creating a plunge (rapid or feed) or a retract with an X or Y target is refused; every plunge or retract that can be created from a fully known start has the same X and Y at both ends.", "quantifier": "every start and end", "why_tests_cant": "Universal over positions.", "anchors": ["src/cq_cam/command.py:PlungeRapid", "src/cq_cam/command.py:Retract", "src/cq_cam/command.py:PlungeCut"]}
{"id": "C07", "title": "Arc words describe the commanded arc", "statement": "For an arc move the I J K words are the centre minus the start, each rounded to the nearest thousandth, and the end words are absolute; a controller in incremental arc mode that stands at the rounded start reconstructs a centre within 0.001 of the commanded centre on each axis.", "quantifier": "every start, end, centre (all axes known)", "why_tests_cant": "Error accumulation bound over all values.", "anchors": ["src/cq_cam/command.py:Circular.__str__", "src/cq_cam/address.py:AddressVector.to_vector"]}
{"id": "C08", "title": "Config blocks have the advertised machine effect", "statement": "A start sequence turns the spindle on clockwise with the given speed and coolant; a stop sequence turns the spindle off (and coolant off when coolant was configured); a tool change stops the spindle, homes, loads the requested tool with its length offset, and restarts the spindle with the given speed and coolant.", "quantifier": "every tool number, speed, coolant and every prior machine state", "why_tests_cant": "Effect must hold from any machine state.", "anchors": ["src/cq_cam/command.py:StartSequence", "src/cq_cam/command.py:StopSequence", "src/cq_cam/command.py:SafetyBlock", "src/cq_cam/command.py:ToolChange"]}
{"id": "C09", "title": "The program text means the command list", "statement": "Interpreting the text returned by to_gcode with an independent G-code reader succeeds and performs exactly the moves of the job's operations, in order, with the rounded coordinates and feeds of the commands and nothing else besides the fixed header, footer and tool-change blocks.", "quantifier": "every job: any number of operations, any commands, any job name that cannot close a comment", "why_tests_cant": "End-to-end text/semantics correspondence over unboundedly many programs.", "anchors": ["src/cq_cam/fluent.py:Job.to_gcode", "src/cq_cam/fluent.py:Operation.to_gcode", "src/cq_cam/command.py"]}
{"id": "C10", "title": "Spindle is on for every cutting move", "statement": "In every program returned by to_gcode, the spindle is running clockwise whenever a feed move (G1/G2/G3) is executed.", "quantifier": "every job history and every prior machine state", "why_tests_cant": "Depends on the whole history of tool and speed changes.", "anchors": ["src/cq_cam/fluent.py:Job.to_gcode", "src/cq_cam/fluent.py:Job.update_tool", "src/cq_cam/command.py:ToolChange"]}
{"id": "C11", "title": "Coolant follows the job setting", "statement": "If the job has a coolant setting, that coolant mode is active at every feed move of the program and coolant is off when the program ends; if it has none the program never touches coolant.", "quantifier": "every job history", "why_tests_cant": "Whole-history property.", "anchors": ["src/cq_cam/fluent.py:Job.to_gcode", "src/cq_cam/command.py:StartSequence", "src/cq_cam/command.py:StopSequence"]}
{"id": "C12", "title": "Programs end stopped", "statement": "Every program ends with the spindle off and a program-end-and-reset as its very last block, and no motion or other block follows the program end.", "quantifier": "every job", "why_tests_cant": "Universal over programs.", "anchors": ["src/cq_cam/fluent.py:Job.to_gcode"]}
{"id": "C13", "title": "Motion happens in a defined modal state", "statement": "Every move of a generated program is executed in absolute distance mode, XY plane, units-per-minute feed mode, with cutter compensation and canned cycles off, whatever state the machine was in before.", "quantifier": "every job and every prior machine state", "why_tests_cant": "Quantifies over prior machine states.", "anchors": ["src/cq_cam/command.py:SafetyBlock", "src/cq_cam/fluent.py:Job.to_gcode"]}
{"id": "C14", "title": "The program selects the job's unit", "statement": "A job created with a unit emits a program that runs in that unit (G20 for imperial, G21 for metric); likewise for the configured work plane, work offset, distance mode and planner mode.", "quantifier": "every job configuration", "why_tests_cant": "Every configuration and history.", "anchors": ["src/cq_cam/fluent.py:Job.__init__", "src/cq_cam/command.py:SafetyBlock"]}
{"id": "C15", "title": "The job name never affects machining", "statement": "Two jobs that differ only in their name produce programs with the same machine behaviour.", "quantifier": "every pair of names, every job", "why_tests_cant": "Universal over strings: injection through the comment.", "anchors": ["src/cq_cam/fluent.py:Operation.to_gcode", "src/cq_cam/fluent.py:Job.to_gcode"]}
{"id": "C16", "title": "Saving writes the program", "statement": "save_gcode writes exactly the text that to_gcode returns.", "quantifier": "every job", "why_tests_cant": "Universal over jobs.", "anchors": ["src/cq_cam/fluent.py:Job.save_gcode"]}
{"id": "C17", "title": "The right tool is in the spindle", "statement": "If the operator has loaded the tool number the job was created with, then at every move of every operation the machine holds the tool number that was requested for that operation (or inherited from the previous one).", "quantifier": "every sequence of operations with arbitrary tool arguments", "why_tests_cant": "Stateful property over all histories.", "anchors": ["src/cq_cam/fluent.py:Job.update_tool", "src/cq_cam/command.py:ToolChange"]}
{"id": "C18", "title": "Each operation runs at its configured spindle speed", "statement": "At every feed move of an operation, the programmed spindle speed is the speed configured for that operation (by its tool argument, or inherited).", "quantifier": "every sequence of operations with arbitrary tool arguments", "why_tests_cant": "Stateful; the header is produced from the final job while operations were added earlier.", "anchors": ["src/cq_cam/fluent.py:Job.to_gcode", "src/cq_cam/fluent.py:Job.update_tool"]}
{"id": "C19", "title": "Change blocks are inserted exactly when needed", "statement": "Between two operations at most one change block is inserted: a tool change exactly when the requested tool number differs from the current one, otherwise a speed change exactly when the requested speed differs; an operation without a tool argument inserts none.", "quantifier": "every job state and tool argument", "why_tests_cant": "Universal over states.", "anchors": ["src/cq_cam/fluent.py:Job.update_tool"]}
{"id": "C20", "title": "Fluent calls do not modify the receiver", "statement": "Calling an operation on a job returns a new job and leaves the job it was called on as it was, so jobs can be branched.", "quantifier": "every job and every tool argument", "why_tests_cant": "Aliasing/mutation is history dependent.", "anchors": ["src/cq_cam/fluent.py:Job.update_tool", "src/cq_cam/fluent.py:Job._add_operation"]}
{"id": "C21", "title": "Operations are append-only", "statement": "The operations of the job returned by a call are the operations of the receiver, unchanged and in order, followed by at most one change block and exactly one new operation.", "quantifier": "every job history", "why_tests_cant": "History property.", "anchors": ["src/cq_cam/fluent.py:Job._add_operation", "src/cq_cam/fluent.py:Job.profile", "src/cq_cam/fluent.py:Job.pocket", "src/cq_cam/fluent.py:Job.drill", "src/cq_cam/fluent.py:Job.surface3d", "src/cq_cam/fluent.py:Job.wire_profile"]}
{"id": "C22", "title": "Tool settings are inherited field by field", "statement": "After an operation with a tool argument the returned job uses each value the tool specifies and keeps the previous value of each field the tool leaves out; all other settings are unchanged.", "quantifier": "every job and tool", "why_tests_cant": "Universal.", "anchors": ["src/cq_cam/fluent.py:Job.update_tool", "src/cq_cam/tool.py:Tool"]}
{"id": "C23", "title": "Plunges use the current plunge feed", "statement": "If the user never set a plunge feed, plunging moves of every operation run at the feed configured for that operation.", "quantifier": "every sequence of operations with tool feeds", "why_tests_cant": "History dependent default.", "anchors": ["src/cq_cam/fluent.py:Job.__init__", "src/cq_cam/fluent.py:Job.update_tool", "src/cq_cam/routers.py:rapid_to"]}
{"id": "C24", "title": "Approach moves are safe and arrive", "statement": "The approach to a new cut start consists of: retract straight up to the rapid height, an XY rapid at the rapid height (left out exactly when the tool is already above the target), a rapid straight down to the safe height, and a feed plunge to the target depth if that is below the safe height; it ends exactly above/at the target.", "quantifier": "every current position (known or unknown axes), every target and heights", "why_tests_cant": "Universal over positions and heights.", "anchors": ["src/cq_cam/routers.py:rapid_to"]}
{"id": "C25", "title": "No sideways rapid below the rapid height", "statement": "In pocket and profile tool paths every rapid move that changes X or Y takes place with the tool at the job's rapid height for its whole length, and every rapid below that height is vertical and does not go below the safe height (when the rapid height is at least the safe height).", "quantifier": "every list of contours, depths, job heights, stepover and previous position", "why_tests_cant": "Universal over tool paths.", "anchors": ["src/cq_cam/routers.py:route_polyface_outers", "src/cq_cam/routers.py:route_wires", "src/cq_cam/operations/pocket.py:pocket_clipper"]}
{"id": "C26", "title": "Tool paths are connected", "statement": "In a pocket tool path every move starts exactly where the previous one ended, starting from the given previous position.", "quantifier": "every list of contours and settings", "why_tests_cant": "Inductive property over arbitrary lists.", "anchors": ["src/cq_cam/routers.py:route_polyface_outers", "src/cq_cam/operations/pocket.py:pocket_clipper"]}
{"id": "C27", "title": "Every contour is cut completely at its depth", "statement": "For each contour given to the pocket router, the feed moves at that contour's depth pass along every one of its segments, in order around the contour.", "quantifier": "every list of closed contours", "why_tests_cant": "Universal over polygons, including the rotated-start cases.", "anchors": ["src/cq_cam/routers.py:route_polyface_outers", "src/cq_cam/routers.py:shift_polygon"]}
{"id": "C28", "title": "Only contours and short links are cut", "statement": "Every feed move of a pocket tool path is a plunge, lies on a segment of the contour being cut, or is a link from the end of the previous contour to the next one of length at most the stepover.", "quantifier": "every list of closed contours and stepover", "why_tests_cant": "Needs all geometric configurations.", "anchors": ["src/cq_cam/routers.py:route_polyface_outers", "src/cq_cam/utils/geometry_op.py:distance_to_path"]}
{"id": "C29", "title": "Edge routing reproduces the edge", "statement": "Routing an edge yields moves that start at the edge's oriented start, end at its oriented end, use the job feed, and are one straight cut for lines, one arc (two for a closed circle, meeting at the opposite point) with the edge's centre and travel direction for circular edges, and interpolation points on the edge for splines.", "quantifier": "every edge of every supported kind and both orientations", "why_tests_cant": "All geometry kinds times orientations times parameter ranges.", "anchors": ["src/cq_cam/routers.py:route_edge", "src/cq_cam/utils/utils.py:edge_start_point", "src/cq_cam/utils/utils.py:is_arc_clockwise2"]}
{"id": "C30", "title": "Wires are cut completely and nothing else", "statement": "Routing a list of wires cuts every edge of every wire, in wire order, and the feed moves are only approach plunges, short links and moves along the wire's edges.", "quantifier": "every list of wires", "why_tests_cant": "Universal over wires and relative positions.", "anchors": ["src/cq_cam/routers.py:route_wires", "src/cq_cam/routers.py:shift_edges"]}
{"id": "C31", "title": "Nearest point on a segment", "statement": "The distance/point pair computed for a point and a non-degenerate segment is a point of the segment, its exact squared distance, and no point of the segment is closer; a degenerate segment is an error.", "quantifier": "every point and segment", "why_tests_cant": "Optimality over a continuum.", "anchors": ["src/cq_cam/utils/utils.py:dist_to_segment_squared"]}
{"id": "C32", "title": "Nearest point on a path", "statement": "The nearest-path query returns the minimum over all segments, a point on the segment whose index it reports, the first such segment on ties, and the fraction of that segment's length at which the point lies.", "quantifier": "every point and every path with non-degenerate segments", "why_tests_cant": "Optimality over unbounded lists.", "anchors": ["src/cq_cam/utils/geometry_op.py:distance_to_path"]}
{"id": "C33", "title": "Rotating a closed contour keeps the contour", "statement": "Re-starting a closed contour at vertex i yields a closed contour with the same cyclic sequence of vertices (hence the same segments) that starts and ends at vertex i.", "quantifier": "every closed contour and valid index", "why_tests_cant": "All sizes and indices.", "anchors": ["src/cq_cam/routers.py:shift_polygon"]}
{"id": "C34", "title": "Offsets are tool-radius multiples plus distance", "statement": "An offset given as a number m means m tool radii, as a pair (m,d) means m tool radii plus d, and as None means the operation's default multiplier.", "quantifier": "every tool radius and offset form", "why_tests_cant": "Universal.", "anchors": ["src/cq_cam/utils/geometry_op.py:calculate_offset", "src/cq_cam/operations/pocket.py:pocket"]}
{"id": "C35", "title": "Arc direction test is geometrically right", "statement": "An arc given by start, mid and end points at one height is reported clockwise exactly when the triangle start-mid-end has negative (clockwise) orientation; reversing the direction of travel flips the answer; helical arcs are refused.", "quantifier": "every triple of points", "why_tests_cant": "Continuum of points.", "anchors": ["src/cq_cam/utils/utils.py:is_arc_clockwise"]}
{"id": "C36", "title": "Oriented edge ends", "statement": "For a reversed edge the oriented start/end points, parameters and parameter ranges are those of the underlying edge swapped/mirrored, consistently across all helpers.", "quantifier": "every edge and parameter pair", "why_tests_cant": "Universal.", "anchors": ["src/cq_cam/utils/utils.py:edge_start_point", "src/cq_cam/utils/utils.py:edge_end_point", "src/cq_cam/utils/utils.py:edge_start_end", "src/cq_cam/utils/utils.py:edge_start_param", "src/cq_cam/utils/utils.py:edge_end_param", "src/cq_cam/utils/utils.py:edge_oriented_param"]}
{"id": "C37", "title": "Polygonised wires are closed and complete", "statement": "Converting a wire to a path yields a closed path that visits the end points of all edges in order without repeating shared end points, or reports an error for a wire with a single point.", "quantifier": "every connected wire and precision", "why_tests_cant": "All edge lists.", "anchors": ["src/cq_cam/utils/interpolation.py:wire_to_vectors", "src/cq_cam/utils/interpolation.py:edge_to_vectors", "src/cq_cam/utils/interpolation.py:interpolate_edge_to_vectors", "src/cq_cam/utils/geometry_op.py:close_path"]}
{"id": "C38", "title": "Pocket faces are processed shallow to deep, none above the stock", "statement": "Pocketing refuses any face above the job plane; otherwise the regions to clear are produced for each distinct face depth exactly once, from the shallowest to the deepest.", "quantifier": "every list of faces", "why_tests_cant": "All multisets of depths.", "anchors": ["src/cq_cam/operations/pocket.py:generate_depth_map", "src/cq_cam/operations/pocket.py:build_pocket_ops"]}
{"id": "C39", "title": "Region cleared at a depth", "statement": "At depth d the region to clear is the union of the outer outlines of all faces at depth d or deeper, minus all their holes, minus the outlines of all avoid areas that reach depth d or higher; in particular nothing inside an active avoid area is cleared.", "quantifier": "every list of operation and avoid faces, for any boolean engine meeting its contract", "why_tests_cant": "Set equation over all inputs.", "anchors": ["src/cq_cam/operations/pocket.py:build_pocket_ops", "src/cq_cam/operations/pocket.py:combine_outers"]}
{"id": "C40", "title": "No region is lost when the boolean result is converted", "statement": "Every outer outline in the boolean engine's result tree, at whatever nesting level, becomes a face to machine, with exactly its own holes.", "quantifier": "every result tree", "why_tests_cant": "Arbitrary nesting.", "anchors": ["src/cq_cam/utils/geometry_op.py:poly_tree_to_poly_faces"]}
{"id": "C41", "title": "Contour sequences partition the contours", "statement": "The cutting sequences derived from a contour tree contain every contour exactly once; each sequence runs from an inner contour outward along its chain of ancestors; sequences are non-empty and their lengths do not increase.", "quantifier": "every tree of any shape", "why_tests_cant": "All tree shapes.", "anchors": ["src/cq_cam/utils/tree.py:Tree.sequences", "src/cq_cam/utils/tree.py:Node.parents"]}
{"id": "C42", "title": "Contour filling terminates and is complete", "statement": "If shrinking always makes contours smaller by at least a fixed amount, filling a pocket terminates, and the contours cut are exactly the pocket outline and everything obtained from it by repeated shrinking and removal of holes, each cut once.", "quantifier": "every pocket and every shrinking engine with that property", "why_tests_cant": "Termination and closure argument.", "anchors": ["src/cq_cam/operations/pocket.py:fill_pocket_contour_shrink", "src/cq_cam/utils/tree.py:Tree.next_unlocked"]}
{"id": "C43", "title": "Pocket stepdown never exceeds the limit", "statement": "With stepdown s the passes of one pocket region are at strictly decreasing depths, consecutive passes (and the first pass relative to the already cleared depth or the stock surface) differ by at most s, the last is exactly the face depth, and each pass cuts the same contours.", "quantifier": "every depth, start depth and positive stepdown", "why_tests_cant": "Real-valued induction over passes.", "anchors": ["src/cq_cam/operations/pocket.py:apply_stepdown", "src/cq_cam/operations/pocket.py:pocket_clipper"]}
{"id": "C44", "title": "Stepdown starts from what is already cleared", "statement": "The start depth for a region is the depth of the deepest previously processed region that contains it, or the stock surface if none does; hence the starting depth is always already cleared.", "quantifier": "every list of previous regions", "why_tests_cant": "Universal.", "anchors": ["src/cq_cam/operations/pocket.py:determine_stepdown_start_depth"]}
{"id": "C45", "title": "A pocket tool path is safe end to end", "statement": "The complete command list of a pocket operation: starts with a retract to the rapid height, is connected, never moves sideways rapidly below the rapid height, never cuts below the deepest face, feeds only at the job's feed or plunge feed.", "quantifier": "every pocket input and engine behaviour", "why_tests_cant": "Composition over the whole pipeline.", "anchors": ["src/cq_cam/operations/pocket.py:pocket_clipper", "src/cq_cam/routers.py:route_polyface_outers"]}
{"id": "C46", "title": "Profile stepdown passes", "statement": "With stepdown s>0 a profile is cut in passes ordered from top to bottom, spaced exactly s, the last at the target depth, the first at most s (+0.001 tolerance) below the stock surface; without stepdown there is exactly one pass.", "quantifier": "every target depth and stepdown", "why_tests_cant": "Real-valued induction.", "anchors": ["src/cq_cam/operations/profile.py:profile"]}
{"id": "C47", "title": "Profile stepdown is bounded", "statement": "Computing profile passes always terminates: it yields at most 101 passes or reports that the maximum stepdown count was exceeded, for every stepdown including negative ones.", "quantifier": "every depth and stepdown", "why_tests_cant": "Termination for all inputs.", "anchors": ["src/cq_cam/operations/profile.py:profile"]}
{"id": "C48", "title": "Profiles cut inner features first and honour disabled offsets", "statement": "A profile operation cuts all inner wires before the outer wires, skips the inner (outer) wires exactly when their offset is None, and is refused when both are None, when the job has no tool diameter, or when a shape is neither wire nor face.", "quantifier": "every selection of shapes and offsets", "why_tests_cant": "Universal.", "anchors": ["src/cq_cam/fluent.py:Job.profile", "src/cq_cam/utils/utils.py:extract_wires"]}
{"id": "C49", "title": "Edge tabs are ordered and disjoint", "statement": "For every edge and every accepted tab configuration, the tab intervals lie inside the edge, have the requested width, are evenly spaced, do not overlap, and the generated transitions are in increasing order along the edge.", "quantifier": "every edge length, spacing and width accepted by the constructor", "why_tests_cant": "All real parameters.", "anchors": ["src/cq_cam/operations/tabs.py:EdgeTabs"]}
{"id": "C50", "title": "Wire tabs cover exactly the tab zones", "statement": "For every wire and tab count, the transitions of each edge are in increasing order and the parts of the edge marked as tab are exactly the parts lying in one of the evenly spaced tab zones of the closed wire.", "quantifier": "every list of edge lengths, count and width", "why_tests_cant": "All real parameters; wrap-around.", "anchors": ["src/cq_cam/operations/tabs.py:WireTabs"]}
{"id": "C51", "title": "Tabs keep material", "statement": "After applying tabs to a pass below the tab height, every part of the path inside a tab runs at the tab height, every part outside is unchanged, vertical connectors join the two, and passes at or above the tab height are left alone.", "quantifier": "every wire and transition list in increasing order", "why_tests_cant": "Universal over wires.", "anchors": ["src/cq_cam/operations/profile.py:apply_tabs"]}
{"id": "C52", "title": "Each hole is drilled exactly once", "statement": "The drill operation visits each requested hole position exactly as often as it was requested, and no other position.", "quantifier": "every non-empty list of points, duplicates included", "why_tests_cant": "Permutation property for all lists.", "anchors": ["src/cq_cam/operations/drill.py:Drill.__post_init__", "src/cq_cam/operations/strategy.py:Strategy._pick_nearest"]}
{"id": "C53", "title": "Drilling order is nearest neighbour", "statement": "The first hole drilled is the first one requested, and each next hole is one of the nearest remaining holes to the previous one.", "quantifier": "every list of points", "why_tests_cant": "All lists.", "anchors": ["src/cq_cam/operations/drill.py:Drill.__post_init__", "src/cq_cam/operations/strategy.py:Strategy._pick_nearest"]}
{"id": "C54", "title": "Drilling motion is safe", "statement": "While drilling, X/Y only change in rapids at the job's operation-safe height, feed moves are straight down from the stock surface to the negative absolute depth at the job's feed, and never below it.", "quantifier": "every list of points, depth, heights", "why_tests_cant": "Universal.", "anchors": ["src/cq_cam/operations/drill.py:Drill.__post_init__"]}
{"id": "C55", "title": "Holes are drilled where the features are", "statement": "A hole is drilled at the feature's position expressed in the job's coordinate system - the same transformation used by the other operations.", "quantifier": "every job plane and feature position", "why_tests_cant": "All planes.", "anchors": ["src/cq_cam/operations/drill.py:Drill.__post_init__", "src/cq_cam/operations/profile.py:profile"]}
{"id": "C56", "title": "3D surfacing never gouges", "statement": "Every cutting move target of a 3D surfacing operation is at or above the height the drop-cutter reports for that XY position and at or above the depth of the current pass.", "quantifier": "every height field, pass depth and tool path", "why_tests_cant": "All height fields.", "anchors": ["src/cq_cam/operations/op3d.py:Surface3D.__post_init__"]}
{"id": "C57", "title": "3D depth chopping keeps exactly the points to cut", "statement": "Splitting scan sequences by depth keeps exactly the points at or below the limit, in order, and splits exactly where points above the limit were removed; no piece is empty.", "quantifier": "every list of sequences", "why_tests_cant": "All lists.", "anchors": ["src/cq_cam/operations/op3d.py:Surface3D._chop_sequences_by_depth"]}
{"id": "C58", "title": "3D interpolation refines the path", "statement": "Interpolating a scan sequence keeps all its points in order and inserts only points on the straight segments between them, at most the interpolation step apart.", "quantifier": "every sequence and positive step", "why_tests_cant": "All sequences.", "anchors": ["src/cq_cam/operations/op3d.py:Surface3D.__post_init__"]}
{"id": "C59", "title": "3D stepdown covers the full depth for any stepdown", "statement": "With a stepdown the 3D passes descend from the top height by at most the stepdown each and end exactly at the lowest point; no stepdown value makes the operation crash.", "quantifier": "every stepdown and depth", "why_tests_cant": "All real values.", "anchors": ["src/cq_cam/operations/op3d.py:Surface3D.__post_init__"]}
{"id": "C60", "title": "Every cutting move has a feed rate", "statement": "In every program, whenever a feed move is executed a feed rate has been programmed.", "quantifier": "every job whose feed is set", "why_tests_cant": "Whole-program property.", "anchors": ["src/cq_cam/operations/op3d.py:Surface3D.__post_init__", "src/cq_cam/routers.py", "src/cq_cam/operations/drill.py"]}
{"id": "C61", "title": "Zigzag cuts every scanline exactly once", "statement": "Zigzag routing ends, cuts every scanline exactly once from one end to the other and links consecutive scanlines of a path along a boundary; over a single boundary it gives a single path.", "quantifier": "every boundary polygon and set of scanlines with distinct ends on it", "why_tests_cant": "All polygons.", "anchors": ["src/cq_cam/operations/strategy.py:ZigZagStrategy._route_zig_zag", "src/cq_cam/utils/linked_polygon.py:LinkedPolygon.nearest_linked"]}
{"id": "C62", "title": "Boundary links follow the boundary", "statement": "The link returned between two scanline ends is a contiguous run of boundary vertices, forward or backward, that starts next to the entry point and ends at the first unused linked point in that direction.", "quantifier": "every polygon and set of linked points", "why_tests_cant": "All polygons.", "anchors": ["src/cq_cam/utils/linked_polygon.py:LinkedPolygon.nearest_linked"]}
{"id": "C63", "title": "Shorter boundary link is chosen", "statement": "Of the two directions along the boundary, the link with the smaller path length is chosen.", "quantifier": "every polygon", "why_tests_cant": "All polygons.", "anchors": ["src/cq_cam/utils/linked_polygon.py:LinkedPolygon.nearest_linked"]}
{"id": "C64", "title": "Linking scanpoints keeps the boundary", "statement": "Linking scanline ends into a boundary inserts each of them between the two ends of its segment, in order along the segment, and leaves the order of the other vertices unchanged.", "quantifier": "every polygon and scanpoints", "why_tests_cant": "All polygons.", "anchors": ["src/cq_cam/utils/linked_polygon.py:LinkedPolygon.link_point", "src/cq_cam/operations/strategy.py:ZigZagStrategy._link_scanpoints_to_boundaries"]}
{"id": "C65", "title": "Retract before homing", "statement": "Before every homing move (tool change, program end) the tool has been retracted to at least the safe height.", "quantifier": "every program", "why_tests_cant": "Whole-program property.", "anchors": ["src/cq_cam/fluent.py:Job.to_gcode", "src/cq_cam/command.py:SafetyBlock", "src/cq_cam/command.py:ToolChange"]}
{"id": "C66", "title": "Operations are isolated", "statement": "Wherever the previous operation left the tool, the first move of a pocket, profile, drill or surfacing operation is a purely vertical move to the operation's rapid (safe) height, so its behaviour does not depend on the previous operation.", "quantifier": "every previous machine position and operation", "why_tests_cant": "All prior states.", "anchors": ["src/cq_cam/routers.py:rapid_to", "src/cq_cam/operations/drill.py", "src/cq_cam/operations/op3d.py"]}
{"id": "C67", "title": "Visualisation shows the programmed moves", "statement": "The visualised edges of an operation are the non-degenerate moves of its command list after the first, from the start to the end of each move, mapped back to world coordinates.", "quantifier": "every command list and job plane", "why_tests_cant": "All command lists.", "anchors": ["src/cq_cam/visualize.py:visualize_job_as_edges", "src/cq_cam/command.py:Cut.to_ais_shape", "src/cq_cam/command.py:RapidCommand.to_ais_shape", "src/cq_cam/fluent.py:Job.to_shapes"]}
{"id": "C68", "title": "Default heights follow the unit", "statement": "Unless overridden the rapid and safe heights are 10/1 for metric and 0.4/0.04 for imperial, the rapid height being above the safe height, which is above the stock; explicit values, including 0, are used as given.", "quantifier": "every constructor argument combination", "why_tests_cant": "All combinations.", "anchors": ["src/cq_cam/fluent.py:Job.__init__", "src/cq_cam/fluent.py:Job._default_rapid_height", "src/cq_cam/fluent.py:Job._default_op_safe_height"]}
{"id": "C69", "title": "Climb/conventional parity", "statement": "The cut direction helper returns clockwise exactly when an odd number of its three flags are set; flipping any one flag flips the result.", "quantifier": "all flag combinations", "why_tests_cant": "Small, but used as the specification of direction handling.", "anchors": ["src/cq_cam/utils/utils.py:cut_clockwise"]}
{"id": "C70", "title": "Arcs are executed in the arc mode their words assume", "statement": "The I J K words of arcs are relative to the arc start; whenever a program executes an arc the machine is in incremental arc mode.", "quantifier": "every job history and every prior machine state", "why_tests_cant": "Depends on the machine state the program is started in.", "anchors": ["src/cq_cam/command.py:SafetyBlock", "src/cq_cam/command.py:Circular.__str__", "src/cq_cam/groups.py:ArcDistanceMode"]}
{"id": "C71", "title": "The tool length offset of the tool in use is active", "statement": "At every move of every operation the machine's active tool length offset is that of the tool number configured for the operation.", "quantifier": "every job history", "why_tests_cant": "Depends on the whole history of tool changes.", "anchors": ["src/cq_cam/command.py:SafetyBlock", "src/cq_cam/command.py:ToolChange", "src/cq_cam/fluent.py:Job.update_tool"]}
{"id": "C72", "title": "Wire tool paths are connected", "statement": "Every move of a routed list of wires starts where the previous move ended, so relative words (arc centres) computed from the start are right.", "quantifier": "every list of wires, links enabled or not", "why_tests_cant": "Universal over wires and relative positions.", "anchors": ["src/cq_cam/routers.py:route_wires", "src/cq_cam/routers.py:route_edge"]}
{"id": "C73", "title": "Interpolation density", "statement": "Interpolated curves are sampled at evenly spaced positions including both ends, less than 3/10^precision apart measured along the curve.", "quantifier": "every edge length and precision", "why_tests_cant": "Continuous parameters with floor arithmetic.", "anchors": ["src/cq_cam/utils/interpolation.py:edge_interpolation_count", "src/cq_cam/utils/interpolation.py:interpolate_edge_to_vectors", "src/cq_cam/routers.py:route_edge"]}
{"id": "C74", "title": "Pocket areas are the given faces, offset", "statement": "Every flat face given to a pocket contributes exactly the area bounded by its outline offset by the outer offset and its holes offset by the inner offset, at the face's height in job coordinates; by default these offsets are minus and plus one tool radius (0 for the outline when avoid areas are given), for avoid areas plus and minus one tool radius. A face that is not flat in job coordinates is refused with ValueError; without a tool diameter the pocket is refused.", "quantifier": "every list of faces, offsets and offset engine", "why_tests_cant": "Universal over geometry and over the offset engine.", "anchors": ["src/cq_cam/operations/pocket.py:pocket", "src/cq_cam/utils/geometry_op.py:PathFace", "src/cq_cam/utils/geometry_op.py:calculate_offset"]}
{"id": "C75", "title": "Profiles run at the requested offset and never silently skip a wire", "statement": "The curves cut by a profile are the offset contours of the given wire (in job coordinates) at offset times the tool radius that enclose more than 0.1 square units, each cut whole; a wire for which no offset can be computed is reported and not silently skipped.", "quantifier": "every wire, offset, tool and CAD kernel", "why_tests_cant": "Universal over geometry; the failing offset never happens in the test shapes.", "anchors": ["src/cq_cam/operations/profile.py:profile", "src/cq_cam/utils/geometry_op.py:offset_wire"]}
{"id": "C76", "title": "A diameter given with the tool is enough", "statement": "Giving a tool with a diameter to an operation makes the operation use that diameter, whether or not the job had one before.", "quantifier": "every job, tool and operation", "why_tests_cant": "Order of a check and a state update; depends on the history of the job.", "anchors": ["src/cq_cam/fluent.py:Job.profile", "src/cq_cam/fluent.py:Job.update_tool"]}
{"id": "C77", "title": "Profiles cut at pass heights only", "statement": "Every feed move of a profile without tabs ends at the height of the contour or at that height plus a whole multiple of the stepdown, and the raised passes are all more than 0.001 below the surface: a profile never cuts deeper than its contour, nor in the air above the stock.", "quantifier": "every wire, stepdown and CAD kernel", "why_tests_cant": "All depths and stepdowns.", "anchors": ["src/cq_cam/operations/profile.py:profile", "src/cq_cam/routers.py:route_wires"]}
{"id": "C80", "title": "Scanlines leave no gaps", "statement": "Neighbouring zigzag scanlines are exactly one step apart, and the lines they are cut from reach over the whole width and the whole height of the boundary.", "quantifier": "every boundary and positive step", "why_tests_cant": "All bounds and steps; rounding of the bounds.", "anchors": ["src/cq_cam/operations/strategy.py:ZigZagStrategy.process", "src/cq_cam/utils/utils.py:WireClipper.max_bounds"]}
{"id": "C78", "title": "3D surfacing moves rapidly only clear of the shape", "statement": "In a 3D surfacing operation rapids go sideways only at the rapid height, and no rapid ends below the height of the shape at its XY position.", "quantifier": "every shape, boundary, top height, stepdown and job whose rapid height is above the shape", "why_tests_cant": "All height fields and settings.", "anchors": ["src/cq_cam/operations/op3d.py:Surface3D.__post_init__"]}
{"id": "C79", "title": "3D surfacing reaches every sampled point", "statement": "Every sampled point of the scan paths of a 3D surfacing operation that is not above the job's surface is cut to, at the height of the surface there.", "quantifier": "every height field, scan path and stepdown", "why_tests_cant": "All height fields; a point missed leaves material nobody sees in the program text.", "anchors": ["src/cq_cam/operations/op3d.py:Surface3D.__post_init__", "src/cq_cam/operations/op3d.py:Surface3D._chop_sequences_by_depth"]}
{"id": "C81", "title": "No program has a low sideways rapid", "statement": "In the program of every job made of library operations, every rapid (G0) ends at the job's rapid height, its operation-safe height or 0, and a rapid that changes X or Y starts and ends at one height, which is the rapid height or the operation-safe height.", "quantifier": "every tree of operation calls, all arguments, every answer of the CAD and clipping engines, every machine state before", "why_tests_cant": "The tool position is carried through all operations and tool changes of a program; only an invariant over the whole run covers every sequence of operations.", "anchors": ["src/cq_cam/routers.py:rapid_to", "src/cq_cam/operations/pocket.py", "src/cq_cam/operations/profile.py", "src/cq_cam/operations/drill.py", "src/cq_cam/operations/op3d.py", "src/cq_cam/fluent.py:Job.to_gcode"]}
{"id": "C82", "title": "Programs stay above the deepest depth asked for", "statement": "No move of a program ends below the deepest depth asked for: the lowest selected pocket face, the drilling depth, the height of the profiled wire, or the bottom of the surfaced shape.", "quantifier": "every tree of operation calls, all arguments and engine answers", "why_tests_cant": "Plunging too deep may happen in any pass of any operation; the claim is about the lowest of all moves of all programs.", "anchors": ["src/cq_cam/operations/pocket.py", "src/cq_cam/operations/profile.py", "src/cq_cam/operations/drill.py", "src/cq_cam/operations/op3d.py", "src/cq_cam/fluent.py:Job.to_gcode"]}
{"id": "C83", "title": "Regions of pockets made with the CAD kernel", "statement": "With engine=\"cq\", a pocket is cleared at each distinct depth of its areas, from the shallowest to the deepest, over exactly the points of all areas at this depth or deeper that are in no avoid area reaching this depth; areas above the job plane are refused.", "quantifier": "every list of areas and avoid areas, every job plane, every kernel whose fusing and cutting is right off the borders", "why_tests_cant": "All arrangements of areas and depths.", "anchors": ["src/cq_cam/operations/pocket_cq.py:build_pocket_ops", "src/cq_cam/operations/pocket_cq.py:generate_depth_map"]}
{"id": "C84", "title": "Contour filling with the CAD kernel terminates and is complete", "statement": "With engine=\"cq\", the contours of a region are exactly its outline and everything obtained from it by repeated shrinking and removal of the holes, each once; within a sequence each contour is followed by the one it was obtained from; and if shrinking makes contours smaller by at least a fixed amount, filling ends.", "quantifier": "every region, stepover and kernel", "why_tests_cant": "A while loop over a growing tree; termination and completeness are about all runs.", "anchors": ["src/cq_cam/operations/pocket_cq.py:fill_pocket_contour_shrink", "src/cq_cam/utils/tree.py:Tree.sequences"]}
{"id": "C85", "title": "Tool path of pockets made with the CAD kernel", "statement": "The function pocket refuses unknown engines; with engine=\"cq\" it cuts all contours of all regions completely and connectedly, in passes of at most the stepdown, and with every engine its rapids end at the rapid height, the safe height or 0 and go sideways only at the first two.", "quantifier": "every list of areas, all arguments, jobs and kernels", "why_tests_cant": "All areas, offsets and kernels.", "anchors": ["src/cq_cam/operations/pocket_cq.py:pocket_cq", "src/cq_cam/operations/pocket.py:pocket", "src/cq_cam/utils/geometry_op.py:offset_face"]}
{"id": "C86", "title": "3D surfacing stays in its offset boundary", "statement": "3D surfacing works on the selected faces and wires: each is projected (the largest visible wire is the outline, the others are holes), the combined outlines are offset by the outer offset and the holes by the inner offset (multiples of the tool diameter plus a constant), and only the inside of each offset boundary, without its holes, is surfaced. Empty selections and other objects are refused.", "quantifier": "every selection, all offsets, every answer of the CAD kernel", "why_tests_cant": "All selections, boundaries with holes, and kernel answers.", "anchors": ["src/cq_cam/operations/base_operation.py:FaceBaseOperation._wp_to_faces", "src/cq_cam/operations/base_operation.py:FaceBaseOperation.offset_boundary", "src/cq_cam/operations/op3d.py:Surface3D.__post_init__", "src/cq_cam/utils/utils.py:project_face"]}
{"id": "C87", "title": "The boundary polygon follows its wire", "statement": "The polygon of a boundary wire visits the edges of the wire in order and travel direction: it contains the end of every edge, and on arcs, circles and offset curves further points of the edge at most 0.2 apart; wires with other curves are refused; the polygon of a wire that is not closed is closed.", "quantifier": "every wire of any number of edges of any kind, orientation and length", "why_tests_cant": "All wires; wrong points of one kind of edge are seen only where such edges occur.", "anchors": ["src/cq_cam/utils/utils.py:flatten_edges", "src/cq_cam/utils/utils.py:edge_end_point", "src/cq_cam/operations/strategy.py:ZigZagStrategy.process"]}
{"id": "C88", "title": "Coordinates of a pocket are rounded once, not at every step", "statement": "Polygons are handed to the polygon engine on an integer grid of 2^-31 mm. Each coordinate moves by less than that, towards zero. In a pocket this happens once, where the given faces are offset: the areas to clear and to avoid, the regions and all contours are on the grid, however often they were shrunk, and are handed over exactly as they are; so a boolean engine that is right on integers up to a tolerance gives the regions of C39 with the same tolerance. The tolerance for arcs handed over is half a unit of the last decimal place of the job's precision, and not zero for up to nine decimal places.", "quantifier": "every coordinate, every path, every pocket with any number of contours and any engine on integers, every precision", "why_tests_cant": "Drift over repeated offsets depends on the number of contours and on the coordinates; a test shows it for few of them and within its own tolerance.", "anchors": ["src/cq_cam/utils/geometry_op.py:offset_path", "src/cq_cam/utils/geometry_op.py:poly_tree_to_poly_faces", "src/cq_cam/utils/geometry_op.py:prepare_path_boolean_op", "src/cq_cam/utils/geometry_op.py:boolean_op_poly_tree"]}
{"id": "C89", "title": "A pocket leaves no material in its regions", "statement": "Every point of every region of a pocket is passed by a cut at the depth of the region at a distance of at most the stepover (plus twice the tolerance of the polygon engine). In particular, with a stepover up to the tool radius - by default it is half of it - every point of every region comes under the tool at full depth; and this includes every point that should be cleared where the given outlines do not overlap.", "quantifier": "every pocket: any number of areas, holes, avoid areas and depths, every stepover, every point, every polygon engine that shrinks and cuts outlines correctly up to a tolerance", "why_tests_cant": "Clearing is about all points of all shapes; a test inspects some points of some shapes.", "anchors": ["src/cq_cam/operations/pocket.py:fill_pocket_contour_shrink", "src/cq_cam/operations/pocket.py:build_pocket_ops", "src/cq_cam/operations/pocket.py:pocket_clipper", "src/cq_cam/operations/pocket.py:pocket"]}
{"id": "C90", "title": "The contours of a pocket stay in its regions", "statement": "All contours of a region of a pocket other than its outline, and everything they enclose, lie inside the outline; they run only in the region, not through its holes (up to the tolerance of the polygon engine), and so not through holes of the given faces or avoid areas that do not overlap.", "quantifier": "every pocket: any number of areas, holes, avoid areas and depths, every stepover above twice the tolerance, every point of every contour", "why_tests_cant": "Containment is about all points of all contours of all shapes.", "anchors": ["src/cq_cam/operations/pocket.py:fill_pocket_contour_shrink", "src/cq_cam/operations/pocket.py:build_pocket_ops", "src/cq_cam/operations/pocket.py:pocket_clipper"]}
{"id": "C91", "title": "Resetting a clipper keeps exactly the cached boundaries", "statement": "However a WireClipper has been used, reset() never fails and leaves the polygon engine with exactly the clip wires and polygons that were added with caching, in their order; subjects and uncached clips are gone; what is added afterwards comes on top. Any number of resets can follow each other.", "quantifier": "every sequence of calls of any length", "why_tests_cant": "The state depends on the whole history of calls.", "anchors": ["src/cq_cam/utils/utils.py:WireClipper.reset", "src/cq_cam/utils/utils.py:WireClipper._add_path", "src/cq_cam/utils/utils.py:WireClipper._add_wire"]}
{"id": "C92", "title": "Sorted contours are the clipper's contours, each begun near the end of the one before", "statement": "Sorting the output of the clipper keeps the paths and their order; the first is left as it is, each further path is the same curve begun at its vertex nearest to the end of the path before it.", "quantifier": "every list of paths of any length", "why_tests_cant": "All lists of paths; a wrong starting vertex shows only with three or more paths.", "anchors": ["src/cq_cam/operations/strategy.py:Strategy._sort_clipper_output", "src/cq_cam/operations/strategy.py:Strategy._pick_nearest"]}
{"id": "C93", "title": "The contour strategy clips all generations of offsets", "statement": "The contour strategy hands the outer and inner boundaries as clips and all generations of inward offsets of all outer boundaries as subjects to the clipper, each exactly once, generation by generation until one is empty; the paths it returns are those of the intersection. It ends if and only if (unless something raises) every outer boundary has an empty generation.", "quantifier": "every number of boundaries, every tool and stepover, every answer of the CAD kernel and the polygon engine", "why_tests_cant": "Any number of generations, branching arbitrarily.", "anchors": ["src/cq_cam/operations/strategy.py:ContourStrategy.process", "src/cq_cam/utils/utils.py:WireClipper.execute"]}
{"id": "C94", "title": "The finished program does the work on the machine", "statement": "A machine that reads the program text of any finished job performs, for every operation call, exactly the moves of that operation, in order, with the operation's tool; and starts each of them where the library took the tool to be. So a pocket anywhere in a job mills every point of its regions at the printed depth with the spindle running, at a distance of at most the stepover plus the engine's tolerance plus a thousandth for the rounding; and drilling bores every hole, from the surface to its depth, and makes no other feed move.", "quantifier": "every job, any operations before and after, every pocket and every set of holes, every state of the machine before, every point", "why_tests_cant": "The statement links geometry, printing and the state of the machine over the whole program; a test compares single pieces.", "anchors": ["src/cq_cam/fluent.py:Job.to_gcode", "src/cq_cam/operations/pocket.py:pocket", "src/cq_cam/operations/drill.py:Drill.__post_init__", "src/cq_cam/command.py:Cut.__str__"]}
{"id": "C95", "title": "Arcs of the finished program are arcs", "statement": "In the run of the printed program every G2/G3 has, up to 0.003, the same distance from its centre (I, J) to the point where the machine is and to its target, so that controllers accept it (grbl for one reports an error when they differ by more than 0.005).", "quantifier": "All jobs, all chains of operations, all contours made of straight and circular edges, all starting states of the machine.", "why_tests_cant": "Coordinates and centre offsets are rounded separately, and the start of the arc is where the previous commands left the machine; a test of single arcs sees neither, and tests compare text with expected text.", "anchors": ["src/cq_cam/command.py:CircularCW", "src/cq_cam/command.py:Circular.__str__", "src/cq_cam/routers.py:route_wires", "src/cq_cam/fluent.py:Job.to_gcode"]}
{"id": "C96", "title": "No arc runs a full turn by accident", "statement": "In the run of the printed program no G2/G3 ends where it starts (controllers run such a command as a full circle): closed circles are printed as two halves, and arcs that are not closed keep their ends apart.", "quantifier": "All jobs, all chains of operations, all contours made of straight and circular edges, all starting states of the machine.", "why_tests_cant": "Depends on the ends of an arc being equal after rounding although they are not equal to the code; only arcs of a certain smallness show it, which tests do not contain.", "anchors": ["src/cq_cam/routers.py:route_wires", "src/cq_cam/command.py:CircularCW", "src/cq_cam/fluent.py:Job.to_gcode"]}
{"id": "C97", "title": "Pocket passes in floating point", "statement": "As C43, computed with IEEE doubles and numpy's arange: the passes of a region end exactly at its depth; up to an explicit error of rounding they go down from the cleared depth by at most the stepdown each and do not go below the region; there are no more passes than needed, and no pass is printed at the depth of the pass before it.", "quantifier": "every stepdown, depth and cleared depth that are doubles; every number of passes", "why_tests_cant": "Whether rounding adds a pass depends on the last bits of depth and stepdown; tests use round numbers and do not count passes.", "anchors": ["src/cq_cam/operations/pocket.py:apply_stepdown", "src/cq_cam/operations/pocket.py:pocket_clipper"]}
{"id": "C98", "title": "Surfacing passes in floating point", "statement": "As C59, computed with IEEE doubles and numpy's arange: the passes end exactly at the lowest point; up to an explicit error of rounding they go down from the top by at most the stepdown each and do not go below the lowest point; there are no more passes than needed, and no pass is printed at the height of the pass before it.", "quantifier": "every stepdown, top and lowest point; every number of passes", "why_tests_cant": "Whether rounding adds a pass depends on the last bits of height and stepdown.", "anchors": ["src/cq_cam/operations/op3d.py:Surface3D.__post_init__"]}
{"id": "C99", "title": "Doubles are printed as the decimals they were rounded to", "statement": "round(x, p) on doubles gives the double nearest to a multiple of 10^-p, which in general is not that multiple; printing it nevertheless gives exactly the digits of the multiple (the shortest digits that are read as the same double), and a fraction never turns into an integer or the other way round. So the text of an axis word is the same as with exact arithmetic.", "quantifier": "every coordinate, every precision up to 60 digits", "why_tests_cant": "A statement about all doubles; tests see some.", "anchors": ["src/cq_cam/address.py:GCodeWordPrecision.__str__", "src/cq_cam/utils/utils.py:optimize_float"]}
{"id": "C100", "title": "3D surfacing stays clear of the shape between its sample points", "statement": "The height of the shape is asked for at sample points only. Yet on its whole way no move of a 3D surfacing operation gets below that height by more than half of the steepest slope times the interpolation step (plus the rounding of the coordinates) - moves that rise straight to the rapid height or travel rapidly at it aside. This holds for the moves of the machine in the run of the finished program.", "quantifier": "every shape whose height has a bounded slope, every boundary, top height not above the job surface, stepdown, interpolation step and scan; every job with such an operation in it, every starting state of the machine", "why_tests_cant": "A statement about all points of all moves; a test looks at the end points of some.", "anchors": ["src/cq_cam/operations/op3d.py:Surface3D.__post_init__", "src/cq_cam/fluent.py:Job.to_gcode"]}
{"id": "C101", "title": "The machine cuts profiles whole", "statement": "In the run of the finished program the part of a profile consists of the following moves of the machine and no others: for each wire, for each contour at the given distance from it, for each pass from the top to the contour itself an approach (rapids and vertical feed moves), then along all edges of the contour in order at the height of the pass - straight along lines, around the centre in the right direction along arcs, through evenly spaced points along other curves - each within rounding, with the spindle running and the feed of the operation in force. With `profile`, inner wires are cut before outer ones, with their own offset.", "quantifier": "every job with a profile without tabs in it, all wires, offsets and stepdowns, every starting state of the machine", "why_tests_cant": "Links geometry, printing, modal state and the order of operations over the whole program.", "anchors": ["src/cq_cam/fluent.py:Job.profile", "src/cq_cam/fluent.py:Job.wire_profile", "src/cq_cam/operations/profile.py:profile", "src/cq_cam/routers.py:route_wires", "src/cq_cam/fluent.py:Job.to_gcode"]}
{"id": "C102", "title": "On the machine, tabs are left standing", "statement": "In the finished program of any job with a profile with tabs (`profile` or `wire_profile`; tabs along the edges or around the wire), executed by the machine from any state, the operation's moves are: for each given wire and each contour at the given distance from it, all passes from the top down, one after the other; a pass that stays above the tabs runs along the whole contour; a deeper pass runs along the whole contour too, but everywhere inside the requested tabs exactly at the height of the tabs' top (the contour's lowest point plus the tab height) and elsewhere at its own depth, going straight up and down at the ends of the tabs; spindle running, operation's feed, all points up to half a thousandth.", "quantifier": "All jobs, call chains, wires, contours and stepdowns, all tab settings, all kernels that assemble connected edges, all machine states.", "why_tests_cant": "Tests compare a few texts; a tab cut through is seen only by following the machine along every pass for every contour and tab position.", "anchors": ["src/cq_cam/operations/profile.py:profile", "src/cq_cam/operations/tabs.py:EdgeTabs.load_ordered_edges", "src/cq_cam/operations/tabs.py:WireTabs.load_ordered_edges", "src/cq_cam/routers.py:route_wires", "src/cq_cam/fluent.py:Job.to_gcode"]}
{"id": "C103", "title": "On the machine, a pocket stays in its regions", "statement": "In the finished program of any job with a pocket in it, executed by the machine from any state, every feed move of the pocket belongs to one region of the pocket (a face, shrunk by the outer offset, without holes, islands and avoid areas) that is at least as deep as the move, and runs only over points of that region or its outline: it goes straight down there, or sideways.", "quantifier": "All jobs, call chains, faces, holes, avoid areas, offsets, stepovers and stepdowns; all polygon engines that keep their contract; all machine states.", "why_tests_cant": "The way between two contours depends on the whole geometry of the contours; tests compare a few texts.", "anchors": ["src/cq_cam/operations/pocket.py:pocket", "src/cq_cam/operations/pocket.py:pocket_clipper", "src/cq_cam/routers.py:route_polyface_outers", "src/cq_cam/fluent.py:Job.to_gcode"]}
{"id": "C104", "title": "A pocket that can be made is made", "statement": "If the job has a tool diameter, every face (machined or avoided) is horizontal and not above the stock, the stepover is positive, and the geometry library answers questions about ordinary contours, then the pocket call returns an operation: no exception from inside the library, and the filling ends. In particular a face the tool does not fit in gives an operation without commands.", "quantifier": "All faces with holes, avoid areas, offsets, stepovers, stepdowns, tools; all polygon engines that answer questions about at least one contour.", "why_tests_cant": "That no combination of shapes runs into an exception or an endless loop is a statement about all shapes; tests try a few.", "anchors": ["src/cq_cam/operations/pocket.py:pocket", "src/cq_cam/operations/pocket.py:pocket_clipper", "src/cq_cam/operations/pocket.py:fill_pocket_contour_shrink", "src/cq_cam/utils/geometry_op.py:offset_polyface", "src/cq_cam/utils/geometry_op.py:make_polyfaces", "src/cq_cam/routers.py:route_polyface_outers"]}
{"id": "C105", "title": "Tabs around a contour can be cut whenever they fit", "statement": "A profile with tabs around its contour (WireTabs) that together are shorter than the contour returns an operation, for every contour of edges with positive lengths and every number, width and height of tabs: the call does not fail inside the geometry kernel.", "quantifier": "All flat contours (numbers, kinds and lengths of edges), counts, widths and heights of tabs, stepdowns; all answers of the CAD kernel about assembling.", "why_tests_cant": "Whether a call fails depends on how the tabs are spread over the edges of the contour; tests try one or two contours.", "anchors": ["src/cq_cam/operations/tabs.py:WireTabs.load_wire", "src/cq_cam/operations/tabs.py:WireTabs.edge_tab_transitions", "src/cq_cam/operations/profile.py:apply_tabs", "src/cq_cam/operations/profile.py:profile"]}
{"id": "C106", "title": "A pocket never cuts more than a stepdown at once", "statement": "In the program of any job with a pocket with stepdown s, before the machine feeds anywhere in a region of the pocket at a depth of more than s, it has already milled everywhere over that region at a height at most s above (up to the rounding of the coordinates), whatever regions of other depths there are and however they contain each other.", "quantifier": "All jobs, all operations before and after, all faces and avoid areas, positive stepdowns, stepovers; all polygon engines with the stated tolerance.", "why_tests_cant": "Depends on the order of all moves in the program, on how regions of different depths contain each other and on the contours of every pass; a test can look at the depths in one program only.", "anchors": ["src/cq_cam/operations/pocket.py:pocket_clipper", "src/cq_cam/operations/pocket.py:apply_stepdown", "src/cq_cam/operations/pocket.py:determine_stepdown_start_depth", "src/cq_cam/routers.py:route_polyface_outers"]}
{"id": "C107", "title": "The program does not depend on where the part is in the world", "statement": "Moving the part (the shapes given to profile, wire_profile, pocket and drill) and the work plane of the job together by any rigid motion (shift and rotation) changes nothing: the same calls are accepted or refused, and the G-code text is the same.", "quantifier": "All jobs, all chains of calls, all shapes, offsets, stepdowns, tabs and tools; all rigid motions; all CAD kernels and polygon engines.", "why_tests_cant": "Quantifies over all placements of a part; tests use parts on the XY plane or on one workplane, where mixing up world and job coordinates is invisible.", "anchors": ["src/cq_cam/operations/profile.py:profile", "src/cq_cam/operations/pocket.py:pocket", "src/cq_cam/operations/drill.py:Drill.__post_init__", "src/cq_cam/fluent.py:Job"]}
{"id": "C108", "title": "While pocketing, the tool stays in the given faces", "statement": "With default arguments, whenever the machine feeds in a pocket, the tool (its whole disc) is inside the outline of one of the given faces at least as deep as the move, and touches neither the holes of that face nor an avoid face that reaches that depth; with other offsets the same holds for discs of the given sizes.", "quantifier": "All jobs, faces with holes, avoid areas, depths, offsets, stepovers, stepdowns and tools; all polygon engines that meet their contracts up to a tolerance.", "why_tests_cant": "A gouge is a relation between every point of every move and every point of every given outline; tests compare a few programs with recorded text.", "anchors": ["src/cq_cam/operations/pocket.py:pocket", "src/cq_cam/operations/pocket.py:build_pocket_ops", "src/cq_cam/routers.py:route_polyface_outers", "src/cq_cam/utils/geometry_op.py:offset_polyface"]}
{"id": "C109", "title": "Wherever the tool fits in a given face, the machine comes", "statement": "If a tool over a point (its whole disc) is inside the outline of a given face, clear of the holes and of the avoid faces that reach that depth, the program of the pocket passes that point within the stepover at the depth of the face.", "quantifier": "All points, jobs, faces with holes, avoid areas, depths, offsets, stepovers, stepdowns and tools; all polygon engines that meet their contracts up to a tolerance.", "why_tests_cant": "Material left standing is a statement about every point of every face; tests compare a few programs with recorded text and would not miss a whole pocket.", "anchors": ["src/cq_cam/operations/pocket.py:pocket", "src/cq_cam/operations/pocket.py:build_pocket_ops", "src/cq_cam/operations/pocket.py:fill_pocket_contour_shrink", "src/cq_cam/utils/geometry_op.py:offset_polyface", "src/cq_cam/utils/geometry_op.py:union_poly_tree"]}
{"id": "C110", "title": "The offset of a circle lies around the circle", "statement": "Profiling a circle at a distance follows the circle around the same centre, wherever the circle has been placed, also with kernels that displace the offsets of circles (cadquery issue 896), for which the code has a workaround.", "quantifier": "All circles (wires of one closed edge), all locations, all offsets; all kernels with the fault of issue 896.", "why_tests_cant": "The displacement depends on the location the circle happens to have in the kernel, and the effect of the workaround on which wire it is given; the tests call the workaround directly and compare locations only.", "anchors": ["src/cq_cam/utils/geometry_op.py:offset_wire", "src/cq_cam/utils/circle_bug_workaround.py:circle_bug_workaround", "src/cq_cam/operations/profile.py:profile"]}
{"id": "C111", "title": "The named codes mean what their names say", "statement": "The text of every member of the code enumerations is the G or M word of the code that the member is named after; different members have different texts; and a line with the text of a modal member puts any machine into exactly the mode named and changes nothing else.", "quantifier": "All members of all enumerations, all machine states.", "why_tests_cant": "The texts can be compared with themselves only; what a machine makes of them in every state needs a model of the machine.", "anchors": ["src/cq_cam/groups.py"]}
{"id": "C112", "title": "Plunges run at the plunge feed, cuts at the feed", "statement": "In every program, the machine performs the plunging moves of an operation at the plunge feed given to the job, and the other cutting moves at the feed configured for the operation, whatever the tool arguments of the operations before.", "quantifier": "All jobs, all sequences of operations with any tool arguments, all machine states.", "why_tests_cant": "Depends on the feed in force when the line is read, so on every line printed before it.", "anchors": ["src/cq_cam/fluent.py", "src/cq_cam/routers.py", "src/cq_cam/operations/drill.py:Drill.__post_init__", "src/cq_cam/command.py"]}
{"id": "C113", "title": "Rounding to pyclipper's integers costs a pocket at most 3\u00b72\u207b\u00b3\u00b9 mm", "statement": "The guarantees of pockets (no gouging, everything reached, coverage) that hold for a polygon engine that is right up to a tolerance on the integers it is called with hold for the coordinates and distances the user gives, with that tolerance and 3\u00b72\u207b\u00b3\u00b9 mm: the conversion of arbitrary coordinates and offsets to the 2\u207b\u00b3\u00b9 mm grid and back adds no more than that.", "quantifier": "All faces with any coordinates, all offsets, tools and precisions, all jobs and machine states, all engines that are right on integers.", "why_tests_cant": "Rounding moves every vertex and changes which points are inside an outline; only an argument about all points and all outlines shows that the error does not grow.", "anchors": ["src/cq_cam/utils/geometry_op.py:offset_path", "src/cq_cam/utils/geometry_op.py:boolean_op_poly_tree", "src/cq_cam/operations/pocket.py"]}
{"id": "C114", "title": "A profile that can be made is made, and a refused one tells why", "statement": "A profile (or wire profile) without tabs succeeds exactly when the job has a non-zero tool diameter, the CAD kernel offsets every wire or finds no offset, and every contour reaches the surface within 101 stepdowns and consists of edges the machine can follow. A refused profile raises TypeError for a missing diameter, the kernel's own exception, or RuntimeError for a contour that is too deep or cannot be followed; there is no other failure.", "quantifier": "All wires, shapes, offsets, stepdowns (also negative), tools, jobs and CAD kernels.", "why_tests_cant": "Totality: the absence of any other exception on any input.", "anchors": ["src/cq_cam/operations/profile.py:profile", "src/cq_cam/utils/geometry_op.py:offset_wire", "src/cq_cam/routers.py:route_wires", "src/cq_cam/fluent.py:Job.profile", "src/cq_cam/fluent.py:Job.wire_profile"]}
{"id": "C115", "title": "A profile keeps the tool off the part", "statement": "When the CAD kernel's offset contours of a wire are as far from the part as asked for (offset times tool radius), then no feed move of the profile - plunge, line, arc or interpolated curve, in any pass - passes over a point that is nearer to the part than that, up to 1.5 units of the last decimal place plus 0.000001 mm. A tool of radius r on a profile with offset 1 touches the part and does not cut into it.", "quantifier": "All parts (any set of points), wires of lines, arcs, circles and free curves, offsets (outside and inside), stepdowns, tools and jobs; every point of every feed move.", "why_tests_cant": "Quantifies over all points of all moves, and over all parts.", "anchors": ["src/cq_cam/operations/profile.py:profile", "src/cq_cam/routers.py:route_edge", "src/cq_cam/routers.py:route_wires", "src/cq_cam/utils/interpolation.py:interpolate_edge_to_vectors", "src/cq_cam/utils/geometry_op.py:offset_wire", "src/cq_cam/fluent.py:Job.profile", "src/cq_cam/fluent.py:Job.wire_profile"]}
{"id": "C116", "title": "The heights of 3D surfacing come from the part, where it is", "statement": "3D surfacing takes its heights from a triangle mesh of the selected faces. The mesh is that of the faces in job coordinates: with a drop cutter that keeps the tool clear of the triangles it is given, the tool standing where a cutting move ends has no point of the part in it, wherever the job plane is; between these places it has none in it but for what the height changes within the interpolation step, also on the machine that runs the program.", "quantifier": "All meshes, faces and compounds of faces with any location, all tools (any body that reaches up), all boundaries, arguments and jobs; every cutting move and every point of the part.", "why_tests_cant": "Quantifies over all points of the part and over all meshes and locations; tests compare one program.", "anchors": ["src/cq_cam/operations/op3d.py:Surface3D.shape_to_triangles", "src/cq_cam/operations/op3d.py:Surface3D.__post_init__", "src/cq_cam/operations/base_operation.py:Operation.transform_shapes_to_global", "src/cq_cam/operations/base_operation.py:Operation.break_compound_to_faces"]}
{"id": "C117", "title": "Every operation gets its own entry in the viewer", "statement": "Job.show hands the viewer one entry per operation, in the order of the operations, whose name no other entry has - also when operations are called the same. The entry shows the moves of its operation after the first; it is the same drawing in every viewer, with the axes of the job plane added in CQ-editor. If an operation cannot be drawn, its exception is raised after the operations before it are shown; without a viewer nothing is shown and ValueError is raised.", "quantifier": "All jobs (any number of operations, any names), all viewers and drawing kernels.", "why_tests_cant": "Quantifies over all lists of operations and all names.", "anchors": ["src/cq_cam/fluent.py:Job.show", "src/cq_cam/visualize.py:visualize_job", "src/cq_cam/visualize.py:visualize_job_as_edges"]}
{"id": "C118", "title": "3D surfacing that can be made is made, and a refused one tells why", "statement": "If the selection gives flat boundaries, the CAD kernel offsets them, and the settings (tool, stepover, interpolation step, stepdown) are usable, Job.surface3d returns an operation, whatever the shape, size and edge order of the boundaries. A refused call raises an exception that tells the reason: the kernel's own, AssertionError for a boundary that is not flat, TypeError without inner offset, ValueError for an edge that cannot be flattened, ZeroDivisionError for a step of zero.", "quantifier": "All boundaries, offsets, settings, jobs, kernels, clippers and drop cutters that answer.", "why_tests_cant": "Totality: the absence of any other exception on any input.", "anchors": ["src/cq_cam/operations/op3d.py:Surface3D.__post_init__", "src/cq_cam/operations/base_operation.py:FaceBaseOperation.offset_boundary", "src/cq_cam/operations/strategy.py:ZigZagStrategy.process", "src/cq_cam/utils/utils.py:flatten_edges"]}
{"id": "C119", "title": "3D surfacing is laid out for the tool of the job", "statement": "The boundary offsets and the distance of the scanlines of a 3D surfacing are the requested multiples of the diameter of the tool the job uses, as they are for profiles and pockets.", "quantifier": "All jobs, tools, selections and settings.", "why_tests_cant": "Quantifies over all tools and all selections.", "anchors": ["src/cq_cam/operations/op3d.py:Surface3D", "src/cq_cam/fluent.py:Job.surface3d"]}
{"id": "C120", "title": "3D surfacing never cuts more than a stepdown at once", "statement": "With a stepdown s, wherever the machine cuts in a 3D surfacing operation, the cut is at most s below the top height of the stock, or the machine has cut along the same line before, at most s above (up to the rounding of the coordinates): on its whole way no move takes more than s off the stock, whatever the shape, the order of the scan paths and the top height.", "quantifier": "All shapes (any heights), boundaries, stepdowns, top heights, jobs, programs around the operation; every move of the operation and every earlier move.", "why_tests_cant": "Relates each move to all moves before it, on arbitrary shapes; a test sees one shape.", "anchors": ["src/cq_cam/operations/op3d.py:Surface3D.__post_init__", "src/cq_cam/operations/op3d.py:Surface3D._chop_sequences_by_depth"]}
{"id": "C121", "title": "What ran before in the same process does not change a result", "statement": "However many operations a process has made before, in whatever order, and whichever of them raised an exception, drilling, 3D surfacing, the zigzag and contour strategies and the sorting of contours return the same as in a fresh process: the distances kept between calls (cached_dist2) are right and make no difference. The colours kept between calls (cached_occ_color) are shared by name: everything drawn in one colour uses one object, one the viewer made for that name.", "quantifier": "All sequences of calls with any arguments, library answers and exceptions; all viewers, also ones that return another object at every call.", "why_tests_cant": "A test starts from the cache its predecessors left; the claim is about every history.", "anchors": ["src/cq_cam/utils/utils.py:cached_dist2", "src/cq_cam/visualize.py:cached_occ_color", "src/cq_cam/operations/strategy.py:Strategy._pick_nearest", "src/cq_cam/utils/linked_polygon.py:LinkedPolygon.nearest_linked"]}
{"id": "C122", "title": "A profile never takes more than a stepdown at once", "statement": "When profile or wire_profile is called with a stepdown (and without tabs), the tool never removes more than the stepdown in one go: every feed move of the operation stays within the stepdown of the surface, or goes straight down to at most a stepdown below a place where a feed move has begun before, or follows a way (a line, or an arc about the same centre) the tool has fed along before, at most a stepdown higher.", "quantifier": "All shapes, offsets, stepdowns and jobs, all answers of the CAD kernel, all programs with such an operation anywhere in them.", "why_tests_cant": "The load on the tool depends on the order of all moves of all passes; a test checks the depths of one example.", "anchors": ["src/cq_cam/operations/profile.py:profile", "src/cq_cam/routers.py:route_wires", "src/cq_cam/routers.py:route_edge", "src/cq_cam/fluent.py:Job.profile"]}
{"id": "C123", "title": "Moving the part sideways in its plane moves the tool path with it", "statement": "When the same calls are made for a part that has been moved by (x, y) within the job's work plane, the program is the same with (x, y) added to all its X and Y coordinates: the same operations, moves, depths, arcs and feed rates in the same order, and the same errors; and on the machine every move goes to the moved place.", "quantifier": "All shifts, all parts, all chains of profiles, pockets, drillings and surfacings, all settings and jobs.", "why_tests_cant": "Ordering, rounding and searching for nearest points may all depend on absolute coordinates; tests use parts in one place.", "anchors": ["src/cq_cam/operations/profile.py:profile", "src/cq_cam/operations/pocket.py:pocket", "src/cq_cam/operations/drill.py:Drill.__post_init__", "src/cq_cam/operations/op3d.py:Surface3D.__post_init__", "src/cq_cam/utils/utils.py:WireClipper.max_bounds", "src/cq_cam/fluent.py:Job"]}
{"id": "C124", "title": "Feeds, spindle speed, coolant, tool numbers and names never change where the tool goes", "statement": "When two jobs have the same work plane, tool diameter, heights and precision, and the same calls are made on both, possibly with tools that differ in number, feed or speed (not diameter), then both are refused with the same error or both are accepted, and their programs contain the same moves in the same order; only the feeds on them differ. On the machine both make the same moves to the same places.", "quantifier": "All pairs of jobs differing in feed, plunge feed, speed, tool number, name, coolant and controller settings, all chains of profiles, pockets, drillings and surfacings, all tools of the same diameter.", "why_tests_cant": "A statement about pairs of runs: a test compares one pair of settings on one part.", "anchors": ["src/cq_cam/fluent.py:Job", "src/cq_cam/routers.py:route_wires", "src/cq_cam/operations/pocket.py:pocket", "src/cq_cam/operations/profile.py:profile", "src/cq_cam/operations/drill.py:Drill.__post_init__", "src/cq_cam/operations/op3d.py:Surface3D.__post_init__"]}
{"id": "C125", "title": "A stepdown as large as the depth is the same as none", "statement": "When the work of an operation lies no more than one stepdown below the job's surface, giving that stepdown or giving none makes no difference: the whole chain of calls it appears in is refused with the same error or gives the very same operations and programs.", "quantifier": "All chains of calls before and after, all pockets and profiles (with or without tabs), all surfaces, all tools and all positive stepdowns at least as large as the depth.", "why_tests_cant": "A statement about pairs of runs for all depths and stepdowns, including the case of equality; a test compares one pair.", "anchors": ["src/cq_cam/operations/pocket.py:apply_stepdown", "src/cq_cam/operations/profile.py:profile", "src/cq_cam/operations/op3d.py:Surface3D.__post_init__"]}
{"id": "C126", "title": "Rapid and safe heights change the way there, not the cut", "statement": "Raising or lowering the rapid height or the safe height of a job (both above the work) does not change what is cut: the same chain of calls is refused with the same error or accepted, and the feed moves are the same ones, in the same order and with the same feeds; only the height at which a plunge begins follows the safe height. On the machine the feed moves go to the same places.", "quantifier": "All jobs, all pairs of heights, all chains of pockets, profiles, drillings and surfacings.", "why_tests_cant": "A statement about pairs of runs; a test compares one pair of heights on one part.", "anchors": ["src/cq_cam/routers.py:rapid_to", "src/cq_cam/routers.py:route_polyface_outers", "src/cq_cam/routers.py:route_wires", "src/cq_cam/operations/drill.py:Drill", "src/cq_cam/operations/op3d.py:Surface3D.__post_init__"]}
{"id": "C127", "title": "A stepdown only adds passes", "statement": "Asking for a stepdown never takes anything away: when a chain of calls with stepdowns is accepted, the same chain without them is accepted too, and every feed move it makes is also made with the stepdowns, in the same order and with the same feeds; the stepdown only puts further feed moves between them. On the machine the same holds of the feed moves of every operation.", "quantifier": "All jobs, all stepdowns, all chains of pockets and profiles (and any further calls that stay the same).", "why_tests_cant": "A statement about pairs of runs for every stepdown; a test compares one stepdown on one part.", "anchors": ["src/cq_cam/operations/pocket.py:pocket", "src/cq_cam/operations/pocket.py:fill_pocket_contour_shrink", "src/cq_cam/operations/profile.py:profile", "src/cq_cam/routers.py:route_wires"]}
{"id": "C128", "title": "Several wires at once are the same as one by one", "statement": "Profiling several wires, or surfacing several boundaries, in one call or in several calls with the same arguments makes no difference: the one program is accepted if and only if the other is, it leaves the job with the same settings, and the tool makes the same motions in the same order; for profiles of faces the motions are the same ones, only that in one call all inner contours come before all outer ones. The same holds on the machine, and of programs with any calls before and after.", "quantifier": "All lists of wires, faces and boundaries and all ways to divide them, all arguments and tools, all jobs and surrounding calls.", "why_tests_cant": "A statement about pairs of programs for every division of every list; a test compares one pair.", "anchors": ["src/cq_cam/fluent.py:Job.profile", "src/cq_cam/fluent.py:Job.wire_profile", "src/cq_cam/operations/op3d.py:Surface3D.__post_init__", "src/cq_cam/fluent.py:Job.update_tool"]}
{"id": "C129", "title": "What a call does depends on the settings, not on the calls before it", "statement": "Calls that bring no tool, or that each bring a tool with all its data, can be made in any order, left out or repeated: the chain stays accepted, and each call makes exactly the motions it made in the original chain. On the machine too.", "quantifier": "All chains of calls, all reorderings and selections of them, all jobs.", "why_tests_cant": "A statement about all orders of all chains; a test compares two orders.", "anchors": ["src/cq_cam/fluent.py:Job", "src/cq_cam/fluent.py:Job.update_tool", "src/cq_cam/fluent.py:Job.profile", "src/cq_cam/fluent.py:Job.pocket"]}
{"id": "C130", "title": "Scanlines and sample points of 3D surfacing leave no gaps, in floating point", "statement": "Computed with IEEE doubles, neighbouring scanlines of 3D surfacing are the tool diameter times the stepover apart and cover the boundary in width and height, and the sample points on them are on the lines, in order, and at most the interpolation step apart - up to rounding errors that are below a millionth of a millimetre for parts of up to a metre and a stepover of at least 0.1 mm.", "quantifier": "All boundaries, tool diameters, stepovers, interpolation steps and scan paths, all roundings.", "why_tests_cant": "Rounding errors add up differently for every size, place and step (numpy's arange can give a value too many); a test sees a few numbers.", "anchors": ["src/cq_cam/operations/strategy.py:ZigZagStrategy.process", "src/cq_cam/utils/utils.py:WireClipper.max_bounds", "src/cq_cam/operations/op3d.py:interpolate_cut_sequence"]}
{"id": "C131", "title": "Tabs around a contour, in floating point", "statement": "With the positions of wire tabs computed in IEEE doubles, a pass below the top of the tabs is cut as a connected wire that is at the top of the tabs exactly inside `count` zones of the given width, evenly spaced around the contour, up to rounding errors of a few nanometres at the ends of the zones.", "quantifier": "All contours, numbers and widths of tabs, all roundings of the length of the wire and of the sum of the lengths of its edges.", "why_tests_cant": "Whether a tab is on one side of a corner or on the other, and whether a zero-length piece appears, depends on the last bit of sums of fractions; a test sees a few sizes.", "anchors": ["src/cq_cam/operations/tabs.py:WireTabs.load_wire", "src/cq_cam/operations/tabs.py:WireTabs.load_ordered_edges", "src/cq_cam/operations/tabs.py:WireTabs.edge_tab_transitions", "src/cq_cam/operations/profile.py:apply_tabs"]}
{"id": "C132", "title": "Passes of a profile in floating point, with a kernel that rounds", "statement": "With heights computed in IEEE doubles and bounding boxes of the kernel that are only right up to a small error, a profile with a stepdown is cut in the passes that exact numbers would give: copies of the contour at multiples of the stepdown above it, up to rounding. If the depth is n stepdowns up to 0.0005 mm there are exactly n passes: no extra pass at the surface, none left out.", "quantifier": "All contours, depths and stepdowns, all errors of the bounding boxes up to 0.0001 mm (in general: up to a parameter).", "why_tests_cant": "Whether the loop makes one pass more or less depends on the last bits of a product and of a bounding box; tests see a few depths, and pockets with the same numbers do make an extra pass (C97).", "anchors": ["src/cq_cam/operations/profile.py:profile"]}
{"id": "C133", "title": "Tabs along edges, in floating point", "statement": "With the positions of edge tabs computed in IEEE doubles from lengths that the kernel only knows up to rounding, every edge of the selected kind of a pass below the top of the tabs is cut with as many tabs as the spacing fits into its length, evenly spaced between its ends, of the given width and not overlapping, up to rounding; the pass stays a connected wire.", "quantifier": "All contours, spacings and widths, all roundings of the lengths of edges.", "why_tests_cant": "The number of tabs is decided by a floor division of doubles and the order of their ends by sums of rounded fractions; a test sees a few lengths.", "anchors": ["src/cq_cam/operations/tabs.py:EdgeTabs.load_ordered_edges", "src/cq_cam/operations/tabs.py:EdgeTabs.edge_tab_transitions", "src/cq_cam/operations/profile.py:apply_tabs"]}
{"id": "C134", "title": "The same work in other units", "statement": "Giving the part, the tool, the offsets, stepdowns, heights and tabs in inches instead of millimetres (or any other unit) gives the same program with every coordinate converted: the same operations, the same moves in the same order, and on the machine a run that is the first run converted move by move.", "quantifier": "All jobs, all chains of drill, profile, pocket and 3D surfacing operations, all conversion factors.", "why_tests_cant": "A test compares two programs; whether some constant in the code silently assumes millimetres shows only for parts of the right size.", "anchors": ["src/cq_cam/fluent.py:Job.profile", "src/cq_cam/fluent.py:Job.drill", "src/cq_cam/utils/geometry_op.py:offset_wire", "src/cq_cam/operations/profile.py:profile", "src/cq_cam/utils/interpolation.py:edge_interpolation_count", "src/cq_cam/operations/pocket.py:pocket", "src/cq_cam/routers.py:route_polyface_outers", "src/cq_cam/operations/op3d.py:Surface3D", "src/cq_cam/operations/strategy.py:ZigZagStrategy.process", "src/cq_cam/utils/utils.py:WireClipper.max_bounds"]}
{"id": "C135", "title": "The finished part survives the whole program", "statement": "Take the finished part as a solid. If every operation of a program is asked for what is outside of it (profiles around it, holes where it has holes, pockets where it is open, surfaces dropped on it), then on the machine no feed move of the printed program ever reaches into it with the tool that is in the spindle at that time, up to the thousandths lost in printing, and no rapid moves through it either.", "quantifier": "All solids, all chains of operations with their tools, all jobs, all runs of the printed text from any state of the machine.", "why_tests_cant": "A test simulates one part; whether the tool stays out of the part on every move is a claim about every solid, chain of operations and tool.", "anchors": ["src/cq_cam/fluent.py:Job.to_gcode", "src/cq_cam/fluent.py:Job.profile", "src/cq_cam/fluent.py:Job.pocket", "src/cq_cam/fluent.py:Job.drill", "src/cq_cam/fluent.py:Job.surface3d", "src/cq_cam/routers.py:route_polyface_outers"]}
{"id": "C136", "title": "Turning or mirroring the part turns or mirrors the tool path", "statement": "If a part is turned by any angle about the job's Z axis, or mirrored in a plane through it, the same calls make the turned or mirrored tool path: the same operations with the same moves in the same order, each to the turned place at the same height with the same feed, arcs around the turned centre, and clockwise exchanged with counterclockwise by mirroring and kept by turning. On the machine the printed program makes the turned moves one by one, to within the digits printed. A chain of calls is refused for the turned part exactly if it is for the original.", "quantifier": "All rotations about the job's Z axis and reflections, all drill points, wires, faces and avoided areas, all arguments, all jobs on any plane, all chains of operations, all runs of the printed text.", "why_tests_cant": "A test turns one part by one angle, usually a right angle; that no step of the path planning depends on the directions of X and Y is a claim about every angle and every shape.", "anchors": ["src/cq_cam/fluent.py:Job.drill", "src/cq_cam/fluent.py:Job.profile", "src/cq_cam/fluent.py:Job.pocket", "src/cq_cam/fluent.py:Job.surface3d", "src/cq_cam/utils/utils.py:is_arc_clockwise2", "src/cq_cam/routers.py:route_polyface_outers"]}
{"id": "C137", "title": "The drilling order, in floating point", "statement": "With the distances computed in floating point, drilling still drills every requested hole exactly once, starts with the first one, and goes on to a hole that is nearest among those left, up to rounding: the square of its distance exceeds the least one by no more than a factor of 1 + 2^-48 (and 2^-1070). The call is refused exactly if it is refused with exact numbers. If the squares of the distances differ by more than this, for instance if the coordinates are multiples of a power of one half, the order is that of exact numbers.", "quantifier": "All lists of vectors, wires and faces, all depths and jobs, all doubles, every C library whose pow(x, 2.0) errs by at most one unit in the last place.", "why_tests_cant": "A test compares orders of a few holes; for which holes rounding changes a comparison, and by how much the detour can grow, is a question about all doubles.", "anchors": ["src/cq_cam/operations/drill.py:Drill.__post_init__", "src/cq_cam/operations/strategy.py:Strategy._pick_nearest", "src/cq_cam/utils/utils.py:dist2"]}
{"id": "C138", "title": "Pocket contours are cut completely, in floating point", "statement": "With the nearest points computed in floating point, the router still accepts all contours and cuts them in the given order, each once around at its depth: every point of a contour is passed by a cut within 2^-49 of the size of the coordinates. All other feed moves are vertical plunges, or links from the place where the contour before was left to the nearest point of the contour, not longer than allowed, up to rounding; no feed move crosses the area between contours that are further apart.", "quantifier": "All lists of contours with any number of points in doubles, all stepovers, all start positions, all jobs, every C library whose pow(x, 2.0) errs by at most one unit in the last place.", "why_tests_cant": "A test runs one pocket; how far a projection computed in doubles can leave its segment, and whether a wrong choice of the nearest segment can leave a part of a contour uncut, depends on all slopes and magnitudes.", "anchors": ["src/cq_cam/routers.py:route_polyface_outers", "src/cq_cam/utils/geometry_op.py:distance_to_path", "src/cq_cam/utils/utils.py:dist_to_segment_squared", "src/cq_cam/routers.py:shift_polygon"]}
{"id": "C139", "title": "A whole pocket in floating point, on the machine", "statement": "With the offsets, the passes and the nearest points computed in floating point, a pocket of parts within a kilometre of the origin is accepted exactly if it is with exact numbers and the same offsets. The tool path begins with a retract, each move starts where the one before ended, rapid moves stay at safe heights, feed moves end at or below the top of the stock and, for depths of at most a metre and stepdowns that are 0 or between 1/1000 mm and a metre, not more than 1/100000 mm below the deepest region. The offsets are the requested ones up to rounding. When the program runs on the machine, every point of every region of the pocket is passed at the region's depth, with the spindle running and the right tool, within the stepover and the tolerances of the polygon engine, of printing (1/1000 mm) and of rounding (2^-27 mm); and so is every place of the part where the tool fits, with the exceptions of C109.", "quantifier": "All faces and avoid areas, all offsets, stepovers and stepdowns, all chains of calls before and after, all polygon engines on integers that meet the contract, every C library whose pow(x, 2.0) errs by at most one unit in the last place.", "why_tests_cant": "A test checks one pocket at some places; that rounding nowhere leaves a strip uncut, breaks the path or makes the code divide by zero is a statement about all pockets and all doubles.", "anchors": ["src/cq_cam/operations/pocket.py:pocket", "src/cq_cam/operations/pocket.py:pocket_clipper", "src/cq_cam/utils/geometry_op.py:calculate_offset", "src/cq_cam/fluent.py:Job.pocket", "src/cq_cam/fluent.py:Job.tool_radius"]}
{"id": "C140", "title": "Drilling in floating point, on the machine", "statement": "With the hole positions rounded by the kernel and the distances computed in floating point, the feed moves the machine makes in a drilling operation are, one by one, plunges from height 0 to the printed depth, with the spindle running and the right tool: exactly one for each requested hole, within the kernel's error plus 1/2000 mm of its place, beginning with the first hole and then always going on to a hole that is nearest up to rounding. Between holes the drill moves sideways only in rapids at the operation-safe height.", "quantifier": "All lists of holes and depths, all chains of calls before and after, all kernels that answer with doubles, every C library whose pow(x, 2.0) errs by at most one unit in the last place.", "why_tests_cant": "A test checks some holes; that rounding never makes the ordering lose or repeat a hole, in any program around it, is a statement about all holes and all doubles.", "anchors": ["src/cq_cam/operations/drill.py:Drill.__post_init__", "src/cq_cam/fluent.py:Job.drill"]}
{"id": "C141", "title": "While pocketing in floating point, the tool stays in the given faces", "statement": "When offsets, passes, contours and links of a pocket are computed in floating point, every feed move the machine makes in it stays, up to printing, rounding and the tolerance of the polygon engine, where the tool at the printed depth is in the given faces: the disc of the tool is inside the outline of a face that is at least as deep, and away from its holes and from the avoid faces.", "quantifier": "All faces and avoid faces (coordinates up to 2^20 mm, depths up to a metre), all offsets, stepovers and stepdowns, all engines on integers that meet the contract, all chains of calls before and after, every C library whose pow(x, 2.0) errs by at most one unit in the last place.", "why_tests_cant": "A test sees some faces; whether a rounded offset, pass or starting point ever takes the tool into the part depends on all polygons and doubles.", "anchors": ["src/cq_cam/operations/pocket.py:pocket_clipper", "src/cq_cam/operations/pocket.py:pocket", "src/cq_cam/routers.py:route_polyface_outers", "src/cq_cam/fluent.py:Job.pocket"]}
{"id": "C142", "title": "A pocket computed in floating point never cuts more than a stepdown at once", "statement": "When the passes, offsets and contours of a pocket with a stepdown are computed in floating point, every feed move of the machine in it is at most the stepdown below the surface of the stock, or below a height at which the machine has already milled everywhere over the region; up to printing and rounding, and reaching as far as the stepover.", "quantifier": "All faces and avoid faces (coordinates up to 2^20 mm, depths up to a metre), all offsets and stepovers, all stepdowns between a thousandth and a metre, all engines on integers that meet the contract, all chains of calls before and after, every C library whose pow(x, 2.0) errs by at most one unit in the last place.", "why_tests_cant": "The tool breaks if one of the passes computed by numpy.arange with rounded steps, or the depth of a region above, is missing or out of order; a test sees some stepdowns and depths, rounding errors appear at others.", "anchors": ["src/cq_cam/operations/pocket.py:apply_stepdown", "src/cq_cam/operations/pocket.py:determine_stepdown_start_depth", "src/cq_cam/operations/pocket.py:pocket_clipper", "src/cq_cam/fluent.py:Job.pocket"]}
{"id": "C143", "title": "Profiles computed in floating point: every pass is cut whole on the machine, and none deeper than a stepdown", "statement": "When offsets and heights of the passes of a profile (without tabs) are computed in floating point and the kernel's bounding boxes are not exact, the machine runs for each contour at the given distance each of its passes whole, from the top down, at multiples of the stepdown up to rounding, with the spindle running at the operation's feed; and it never takes more than the stepdown at once, up to the errors and printing, counted from a thousandth below the surface.", "quantifier": "All wires and faces, offsets, stepdowns (with a scale that bounds 101 of them), all kernels whose boxes move with the wires up to an error of at most 0.0005, all chains of calls before and after.", "why_tests_cant": "Whether a pass is left out or cut twice at the surface depends on rounding of the height and of the kernel's box; a test runs a few depths and stepdowns with one kernel.", "anchors": ["src/cq_cam/operations/profile.py:profile", "src/cq_cam/fluent.py:Job.profile", "src/cq_cam/fluent.py:Job.wire_profile"]}
{"id": "C144", "title": "Profiles computed in floating point keep off the part on the machine", "statement": "When the kernel finds contours at the distance asked for (up to an error) from the part, the machine keeps, during a profile (without tabs) computed in floating point, offset times tool radius away from the part in every feed move, up to the kernel's error, two millionths, the interpolation tolerance and printing.", "quantifier": "All wires and faces, parts, offsets and tool radii with a product up to 2^20 mm, stepdowns, kernels that are right at all distances within two millionths of the one asked for, and all chains of calls before and after.", "why_tests_cant": "Whether the tool gouges depends on the distance the kernel is really asked for: the rounded product, or the rounded sum of the second attempt; a test uses one kernel and a few shapes for which the first attempt succeeds.", "anchors": ["src/cq_cam/operations/profile.py:profile", "src/cq_cam/utils/geometry_op.py:offset_wire", "src/cq_cam/fluent.py:Job.profile", "src/cq_cam/fluent.py:Job.wire_profile"]}
{"id": "C145", "title": "Zigzag routing in floating point cuts every scanline once", "statement": "With the distances computed in floating point, a zigzag over a boundary cuts every scanline exactly once, from one end to the other, and links consecutive scanlines along the boundary only. The scanline ends are linked to segments they are within 0.00034 mm of, in their order along the segment up to rounding, and the routing loop ends. This holds when every end is within 0.0003 mm of a segment of the boundary.", "quantifier": "All boundaries of different vertices with coordinates that are doubles up to 10^6 mm, all scanlines, tool diameters and stepovers, all squaring functions that are right up to rounding, all answers of the clipper.", "why_tests_cant": "Whether a computed distance is within the tolerance, and which of two scanline ends comes first on a segment, depends on the rounding of each coordinate; a test tries a few polygons with small numbers.", "anchors": ["src/cq_cam/operations/strategy.py:ZigZagStrategy._route_zig_zag", "src/cq_cam/operations/strategy.py:ZigZagStrategy.process", "src/cq_cam/utils/linked_polygon.py:LinkedPolygon.nearest_linked"]}
{"id": "C146", "title": "3D surfacing in floating point is clear of the shape on the machine", "statement": "In the program of a job with a 3D surfacing operation computed in floating point, every machine move of the operation rises straight to the rapid height, travels rapidly at it, or stays on its whole way above the shape, up to half of the steepest slope times the interpolation step, the error of the drop cutter and the rounding. Cutting moves end at or above the height reported by the drop cutter and the depth of their pass; rapids go sideways only at the rapid height.", "quantifier": "All shapes of bounded slope, drop cutters with a bounded error, boundaries, interpolation steps, stepdowns, stepovers and tool diameters, and all chains of calls before and after.", "why_tests_cant": "The sampled points and depths come from rounded divisions and the moves between samples from the printed digits; a test looks at a few points of one surface, not at the whole way of every move.", "anchors": ["src/cq_cam/operations/op3d.py:Surface3D.__post_init__", "src/cq_cam/operations/op3d.py:interpolate_cut_sequence", "src/cq_cam/fluent.py:Job.to_gcode"]}
{"id": "C147", "title": "3D surfacing in floating point never cuts more than a stepdown at once", "statement": "In the program of a job with a 3D surfacing operation whose depths are computed in floating point, the machine never takes more than the stepdown off the stock at once in that operation, on the whole way of every move, up to the rounding of the depths and of the printed coordinates: with heights up to a metre and a stepdown of at least 0.01 mm, at most 1.002 thousandths of a millimetre more.", "quantifier": "All shapes, boundaries, stepdowns, top heights that are doubles, drop cutters, interpolation steps and tool diameters, and all chains of calls before and after.", "why_tests_cant": "The depths come from numpy's arange, whose rounding differs for every top height and stepdown and which can put the last two passes in the wrong order; which parts a pass leaves out depends on comparing heights with them.", "anchors": ["src/cq_cam/operations/op3d.py:Surface3D.__post_init__", "src/cq_cam/fluent.py:Job.to_gcode"]}
{"id": "C148", "title": "3D surfacing in floating point cuts to the surface at every sample", "statement": "If the height of the cutter over the surface changes slowly enough for the stepdown (slope times the distance of two samples, plus rounding, is at most one stepdown), then in the program of a job with a 3D surfacing operation computed in floating point every sample of every zigzag path, from the second one on, is fed to at exactly the height of the drop cutter: no stepdown pass skips it and none stops above it.", "quantifier": "All drop cutters below the job plane, boundaries, stepdowns, top heights, interpolation steps and tool diameters of any size within a bound, and all chains of calls before and after.", "why_tests_cant": "A sample is cut in the pass whose two rounded depths enclose its height; rounding of the depths and of the sample positions differs for every shape, and a sample between two passes would stay uncut without any error.", "anchors": ["src/cq_cam/operations/op3d.py:Surface3D.__post_init__", "src/cq_cam/fluent.py:Job.to_gcode"]}
{"id": "C149", "title": "Profiles with tabs computed in floating point: on the machine the tabs are left standing", "statement": "When offsets, heights of the passes, the top of the tabs and the positions of the tabs of a profile are computed in floating point and the kernel's boxes and lengths are not exact, the machine runs for each contour at the given distance all passes whole, from the top down: a pass above the tabs at its own height; a deeper pass at the top of the tabs (lowest point plus tab height) inside the tabs and at its own depth elsewhere, going straight up and down at the ends of the tabs. The tabs are where they are to be up to a few nanometres; spindle running, operation's feed, points up to half a thousandth.", "quantifier": "All contours of flat wires, tabs along edges or around the contour whose ends are not at corners, stepdowns, offsets, and all chains of calls before and after; profile and wire_profile.", "why_tests_cant": "Which pass is raised depends on comparing rounded heights, and where it is raised on rounded fractions of rounded lengths; a tab that gets lost through rounding looks like a correct program, and the part comes loose.", "anchors": ["src/cq_cam/operations/profile.py:profile", "src/cq_cam/operations/profile.py:apply_tabs", "src/cq_cam/operations/tabs.py:WireTabs.load_wire", "src/cq_cam/operations/tabs.py:EdgeTabs.load_ordered_edges", "src/cq_cam/fluent.py:Job.to_gcode"]}
{"id": "C150", "title": "Profiles with tabs computed in floating point keep the tool off the part", "statement": "When offsets, passes and tabs of a profile are computed in floating point, and the kernel's contours at the distances asked for are that far from the part up to the kernel's accuracy, no feed move of the machine for the operation - along a pass, up or down the side of a tab, or over it - comes nearer to the part than offset times tool radius, up to 1.5 units of the last decimal place, a thousandth for the numbers in the text, the accuracy of the kernel, and 0.000002 mm.", "quantifier": "All contours of flat wires with lines, arcs and curves, both kinds of tabs whose ends are not at corners, stepdowns, offsets, parts, and all chains of calls before and after; profile and wire_profile.", "why_tests_cant": "A pass with tabs is cut into pieces at rounded fractions and joined again by new edges; a piece taken from the wrong stretch, or a joint across a corner, goes through the part at one place of one contour.", "anchors": ["src/cq_cam/operations/profile.py:profile", "src/cq_cam/operations/profile.py:apply_tabs", "src/cq_cam/operations/tabs.py:WireTabs.load_wire", "src/cq_cam/operations/tabs.py:EdgeTabs.load_ordered_edges", "src/cq_cam/fluent.py:Job.to_gcode"]}
{"id": "C151", "title": "A profile with tabs never takes more than a stepdown at once", "statement": "When profile or wire_profile is called with a stepdown and tabs, the machine runs for each contour whole passes from the top down, raised to the top of the tabs inside them, and every point of every pass - outside the tabs, on top of them, and on their sides - is at most the stepdown (0.001 more at the surface) below the surface or below a point of a pass run before it.", "quantifier": "All flat contours with lines, arcs and curves, both kinds of tabs, all stepdowns and heights of tabs (also where several passes or none are below their top), and all chains of calls before and after; profile and wire_profile.", "why_tests_cant": "Passes above the tabs are not cut into pieces and passes below are, each on its own; a tab that is placed or skipped in one pass differently from the pass above leaves a block that the next pass takes in one go.", "anchors": ["src/cq_cam/operations/profile.py:profile", "src/cq_cam/operations/profile.py:apply_tabs", "src/cq_cam/operations/tabs.py:WireTabs.load_wire", "src/cq_cam/operations/tabs.py:EdgeTabs.load_ordered_edges", "src/cq_cam/fluent.py:Job.to_gcode"]}
{"id": "C152", "title": "A profile with tabs computed in floating point never takes more than a stepdown at once, up to rounding", "statement": "When profile or wire_profile is called with a stepdown and tabs, and the offset distance, the heights of the passes, the top of the tabs and their positions are computed in double precision, the machine runs for each contour whole passes from the top down, raised to the top of the tabs inside them, and every point of every pass is at most the stepdown, 0.001 and a given tolerance (half a micrometre for contours within a kilometre and boxes right up to 0.1 micrometres) below the surface, or at most the stepdown and the tolerance below a point of a pass run before it.", "quantifier": "All flat contours with lines, arcs and curves, both kinds of tabs, all double stepdowns larger than the rounding of heights, all chains of calls before and after, and all kernels with boxes right up to the given error that measure a contour alike at all heights; profile and wire_profile.", "why_tests_cant": "Whether a pass is given tabs is decided by comparing two rounded numbers, and the passes are raised by rounded multiples of the stepdown; a pass that is decided otherwise than the pass above it could take several stepdowns in one go at a tab for particular heights only.", "anchors": ["src/cq_cam/operations/profile.py:profile", "src/cq_cam/operations/profile.py:apply_tabs", "src/cq_cam/operations/tabs.py:WireTabs.load_wire", "src/cq_cam/operations/tabs.py:EdgeTabs.load_ordered_edges", "src/cq_cam/fluent.py:Job.to_gcode"]}
{"id": "C153", "title": "3D surfacing computed in floating point keeps the tool off the part on the machine", "statement": "When surface3d is computed in double precision, with a drop cutter whose heights are right up to an error, the tool never goes into the part: wherever a cutting move ends, the tool standing there, raised by the error, has no point of the faces in it; and on the machine that runs the finished program, the tool is clear of the faces on the whole way of every move when raised by the error, half of the steepest slope times the interpolation step, and a small allowance for rounding.", "quantifier": "All shapes with proper or improper meshes, all cutters that reach up without end, all drop cutters with a bounded error and slope, all boundaries and arguments with coordinates up to a bound, all chains of calls before and after.", "why_tests_cant": "Whether the sampled points are close enough together for the tool to pass between them depends on accumulated rounding in the layout of the scanlines and of the samples; collisions show between sample points of particular parts only.", "anchors": ["src/cq_cam/operations/op3d.py:Surface3D.__post_init__", "src/cq_cam/operations/op3d.py:Surface3D.shape_to_triangles", "src/cq_cam/fluent.py:Job.surface3d", "src/cq_cam/fluent.py:Job.to_gcode"]}
{"id": "C154", "title": "3D surfacing that can be made is made, in floating point", "statement": "When the faces are flat, the CAD kernel and the drop cutter answer, the scanlines are some distance apart and hit every outline, and there is a first pass above the lowest point, surface3d succeeds although the scanlines, their ends on the outline, the sample points and the passes are computed in double precision: no rounding error makes it stop with an exception.", "quantifier": "All outlines of straight, circular and offset edges with coordinates up to a kilometre, all tools, stepovers, interpolation steps and stepdowns, all clippers whose lines end within 0.0003 mm of the outline, all kernels and drop cutters that answer, all jobs.", "why_tests_cant": "The ends of scanlines are matched with the segments of the outline by a rounded distance, and sample directions divide by a rounded length; a crash needs particular coordinates that no fixed set of test parts has.", "anchors": ["src/cq_cam/operations/op3d.py:Surface3D.__post_init__", "src/cq_cam/operations/strategy.py:ZigZagStrategy.process", "src/cq_cam/utils/linked_polygon.py:LinkedPolygon.link_point", "src/cq_cam/fluent.py:Job.surface3d"]}
{"id": "C155", "title": "The finished part survives the whole program, computed in floating point", "statement": "Take a job of several operations as they are computed in double precision, and the finished part as a solid. When the machine runs the program, the tool of each operation is in the spindle during its part of the program, and no feed move cuts into the solid on its whole way, up to a thousandth sideways and half a thousandth downwards (and the stated tolerances of the operations); rapids stay at or above the top plane or go straight up.", "quantifier": "All chains of drilling, profiling (with and without tabs), 3D surfacing and pocketing calls computed with doubles, all solids, all tools, all answers of the CAD kernel, the clipper, the drop cutter and the C library within their stated errors, all jobs and machine states.", "why_tests_cant": "Whether the part survives depends on all operations together, on the whole way of every move (not only its ends), and on rounding in every coordinate, depth and offset; tests compare single G-code texts of small parts.", "anchors": ["src/cq_cam/fluent.py:Job.to_gcode", "src/cq_cam/operations/drill.py:Drill.__post_init__", "src/cq_cam/operations/profile.py:profile", "src/cq_cam/operations/op3d.py:Surface3D.__post_init__", "src/cq_cam/operations/pocket.py:pocket"]}
