{
 "claims": [
  {
   "property": "C01",
   "status": "proved",
   "theorems": [
    "CQ.C01_axis_word_error",
    "CQ.C01_axis_word_rounded",
    "CQ.C01_axis_word_rounded_any_precision_partial",
    "CQ.C01_precision_five_exponent",
    "CQ.C01_rounded_unique"
   ],
   "note": "Proved for every precision up to 4 digits (the default is 3), and for higher precisions as long as Python does not print an exponent; precision 5 counterexample proved. That Python finds these digits for doubles is C99 (up to 15 digits)."
  },
  {
   "property": "C02",
   "status": "proved",
   "theorems": [
    "CQ.C02_axis_word_plain"
   ],
   "note": "Precision up to 4 digits."
  },
  {
   "property": "C03",
   "status": "proved",
   "theorems": [
    "CQ.C03_axis_group_read",
    "CQ.C03_centre_group_read"
   ],
   "note": ""
  },
  {
   "property": "C04",
   "status": "partial",
   "theorems": [
    "CQ.C04_float_words_partial",
    "CQ.C04_integer_words",
    "CQ.C04_violated"
   ],
   "note": "The code violates the full statement; the violation is proved, together with the part that holds. Integers always read back; floats exactly when Python prints them without exponent."
  },
  {
   "property": "C05",
   "status": "proved",
   "theorems": [
    "CQ.C05_abs_constructors",
    "CQ.C05_no_start",
    "CQ.C05_omitted_axes_filled"
   ],
   "note": ""
  },
  {
   "property": "C06",
   "status": "proved",
   "theorems": [
    "CQ.C06_machine_vertical",
    "CQ.C06_vertical",
    "CQ.C06_vertical_refused"
   ],
   "note": ""
  },
  {
   "property": "C07",
   "status": "proved",
   "theorems": [
    "CQ.C07_arc_words"
   ],
   "note": ""
  },
  {
   "property": "C08",
   "status": "proved",
   "theorems": [
    "CQ.C08_start",
    "CQ.C08_stop",
    "CQ.C08_tool_change"
   ],
   "note": ""
  },
  {
   "property": "C09",
   "status": "proved",
   "theorems": [
    "CQ.C09_program_means_commands"
   ],
   "note": ""
  },
  {
   "property": "C10",
   "status": "proved",
   "theorems": [
    "CQ.C10_spindle_on"
   ],
   "note": ""
  },
  {
   "property": "C11",
   "status": "proved",
   "theorems": [
    "CQ.C11_coolant"
   ],
   "note": ""
  },
  {
   "property": "C12",
   "status": "proved",
   "theorems": [
    "CQ.C12_ends_stopped"
   ],
   "note": ""
  },
  {
   "property": "C13",
   "status": "proved",
   "theorems": [
    "CQ.C13_modal_state"
   ],
   "note": ""
  },
  {
   "property": "C14",
   "status": "partial",
   "theorems": [
    "CQ.C14_configuration_iff_partial",
    "CQ.C14_violated"
   ],
   "note": "The code violates the full statement; the violation is proved, together with the part that holds. The fixed configuration is emitted whatever the job says; exact characterisation of the jobs for which it is right."
  },
  {
   "property": "C15",
   "status": "partial",
   "theorems": [
    "CQ.C15_library_names",
    "CQ.C15_safe_names_partial",
    "CQ.C15_violated_injected",
    "CQ.C15_violated_rejected"
   ],
   "note": "The code violates the full statement; the violation is proved, together with the part that holds. Holds for names without parentheses and line breaks."
  },
  {
   "property": "C16",
   "status": "partial",
   "theorems": [
    "CQ.C16_violated"
   ],
   "note": "The code violates the full statement; the violation is proved, together with the part that holds. save_gcode writes str(job), which is never the program: negation proved for every job."
  },
  {
   "property": "C17",
   "status": "proved",
   "theorems": [
    "CQ.C17_right_tool"
   ],
   "note": ""
  },
  {
   "property": "C18",
   "status": "partial",
   "theorems": [
    "CQ.C18_speed_partial",
    "CQ.C18_violated"
   ],
   "note": "The code violates the full statement; the violation is proved, together with the part that holds. Holds from the first tool or speed change on, and whenever the final job's speed is the operation's speed."
  },
  {
   "property": "C19",
   "status": "proved",
   "theorems": [
    "CQ.C19_change_blocks"
   ],
   "note": ""
  },
  {
   "property": "C20",
   "status": "partial",
   "theorems": [
    "CQ.C20_receiver_partial",
    "CQ.C20_violated"
   ],
   "note": "The code violates the full statement; the violation is proved, together with the part that holds. Holds for calls without tool argument and calls that insert a change block; operations and all other settings of the receiver never change."
  },
  {
   "property": "C21",
   "status": "proved",
   "theorems": [
    "CQ.C21_append_only"
   ],
   "note": ""
  },
  {
   "property": "C22",
   "status": "proved",
   "theorems": [
    "CQ.C22_inherit"
   ],
   "note": ""
  },
  {
   "property": "C23",
   "status": "partial",
   "theorems": [
    "CQ.C23_plunge_feed_partial",
    "CQ.C23_run_partial",
    "CQ.C23_run_violated",
    "CQ.C23_violated"
   ],
   "note": "The code violates the full statement; the violation is proved, together with the part that holds. Holds as long as no tool argument sets a feed: proved for the settings of the job (`C23_plunge_feed_partial`) and for every feed move of the machine in programs of pockets, profiles and drilling (`C23_run_partial`); 3D surfacing gives no feed at all (C60)."
  },
  {
   "property": "C24",
   "status": "proved",
   "theorems": [
    "CQ.C24_approach",
    "CQ.C24_approach_no_safe_height"
   ],
   "note": ""
  },
  {
   "property": "C25",
   "status": "proved",
   "theorems": [
    "CQ.C25_contour_rapids_safe",
    "CQ.C25_pocket",
    "CQ.C25_profile",
    "CQ.C25_profile_call",
    "CQ.C25_wire_profile_call",
    "CQ.C25_wire_rapids_safe"
   ],
   "note": "For the two routers, whole pockets and whole profiles."
  },
  {
   "property": "C26",
   "status": "proved",
   "theorems": [
    "CQ.C26_contours_connected",
    "CQ.C26_pocket"
   ],
   "note": ""
  },
  {
   "property": "C27",
   "status": "proved",
   "theorems": [
    "CQ.C27_contours_cut"
   ],
   "note": "For closed contours without repeated points, below the safe height."
  },
  {
   "property": "C28",
   "status": "partial",
   "theorems": [
    "CQ.C28_feed_moves_partial",
    "CQ.C28_violated_chord",
    "CQ.C28_violated_link"
   ],
   "note": "The code violates the full statement; the violation is proved, together with the part that holds. Links are limited by the square root of the stepover, and a contour that could not be linked is closed by a cut to the point nearest the previous contour, possibly across islands."
  },
  {
   "property": "C29",
   "status": "proved",
   "theorems": [
    "CQ.C29_circle_opposite",
    "CQ.C29_edge",
    "CQ.C29_unsupported"
   ],
   "note": ""
  },
  {
   "property": "C30",
   "status": "partial",
   "theorems": [
    "CQ.C30_violated_empty",
    "CQ.C30_violated_overshoot",
    "CQ.C30_violated_spline",
    "CQ.C30_wires_cut_partial"
   ],
   "note": "The code violates the full statement; the violation is proved, together with the part that holds. Holds when the nearest-point search answers with a vertex, or with a point inside a line or arc that is then linked to; overshoot beyond the outline, loss of everything at an empty wire and chords at splines are proved."
  },
  {
   "property": "C31",
   "status": "proved",
   "theorems": [
    "CQ.C31_nearest_on_segment",
    "CQ.C31_unique"
   ],
   "note": ""
  },
  {
   "property": "C32",
   "status": "proved",
   "theorems": [
    "CQ.C32_nearest_on_path",
    "CQ.C32_other_paths"
   ],
   "note": ""
  },
  {
   "property": "C33",
   "status": "proved",
   "theorems": [
    "CQ.C33_rotation"
   ],
   "note": ""
  },
  {
   "property": "C34",
   "status": "proved",
   "theorems": [
    "CQ.C34_offsets",
    "CQ.C34_tool_radius"
   ],
   "note": ""
  },
  {
   "property": "C35",
   "status": "proved",
   "theorems": [
    "CQ.C35_edge_direction",
    "CQ.C35_three_points"
   ],
   "note": ""
  },
  {
   "property": "C36",
   "status": "proved",
   "theorems": [
    "CQ.C36_oriented_ends"
   ],
   "note": ""
  },
  {
   "property": "C37",
   "status": "proved",
   "theorems": [
    "CQ.C37_closed",
    "CQ.C37_empty",
    "CQ.C37_open",
    "CQ.C37_unknown"
   ],
   "note": ""
  },
  {
   "property": "C38",
   "status": "proved",
   "theorems": [
    "CQ.C38_order",
    "CQ.C38_refused"
   ],
   "note": ""
  },
  {
   "property": "C39",
   "status": "partial",
   "theorems": [
    "CQ.C39_avoid_partial",
    "CQ.C39_region_partial",
    "CQ.C39_violated_outlines",
    "CQ.C39_violated_overlap",
    "CQ.C39_violated_void"
   ],
   "note": "The code violates the full statement; the violation is proved, together with the part that holds. For any engine meeting the even-odd contract of pyclipper's defaults up to a tolerance: at points farther from the outlines than twice the tolerance, where holes and avoid areas do not overlap nothing inside them is cleared, and where also the faces do not overlap and no void or nested island is involved the region is right. Overlapping avoid areas (cleared), overlapping faces (left standing) and enclosed voids (cleared) are proved violations."
  },
  {
   "property": "C40",
   "status": "partial",
   "theorems": [
    "CQ.C40_faces_partial",
    "CQ.C40_violated"
   ],
   "note": "The code violates the full statement; the violation is proved, together with the part that holds. Holds for results with outlines and holes only; outlines nested inside holes are dropped."
  },
  {
   "property": "C41",
   "status": "proved",
   "theorems": [
    "CQ.C41_sequences"
   ],
   "note": ""
  },
  {
   "property": "C42",
   "status": "proved",
   "theorems": [
    "CQ.C42_complete",
    "CQ.C42_terminates",
    "CQ.C42_zero_stepover_endless"
   ],
   "note": "Termination for engines that make outlines smaller by a fixed amount; with stepover 0 the loop never ends (proved)."
  },
  {
   "property": "C43",
   "status": "proved",
   "theorems": [
    "CQ.C43_passes",
    "CQ.C43_single_pass"
   ],
   "note": "In exact arithmetic; with doubles see C97."
  },
  {
   "property": "C44",
   "status": "proved",
   "theorems": [
    "CQ.C44_cleared",
    "CQ.C44_start"
   ],
   "note": "Containment as answered by the engine."
  },
  {
   "property": "C45",
   "status": "proved",
   "theorems": [
    "CQ.C45_everything_cut",
    "CQ.C45_pocket",
    "CQ.C45_pocket_path"
   ],
   "note": ""
  },
  {
   "property": "C46",
   "status": "partial",
   "theorems": [
    "CQ.C46_cut_partial",
    "CQ.C46_passes_partial",
    "CQ.C46_single_pass",
    "CQ.C46_violated"
   ],
   "note": "The code violates the full statement; the violation is proved, together with the part that holds. Holds when the kernel's bounding boxes move with the wires, the nearest points between passes are vertices, and cutting with the top plane leaves every pass below the surface; the plane is taken in world coordinates and can cut a pass away, then all passes above are missing (proved)."
  },
  {
   "property": "C47",
   "status": "proved",
   "theorems": [
    "CQ.C47_bounded",
    "CQ.C47_negative"
   ],
   "note": ""
  },
  {
   "property": "C48",
   "status": "proved",
   "theorems": [
    "CQ.C48_order",
    "CQ.C48_refused",
    "CQ.C48_wire_profile"
   ],
   "note": ""
  },
  {
   "property": "C49",
   "status": "partial",
   "theorems": [
    "CQ.C49_other_kinds",
    "CQ.C49_tabs",
    "CQ.C49_transitions_partial",
    "CQ.C49_violated",
    "CQ.C49_wide_spacing"
   ],
   "note": "The code violates the full statement; the violation is proved, together with the part that holds. Count, width, even spacing and position inside the edge hold for every accepted configuration; the tabs are apart if and only if there is at most one or the edge is longer than one more tab than it has (a spacing of more than one and a half widths is enough); spacing 1.1 and width 1 is accepted and gives overlapping tabs (proved)."
  },
  {
   "property": "C50",
   "status": "partial",
   "theorems": [
    "CQ.C50_violated",
    "CQ.C50_zones_partial"
   ],
   "note": "The code violates the full statement; the violation is proved, together with the part that holds. Holds for one tab, and for edges that end before the last half zone or begin after the last but one zone; on other edges the two halves of the first tab are listed in the wrong order and the last part is not marked (proved for a square with four tabs)."
  },
  {
   "property": "C51",
   "status": "partial",
   "theorems": [
    "CQ.C51_above",
    "CQ.C51_edge_tabs_partial",
    "CQ.C51_profile_partial",
    "CQ.C51_tabs_partial",
    "CQ.C51_violated",
    "CQ.C51_wire_tabs_partial"
   ],
   "note": "The code violates the full statement; the violation is proved, together with the part that holds. Holds for flat passes, when the tabs of neighbouring edges fit together and the kernel assembles connected edges: for tabs along edges always (wide spacing), for tabs around the wire if none begins or ends exactly at a corner; otherwise the kernel may refuse and the pass is cut without tabs (proved)."
  },
  {
   "property": "C52",
   "status": "proved",
   "theorems": [
    "CQ.C52_accepted",
    "CQ.C52_each_hole_once",
    "CQ.C52_exception"
   ],
   "note": "Positions are those the code computes (see C55); also proved: exactly when the operation is refused."
  },
  {
   "property": "C53",
   "status": "proved",
   "theorems": [
    "CQ.C53_nearest_order"
   ],
   "note": "Holes as in C52."
  },
  {
   "property": "C54",
   "status": "proved",
   "theorems": [
    "CQ.C54_course",
    "CQ.C54_safe_motion"
   ],
   "note": "Also the exact course of four moves per hole. The lower bound on rapids needs an operation-safe height of at least 0."
  },
  {
   "property": "C55",
   "status": "partial",
   "theorems": [
    "CQ.C55_exact_partial",
    "CQ.C55_partial",
    "CQ.C55_violated"
   ],
   "note": "The code violates the full statement; the violation is proved, together with the part that holds. The code transforms local to world coordinates instead of world to local: holds exactly for planes with a symmetric matrix and origin satisfying two equations (in particular origin shifted only in Z); wrong for a job origin at a corner (proved)."
  },
  {
   "property": "C56",
   "status": "proved",
   "theorems": [
    "CQ.C56_boundary",
    "CQ.C56_no_gouge"
   ],
   "note": "The drop cutter is a parameter that gives each point its own height. The claim is about the ends of the moves, not about the straight lines between them."
  },
  {
   "property": "C57",
   "status": "proved",
   "theorems": [
    "CQ.C57_pieces"
   ],
   "note": ""
  },
  {
   "property": "C58",
   "status": "proved",
   "theorems": [
    "CQ.C58_refines",
    "CQ.C58_total"
   ],
   "note": "Lengths may be measured with a relative error, given as a parameter."
  },
  {
   "property": "C59",
   "status": "partial",
   "theorems": [
    "CQ.C59_operation_violated",
    "CQ.C59_passes_partial",
    "CQ.C59_single",
    "CQ.C59_violated"
   ],
   "note": "The code violates the full statement; the violation is proved, together with the part that holds. Passes are as claimed for a negative stepdown smaller than the depth, and for none. Every positive stepdown, and every negative one as large as the depth, raises IndexError (proved). In exact arithmetic; with doubles see C98."
  },
  {
   "property": "C60",
   "status": "partial",
   "theorems": [
    "CQ.C60_drill",
    "CQ.C60_feeds_partial",
    "CQ.C60_iff",
    "CQ.C60_pocket",
    "CQ.C60_profile",
    "CQ.C60_violated",
    "CQ.C60_wire_profile"
   ],
   "note": "The code violates the full statement; the violation is proved, together with the part that holds. Exactly: every feed move of the program has a feed if and only if the first one in the command list carries one. Pockets, profiles and drilling give all feed moves the job's feed or plunge feed; 3D surfacing gives none, so a job with only that cuts without a feed (proved for every such job)."
  },
  {
   "property": "C61",
   "status": "partial",
   "theorems": [
    "CQ.C61_ends",
    "CQ.C61_restart_violated",
    "CQ.C61_route",
    "CQ.C61_several",
    "CQ.C61_violated",
    "CQ.C61_zigzag_partial"
   ],
   "note": "The code violates the full statement; the violation is proved, together with the part that holds. Routing itself (C61_route) is proved for every boundary to which the scanline ends have been linked. Linking crashes when a scanline end lies on the segment that closes a boundary given as an open vertex list (proved); end-to-end theorem when no end is on that segment or at a vertex. For any number of boundaries: the loop ends (C61_ends) and whenever it succeeds the paths cut every scanline exactly once and link along boundaries (C61_several); but a second path's starting point is not taken off its boundary, so routing several boundaries can crash (C61_restart_violated; the code uses one boundary only)."
  },
  {
   "property": "C62",
   "status": "proved",
   "theorems": [
    "CQ.C62_link",
    "CQ.C62_total"
   ],
   "note": "Every polygon and every set of linked points; also proved: there is an answer for every unused linked point."
  },
  {
   "property": "C63",
   "status": "partial",
   "theorems": [
    "CQ.C63_neighbours_partial",
    "CQ.C63_sum_of_squares_partial",
    "CQ.C63_violated"
   ],
   "note": "The code violates the full statement; the violation is proved, together with the part that holds. The code sums squared distances from the entry point instead of the length of the link (witness: the longer link, 4 instead of 3, is taken). What is minimised is proved, and the shorter is taken when both neighbours are unused linked points."
  },
  {
   "property": "C64",
   "status": "partial",
   "theorems": [
    "CQ.C64_order",
    "CQ.C64_refused_violated",
    "CQ.C64_sorted_partial",
    "CQ.C64_violated"
   ],
   "note": "The code violates the full statement; the violation is proved, together with the part that holds. Order of the vertices and completeness are proved for every successful linking; sorted insertion for boundaries with different vertices and points at no vertex nor on the closing segment. On the closing segment points are refused (open list) or inserted unsorted (closed list): both proved."
  },
  {
   "property": "C65",
   "status": "partial",
   "theorems": [
    "CQ.C65_change_height",
    "CQ.C65_end_height",
    "CQ.C65_retract_partial",
    "CQ.C65_violated"
   ],
   "note": "The code violates the full statement; the violation is proved, together with the part that holds. No operation retracts at its end, and neither the tool change nor the end of the program does: the machine homes from the height of the last move (proved in general, and for every job ending with drilling). Proved as claimed for operations that end high."
  },
  {
   "property": "C66",
   "status": "proved",
   "theorems": [
    "CQ.C66_drill",
    "CQ.C66_isolated",
    "CQ.C66_pocket",
    "CQ.C66_profile",
    "CQ.C66_surface",
    "CQ.C66_wire_profile"
   ],
   "note": "For pockets, profiles, drilling and surfacing; that behaviour does not depend on the previous operation is proved on the program text, for two machines differing in position."
  },
  {
   "property": "C67",
   "status": "partial",
   "theorems": [
    "CQ.C67_edges_partial",
    "CQ.C67_groups",
    "CQ.C67_groups_job",
    "CQ.C67_job_partial",
    "CQ.C67_shown_unique",
    "CQ.C67_violated",
    "CQ.C67_violated_start"
   ],
   "note": "The code violates the full statement; the violation is proved, together with the part that holds. Straight moves are drawn exactly as claimed, for every command list, job plane and reachable job. Arcs are drawn only by a kernel that takes an AddressVector for a vector; cadquery does not, so arcs are left out silently (proved in general). Unknown start coordinates count as 0, so the first drawn move of every operation comes from the origin of the job plane (proved)."
  },
  {
   "property": "C68",
   "status": "proved",
   "theorems": [
    "CQ.C68_default_heights"
   ],
   "note": ""
  },
  {
   "property": "C69",
   "status": "proved",
   "theorems": [
    "CQ.C69_parity"
   ],
   "note": ""
  },
  {
   "property": "C70",
   "status": "partial",
   "theorems": [
    "CQ.C70_arc_mode_inherited",
    "CQ.C70_arc_mode_partial",
    "CQ.C70_violated"
   ],
   "note": "The code violates the full statement; the violation is proved, together with the part that holds. Holds on machines that are in incremental arc mode when the program starts."
  },
  {
   "property": "C71",
   "status": "partial",
   "theorems": [
    "CQ.C71_length_offset_partial",
    "CQ.C71_violated"
   ],
   "note": "The code violates the full statement; the violation is proved, together with the part that holds. Holds from the first tool change on; before it no offset is ever active (proved)."
  },
  {
   "property": "C72",
   "status": "partial",
   "theorems": [
    "CQ.C72_violated",
    "CQ.C72_wires_connected_partial"
   ],
   "note": "The code violates the full statement; the violation is proved, together with the part that holds. Holds under the same conditions as C30 for wires whose edges follow each other; an arc with a wrong start is proved."
  },
  {
   "property": "C73",
   "status": "proved",
   "theorems": [
    "CQ.C73_polygon_density",
    "CQ.C73_spline_density"
   ],
   "note": ""
  },
  {
   "property": "C74",
   "status": "proved",
   "theorems": [
    "CQ.C74_areas",
    "CQ.C74_refused"
   ],
   "note": "The offset engine is a parameter."
  },
  {
   "property": "C75",
   "status": "partial",
   "theorems": [
    "CQ.C75_cut_partial",
    "CQ.C75_offset_partial",
    "CQ.C75_violated"
   ],
   "note": "The code violates the full statement; the violation is proved, together with the part that holds. Holds when the kernel can offset the wire and its relocation of circles changes nothing; otherwise the call succeeds without any move (proved)."
  },
  {
   "property": "C76",
   "status": "partial",
   "theorems": [
    "CQ.C76_partial",
    "CQ.C76_violated"
   ],
   "note": "The code violates the full statement; the violation is proved, together with the part that holds. Holds for all calls but Job.profile, which checks the job's diameter before taking the tool's."
  },
  {
   "property": "C77",
   "status": "proved",
   "theorems": [
    "CQ.C77_heights"
   ],
   "note": "For horizontal contours; the kernel's bounding boxes move with the wires."
  },
  {
   "property": "C80",
   "status": "proved",
   "theorems": [
    "CQ.C80_lines"
   ],
   "note": "Bounds and diagonal of the clipping engine are parameters; the diagonal is assumed at least as long as the sides."
  },
  {
   "property": "C78",
   "status": "partial",
   "theorems": [
    "CQ.C78_clear_partial",
    "CQ.C78_rapids",
    "CQ.C78_violated"
   ],
   "note": "The code violates the full statement; the violation is proved, together with the part that holds. Sideways rapids are at the rapid height (proved without conditions). Clearance is proved for a top height not above the surface; for a top height above it a rapid goes into the shape (proved)."
  },
  {
   "property": "C79",
   "status": "partial",
   "theorems": [
    "CQ.C79_first",
    "CQ.C79_reached_partial",
    "CQ.C79_violated"
   ],
   "note": "The code violates the full statement; the violation is proved, together with the part that holds. Proved for points not more than a stepdown lower than the point before, and for first points of paths. The first point behind a steeper step is never cut to (proved)."
  },
  {
   "property": "C81",
   "status": "proved",
   "theorems": [
    "CQ.C81_rapids"
   ],
   "note": "For pockets, profiles, wire profiles, drilling and 3D surfacing in any combination, on the program text, without conditions on the engines."
  },
  {
   "property": "C82",
   "status": "proved",
   "theorems": [
    "CQ.C82_drill",
    "CQ.C82_floor",
    "CQ.C82_pocket",
    "CQ.C82_surface",
    "CQ.C82_wire_profile"
   ],
   "note": "General composition theorem plus one theorem for each operation giving its floor. For profiles without tabs and with a non-negative stepdown, if the offsetting keeps wires flat; for surfacing with a non-positive stepdown."
  },
  {
   "property": "C83",
   "status": "partial",
   "theorems": [
    "CQ.C83_refused",
    "CQ.C83_regions_partial",
    "CQ.C83_violated",
    "CQ.C83_violated_deep_avoid"
   ],
   "note": "The code violates the full statement; the violation is proved, together with the part that holds. The faces are in job coordinates but are moved between depths along the normal of the job plane in world coordinates, so on other than upright job planes the regions are displaced; and avoid areas that are all deeper than some area make the call fail. Proved as claimed for upright job planes, off the borders, at depths some avoid area reaches (or without avoid areas)."
  },
  {
   "property": "C84",
   "status": "proved",
   "theorems": [
    "CQ.C84_complete",
    "CQ.C84_terminates",
    "CQ.C84_zero_stepover_endless"
   ],
   "note": "For kernels in which the workaround for misplaced circles changes nothing; termination under a shrinking measure, with a proof that a stepover of 0 never ends."
  },
  {
   "property": "C85",
   "status": "partial",
   "theorems": [
    "CQ.C85_cut_partial",
    "CQ.C85_engine",
    "CQ.C85_no_tool",
    "CQ.C85_rapids",
    "CQ.C85_violated_stepdown"
   ],
   "note": "The code violates the full statement; the violation is proved, together with the part that holds. The stepdown is ignored with this engine. Cutting and connectedness are proved under the conditions of C30 and C72 on the contours (good entries of the nearest-point search); rapids and refusals in general."
  },
  {
   "property": "C86",
   "status": "partial",
   "theorems": [
    "CQ.C86_boundaries_partial",
    "CQ.C86_projection",
    "CQ.C86_refused",
    "CQ.C86_violated",
    "CQ.C86_violated_holes",
    "CQ.C86_violated_none"
   ],
   "note": "The code violates the full statement; the violation is proved, together with the part that holds. Holes are ignored: whatever the holes and the inner offset are, the moves are those of the boundary without holes. An inner offset of None, allowed by the signature, makes the call fail. Proved as claimed for selection, projection, offsets and outlines."
  },
  {
   "property": "C87",
   "status": "partial",
   "theorems": [
    "CQ.C87_flattened_partial",
    "CQ.C87_refused",
    "CQ.C87_violated_reversed",
    "CQ.C87_violated_short"
   ],
   "note": "The code violates the full statement; the violation is proved, together with the part that holds. Points of reversed curves are taken backwards, and curves not longer than 0.1 are left out including their ends. Proved as claimed for wires of straight edges and of longer curves that are not reversed."
  },
  {
   "property": "C88",
   "status": "proved",
   "theorems": [
    "CQ.C88_grid",
    "CQ.C88_no_drift",
    "CQ.C88_precision",
    "CQ.C88_regions",
    "CQ.C88_rounding"
   ],
   "note": "pyclipper as an engine on integers; its own rounding is the tolerance of the contract."
  },
  {
   "property": "C89",
   "status": "proved",
   "theorems": [
    "CQ.C89_cleared",
    "CQ.C89_under_tool"
   ],
   "note": "For polygon engines meeting the contracts of Spec/Region and Spec/Coverage (shrinking and boolean operations right up to a tolerance, for outlines of one kind). Cuts are those of the contours, see C45; points within the tolerance of a hole of the region are not covered by the statement."
  },
  {
   "property": "C90",
   "status": "proved",
   "theorems": [
    "CQ.C90_contained"
   ],
   "note": "For polygon engines meeting the contracts of Spec/Coverage. About the contours; links between contours are the subject of C28."
  },
  {
   "property": "C91",
   "status": "proved",
   "theorems": [
    "CQ.C91_reset",
    "CQ.C91_reset_total"
   ],
   "note": "pyclipper as an engine that takes or refuses paths; a call that raises ends the history."
  },
  {
   "property": "C92",
   "status": "partial",
   "theorems": [
    "CQ.C92_open_violated",
    "CQ.C92_restarted",
    "CQ.C92_sorted_partial",
    "CQ.C92_violated"
   ],
   "note": "The code violates the full statement; the violation is proved, together with the part that holds. Only the end of the first path is ever looked at, and open paths are begun in the middle, which makes them other polylines. Proved: what sorting does to every list of closed and open paths, in particular that closed paths remain the same closed curves, begun nearest to the end of the first path."
  },
  {
   "property": "C93",
   "status": "proved",
   "theorems": [
    "CQ.C93_ends",
    "CQ.C93_generations",
    "CQ.C93_hangs"
   ],
   "note": "CAD offsets and pyclipper are parameters. The strategy is not used by the fluent API."
  },
  {
   "property": "C94",
   "status": "proved",
   "theorems": [
    "CQ.C94_drill",
    "CQ.C94_followed",
    "CQ.C94_pocket"
   ],
   "note": "For the interpreter of Spec/GCode; pockets with polygon engines meeting the contracts of C89. Starting points agree for operations whose moves continue each other, as proved for pockets (C26) and drilling (C54)."
  },
  {
   "property": "C95",
   "status": "partial",
   "theorems": [
    "CQ.C95_drill",
    "CQ.C95_move",
    "CQ.C95_pocket",
    "CQ.C95_program_partial",
    "CQ.C95_violated",
    "CQ.C95_wire_profile",
    "CQ.C95_wires"
   ],
   "note": "The code violates the full statement; the violation is proved, together with the part that holds. after another contour the entry search may answer a point inside an edge, and the arc is then printed for a start that the machine is not at (`C95_violated`, the defect of C72: radii 1 apart). Proved for chains of operations whose moves continue each other and whose arcs are circular, which pockets, drilling and profiles of level contours entered at vertices are shown to meet."
  },
  {
   "property": "C96",
   "status": "partial",
   "theorems": [
    "CQ.C96_drill",
    "CQ.C96_full_iff",
    "CQ.C96_pocket",
    "CQ.C96_program_partial",
    "CQ.C96_violated",
    "CQ.C96_wire_profile",
    "CQ.C96_wires"
   ],
   "note": "The code violates the full statement; the violation is proved, together with the part that holds. an arc longer than 0.00001 but shorter than 0.001 is not closed for the code and is printed with equal ends (`C96_violated`: an arc of length 0.0004 makes the machine run the full circle of radius 10). Proved for chains of operations whose arcs have ends more than a thousandth apart, which pockets, drilling and profiles of contours with such edges are shown to meet, closed circles included."
  },
  {
   "property": "C97",
   "status": "partial",
   "theorems": [
    "CQ.C97_no_repeat_partial",
    "CQ.C97_passes",
    "CQ.C97_violated"
   ],
   "note": "The code violates the full statement; the violation is proved, together with the part that holds. when the depth is a multiple of the stepdown, rounding can give one pass too many, which is printed at the final depth as well (`C97_violated`: depth 3 with stepdown 0.3). Proved: all bounds up to an error of (8n+32)*2^-52 times the size of the numbers, and no repetition when the depth is not near a multiple of the stepdown."
  },
  {
   "property": "C98",
   "status": "partial",
   "theorems": [
    "CQ.C98_passes_partial",
    "CQ.C98_violated"
   ],
   "note": "The code violates the full statement; the violation is proved, together with the part that holds. when the height is a multiple of the stepdown, rounding can give one pass too many at the lowest point (`C98_violated`: 0.9 with stepdown 0.3). Proved for negative stepdowns (positive ones raise, see C59): all bounds up to an error of (8n+32)*2^-52 times the size of the numbers, and passes apart when the height is not near a multiple."
  },
  {
   "property": "C99",
   "status": "partial",
   "theorems": [
    "CQ.C99_axis_number",
    "CQ.C99_axis_word_partial",
    "CQ.C99_repr_digits",
    "CQ.C99_violated_far_out"
   ],
   "note": "The code violates the full statement; the violation is proved, together with the part that holds. for rounded numbers of more than 15 digits: 562949953421312.125 is printed as 562949953421312.1 (`C99_violated_far_out`). Proved for all rounded coordinates of up to 15 digits, at the default precision up to 10^12."
  },
  {
   "property": "C100",
   "status": "proved",
   "theorems": [
    "CQ.C100_between",
    "CQ.C100_machine",
    "CQ.C100_sharp"
   ],
   "note": "The heights reported by the drop cutter of opencamlib are a parameter with bounded slope; so are lengths (measured up to a factor r). `C100_sharp` shows that the bound is attained."
  },
  {
   "property": "C101",
   "status": "partial",
   "theorems": [
    "CQ.C101_profile_partial",
    "CQ.C101_violated",
    "CQ.C101_wire_profile_partial"
   ],
   "note": "The code violates the full statement; the violation is proved, together with the part that holds. when a wire has several contours, the machine may run far past one of them (`C101_violated`); passes can be missing (`C46_violated`). Proved for all programs in which the nearest points found between contours and passes are vertices, and the top plane takes no pass away; offsets, bounding boxes and curves are answers of the CAD kernel, given as parameters."
  },
  {
   "property": "C102",
   "status": "partial",
   "theorems": [
    "CQ.C102_edge_tabs_partial",
    "CQ.C102_profile_edge_tabs_partial",
    "CQ.C102_profile_wire_tabs_partial",
    "CQ.C102_violated",
    "CQ.C102_wire_tabs_partial"
   ],
   "note": "The code violates the full statement; the violation is proved, together with the part that holds. with a tab that begins or ends exactly at a corner the wire cannot be assembled and the program cuts the pass without any tab (`C102_violated`). Proved for flat contours at one height below the safe height, tabs along edges with 3 widths < 2 spacings, tabs around the wire that fit and meet no corner exactly (the conditions of C51), and nearest points at vertices; the CAD kernel is a parameter that assembles connected edges."
  },
  {
   "property": "C103",
   "status": "partial",
   "theorems": [
    "CQ.C103_pocket_partial",
    "CQ.C103_violated"
   ],
   "note": "The code violates the full statement; the violation is proved, together with the part that holds. after a contour that was not linked to the one before, the tool goes straight back, at depth, to the point nearest to where the last contour ended, across whatever is there (`C103_violated`). Proved: every feed move belongs to one region at least as deep, starts and ends in it or on its outline, and runs over it, or inside its outline from one contour to the next, or is such a chord; only chords of contours that are not convex leave the outline (up to rounding). Not claimed: that the links avoid holes. The polygon engine is a parameter that keeps the contracts of C90."
  },
  {
   "property": "C104",
   "status": "partial",
   "theorems": [
    "CQ.C104_pocket_partial",
    "CQ.C104_violated"
   ],
   "note": "The code violates the full statement; the violation is proved, together with the part that holds. a face with a hole whose outline is offset to nothing (the tool does not fit) is refused with an exception of the geometry library, while the same face without the hole gives an empty operation (`C104_violated`). Proved: the call succeeds in all other cases, with a number of filling rounds that exists for every input and beyond which more rounds change nothing. The engine is a parameter that answers questions about at least one good contour; that it refuses none at all, as pyclipper does, is used in the violation only."
  },
  {
   "property": "C105",
   "status": "partial",
   "theorems": [
    "CQ.C105_profile_refused",
    "CQ.C105_refused",
    "CQ.C105_tabs_partial",
    "CQ.C105_violated"
   ],
   "note": "The code violates the full statement; the violation is proved, together with the part that holds. the copy of the first tab at the end of the wire comes second in the list of tabs, so on an edge with another tab the transitions are out of order, and the code asks for a line between two equal points, which the kernel refuses. Every contour of one edge, such as a circle, is refused with two or more tabs (`C105_violated`, for all such contours). Proved: the exact condition (`C105_tabs_partial`, if and only if), for flat passes with edges in their own direction; that OpenCASCADE refuses a line between equal points is part of the model."
  },
  {
   "property": "C106",
   "status": "proved",
   "theorems": [
    "CQ.C106_negative",
    "CQ.C106_pocket"
   ],
   "note": "For positive stepdowns. The polygon engine (pyclipper, shapely) is a parameter with the contracts of C89 and `ContainsRight`; pyclipper's and shapely's code is not modelled. Reach: the stepover, twice the engine's tolerance and a thousandth. A negative stepdown is taken as none (`C106_negative`)."
  },
  {
   "property": "C107",
   "status": "partial",
   "theorems": [
    "CQ.C107_pocket",
    "CQ.C107_profile_partial",
    "CQ.C107_program",
    "CQ.C107_violated",
    "CQ.C107_violated_drill",
    "CQ.C107_wire_profile_partial"
   ],
   "note": "The code violates the full statement; the violation is proved, together with the part that holds. with a stepdown, the passes of a profile (in job coordinates) are cut with the work plane in world coordinates, so moving part and plane changes the passes (`C107_violated`: the first cut is at depth 4 instead of 1), and drilling applies the inverse transformation (`C107_violated_drill`). Proved: pockets with any arguments (`C107_pocket`), profiles in one pass or whose passes the plane does not remove (`C107_profile_partial`, `C107_wire_profile_partial`), and that the text of the whole program is then the same (`C107_program`). `engine=cq` pockets and `surface3d` are not covered here (see C83)."
  },
  {
   "property": "C108",
   "status": "partial",
   "theorems": [
    "CQ.C108_pocket_partial",
    "CQ.C108_violated"
   ],
   "note": "The code violates the full statement; the violation is proved, together with the part that holds. the code compares the square of the length of a link with the stepover, so with a small tool (in a job in inches) links are much longer than a step, and nothing checks what is between: the tool goes straight through a wall at full depth (`C108_violated`; chords of a contour: `C103_violated`). Proved (`C108_pocket_partial`): every feed move starts and ends, and every feed move that is not such a link stays, where the tool is in the given faces, up to five times the tolerance of the engine; for grown holes and avoid faces that do not overlap (`C39_violated_overlap`) and areas that enclose no void (`C39_violated_void`)."
  },
  {
   "property": "C109",
   "status": "partial",
   "theorems": [
    "CQ.C109_pocket_partial",
    "CQ.C109_violated",
    "CQ.C109_violated_avoid"
   ],
   "note": "The code violates the full statement; the violation is proved, together with the part that holds. outlines are united with the even-odd rule and only the outermost contour of the result is kept, so a face inside the hole of another one at the same depth is forgotten: nothing of it is milled, without an error (`C109_violated`). Proved (`C109_pocket_partial`): the machine comes within the stepover of every point where the tool fits with a margin of five times the tolerance of the engine, for points in the outline of exactly one face at that depth, not on an island enclosed by a grown hole or avoid face (`C40_violated`), and not in the outline of an avoid face (the holes of avoid faces are not milled either: `C109_violated_avoid`) nor in a void enclosed by one that has holes."
  },
  {
   "property": "C110",
   "status": "partial",
   "theorems": [
    "CQ.C110_displaced",
    "CQ.C110_partial",
    "CQ.C110_violated",
    "CQ.C110_workaround"
   ],
   "note": "The code violates the full statement; the violation is proved, together with the part that holds. `offset_wire` reuses the name of its argument as a loop variable and so gives its last result to the workaround instead of the circle: with a kernel that has the fault, every offset of a placed circle stays displaced by the location of the circle (`C110_displaced`), and the machine cuts a circle around (10, 0) around (20, 0) (`C110_violated`). Proved: the workaround itself puts the curves right if it is given the circle (`C110_workaround`), and circles without a location are offset rightly (`C110_partial`). The fault and the locations of the kernel are hypotheses (`CircleFault`, `Relocates`)."
  },
  {
   "property": "C111",
   "status": "partial",
   "theorems": [
    "CQ.C111_distinct",
    "CQ.C111_modes",
    "CQ.C111_violated",
    "CQ.C111_words_partial"
   ],
   "note": "The code violates the full statement; the violation is proved, together with the part that holds. the text of `ProbeMode.ON_CONTACT_ERROR` is `38.2`, without the letter `G`; no machine accepts a line with it (`C111_violated`). Proved for all other members: the text is read as the code the name stands for (`C111_words_partial`); all texts are different (`C111_distinct`); the modes of the machine of the specification are selected by their texts from every state (`C111_modes`)."
  },
  {
   "property": "C112",
   "status": "partial",
   "theorems": [
    "CQ.C112_drill",
    "CQ.C112_feeds_partial",
    "CQ.C112_pocket_partial",
    "CQ.C112_violated"
   ],
   "note": "The code violates the full statement; the violation is proved, together with the part that holds. drilling plunges at the feed, whatever the plunge feed (`C112_drill`, `C112_violated`). Proved for pockets and profiles, move by move (`C112_feeds_partial`), and for pockets also in terms of the machine alone (`C112_pocket_partial`). 3D surfacing gives no feed at all (C60)."
  },
  {
   "property": "C113",
   "status": "proved",
   "theorems": [
    "CQ.C113_contracts",
    "CQ.C113_gouge",
    "CQ.C113_reach"
   ],
   "note": "Contracts stated on integers (`Spec/IntEngine`) give the contracts of C89, C90, C94, C103, C108 and C109 for the engine with the scaling around it (`C113_contracts`); `C113_gouge` and `C113_reach` are `C108_pocket_partial` and `C109_pocket_partial` for it, with the exceptions stated there."
  },
  {
   "property": "C114",
   "status": "proved",
   "theorems": [
    "CQ.C114_made",
    "CQ.C114_profile",
    "CQ.C114_refused",
    "CQ.C114_wire_profile"
   ],
   "note": "For kernels whose relocation of circles changes nothing (see C110), and top planes that do not cut passes away (see C46_violated). Success with tabs is in C51 and C105."
  },
  {
   "property": "C115",
   "status": "partial",
   "theorems": [
    "CQ.C115_machine_profile_partial",
    "CQ.C115_machine_profile_tabs_partial",
    "CQ.C115_machine_wire_profile_partial",
    "CQ.C115_machine_wire_profile_tabs_partial",
    "CQ.C115_partial",
    "CQ.C115_profile_partial",
    "CQ.C115_profile_tabs_partial",
    "CQ.C115_tabs_partial",
    "CQ.C115_violated",
    "CQ.C115_wire_profile_partial",
    "CQ.C115_wire_profile_tabs_partial"
   ],
   "note": "The code violates the full statement; the violation is proved, together with the part that holds.  a circle that has been placed away from the origin is milled in the wrong place (C110), so that the middle of the tool cuts into the edge of the part. Proved for kernels whose relocation of circles changes nothing, contours whose searches between passes find vertices (see C30, C72), circles that are not tilted, and profiles without tabs or with tabs whose transitions are in order along each edge (shown for edge tabs with a spacing of more than one and a half times their width, and for wire tabs that fit, see C49 and C50) on flat contours. The C115_machine theorems carry this to the machine that runs the program of any job with such a call in it: all points of its straight feed moves keep the distance up to a further thousandth; of its arcs it is proved that they run between rounded ends around a rounded centre of an arc that keeps it."
  },
  {
   "property": "C116",
   "status": "partial",
   "theorems": [
    "CQ.C116_between_partial",
    "CQ.C116_clear_partial",
    "CQ.C116_machine_partial",
    "CQ.C116_meshed",
    "CQ.C116_triangles_partial",
    "CQ.C116_violated",
    "CQ.C116_violated_placement"
   ],
   "note": "The code violates the full statement; the violation is proved, together with the part that holds.  the location that OpenCASCADE reports with the triangulation of a face is never applied, so the triangles of a face that was moved into job coordinates are those from before the move (`C116_violated_placement`, for every face and motion); `C116_violated` shows a part the tool then cuts into. Proved for faces whose geometry is where the face is (the job plane is the world's, or the kernel rebuilt the faces when fusing them): the triangles make up exactly the shape, and the tool is clear of it where a move ends (`C116_clear_partial`), on the whole way up to half of the steepest slope times the interpolation step (`C116_between_partial`), and so is the tool of the machine that runs the program (`C116_machine_partial`). `C116_meshed`: exactly which shapes are meshed at all."
  },
  {
   "property": "C117",
   "status": "proved",
   "theorems": [
    "CQ.C117_entries",
    "CQ.C117_job",
    "CQ.C117_names",
    "CQ.C117_no_viewer",
    "CQ.C117_picture"
   ],
   "note": "`C117_entries` (entries, order, names, how it ends), `C117_names` (no name twice), `C117_picture` (what is shown), `C117_job` (jobs made of operations whose arcs have known ends are shown completely), `C117_no_viewer`. What the drawing misses of arcs is C67."
  },
  {
   "property": "C118",
   "status": "partial",
   "theorems": [
    "CQ.C118_boundary_made",
    "CQ.C118_boundary_refused",
    "CQ.C118_made_partial",
    "CQ.C118_mesh_partial",
    "CQ.C118_refused",
    "CQ.C118_violated_first_edge",
    "CQ.C118_violated_narrow"
   ],
   "note": "The code violates the full statement; the violation is proved, together with the part that holds. a face that no scanline hits makes the whole call fail with IndexError although the other faces can be surfaced (`C118_violated_narrow`), and the same rectangle is surfaced or refused with an AssertionError depending on the edge its wire begins with (`C118_violated_first_edge`); positive stepdowns are refused too (`C59_violated`), and so is an inner offset of None (`C86_violated_none`). Proved: `C118_made_partial` for boundaries whose scanlines are in ordinary position and that can be surfaced; `C118_mesh_partial` the same with the triangles read from a shape whose faces are all meshed; `C118_boundary_made` and `C118_boundary_refused` say exactly, for one boundary, when it is made and which exception a refused one raises; `C118_refused` lists every reason for a refusal."
  },
  {
   "property": "C119",
   "status": "partial",
   "theorems": [
    "CQ.C119_offsets_partial",
    "CQ.C119_violated",
    "CQ.C119_violated_ignored"
   ],
   "note": "The code violates the full statement; the violation is proved, together with the part that holds. the tool of the job is ignored (`C119_violated_ignored`, for all jobs); with a tool of diameter 10 and the default settings the tool overhangs the edge of the face (`C119_violated`). Proved: `C119_offsets_partial` for calls that are given a cutter of the diameter of the job's tool."
  },
  {
   "property": "C120",
   "status": "partial",
   "theorems": [
    "CQ.C120_machine_partial",
    "CQ.C120_step_partial",
    "CQ.C120_violated"
   ],
   "note": "The code violates the full statement; the violation is proved, together with the part that holds. the first two passes leave out every point above the job plane even if the top height is above it, so with a top height of 4 and a stepdown of 1 the tool cuts from 4 down to 3/2 at once (`C120_violated`). Proved for top heights up to the job plane: `C120_step_partial` for the moves of the operation, `C120_machine_partial` for the machine that runs the program of any job with it (a thousandth is added for rounding). Without stepdown there is one pass (C59)."
  },
  {
   "property": "C121",
   "status": "proved",
   "theorems": [
    "CQ.C121_colours",
    "CQ.C121_distances",
    "CQ.C121_history",
    "CQ.C121_uncached"
   ],
   "note": "`Model/Cache` models the users of the cache a second time with the dictionary passed through; `C121_history`: each call of a process gives what it gives as the first call; `C121_uncached`: what the functions of the other files give; `C121_distances`: the dictionary is right; `C121_colours`. Keys are compared as exact rationals; `PathFace.polygon`, cached per object, is not a dictionary of the process (no code changes the paths of a `PathFace`)."
  },
  {
   "property": "C122",
   "status": "partial",
   "theorems": [
    "CQ.C122_moves_partial",
    "CQ.C122_profile_partial",
    "CQ.C122_violated",
    "CQ.C122_wire_profile_partial"
   ],
   "note": "The code violates the full statement; the violation is proved, together with the part that holds. with the surface elsewhere than at world height 0 passes are left out, and the first cut may be several stepdowns deep (`C122_violated`, on the machine). `C122_wire_profile_partial`, `C122_profile_partial`: on the machine, for level contours whose nearest points are vertices, if bounding boxes move with the wires, the top plane takes no pass away (`KeepsBelow`) and the kernel's tolerant comparison of the ends of arcs does not depend on the height; counted from a thousandth below the surface (the code's tolerance), and a thousandth more for the rounding. `C122_moves_partial`: on the commands, without rounding."
  },
  {
   "property": "C123",
   "status": "partial",
   "theorems": [
    "CQ.C123_drill_partial",
    "CQ.C123_machine",
    "CQ.C123_pocket",
    "CQ.C123_profile_partial",
    "CQ.C123_program",
    "CQ.C123_surface_partial",
    "CQ.C123_violated_drill",
    "CQ.C123_violated_surface",
    "CQ.C123_wire_profile_partial"
   ],
   "note": "The code violates the full statement; the violation is proved, together with the part that holds. drilling in a plane whose axes are turned moves the hole elsewhere (`C123_violated_drill`), and surfacing a part moved by a fraction of a unit makes other moves, since the scan lines start at a coordinate rounded down to a whole number (`C123_violated_surface`). Proved for whole chains of calls, given that each call does its work moved (`C123_program`, `C123_machine`: on the machine, to within the printed thousandth), and that each call does so: `C123_pocket` for all pockets and shifts (the clipper moving its answers with its questions, i.e. without pyclipper's integer grid); `C123_profile_partial`, `C123_wire_profile_partial` for all planes without stepdown or when nothing is taken away by the top plane, and with stepdown if the cut with the top plane moves along (not shown for tilted planes); `C123_drill_partial` for planes where drilling reads positions rightly (e.g. the world's XY plane); `C123_surface_partial` for shifts by whole units."
  },
  {
   "property": "C124",
   "status": "proved",
   "theorems": [
    "CQ.C124_drill",
    "CQ.C124_init",
    "CQ.C124_machine",
    "CQ.C124_pocket",
    "CQ.C124_pocket_engine",
    "CQ.C124_profile",
    "CQ.C124_program",
    "CQ.C124_surface",
    "CQ.C124_wire_profile"
   ],
   "note": "For whole chains of calls (`C124_program`) and on the machine (`C124_machine`, for jobs and calls whose numbers can be printed; different units are not converted, and tool changes between the moves may differ), given that each call does the same work, which is shown for every operation: `C124_pocket`, `C124_pocket_engine` (both engines), `C124_profile`, `C124_wire_profile`, `C124_drill`, `C124_surface`. `C124_init` shows which arguments of `Job` matter."
  },
  {
   "property": "C125",
   "status": "partial",
   "theorems": [
    "CQ.C125_pocket_partial",
    "CQ.C125_profile_partial",
    "CQ.C125_violated_surface",
    "CQ.C125_wire_profile_partial"
   ],
   "note": "The code violates the full statement; the violation is proved, together with the part that holds. for surfacing, a stepdown at least as large as the depth, of either sign, raises IndexError on every face that can be surfaced without stepdown (`C125_violated_surface`). For pockets and profiles the claim holds (`C125_pocket_partial`, `C125_wire_profile_partial`, `C125_profile_partial`): equality of the whole chains' results. For profiles a contour may be up to a thousandth deeper than the stepdown, which is the tolerance in the code."
  },
  {
   "property": "C126",
   "status": "partial",
   "theorems": [
    "CQ.C126_drill_partial",
    "CQ.C126_machine_partial",
    "CQ.C126_pocket_partial",
    "CQ.C126_profile_partial",
    "CQ.C126_program_partial",
    "CQ.C126_surface_partial",
    "CQ.C126_violated_surface",
    "CQ.C126_wire_profile_partial"
   ],
   "note": "The code violates the full statement; the violation is proved, together with the part that holds. surfacing enters each piece by a ramp that starts at the safe height, so another safe height cuts another way (`C126_violated_surface`). Proved for whole chains (`C126_program_partial`) and on the machine (`C126_machine_partial`) for calls that are free of heights: pockets (`C126_pocket_partial`, any positive safe heights), profiles (`C126_profile_partial`, `C126_wire_profile_partial`, contours that start below both safe heights; level contours do, for every positive safe height), drilling (`C126_drill_partial`, any heights), surfacing when only the rapid height changes (`C126_surface_partial`)."
  },
  {
   "property": "C127",
   "status": "partial",
   "theorems": [
    "CQ.C127_machine_partial",
    "CQ.C127_pocket_partial",
    "CQ.C127_profile_partial",
    "CQ.C127_program_partial",
    "CQ.C127_violated_profile",
    "CQ.C127_wire_profile_partial"
   ],
   "note": "The code violates the full statement; the violation is proved, together with the part that holds. when the kernel's search from the end of one pass to the next finds a point inside an edge the next pass runs past its contour (C101), and without stepdown that is the pass at full depth, with stepdown another one (`C127_violated_profile`). Proved for whole chains (`C127_program_partial`) and on the machine (`C127_machine_partial`): pockets with any stepdown and any positive safe height (`C127_pocket_partial`), profiles whose passes are entered at a vertex below the safe height (`C127_profile_partial`, `C127_wire_profile_partial`). Surfacing is outside the claim: its passes cut the same moves in another order."
  },
  {
   "property": "C128",
   "status": "proved",
   "theorems": [
    "CQ.C128_machine",
    "CQ.C128_machine_profile",
    "CQ.C128_profile",
    "CQ.C128_surface",
    "CQ.C128_wire_profile",
    "CQ.C128_wire_profile_each"
   ],
   "note": "`C128_wire_profile` (in two calls), `C128_wire_profile_each` (each wire in a call of its own), `C128_surface`, `C128_profile` (up to the order of the contours); on the machine `C128_machine` (for every call that splits, such as these) and `C128_machine_profile`. The calls after may be any that do not look at the operations so far (`Forgetful`), which is proved of every operation (`C129_pocket` and so on)."
  },
  {
   "property": "C129",
   "status": "partial",
   "theorems": [
    "CQ.C129_drill",
    "CQ.C129_machine",
    "CQ.C129_machine_tools_partial",
    "CQ.C129_pocket",
    "CQ.C129_pocket_engine",
    "CQ.C129_profile",
    "CQ.C129_program",
    "CQ.C129_reorder",
    "CQ.C129_reorder_tools_partial",
    "CQ.C129_surface",
    "CQ.C129_surface_call",
    "CQ.C129_surface_mesh",
    "CQ.C129_tools_partial",
    "CQ.C129_violated",
    "CQ.C129_wire_profile"
   ],
   "note": "The code violates the full statement; the violation is proved, together with the part that holds. `profile` asks for the tool diameter of the job before it looks at its own tool, so on a job without diameter it is refused as the first call and accepted after another one (`C129_violated`). Proved: calls without tools (`C129_program`, `C129_reorder`, `C129_machine`); calls that bring complete tools, on jobs with a tool diameter (`C129_tools_partial`, `C129_reorder_tools_partial`, `C129_machine_tools_partial`). Every operation is such a call (`Forgetful`, `Steady`): `C129_pocket`, `C129_pocket_engine`, `C129_profile`, `C129_wire_profile`, `C129_drill`, `C129_surface`, `C129_surface_call`, `C129_surface_mesh`."
  },
  {
   "property": "C130",
   "status": "proved",
   "theorems": [
    "CQ.C130_lines",
    "CQ.C130_millimetres",
    "CQ.C130_samples",
    "CQ.C130_samples_total"
   ],
   "note": "`C130_lines` (errors in terms of the size and the number of lines), `C130_millimetres` (in numbers), `C130_samples` with `C130_samples_total`. The rectangle around the boundaries, its diagonal and the lengths of vectors are those of the engines; hypotheses say that they are doubles and not too short."
  },
  {
   "property": "C131",
   "status": "partial",
   "theorems": [
    "CQ.C131_millimetres_partial",
    "CQ.C131_tabs_partial",
    "CQ.C131_violated"
   ],
   "note": "The code violates the full statement; the violation is proved, together with the part that holds. `C131_violated`: on a 35 x 30 mm plate four tabs of 5 mm, whose last one ends at a corner up to rounding, are refused with StdFail; with `5 - 2^-50` mm they are refused although exact positions give a pass with tabs, and with `5 - 2^-47` mm the pass is cut without tabs. `C131_tabs_partial` (errors in terms of the size) and `C131_millimetres_partial` (in numbers): if the ends of the tabs are away from the corners and from each other by more than twice the error, the pass is made and the zones are right up to the error. The geometry of the pieces is exact; C105's restriction for the first tab remains."
  },
  {
   "property": "C132",
   "status": "partial",
   "theorems": [
    "CQ.C132_count_partial",
    "CQ.C132_cut_partial",
    "CQ.C132_millimetres_partial",
    "CQ.C132_passes_partial",
    "CQ.C132_violated"
   ],
   "note": "The code violates the full statement; the violation is proved, together with the part that holds. `C132_violated`: as for C46, a job whose surface is at world height -3 loses passes, because the passes (in job coordinates) are cut with the top plane in world coordinates. `C132_passes_partial`, `C132_count_partial`, `C132_millimetres_partial` (in numbers) and `C132_cut_partial` (the moves) assume that the top plane cuts no pass away; the bounding boxes are only assumed to move with the wire up to an error. Profiles without tabs; the geometry of the wires is exact."
  },
  {
   "property": "C133",
   "status": "partial",
   "theorems": [
    "CQ.C133_edge_tabs_partial",
    "CQ.C133_millimetres_partial",
    "CQ.C133_violated"
   ],
   "note": "The code violates the full statement; the violation is proved, together with the part that holds. `C133_violated`: an edge of 8 mm with a spacing of 1.6 mm gets four tabs instead of five, because the double for 1.6 is larger than 1.6; and, as for C49, a spacing of 1.1 mm with a width of 1 mm is accepted and gives overlapping tabs on an edge of 2.2 mm. `C133_edge_tabs_partial` (errors in terms of the size) and `C133_millimetres_partial` (in numbers): with a spacing of more than one and a half widths the pass is made, and the number of tabs is right up to rounding of the length. Python's `//` on floats is modelled step by step and proved to be the floor. The geometry of the pieces is exact."
  },
  {
   "property": "C134",
   "status": "partial",
   "theorems": [
    "CQ.C134_drill",
    "CQ.C134_machine",
    "CQ.C134_placed_pocket_partial",
    "CQ.C134_pocket_partial",
    "CQ.C134_profile_partial",
    "CQ.C134_program",
    "CQ.C134_surface_partial",
    "CQ.C134_violated_link",
    "CQ.C134_violated_pass",
    "CQ.C134_violated_scan",
    "CQ.C134_violated_small",
    "CQ.C134_violated_spline",
    "CQ.C134_wire_profile_partial"
   ],
   "note": "The code violates the full statement; the violation is proved, together with the part that holds. `C134_violated_small`: a plate of 7.62 mm given in inches is accepted and not cut at all, because offset contours with an area of at most 0.1 square units are dropped; `C134_violated_pass`: a last pass is dropped by the -0.001 threshold in one unit and not the other; `C134_violated_spline`: splines are sampled by a number of points per unit; `C134_violated_link`: between the contours of a pocket the square of a distance is compared with the stepover, so that the tool goes up in millimetres and stays down in inches; `C134_violated_scan`: the scanlines of a 3D operation begin at a whole unit, so that in inches a strip of the face can be left out that is surfaced in millimetres. `C134_drill` holds without exceptions; `C134_profile_partial` and `C134_wire_profile_partial` for contours of lines, arcs and circles where those constants make no difference; `C134_pocket_partial` and `C134_placed_pocket_partial` for pockets whose edges become as many points in either units and whose contours are near each other in both or in none; `C134_surface_partial` for 3D surfacing where the square around the face has its corners at whole units in both units, its edges become as many points, and the tolerance of 1e-7 makes no difference; `C134_program` and `C134_machine` carry this to chains of operations, the text and the machine. The kernel is assumed to work the same in both units (hypotheses `CadUnits`, `ClipperUnits`, `FaceKernelUnits` and `SurfaceUnits`, satisfied by the polygon kernel and the rectangle engines of the examples); the fixed 1e-5 tolerance of cadquery lies outside the model. Heights must be given explicitly: the defaults 10/1 and 0.4/0.04 are not conversions of each other."
  },
  {
   "property": "C135",
   "status": "partial",
   "theorems": [
    "CQ.C135_drill",
    "CQ.C135_mesh_partial",
    "CQ.C135_pocket_partial",
    "CQ.C135_profile_partial",
    "CQ.C135_profile_tabs_partial",
    "CQ.C135_program",
    "CQ.C135_surface",
    "CQ.C135_violated_links",
    "CQ.C135_wire_profile_partial",
    "CQ.C135_wire_profile_tabs_partial"
   ],
   "note": "The code violates the full statement; the violation is proved, together with the part that holds. `C135_violated_links`: in a pocket with a wall, a link between two outlines runs straight through the wall at full depth, so the part is destroyed although nothing in the request touches it. `C135_program` is the claim for whole programs, for all chains whose calls spare the solid; `C135_drill` and `C135_surface` show this for every drilling and surfacing, `C135_mesh_partial` for surfacing with the triangles read from a shape whose faces are where their geometry is (see C116), `C135_wire_profile_partial`, `C135_wire_profile_tabs_partial`, `C135_profile_partial` and `C135_profile_tabs_partial` for profiles where the kernel's offsets keep their distance (see C115), `C135_pocket_partial` for pockets where straight links do no harm. The tool is an upright cylinder as long as can be; on arcs it is taken at the lower of the two heights, and their printed ends and centre may be half a thousandth and a thousandth off. Homing moves (C65) are excluded. A rapid from below the top plane goes straight up from where the tool stands."
  },
  {
   "property": "C136",
   "status": "partial",
   "theorems": [
    "CQ.C136_drill_partial",
    "CQ.C136_machine",
    "CQ.C136_pocket",
    "CQ.C136_profile_partial",
    "CQ.C136_program",
    "CQ.C136_violated_drill",
    "CQ.C136_violated_surface",
    "CQ.C136_wire_profile_partial"
   ],
   "note": "The code violates the full statement; the violation is proved, together with the part that holds. `C136_violated_drill`: drill points are read in a plane shifted the wrong way (C55), so in a plane whose origin is beside the world's they do not turn with the part; `C136_violated_surface`: 3D surfacing always scans along X and refuses a rectangle after a quarter turn. `C136_program` and `C136_machine` are the claim for chains of operations and for runs of the printed text, from the work of each call; `C136_pocket` gives it for every pocket, `C136_profile_partial` and `C136_wire_profile_partial` for every profile (stepdowns on planes where the cut by the top plane turns with the part, as on level planes), `C136_drill_partial` for drilling in level planes above the world's origin. Hypotheses say that the geometry kernel and the polygon library answer the turned question with the turned answer; of the polygon library this holds at most for rotations, since it returns outlines in a fixed sense of rotation, so for pockets the reflections are a statement about other libraries. The example has arcs, an oblique rotation and a reflection. Angles are those with rational sine and cosine (they are dense)."
  },
  {
   "property": "C137",
   "status": "proved",
   "theorems": [
    "CQ.C137_accepted",
    "CQ.C137_grid",
    "CQ.C137_order",
    "CQ.C137_separated",
    "CQ.C137_violated_exact"
   ],
   "note": "`C137_order` (every hole once, the first one first, nearest up to rounding, and the moves of a drilling cycle at each hole), `C137_accepted` (refusals as with exact numbers), `C137_separated` with `C137_grid` (exact order). `C137_violated_exact` shows that without the tolerance the claim would be false: from (0, 0), the hole (1, 2^-30) is drilled before (1, 0). The kernel's change of coordinates is a parameter that returns doubles; exponents are unbounded above (no overflow)."
  },
  {
   "property": "C138",
   "status": "partial",
   "theorems": [
    "CQ.C138_contours_cut",
    "CQ.C138_feed_moves_partial",
    "CQ.C138_violated_chord"
   ],
   "note": "The code violates the full statement; the violation is proved, together with the part that holds. as for C28, a contour that is not linked gets a closing cut from its last point across to its point nearest to the contour before (`C138_violated_chord`, as `C28_violated_chord`), and the square of a link's length is compared with the stepover itself (`C28_violated_link`). `C138_contours_cut` is the part about completeness, in full; `C138_feed_moves_partial` lists all feed moves with the closing cuts, which are made only if the contour before is too far away to be linked, or touches, up to rounding. Hypotheses: closed contours of doubles below the safe height whose neighbours are at least 2^-500 apart (closer ones make the code divide by zero); `routeFacesWith_exact`: with exact numbers the modelled router is that of C27 and C28."
  },
  {
   "property": "C139",
   "status": "proved",
   "theorems": [
    "CQ.C139_accepted",
    "CQ.C139_floor",
    "CQ.C139_path",
    "CQ.C139_pocket",
    "CQ.C139_reach"
   ],
   "note": "`C139_pocket` (the machine passes every point of the regions; offsets up to rounding), `C139_reach` (wherever the tool fits, with the exceptions of C109 as hypotheses, as in `C113_reach`), `C139_path` (the tool path), `C139_floor` (how deep the feed moves go), `C139_accepted`. Hypotheses: the contract of the engine on integers (C113) and that it puts no points outside the box of its input (`IntBoxes`), coordinates up to 2^20 mm, a stepdown that is a double and not negative, a positive stepover. Scaling by 2^31 is exact on doubles of this size; the answers of the geometry kernel are inputs. `Pocket64Example` has an engine and a pocket that meet the hypotheses."
  },
  {
   "property": "C140",
   "status": "proved",
   "theorems": [
    "CQ.C140_drill",
    "CQ.C140_safe_motion"
   ],
   "note": "`C140_drill` (end to end, from C94 and C137) and `C140_safe_motion` (C54 on doubles). The place of a hole is the one `toWorldCoords` gives, as in C94; whether that is the place meant by the user is C55. The answers of the kernel are inputs, with their error as a parameter that may depend on the point. The exact nearest order fails on doubles (`C137_violated_exact`)."
  },
  {
   "property": "C141",
   "status": "partial",
   "theorems": [
    "CQ.C141_pocket_partial",
    "CQ.C141_violated"
   ],
   "note": "The code violates the full statement; the violation is proved, together with the part that holds. as in C108, a link may lead straight through a wall: the pocket of `C108_violated` has coordinates without rounding errors and is milled in floating point with the same link (`C141_violated`); the closing cut across a contour is `C138_violated_chord`. Proved (`C141_pocket_partial`): every feed move starts and ends, and every feed move that is not such a link or closing cut stays, up to 1/2000 + 2^-28 mm, where the tool is in the given faces, up to five times the tolerance of the engine, at a depth not more than 1/100000 mm below its region. The offsets are the requested ones up to rounding (`OffsetNear`). Hypotheses as in C108, C113 and C139."
  },
  {
   "property": "C142",
   "status": "proved",
   "theorems": [
    "CQ.C142_negative",
    "CQ.C142_pocket"
   ],
   "note": "`C142_pocket`, for stepdowns from 1/1000 to 1000 that are doubles and regions at most a metre deep; hypotheses of the engine as in C139, and `ContainsRight` as in C106. The depths err by at most 1/100000 (and 1/2000 for printing); the reach is the stepover, twice the engine's tolerance, a thousandth and 2^-27. A negative stepdown is taken as none (`C142_negative`)."
  },
  {
   "property": "C143",
   "status": "partial",
   "theorems": [
    "CQ.C143_moves_partial",
    "CQ.C143_profile_partial",
    "CQ.C143_step_partial",
    "CQ.C143_violated",
    "CQ.C143_wire_profile_partial"
   ],
   "note": "False when the job's top plane, taken in world coordinates, contains a pass in job coordinates (`C143_violated`: the tool begins with a cut of 4 instead of 1). Otherwise (`KeepsBelow`), for flat contours whose nearest points between passes are vertices: `C143_wire_profile_partial` and `C143_profile_partial` (every pass is run whole, in order), `C143_step_partial`, `C143_profile_partial` and `C143_moves_partial` (how much is taken at once). Hypothesis on the kernel: `BoxMovesWithin \u03c4`. In numbers (`steps64_millimetres`): boxes right up to 0.0001 mm, any stepdown up to 10 m, an error of 1/4000."
  },
  {
   "property": "C144",
   "status": "partial",
   "theorems": [
    "CQ.C144_moves_partial",
    "CQ.C144_profile_partial",
    "CQ.C144_violated",
    "CQ.C144_wire_profile_partial"
   ],
   "note": "False with the kernel's fault of circles (`C144_violated`). Otherwise (relocation of circles changes nothing, nearest points between passes are vertices, profiles without tabs): `C144_wire_profile_partial`, `C144_profile_partial` on the machine, `C144_moves_partial` for the moves. Hypotheses on the kernel: `OffsetsSoundWithin`, `OffsetsAwayWithin` (contours at the distance asked for up to \u03ba), `Tolerance`, and those of C143."
  },
  {
   "property": "C145",
   "status": "partial",
   "theorems": [
    "CQ.C145_ends",
    "CQ.C145_link",
    "CQ.C145_order",
    "CQ.C145_route",
    "CQ.C145_several",
    "CQ.C145_sorted_partial",
    "CQ.C145_total",
    "CQ.C145_violated",
    "CQ.C145_zigzag_partial"
   ],
   "note": "False for scanline ends on the segment from the last vertex to the first (`C145_violated`: the operation crashes, as in C61). `C145_zigzag_partial` (whole zigzag over one boundary), `C145_sorted_partial` (linking) for ends near other segments; without that restriction: `C145_route`, `C145_order`, `C145_several` (any boundaries, when linking succeeds), `C145_ends` (the loop ends), `C145_link`, `C145_total`."
  },
  {
   "property": "C146",
   "status": "partial",
   "theorems": [
    "CQ.C146_between_partial",
    "CQ.C146_clear_partial",
    "CQ.C146_machine_partial",
    "CQ.C146_no_gouge",
    "CQ.C146_rapids",
    "CQ.C146_violated"
   ],
   "note": "That moves never go below the shape at all is false, and the bound of half the step cannot be improved (`C146_violated`). `C146_machine_partial` on the machine and `C146_between_partial` for the moves, up to slope times half the step, the error of the drop cutter and rounding, for a top height at or below the surface; `C146_clear_partial` for the ends of rapids. Without restriction: `C146_no_gouge`, `C146_rapids`. Hypotheses on engines: `Measures64`, `ClipsWithin`, heights given by a function of bounded slope."
  },
  {
   "property": "C147",
   "status": "partial",
   "theorems": [
    "CQ.C147_machine_partial",
    "CQ.C147_millimetres_partial",
    "CQ.C147_step_partial",
    "CQ.C147_violated"
   ],
   "note": "False for a top height above the job plane, as C120 (`C147_violated`). For top heights up to the job plane: `C147_step_partial` for the moves, `C147_machine_partial` on the machine with the error in terms of the size and the number of passes, `C147_millimetres_partial` in numbers."
  },
  {
   "property": "C148",
   "status": "partial",
   "theorems": [
    "CQ.C148_first",
    "CQ.C148_machine_partial",
    "CQ.C148_sampled_partial",
    "CQ.C148_violated"
   ],
   "note": "False behind a step steeper than the bound, as C79 (`C148_violated`). Under the bound: `C148_sampled_partial` for the moves, `C148_machine_partial` on the machine. The first sample is repeated unless the first segment is shorter than 2^-1000 of the step (`C148_first`), so that it is cut to as well."
  },
  {
   "property": "C149",
   "status": "partial",
   "theorems": [
    "CQ.C149_edge_tabs_partial",
    "CQ.C149_profile_edge_tabs_partial",
    "CQ.C149_profile_wire_tabs_partial",
    "CQ.C149_violated",
    "CQ.C149_wire_tabs_partial"
   ],
   "note": "False for tabs that end at a corner of the contour, as C102 (`C149_violated`). Otherwise `C149_edge_tabs_partial`, `C149_profile_edge_tabs_partial`, `C149_wire_tabs_partial` and `C149_profile_wire_tabs_partial`: tabs at least 10 nm from corners and each other, passes that are not within the kernel's smallest length of the top of the tabs, and the kernel's boxes and lengths right up to small errors."
  },
  {
   "property": "C150",
   "status": "partial",
   "theorems": [
    "CQ.C150_edge_tabs_partial",
    "CQ.C150_profile_edge_tabs_partial",
    "CQ.C150_profile_wire_tabs_partial",
    "CQ.C150_violated",
    "CQ.C150_wire_tabs_partial"
   ],
   "note": "False for kernels with the fault of circles, as C115 and C144 (`C150_violated`). Otherwise `C150_edge_tabs_partial`, `C150_profile_edge_tabs_partial`, `C150_wire_tabs_partial` and `C150_profile_wire_tabs_partial`: the conditions of C149, a kernel whose relocation of circles changes nothing and that assembles wires from the given edges only, and edges whose pieces run along them."
  },
  {
   "property": "C151",
   "status": "partial",
   "theorems": [
    "CQ.C151_edge_tabs_partial",
    "CQ.C151_profile_edge_tabs_partial",
    "CQ.C151_profile_wire_tabs_partial",
    "CQ.C151_violated",
    "CQ.C151_wire_tabs_partial"
   ],
   "note": "False when the surface is not at world height 0, because the first passes are left out, as in C46 and C122 (`C151_violated`). Otherwise `C151_edge_tabs_partial`, `C151_profile_edge_tabs_partial`, `C151_wire_tabs_partial` and `C151_profile_wire_tabs_partial`, under the conditions of C102 (flat contours, tabs that fit, a kernel that assembles connected edges and finds vertices)."
  },
  {
   "property": "C152",
   "status": "partial",
   "theorems": [
    "CQ.C152_edge_tabs_partial",
    "CQ.C152_profile_edge_tabs_partial",
    "CQ.C152_profile_wire_tabs_partial",
    "CQ.C152_violated",
    "CQ.C152_wire_tabs_partial"
   ],
   "note": "False when the surface is not at world height 0, because the first passes are left out, as in C151 (`C152_violated`). Otherwise `C152_edge_tabs_partial`, `C152_profile_edge_tabs_partial`, `C152_wire_tabs_partial` and `C152_profile_wire_tabs_partial`, under the conditions of C149 and for kernels that measure a contour alike at all heights; the bound is the stepdown and twice the tolerance of C132."
  },
  {
   "property": "C153",
   "status": "partial",
   "theorems": [
    "CQ.C153_clear_partial",
    "CQ.C153_machine_partial",
    "CQ.C153_violated"
   ],
   "note": "False for faces that have a location, as C116: the triangles are read without it (`C153_violated`). Otherwise `C153_clear_partial` (ends of cutting moves) and `C153_machine_partial` (the whole way of every move of the machine), for top heights not above the job plane, as in C146."
  },
  {
   "property": "C154",
   "status": "partial",
   "theorems": [
    "CQ.C154_boundary_partial",
    "CQ.C154_made_partial",
    "CQ.C154_mesh_partial",
    "CQ.C154_violated_first_edge",
    "CQ.C154_violated_narrow"
   ],
   "note": "False as C118: a face that no scanline hits makes the call fail (`C154_violated_narrow`), and so does an outline whose first edge is hit by a scanline (`C154_violated_first_edge`). Otherwise `C154_boundary_partial` (one boundary) and `C154_made_partial` (the operation and the fluent call), and `C154_mesh_partial` (the same with the triangles read from a shape whose faces are all meshed), for outlines of different double vertices and scanlines whose ends are different doubles, within 0.0003 mm of the outline but not at a vertex, and first passes at least a nanometre above the lowest point."
  },
  {
   "property": "C155",
   "status": "partial",
   "theorems": [
    "CQ.C155_drill",
    "CQ.C155_edge_tabs_partial",
    "CQ.C155_mesh_partial",
    "CQ.C155_pocket_partial",
    "CQ.C155_profile_edge_tabs_partial",
    "CQ.C155_profile_partial",
    "CQ.C155_profile_wire_tabs_partial",
    "CQ.C155_program",
    "CQ.C155_rapids",
    "CQ.C155_surface",
    "CQ.C155_violated_links",
    "CQ.C155_wire_profile_partial",
    "CQ.C155_wire_tabs_partial"
   ],
   "note": "False for pockets as C135: `C155_violated_links` (a link between two outlines runs through a wall at full depth, also in floating point). `C155_rapids` and `C155_program` are the claim for whole programs, for all chains of operations computed in floating point whose calls spare the solid; `C155_drill` and `C155_surface` show this for every drilling and surfacing, `C155_mesh_partial` for surfacing with the triangles of a shape whose faces are where their geometry is, `C155_wire_profile_partial`, `C155_profile_partial`, `C155_edge_tabs_partial`, `C155_wire_tabs_partial`, `C155_profile_edge_tabs_partial` and `C155_profile_wire_tabs_partial` for profiles where the kernel's offsets keep their distance up to its error (see C144, C150). `C155_pocket_partial` shows it for pockets where straight ways between two places where the tool can be are free (as for convex pockets without islands), like `C135_pocket_partial`. The geometry of the wires and the routing of profiles stay exact, as in C144."
  }
 ]
}