{
 "claims": [
  {
   "property": "C01",
   "status": "partial",
   "theorems": [
    "Verif.Utils.C01_write_parse_near_partial",
    "Verif.Utils.C01_write_parse_partial",
    "Verif.Utils.C01_write_parse_double_partial",
    "Verif.Utils.C01_trailing_no_decimals_violated",
    "Verif.Utils.C01_trailing_no_integers_violated"
   ],
   "note": "Proved for formats with at least one integer and one decimal digit (any mode) and for leading suppression generally; formats with no integer or no decimal digits under trailing suppression are violated, with witnesses."
  },
  {
   "property": "C02",
   "status": "proved",
   "theorems": [
    "Verif.Utils.C02_write_rounds_to_nearest"
   ],
   "note": ""
  },
  {
   "property": "C03",
   "status": "proved",
   "theorems": [
    "Verif.Utils.C03_write_normal_form",
    "Verif.Utils.C03_write_length",
    "Verif.Utils.C03_write_injective"
   ],
   "note": ""
  },
  {
   "property": "C04",
   "status": "partial",
   "theorems": [
    "Verif.Utils.C04_out_of_range_always_corrupted",
    "Verif.Utils.C01_write_parse_partial"
   ],
   "note": "The code violates the claim: every out-of-range value that is written reads back as a different value. In-range values are covered by C01_write_parse_partial."
  },
  {
   "property": "C05",
   "status": "proved",
   "theorems": [
    "Verif.Utils.C05_parse_leading",
    "Verif.Utils.C05_parse_trailing",
    "Verif.Utils.C05_parse_sign",
    "Verif.Utils.C05_parse_bounded"
   ],
   "note": ""
  },
  {
   "property": "C06",
   "status": "proved",
   "theorems": [
    "Verif.Utils.C06_write_rejects_iff",
    "Verif.Utils.C06_parse_rejects_iff",
    "Verif.Utils.C06_parse_rejects_format"
   ],
   "note": ""
  },
  {
   "property": "C07",
   "status": "proved",
   "theorems": [
    "Verif.Cam.C07_constructor_valid",
    "Verif.Cam.C07_constructor_rejects",
    "Verif.Cam.C07_history_valid",
    "Verif.Cam.C07_zeros_never_equal",
    "Verif.Cam.C07_setitem_zero_reads_back"
   ],
   "note": ""
  },
  {
   "property": "C08",
   "status": "partial",
   "theorems": [
    "Verif.Cam.C08_settings_roundtrip_partial",
    "Verif.Cam.C08_settings_idempotent",
    "Verif.Cam.C08_none_suppression_violated",
    "Verif.Cam.C08_radians_violated",
    "Verif.Cam.C08_default_settings"
   ],
   "note": "Holds for leading/trailing suppression and degrees; violated for no suppression and radians (witnesses)."
  },
  {
   "property": "C09",
   "status": "partial",
   "theorems": [
    "Verif.Excellon.C09_excellon_statement_idempotent",
    "Verif.Excellon.C09_excellon_statement_reversible",
    "Verif.Excellon.C09_excellon_tool",
    "Verif.Excellon.C09_excellon_file_inch",
    "Verif.Excellon.C09_excellon_file_metric",
    "Verif.Ipc.C09_netlist_violated",
    "Verif.Geom.C09_primitives",
    "Verif.Geom.C09_file_metric",
    "Verif.Geom.C09_file_inch",
    "Verif.Geom.C09_file_objects_metric_partial",
    "Verif.Geom.C09_file_objects_inch_partial",
    "Verif.Geom.C09_mixed_violated",
    "Verif.Geom.C09_single_violated",
    "Verif.Gerber.C09_statements"
   ],
   "note": "Gerber statements and files; primitives with shared apertures under any sequence of calls, for every object of the file in terms of what it owns; Excellon statements, tools and files. Refuted for mixed units, single-part regions and netlists (conversion does nothing)."
  },
  {
   "property": "C10",
   "status": "partial",
   "theorems": [
    "Verif.Macro.C10_expression_values_partial",
    "Verif.Macro.C10_compiler_partial",
    "Verif.Macro.C10_actual_values_partial",
    "Verif.Macro.C10_subtraction_violated",
    "Verif.Macro.C10_modifier_minus_violated",
    "Verif.Macro.C10_negated_variable_violated",
    "Verif.Macro.C10_negative_definition_violated",
    "Verif.Macro.C10_leading_zero_violated"
   ],
   "note": "Proved for every expression without subtraction (both values and the compiler), and the compiler also for subtraction in definitions. Subtraction always gives 0, a minus sign inside a modifier splits it, a sign before a variable is lost: violations proved."
  },
  {
   "property": "C11",
   "status": "partial",
   "theorems": [
    "Verif.Macro.C11_one_per_primitive",
    "Verif.Macro.C11_primitives_separate",
    "Verif.Macro.C11_independent",
    "Verif.Macro.C11_own_modifiers_partial",
    "Verif.Macro.C11_comment_violated",
    "Verif.Macro.C11_default_dictionary_violated"
   ],
   "note": "Proved for every instruction sequence (one output per primitive instruction, in order, separated stacks), every history, and for macros of well-formed blocks. Violated for comments containing '=' and for evaluation without modifiers (shared default dictionary)."
  },
  {
   "property": "C12",
   "status": "proved",
   "theorems": [
    "Verif.Gerber.C12_split_lossless",
    "Verif.Gerber.C12_split_commands_clean",
    "Verif.Gerber.C12_nothing_dropped",
    "Verif.Gerber.C12_tail_dropped_violated",
    "Verif.Gerber.C12_parameter_is_one_command",
    "Verif.Gerber.C12_block_is_one_command",
    "Verif.Gerber.C12_line_is_one_command"
   ],
   "note": "The unterminated tail of a file is dropped by the splitter (C12_tail_dropped_violated); everything else is covered."
  },
  {
   "property": "C13",
   "status": "partial",
   "theorems": [
    "Verif.Gerber.C13_statement_roundtrip_partial",
    "Verif.Gerber.C13_write_read_partial",
    "Verif.Gerber.C13_write_read_agreeing_partial",
    "Verif.Gerber.C13_scale_factor_violated",
    "Verif.Gerber.C13_macro_name_violated",
    "Verif.Gerber.C13_aperture_size_violated",
    "Verif.Gerber.C13_small_offset_violated",
    "Verif.Gerber.C13_aperture_one_violated"
   ],
   "note": "Proved for every list of statements meeting WFList (every statement kind including unknown ones, arbitrary fields within the stated digit limits; macro texts may be broken into lines, as outlines are). Missing because the code violates them, with witnesses: scale factors other than 1, parameterless macro apertures whose name starts with C, aperture sizes of more than four digits, offsets below 0.0001, aperture numbers 1-3."
  },
  {
   "property": "C14",
   "status": "proved",
   "theorems": [
    "Verif.Gerber.C14_picture",
    "Verif.Gerber.C14_total",
    "Verif.Gerber.C14_draw",
    "Verif.Gerber.C14_flash",
    "Verif.Gerber.C14_move",
    "Verif.Gerber.C14_file_picture"
   ],
   "note": "The interpreter's primitives equal an independent, history-based reading of the statements; success characterised exactly; also for files read from text."
  },
  {
   "property": "C15",
   "status": "proved",
   "theorems": [
    "Verif.Gerber.C15_polarity"
   ],
   "note": ""
  },
  {
   "property": "C16",
   "status": "partial",
   "theorems": [
    "Verif.Gerber.C16_regions_exact",
    "Verif.Gerber.C16_regions_partial",
    "Verif.Gerber.C16_single_segment_violated",
    "Verif.Gerber.C16_flash_violated"
   ],
   "note": "Exact description of the regions drawn, and the claim itself when no single-segment contour is closed by a move. Violated otherwise: a one-segment contour closed by D02 is lost, and D03 inside a region still flashes."
  },
  {
   "property": "C17",
   "status": "proved",
   "theorems": [
    "Verif.Gerber.C17_line_rounds",
    "Verif.Gerber.C17_nesting_bounded",
    "Verif.Gerber.C17_no_stack_overflow",
    "Verif.Gerber.C17_include_reads",
    "Verif.Gerber.C17_chain",
    "Verif.Gerber.C17_self_include"
   ],
   "note": ""
  },
  {
   "property": "C18",
   "status": "proved",
   "theorems": [
    "Verif.Gerber.C18_explicit_operations",
    "Verif.Gerber.C18_again",
    "Verif.Gerber.C18_file"
   ],
   "note": ""
  },
  {
   "property": "C19",
   "status": "proved",
   "theorems": [
    "Verif.Gerber.C19_bounds",
    "Verif.Gerber.C19_size",
    "Verif.Gerber.C19_file",
    "Verif.Gerber.C19_sentinel"
   ],
   "note": "Also for every file read from text, whose coordinates are below one million."
  },
  {
   "property": "C20",
   "status": "partial",
   "theorems": [
    "Verif.Gerber.C20_offset_partial",
    "Verif.Gerber.C20_arc_violated",
    "Verif.Gerber.C20_origin_violated",
    "Verif.Gerber.C20_scale_violated"
   ],
   "note": "Proved for files that never draw from the default start position and whose arcs have no centre offsets. Violated otherwise: CoordStmt.offset shifts I and J too, and the implicit start point stays at the origin."
  },
  {
   "property": "C21",
   "status": "partial",
   "theorems": [
    "Verif.Geom.C21_center",
    "Verif.Gerber.C21_to_metric_partial",
    "Verif.Gerber.C21_to_inch_partial",
    "Verif.Gerber.C21_polygon_violated",
    "Verif.Gerber.C21_macro_violated",
    "Verif.Gerber.C21_no_units_violated"
   ],
   "note": "Proved for circle, rectangle and obround apertures in files that set units first; holes included; single-quadrant arcs keep their centre (C21_center: the library's search commutes with conversion for coordinates up to ten million). Violated otherwise: polygon vertex counts and rotations and all macro modifiers are multiplied, literals in the interpreted macro text are not (the text written afterwards is converted, see C84 and C85), and files without MO keep the default units."
  },
  {
   "property": "C22",
   "status": "partial",
   "theorems": [
    "Verif.Rs274x.C22_roundtrip_partial",
    "Verif.Rs274x.C22_total",
    "Verif.Rs274x.C22_reproduced_partial",
    "Verif.Rs274x.C22_contour_violated",
    "Verif.Rs274x.C22_hole_violated",
    "Verif.Rs274x.C22_polygon_violated",
    "Verif.Rs274x.C22_polarity_violated",
    "Verif.Rs274x.C22_circle_violated",
    "Verif.Rs274x.C22_total_used",
    "Verif.Rs274x.C22_text_partial"
   ],
   "note": "Proved for primitives the backend can represent (contiguous region edges of the region's polarity, drawable apertures, macro text that rebuilds the group). Violated, with witnesses: non-contiguous regions, rectangle or obround apertures with holes drawn with, polygon apertures drawn with, edges of another polarity, one-edge regions with explicit_region_move_end. C22_text_partial is about the text of the file that is written and read again. Backend functions for macro groups are parameters here; C69 and C70 are about the real ones."
  },
  {
   "property": "C23",
   "status": "partial",
   "theorems": [
    "Verif.Rs274x.C23_defined_once",
    "Verif.Rs274x.C23_selected_defined",
    "Verif.Rs274x.C23_distinct",
    "Verif.Rs274x.C23_shared_partial",
    "Verif.Rs274x.C23_macros_shared",
    "Verif.Rs274x.C23_shared_violated"
   ],
   "note": "Codes are consecutive, defined once, in the header, before use; distinct apertures have distinct codes; macro groups that compare equal share one. Equal standard shapes share one code only if their keys agree: violated for a rectangle that is both flashed and drawn with."
  },
  {
   "property": "C24",
   "status": "proved",
   "theorems": [
    "Verif.Excellon.C24_holes_follow_statements",
    "Verif.Excellon.C24_absolute",
    "Verif.Excellon.C24_incremental",
    "Verif.Excellon.C24_line",
    "Verif.Excellon.C24_slot_in_incremental_notation"
   ],
   "note": "Every program that parses: holes and slots are those of an independent machine that replays the statements; absolute and incremental blocks of coordinates in closed form; C24_line ties it to the text of a coordinate. Slots (G85) ignore incremental notation, recorded as a separate finding."
  },
  {
   "property": "C25",
   "status": "partial",
   "theorems": [
    "Verif.Excellon.C25_counts_partial",
    "Verif.Excellon.C25_counts_le_partial",
    "Verif.Excellon.C25_hit_count_partial",
    "Verif.Excellon.C25_bare_cut_violated",
    "Verif.Excellon.C25_redefined_violated"
   ],
   "note": "Per tool object, the count equals the number of hits made with it for every program without a rout slot cut by a bare coordinate (C25_counts_partial), never exceeds it for any program, and hit_count reports it if no tool number was redefined after use. Both exceptions are violations with witnesses."
  },
  {
   "property": "C26",
   "status": "partial",
   "theorems": [
    "Verif.Excellon.C26_repeat_line_partial",
    "Verif.Excellon.C26_repeat_partial",
    "Verif.Excellon.C26_header_violated",
    "Verif.Excellon.C26_no_tool_violated"
   ],
   "note": "Proved for every count, step and state outside the header with an active tool, from the text of the command. In the header the command is ignored, and without active tool it raises AttributeError: violations with witnesses."
  },
  {
   "property": "C27",
   "status": "partial",
   "theorems": [
    "Verif.Excellon.C27_diameters_to_metric_partial",
    "Verif.Excellon.C27_diameters_to_inch_partial",
    "Verif.Excellon.C27_positions_kept",
    "Verif.Excellon.C27_positions_violated",
    "Verif.Excellon.C27_tool_before_unit_violated"
   ],
   "note": "Diameters: proved for every file and every tool in the unit of the file. Positions: to_inch never converts a hit and to_metric converts none made with a tool of the file (C27_positions_kept), so the claim is false; witnesses for positions and for tools defined before the unit."
  },
  {
   "property": "C28",
   "status": "partial",
   "theorems": [
    "Verif.Excellon.C28_write_read_partial",
    "Verif.Excellon.C28_no_selection_violated",
    "Verif.Excellon.C28_header_not_ended_violated",
    "Verif.Excellon.C28_slot_violated"
   ],
   "note": "Proved for every parsed file in absolute notation with a header from M48 to % or M95 (tools, comments and settings that agree with the file's), tool numbers 1 to 999, holes on the grid, and a tool selection before the first hole. Violated when there is no tool selection or the header is not ended: the whole program is then copied as header and the holes are written twice."
  },
  {
   "property": "C29",
   "status": "partial",
   "theorems": [
    "Verif.Excellon.C29_tool_partial",
    "Verif.Excellon.C29_rpm_violated",
    "Verif.Excellon.C29_coordinate",
    "Verif.Excellon.C29_coordinate_mode_partial",
    "Verif.Excellon.C29_rout_lines_violated",
    "Verif.Excellon.C29_repeat_partial",
    "Verif.Excellon.C29_repeat_zero_violated",
    "Verif.Excellon.C29_slot_partial",
    "Verif.Excellon.C29_slot_end_violated",
    "Verif.Excellon.C29_tool_selection_partial",
    "Verif.Excellon.C29_tool_selection_violated",
    "Verif.Excellon.C29_infeed",
    "Verif.Excellon.C29_comment_partial",
    "Verif.Excellon.C29_comment_violated",
    "Verif.Excellon.C29_unit_partial",
    "Verif.Excellon.C29_unit_format_violated",
    "Verif.Excellon.C29_incremental",
    "Verif.Excellon.C29_version",
    "Verif.Excellon.C29_format",
    "Verif.Excellon.C29_measuring",
    "Verif.Excellon.C29_link_partial",
    "Verif.Excellon.C29_link_empty_violated",
    "Verif.Excellon.C29_end_partial",
    "Verif.Excellon.C29_end_violated",
    "Verif.Excellon.C29_constant",
    "Verif.Excellon.C29_route_mode_violated"
   ],
   "note": "Tools, coordinates (with and without mode), repetitions, slots, tool selections, rates, comments, units, incremental mode, version, format, measuring mode, links, end of program and the constant commands read back, for all values that fit. Violated for rpm >= 100000, zero repeat steps, slots whose end omits a coordinate, tool numbers >= 1000 (>= 100 with compensation), comments beginning with a semicolon, the number format of unit statements, coordinates of the end of program, routing moves over two lines and the empty link list (each with a witness)."
  },
  {
   "property": "C30",
   "status": "proved",
   "theorems": [
    "Verif.Excellon.C30_decide",
    "Verif.Excellon.C30_detect",
    "Verif.Excellon.C30_comment_format",
    "Verif.Excellon.C30_no_candidate"
   ],
   "note": "For every table of results (C30_decide) and for the whole detection on every text (C30_detect). The admissible pairs are the fixed ones, except that a file which names its own format or zeros exactly once restricts the choice to these (C30_comment_format shows a format outside the fixed list)."
  },
  {
   "property": "C31",
   "status": "partial",
   "theorems": [
    "Verif.Geom.C31_fresh_partial",
    "Verif.Geom.C31_line_partial",
    "Verif.Geom.C31_slot_violated",
    "Verif.Geom.C31_plain_violated",
    "Verif.Geom.C31_aperture_violated",
    "Verif.Geom.C31_region_violated"
   ],
   "note": "Proved for histories over objects whose attributes are all properties, and for lines whose aperture is not touched; refuted in general (slots, plain attributes, shared apertures, regions)."
  },
  {
   "property": "C32",
   "status": "partial",
   "theorems": [
    "Verif.Geom.C32_circle",
    "Verif.Geom.C32_polygon",
    "Verif.Geom.C32_ellipse",
    "Verif.Geom.C32_rectangular_partial",
    "Verif.Geom.C32_obround_partial",
    "Verif.Geom.C32_rectangle_iff",
    "Verif.Geom.C32_line_circle",
    "Verif.Geom.C32_line_rectangle",
    "Verif.Geom.C32_slot",
    "Verif.Geom.C32_line_polygon_violated",
    "Verif.Geom.C32_arc_path",
    "Verif.Geom.C32_arc_circle",
    "Verif.Geom.C32_arc_rectangle",
    "Verif.Geom.C32_single_quadrant_partial",
    "Verif.Geom.C32_single_quadrant_violated",
    "Verif.Geom.C32_rotated_violated",
    "Verif.Geom.C32_line_rotated_violated",
    "Verif.Geom.C32_square_partial",
    "Verif.Geom.C32_square_rotated_violated",
    "Verif.Geom.C32_donut_round",
    "Verif.Geom.C32_donut_square_partial",
    "Verif.Geom.C32_donut_hexagon_partial",
    "Verif.Geom.C32_group",
    "Verif.Geom.C32_region",
    "Verif.Geom.C32_one_quadrant_partial"
   ],
   "note": "Proved for circles, polygons and ellipses at every rotation, round and square butterflies and donuts (squares and hexagons for right angles or their own orientation), groups and regions of parts, for lines, slots and multi-quadrant arcs with unrotated circular, rectangular and obround apertures, and for rectangles and obrounds exactly for rotations with nonnegative sine and cosine, for arcs within a quadrant in single-quadrant mode; refuted for other rotations, for single-quadrant arcs crossing an axis, for rotated apertures and for lines with polygon apertures (no box)."
  },
  {
   "property": "C33",
   "status": "partial",
   "theorems": [
    "Verif.Geom.C33_move_partial",
    "Verif.Geom.C33_slot_violated",
    "Verif.Geom.C33_moves_add"
   ],
   "note": "Proved for every class except Slot (offset leaves a stale cached box), which is refuted with a witness."
  },
  {
   "property": "C34",
   "status": "proved",
   "theorems": [
    "Verif.Geom.C34_isometry",
    "Verif.Geom.C34_orientation",
    "Verif.Geom.C34_fixes_center",
    "Verif.Geom.C34_compose",
    "Verif.Geom.C34_inverse",
    "Verif.Geom.C34_quarter"
   ],
   "note": "Isometry, orientation, fixed centre, composition, inverse, degrees; over the reals."
  },
  {
   "property": "C35",
   "status": "partial",
   "theorems": [
    "Verif.Geom.C35_range",
    "Verif.Geom.C35_sweep_partial",
    "Verif.Geom.C35_ccw_violated"
   ],
   "note": "Range for all arcs; the travelled angle for clockwise arcs and counterclockwise arcs not crossing the positive x axis direction. Violated for the others (abs of a negative difference)."
  },
  {
   "property": "C36",
   "status": "partial",
   "theorems": [
    "Verif.Geom.C36_center_partial",
    "Verif.Geom.C36_clockwise",
    "Verif.Geom.C36_ccw_violated",
    "Verif.Geom.C36_clockwise_exact",
    "Verif.Geom.C36_counterclockwise_partial",
    "Verif.Geom.C36_quarter_violated"
   ],
   "note": "Proved for all clockwise arcs of at most 90 degrees given exactly (the centre is found), for counterclockwise ones within a quadrant that do not end in the direction of the positive x axis, and for inexact arcs (least mismatch) with non-degenerate candidates none of whose candidate arcs cross the positive x axis direction. Violated otherwise: quarters ending in the direction of the x axis get a centre with different distances from the ends, arcs crossing an axis the mirrored centre."
  },
  {
   "property": "C37",
   "status": "partial",
   "theorems": [
    "Verif.Layers.C37_from_files",
    "Verif.Layers.C37_sort_layers_partial",
    "Verif.Layers.C37_stack_unique",
    "Verif.Layers.C37_plain_internal_violated"
   ],
   "note": "Proved for lists in which the layers of class internal are InternalLayer objects (every layer made by from_cam, C37_from_files) or there is at most one of them; plain PCBLayer objects of class internal raise TypeError (violation proved)."
  },
  {
   "property": "C38",
   "status": "partial",
   "theorems": [
    "Verif.Layers.C38_copper",
    "Verif.Layers.C38_top_view_partial",
    "Verif.Layers.C38_bottom_view_partial",
    "Verif.Layers.C38_outline",
    "Verif.Layers.C38_no_view",
    "Verif.Layers.C38_no_bottom_view",
    "Verif.Layers.C38_top_view_violated",
    "Verif.Layers.C38_paste_violated"
   ],
   "note": "Copper views proved for every board. Views of a side proved for boards with a silk, mask or copper layer on that side; without one IndexError is raised, and paste layers are in neither view (violations proved)."
  },
  {
   "property": "C39",
   "status": "partial",
   "theorems": [
    "Verif.Ipc.C39_continuation_partial",
    "Verif.Ipc.C39_independent_partial",
    "Verif.Ipc.C39_space_violated"
   ],
   "note": "Proved for every split in which no piece but the last ends in white space; trailing white space of a piece is lost (violation proved)."
  },
  {
   "property": "C40",
   "status": "partial",
   "theorems": [
    "Verif.Ipc.C40_not_heading_partial",
    "Verif.Ipc.C40_heading",
    "Verif.Ipc.C40_heading_violated",
    "Verif.Ipc.C40_crash_violated"
   ],
   "note": "Proved for nets that do not head an adjacency record; the heading net gets none of its neighbours and a second record naming it crashes (violations proved)."
  },
  {
   "property": "C41",
   "status": "proved",
   "theorems": [
    "Verif.Geom.C41_placement"
   ],
   "note": "Any sequence of assignments to the position of a macro aperture and of offsets leaves each part displaced by exactly the total displacement."
  },
  {
   "property": "C42",
   "status": "partial",
   "theorems": [
    "Verif.Geom.C42_hull_partial",
    "Verif.Geom.C42_defined",
    "Verif.Geom.C42_planar_defined",
    "Verif.Geom.C42_collinear_violated"
   ],
   "note": "Proved for all points not all on one line (duplicates and points on edges allowed): vertices are distinct input points, every input point lies in their convex hull and left of every edge; a hull is returned iff >=3 points with different x. Violated for collinear points: the hull is empty (C42_collinear_violated). Exact reals instead of doubles."
  },
  {
   "property": "C43",
   "status": "proved",
   "theorems": [
    "Verif.Layers.C43_first_hint",
    "Verif.Layers.C43_extension",
    "Verif.Layers.C43_directory",
    "Verif.Layers.C43_case",
    "Verif.Layers.C43_classes"
   ],
   "note": ""
  },
  {
   "property": "C44",
   "status": "proved",
   "theorems": [
    "Verif.Load.C44_first_signature",
    "Verif.Load.C44_unknown",
    "Verif.Load.C44_continuation",
    "Verif.Load.C44_total",
    "Verif.Load.C44_loads"
   ],
   "note": ""
  },
  {
   "property": "C45",
   "status": "partial",
   "theorems": [
    "Verif.Render.C45_request_partial",
    "Verif.Render.C45_exhausted_violated",
    "Verif.Render.C45_every_theme_violated"
   ],
   "note": "Proved up to the number of internal colours of the theme; after that StopIteration (violation proved)."
  },
  {
   "property": "C46",
   "status": "partial",
   "theorems": [
    "Verif.Render.C46_assign_partial",
    "Verif.Render.C46_stored",
    "Verif.Render.C46_history_partial",
    "Verif.Render.C46_nan_violated"
   ],
   "note": "Proved for every history of assignments of numbers other than nan; nan is accepted (violation proved)."
  },
  {
   "property": "C47",
   "status": "partial",
   "theorems": [
    "Verif.Am.C47_rebuilt_partial",
    "Verif.Am.C47_written_text_partial",
    "Verif.Am.C47_two_uses_violated",
    "Verif.Am.C47_unknown_code_violated",
    "Verif.Am.C47_rounded_violated",
    "Verif.Am.C47_exponent_violated",
    "Verif.Am.C47_empty_violated"
   ],
   "note": "Proved: if all uses of an AM statement make the same (exactly printable, non-empty) primitives, the apertures of the written file have the same shapes. Proved violations: two uses with different modifiers, unknown codes, rounded positions, exponents, macros without primitives."
  },
  {
   "property": "C48",
   "status": "proved",
   "theorems": [
    "Verif.Am.C48_round_trip",
    "Verif.Am.C48_digits_needed"
   ],
   "note": "Every macro primitive class (and comments, unknown codes) reads back from its text, provided values have at most the printed number of significant digits (15 for plain floats, 4 or 6 for the '%.4g'/'%.6g' fields) and the invariants of the constructors hold."
  },
  {
   "property": "C49",
   "status": "partial",
   "theorems": [
    "Verif.Excellon.C49_hits_moved",
    "Verif.Excellon.C49_defined",
    "Verif.Excellon.C49_back",
    "Verif.Excellon.C49_statements_partial",
    "Verif.Excellon.C49_incremental_violated",
    "Verif.Excellon.C49_origin_violated",
    "Verif.Excellon.C49_slot_violated"
   ],
   "note": "Hits: fully proved. Statements: proved in absolute notation for files that do not rely on the origin; violated otherwise."
  },
  {
   "property": "C50",
   "status": "partial",
   "theorems": [
    "Verif.Excellon.C50_contains",
    "Verif.Excellon.C50_tight",
    "Verif.Excellon.C50_empty_violated",
    "Verif.Excellon.C50_no_diameter_violated"
   ],
   "note": "Proved for files with a hit whose tools have diameters; violated for files without hits and tools without diameter."
  },
  {
   "property": "C51",
   "status": "partial",
   "theorems": [
    "Verif.Excellon.C51_path_length_partial",
    "Verif.Excellon.C51_defined",
    "Verif.Excellon.C51_slot_violated"
   ],
   "note": "Proved for files of holes; every file with a slot raises AttributeError (violated)."
  },
  {
   "property": "C52",
   "status": "proved",
   "theorems": [
    "Verif.Excellon.C52_update",
    "Verif.Excellon.C52_hits",
    "Verif.Excellon.C52_unknown"
   ],
   "note": "All arguments."
  },
  {
   "property": "C53",
   "status": "partial",
   "theorems": [
    "Verif.Excellon.C53_line",
    "Verif.Excellon.C53_lines",
    "Verif.Excellon.C53_units_only_violated",
    "Verif.Excellon.C53_units_only_file_violated"
   ],
   "note": "Proved for every setting line and sequence of lines, with what a line really does to the zero mode; refuted for unit lines that name no zero mode: they reset it to trailing."
  },
  {
   "property": "C54",
   "status": "partial",
   "theorems": [
    "Verif.Ipc.C54_record_partial",
    "Verif.Ipc.C54_optional_partial",
    "Verif.Ipc.C54_optional_end_violated",
    "Verif.Ipc.C54_negative_violated",
    "Verif.Ipc.C54_radians_violated",
    "Verif.Ipc.C54_last_digit_violated",
    "Verif.Ipc.C54_file_partial"
   ],
   "note": "Proved for every record with all columns up to the solder mask, and for whole files of unit statement, net name variables and records. Refuted, with witnesses: negative coordinates in records without dash, rotation while angles are radians, records that end with a coordinate (last digit lost)."
  },
  {
   "property": "C55",
   "status": "partial",
   "theorems": [
    "Verif.Excellon.C55_comment",
    "Verif.Excellon.C55_table_partial",
    "Verif.Excellon.C55_table_plating_violated",
    "Verif.Excellon.C55_fraction_violated",
    "Verif.Excellon.C55_tools_partial"
   ],
   "note": "Whole tables with entries of both kinds, any gaps and line ends. Violated: the letters P and N of table rows are not recognised as plating; sizes written as fractions are matched but raise ValueError."
  },
  {
   "property": "C56",
   "status": "partial",
   "theorems": [
    "Verif.Excellon.C56_report_partial",
    "Verif.Excellon.C56_other_line_violated"
   ],
   "note": "Whole reports with any preface and gaps. Violated: a later line of six words that is not a row makes the report raise ValueError."
  },
  {
   "property": "C57",
   "status": "partial",
   "theorems": [
    "Verif.SettingsFile.C57_settings_partial",
    "Verif.SettingsFile.C57_missing",
    "Verif.SettingsFile.C57_incremental_violated"
   ],
   "note": "Whole files; missing settings are KeyErrors. Violated: incremental coordinates become the notation 'relative', which FileSettings rejects."
  },
  {
   "property": "C58",
   "status": "partial",
   "theorems": [
    "Verif.Excellon.C58_program_partial",
    "Verif.Excellon.C58_renders",
    "Verif.Excellon.C58_no_hit_violated",
    "Verif.Excellon.C58_python3_violated",
    "Verif.Excellon.C58_same_point_violated",
    "Verif.Excellon.C58_round_slot_violated"
   ],
   "note": "Proved for the statements, for primitives with an attribute hit in Python 2. Violated: the Drill and Slot primitives of the library have no such attribute; in Python 3 tools are not hashable and every rendering raises; a second hole at the same point gives an empty line and is lost in the text; a routed slot of length zero swallows the next command."
  },
  {
   "property": "C59",
   "status": "partial",
   "theorems": [
    "Verif.Layers.C59_directory_partial",
    "Verif.Layers.C59_exception",
    "Verif.Layers.C59_listing",
    "Verif.Layers.C59_bad_file_violated",
    "Verif.Layers.C59_unknown_violated",
    "Verif.Layers.C59_path_digits_violated"
   ],
   "note": "Every directory whose visible files are readable or skipped; other exceptions come out. Violated: one file that raises another exception spoils the board; unknown layers and netlists are lost; inner layers are ordered by the first digits anywhere in the path."
  },
  {
   "property": "C60",
   "status": "partial",
   "theorems": [
    "Verif.Ipc.C60_file_partial",
    "Verif.Ipc.C60_negative_violated",
    "Verif.Ipc.C60_type_violated"
   ],
   "note": "Whole files with lines of all kinds in any order and any cuts. Violated: negative coordinates of paths are read as the previous ones (the origin at first), the second word of an outline type counts as a point. Test records as in C54."
  },
  {
   "property": "C61",
   "status": "partial",
   "theorems": [
    "Verif.Ipc.C61_components",
    "Verif.Ipc.C61_drawn",
    "Verif.Ipc.C61_two_layers_violated",
    "Verif.Ipc.C61_no_id_violated"
   ],
   "note": "Proved for every netlist read from lines. Violated in effect: access code 2 (the other side of two-layer boards) is never drawn; a test point without identification makes a component with the empty name."
  },
  {
   "property": "C62",
   "status": "partial",
   "theorems": [
    "Verif.Geom.C62_rectangle_iff",
    "Verif.Geom.C62_diamond_iff",
    "Verif.Geom.C62_chamfer_iff",
    "Verif.Geom.C62_rectangle_around",
    "Verif.Geom.C62_diamond_around",
    "Verif.Geom.C62_chamfer_order_violated",
    "Verif.Geom.C62_polygon",
    "Verif.Geom.C62_polygon_around",
    "Verif.Geom.C62_line_partial",
    "Verif.Geom.C62_line_rotated_violated",
    "Verif.Geom.C62_line_thin_violated",
    "Verif.Geom.C62_line_polygon_violated",
    "Verif.Geom.C62_segments_partial",
    "Verif.Geom.C62_segments_violated"
   ],
   "note": "Rectangles, diamonds and chamfered rectangles: exactly when the corners span the shape (centred at the origin, or not turned). Polygons: always. Lines: for thick lines. Segments: for triangles. Violations: turned about the origin instead of the centre, order of chamfered corners, thin or turned pens raise, segments include diagonals."
  },
  {
   "property": "C63",
   "status": "partial",
   "theorems": [
    "Verif.Am.C63_circle",
    "Verif.Am.C63_outline",
    "Verif.Am.C63_center_line",
    "Verif.Am.C63_center_line_chain_violated",
    "Verif.Am.C63_vector_line_partial",
    "Verif.Am.C63_vector_line_violated",
    "Verif.Am.C63_vector_line_thin_violated",
    "Verif.Am.C63_polygon_iff",
    "Verif.Am.C63_thermal_partial",
    "Verif.Am.C63_thermal_place_iff",
    "Verif.Am.C63_thermal_hole_violated",
    "Verif.Am.C63_thermal_gap_violated",
    "Verif.Am.C63_thermal_chain_violated",
    "Verif.Am.C63_nothing_violated",
    "Verif.Am.C63_comment",
    "Verif.Am.C63_group",
    "Verif.Am.C63_group_violated"
   ],
   "note": "Circles, outlines, centre lines, groups: fully. Polygons and thermals: corners exact, place exact if not turned or at the origin. Vector lines: the area of a moved square, which contains the rectangle. Violations: lines longer than described, rotation about own centre, fans of lines, moires and lower-left lines not drawn, exceptions."
  },
  {
   "property": "C64",
   "status": "partial",
   "theorems": [
    "Verif.Render.C64_valid",
    "Verif.Render.C64_invert",
    "Verif.Render.C64_mirror_partial",
    "Verif.Render.C64_mirror_violated",
    "Verif.Render.C64_unknown_violated",
    "Verif.Render.C64_sides",
    "Verif.Render.C64_opacity",
    "Verif.Render.C64_again",
    "Verif.Render.C64_again_violated"
   ],
   "note": "Valid settings and inverted soldermasks proved for all predefined themes after any history; mirroring proved for the themes default and OSH Park and refuted for the others; independence of history proved without internal layers and refuted with them."
  },
  {
   "property": "C65",
   "status": "partial",
   "theorems": [
    "Verif.Cairo.C65_place",
    "Verif.Cairo.C65_visible",
    "Verif.Cairo.C65_ranges",
    "Verif.Cairo.C65_fits",
    "Verif.Cairo.C65_scale_violated",
    "Verif.Cairo.C65_flat_violated",
    "Verif.Cairo.C65_layers",
    "Verif.Cairo.C65_bounds_kept",
    "Verif.Cairo.C65_no_bounds_violated",
    "Verif.Cairo.C65_whole_partial",
    "Verif.Cairo.C65_whole_violated"
   ],
   "note": "Place and visibility of every point, order of painting and size of the picture proved. That all layers are shown completely is proved for layers with equal bounds and refuted in general: only the bounds of the first layer count. Effects of cairo calls are idealised (Model/Cairo)."
  },
  {
   "property": "C66",
   "status": "partial",
   "theorems": [
    "Verif.Cairo.C66_box_arc",
    "Verif.Cairo.C66_covered",
    "Verif.Cairo.C66_box_circle",
    "Verif.Cairo.C66_box_line",
    "Verif.Cairo.C66_box_rectangle",
    "Verif.Cairo.C66_box_polygon",
    "Verif.Cairo.C66_clip_iff",
    "Verif.Cairo.C66_clip_partial",
    "Verif.Cairo.C66_aligned_partial",
    "Verif.Cairo.C66_clip_violated",
    "Verif.Cairo.C66_thin_violated"
   ],
   "note": "Characterised exactly, for points of boxes and for whole primitives on the picture; areas of arcs (multi-quadrant, or within a quadrant), circles, drills, slots, round lines, polygons and of rectangles and obrounds that are not turned proved to lie in the boxes used. Nothing is lost at least a pixel below the upper limit and for aligned boxes; refuted in general."
  },
  {
   "property": "C67",
   "status": "partial",
   "theorems": [
    "Verif.Cairo.C67_painted",
    "Verif.Cairo.C67_inverted",
    "Verif.Cairo.C67_complement_partial",
    "Verif.Cairo.C67_complement_violated",
    "Verif.Cairo.C67_group_partial",
    "Verif.Cairo.C67_group_violated"
   ],
   "note": "Painting order proved for all layers; the complement is proved for dark primitives without holes and macros for dark parts, both refuted in general. Effects of cairo calls are idealised (Model/Cairo)."
  },
  {
   "property": "C68",
   "status": "partial",
   "theorems": [
    "Verif.Cairo.C68_arc_partial",
    "Verif.Cairo.C68_rect_hole_partial",
    "Verif.Cairo.C68_rect_hole_violated",
    "Verif.Cairo.C68_region_partial",
    "Verif.Cairo.C68_region_violated",
    "Verif.Cairo.C68_holes_partial",
    "Verif.Cairo.C68_holes_violated",
    "Verif.Cairo.C68_circle",
    "Verif.Cairo.C68_drill",
    "Verif.Cairo.C68_line",
    "Verif.Cairo.C68_slot",
    "Verif.Cairo.C68_line_violated",
    "Verif.Cairo.C68_rectangle_partial",
    "Verif.Cairo.C68_rectangle_violated",
    "Verif.Cairo.C68_obround_partial",
    "Verif.Cairo.C68_obround_violated",
    "Verif.Cairo.C68_polygon_partial",
    "Verif.Cairo.C68_line_rectangle_partial",
    "Verif.Cairo.C68_hole_violated",
    "Verif.Cairo.C68_hole_partial",
    "Verif.Cairo.C68_full_circle_violated",
    "Verif.Cairo.C68_test_record_violated",
    "Verif.Cairo.C68_square_arc_partial",
    "Verif.Cairo.C68_square_arc_violated",
    "Verif.Cairo.C68_convex",
    "Verif.Cairo.C68_lines",
    "Verif.Cairo.C68_region_arcs_partial",
    "Verif.Cairo.C68_circle_violated"
   ],
   "note": "Circles with round holes, drills, slots, round lines proved; polygons, rectangular lines, holes of dark circles, rectangles, obrounds and polygons, and regions bounded by lines and multi-quadrant arcs between different points, of any shape, under the stated assumption that cairo fills closed paths by the winding rule (Engine.Winding, from which Engine.Convex follows by C68_convex); rectangles and obrounds only if not turned. Refuted: turned ones, holes of clear primitives and on inverted layers, whole circles clockwise or as the boundary of a region, lines of width 0, test points, empty regions. Arcs with square apertures (cairo assumed to stroke with square caps, Engine.SquareCaps): painted is at least the sweep of the inscribed round aperture, and at most that of the aperture and the caps; more is refuted, as are arcs with rectangular apertures (C68_square_arc_violated)."
  },
  {
   "property": "C69",
   "status": "partial",
   "theorems": [
    "Verif.Equiv.C69_nearly",
    "Verif.Equiv.C69_place",
    "Verif.Equiv.C69_move",
    "Verif.Equiv.C69_again",
    "Verif.Equiv.C69_total",
    "Verif.Equiv.C69_class_violated",
    "Verif.Equiv.C69_alike_partial",
    "Verif.Equiv.C69_hash_place",
    "Verif.Equiv.C69_name",
    "Verif.Equiv.C69_hash_total",
    "Verif.Equiv.C69_polarity_violated",
    "Verif.Equiv.C69_rotation_violated",
    "Verif.Equiv.C69_squares_violated",
    "Verif.Equiv.C69_hole_violated",
    "Verif.Equiv.C69_square_hole_violated",
    "Verif.Equiv.C69_chain_violated",
    "Verif.Equiv.C69_names_violated",
    "Verif.Rs274x.C69_written",
    "Verif.Rs274x.C69_merged_violated",
    "Verif.Rs274x.C69_file_partial",
    "Verif.Rs274x.C69_turned_violated",
    "Verif.Rs274x.C69_cleared_violated",
    "Verif.Rs274x.C69_text"
   ],
   "note": "Parts taken for the same look the same only as far as polarity, rotation of polygons and rectangular holes agree, which are not compared; violations proved. C69_text is about the text of the file."
  },
  {
   "property": "C70",
   "status": "partial",
   "theorems": [
    "Verif.Rs274x.C70_file_partial",
    "Verif.Rs274x.C70_flash",
    "Verif.Rs274x.C70_two_uses_violated",
    "Verif.Rs274x.C70_no_statement_empty",
    "Verif.Rs274x.C70_no_statement_violated"
   ],
   "note": "Proved down to the text of the file for groups whose statement still holds their shapes, with numbers printed exactly, up to groups taken for the same (C69). Violated, with witnesses: a statement used since with other modifiers, and groups without a statement, whose macro is written empty."
  },
  {
   "property": "C71",
   "status": "partial",
   "theorems": [
    "Verif.Excellon.C71_table",
    "Verif.Excellon.C71_length",
    "Verif.Excellon.C71_info_partial",
    "Verif.Excellon.C71_name",
    "Verif.Excellon.C71_info_violated",
    "Verif.Excellon.C71_total_partial",
    "Verif.Excellon.C71_unused_violated",
    "Verif.Excellon.C71_slot_violated"
   ],
   "note": "The table is shown for every report there is (C71_table), the settings for absolute files in inches (C71_info_partial), and there is a report for files of holes all of whose tools have a size and are used (C71_total_partial). Violated otherwise: the data mode of incremental files and the units of metric files are missing, since the conditional applies to the whole line (C71_info_violated); a tool without hits or a slot makes the report raise (C71_unused_violated, C71_slot_violated)."
  },
  {
   "property": "C72",
   "status": "partial",
   "theorems": [
    "Verif.Cli.C72_board_partial",
    "Verif.Cli.C72_copper_violated",
    "Verif.Cli.C72_one_side_violated",
    "Verif.Cli.C72_many_violated",
    "Verif.Cli.C72_total_partial",
    "Verif.Cli.C72_files_partial",
    "Verif.Cli.C72_files_background_violated",
    "Verif.Cli.C72_files_size_violated"
   ],
   "note": "Proved for boards with an outline and layers on both sides that end without exception (C72_board_partial), with a condition for there being none (C72_total_partial), and for lists of files except for size and background (C72_files_partial). Violated otherwise: without an outline the copper picture has no holes (C72_copper_violated); boards with layers on one side get no picture at all (C72_one_side_violated); with more than six internal layers there is no copper picture (C72_many_violated); single files are drawn at 300 pixels per unit whatever the size asked for and on the default background whatever the theme (C72_files_size_violated, C72_files_background_violated)."
  },
  {
   "property": "C73",
   "status": "partial",
   "theorems": [
    "Verif.Excellon.C73_tools_follow_statements_partial",
    "Verif.Excellon.C73_selected_tool_partial",
    "Verif.Excellon.C73_selected_diameter_partial",
    "Verif.Excellon.C73_undefined_tool_violated",
    "Verif.Excellon.C73_no_next_tool_violated"
   ],
   "note": "Proved for every text, settings and tool table when everything has a tool and every M00 finds a next tool. Asking for a tool that nobody defined is accepted: the program makes up a size from the number, and after M00 without a next tool it goes on with tool 1 (witnesses)."
  },
  {
   "property": "C74",
   "status": "partial",
   "theorems": [
    "Verif.Excellon.C74_picture_partial",
    "Verif.Excellon.C74_text_partial",
    "Verif.Excellon.C74_inner_partial",
    "Verif.Excellon.C74_top_violated",
    "Verif.Excellon.C74_slot_violated",
    "Verif.Excellon.C74_empty_violated",
    "Verif.Excellon.C74_units_violated"
   ],
   "note": "Proved from the text to the painted points, for every file with hits and tools of positive diameter, except the points above the last whole row of pixels of each hit, which the clipping removes (witness). Files without hits, slots with a missing coordinate and the unit are violations with witnesses."
  },
  {
   "property": "C75",
   "status": "partial",
   "theorems": [
    "Verif.Gerber.C75_picture_partial",
    "Verif.Gerber.C75_inner_partial",
    "Verif.Gerber.C75_text_partial",
    "Verif.Gerber.C75_top_violated",
    "Verif.Gerber.C75_obround_line_violated",
    "Verif.Gerber.C75_polygon_line_violated",
    "Verif.Gerber.C75_hole_violated",
    "Verif.Gerber.C75_full_circle_violated",
    "Verif.Gerber.C75_round_region_violated",
    "Verif.Gerber.C75_empty_violated",
    "Verif.Gerber.C75_units_violated",
    "Verif.Gerber.C75_step_repeat_violated",
    "Verif.Gerber.C75_negative_violated",
    "Verif.Gerber.C75_quadrant_violated",
    "Verif.Gerber.C75_quarter_violated"
   ],
   "note": "Proved from the text for files whose primitives are lines with round or (thick enough) rectangular apertures, arcs with round apertures between different points (multi-quadrant, or within a quadrant), flashes without the holes that are drawn wrong, and regions of any shape bounded by lines and such arcs (cairo assumed to fill paths by the winding rule): the painted points are exactly those last covered by a dark primitive, except that points above the last full row of pixels of a primitive are not covered. Witnesses show what is drawn wrong otherwise: tops, lines with obround or polygon apertures, holes of clear rectangles, whole clockwise circles, regions bounded by a whole circle, empty files, step and repeat, negative images, millimetres, single-quadrant arcs crossing an axis or ending in the direction of the x axis. Macros are C76."
  },
  {
   "property": "C76",
   "status": "partial",
   "theorems": [
    "Verif.Gerber.C76_painted_text",
    "Verif.Gerber.C76_vector_line_violated",
    "Verif.Gerber.C76_thermal_violated",
    "Verif.Gerber.C76_picture",
    "Verif.Gerber.C76_painted",
    "Verif.Gerber.C76_layers_partial",
    "Verif.Gerber.C76_inner_partial",
    "Verif.Gerber.C76_text_partial",
    "Verif.Gerber.C76_clear_violated",
    "Verif.Gerber.C76_hole_violated",
    "Verif.Gerber.C76_empty_violated",
    "Verif.Gerber.C76_line_violated",
    "Verif.Gerber.C76_dropped_violated"
   ],
   "note": "What is painted is described for files whose flashed macros consist of any primitives that do not make drawing fail: C76_picture, C76_painted, C76_painted_text; vector lines as moved squares, thermals as four areas with 22 corners, turned polygons and centre lines about their own centres, moire patterns and lower left lines not at all. The claim itself, from the text, for comments, circles, closed outlines, polygons and centre lines (the last two not both away from the origin and turned): C76_layers_partial, and that the picture is right at every point where no unexposed part of a macro lies over an earlier primitive, up to the topmost pixel row (C76_inner_partial, C76_text_partial). Violations: vector lines are painted beyond their ends, points of every thermal are not painted; clear macros are painted dark; unexposed parts erase what was drawn before; lower left lines and moire patterns are not drawn, and macros of only such parts, like lines drawn with macros, make the picture fail."
  },
  {
   "property": "C77",
   "status": "partial",
   "theorems": [
    "Verif.Geom.C77_vertices_partial",
    "Verif.Geom.C77_segments_partial",
    "Verif.Geom.C77_line_partial",
    "Verif.Geom.C77_rectangle_iff",
    "Verif.Geom.C77_diamond_iff",
    "Verif.Geom.C77_chamfer_iff",
    "Verif.Geom.C77_polygon",
    "Verif.Geom.C77_sides_violated",
    "Verif.Geom.C77_aperture_violated",
    "Verif.Geom.C77_outline_violated"
   ],
   "note": "Proved for every class but lines for corners, for polygons whose number of sides is not assigned for segments, and for lines with an aperture of their own that nobody else changes. False for the segments of a polygon after its sides are assigned (C77_sides_violated) and for lines after a change of their aperture (C77_aperture_violated); corners of outlines always raise (C77_outline_violated)."
  },
  {
   "property": "C78",
   "status": "partial",
   "theorems": [
    "Verif.Operations.C78_inch_partial",
    "Verif.Operations.C78_metric_partial",
    "Verif.Operations.C78_offset_partial",
    "Verif.Operations.C78_total_partial",
    "Verif.Operations.C78_gerber_violated",
    "Verif.Operations.C78_stubs_violated",
    "Verif.Operations.C78_drill_inch",
    "Verif.Operations.C78_drill_metric",
    "Verif.Operations.C78_drill_offset",
    "Verif.Operations.C78_netlist_violated"
   ],
   "note": "Proved for drill files (copy is the converted or moved file, with its own tools, raising exactly when the method raises) and for Gerber files whose apertures are given as a list, for any graph of references. Refuted: Gerber files that were read can not be copied (TypeError), scale and rotate return None, netlists are not converted and can not be moved."
  },
  {
   "property": "C79",
   "status": "partial",
   "theorems": [
    "Verif.Cairo.C79_layer_partial",
    "Verif.Excellon.C79_drill",
    "Verif.Gerber.C79_gerber_partial",
    "Verif.Gerber.C79_text_partial",
    "Verif.Gerber.C79_clear_violated",
    "Verif.Gerber.C79_hole_violated"
   ],
   "note": "Fully proved for drill files (C79_drill: every file, every context, exceptions included). For layers of boards and Gerber files (objects and texts, macros included): proved if nothing removes anything, that is no clear polarity, no macro parts with exposure off and no holes except round holes of round apertures. Otherwise the claim is false: a point cleared by a clear flash (C79_clear_violated) and the hole of a rectangle (C79_hole_violated) are painted in neither picture."
  },
  {
   "property": "C80",
   "status": "proved",
   "theorems": [
    "Verif.Layers.C80_compare",
    "Verif.Layers.C80_transitive",
    "Verif.Layers.C80_congruent",
    "Verif.Layers.C80_type_error",
    "Verif.Layers.C80_sort",
    "Verif.Layers.C80_sorted",
    "Verif.Layers.C80_sort_error"
   ],
   "note": "Comparisons of all kinds of layers, and Python's sort (detection of a run, reversal, insertion by bisection) with exceptions; it is shown to be the sort that C37 is about. For lists of 64 or more elements CPython merges runs made this way; the model inserts by bisection for all lengths."
  },
  {
   "property": "C81",
   "status": "partial",
   "theorems": [
    "Verif.Am.C81_made_iff",
    "Verif.Am.C81_area_partial",
    "Verif.Am.C81_outline",
    "Verif.Am.C81_painted_partial",
    "Verif.Am.C81_group_partial",
    "Verif.Am.C81_rectangle_violated",
    "Verif.Am.C81_polygon_violated",
    "Verif.Am.C81_line_violated",
    "Verif.Am.C81_clear_violated"
   ],
   "note": "Proved for circles, rectangles that are not turned, polygons that are not turned or at the origin, and closed outlines (corners rounded to a millionth), singly, in groups, and through the text of the macro; which objects are refused is proved exactly. The code violates the claim for turned rectangles (degrees taken for radians), polygons turned beside the origin, every line drawn with a rectangle, and clear objects (C81_*_violated)."
  },
  {
   "property": "C82",
   "status": "partial",
   "theorems": [
    "Verif.Geom.C82_unique",
    "Verif.Geom.C82_circle",
    "Verif.Geom.C82_ellipse",
    "Verif.Geom.C82_rectangle_partial",
    "Verif.Geom.C82_unrotated_partial",
    "Verif.Geom.C82_obround_violated",
    "Verif.Geom.C82_diamond_violated",
    "Verif.Geom.C82_polygon_iff",
    "Verif.Geom.C82_edge",
    "Verif.Geom.C82_line_circle",
    "Verif.Geom.C82_line_rectangle_partial",
    "Verif.Geom.C82_slot",
    "Verif.Geom.C82_arc_edge",
    "Verif.Geom.C82_arc_circle",
    "Verif.Geom.C82_arc_rectangle_violated",
    "Verif.Geom.C82_parts",
    "Verif.Geom.C82_region",
    "Verif.Geom.C82_group",
    "Verif.Gerber.C82_primitive_partial",
    "Verif.Gerber.C82_file_partial"
   ],
   "note": "Proved for circles, drills, ellipses at every rotation, rectangles from 0 to 90 degrees, obrounds and diamonds not rotated, lines, slots, multi-quadrant arcs with round apertures, edges of regions, things made of parts, and whole Gerber files of such primitives. The code violates it for polygons whose number of corners is not a multiple of four (exactly, when not rotated), for rotated obrounds and diamonds, and for every arc drawn with a rectangle or obround (whole width instead of half)."
  },
  {
   "property": "C83",
   "status": "partial",
   "theorems": [
    "Verif.Excellon.C83_drilled_partial",
    "Verif.Excellon.C83_drill_picture_partial",
    "Verif.Excellon.C83_diameter_violated",
    "Verif.Gerber.C83_saved_partial",
    "Verif.Gerber.C83_picture_partial",
    "Verif.Gerber.C83_stable_partial",
    "Verif.Gerber.C83_aperture_violated",
    "Verif.Gerber.C83_format_violated",
    "Verif.Gerber.C83_macro_violated",
    "Verif.Gerber.C83_text_partial",
    "Verif.Gerber.C83_text_stable_partial",
    "Verif.Gerber.C83_deprecated_violated",
    "Verif.Gerber.C83_unknown_violated"
   ],
   "note": "Proved for Gerber files whose statements can be written faithfully (see C13: one format, coordinates on its grid, apertures with at most four digits; for files read from text only the conditions on numbers, per cent signs and unknown commands of Stmt.Fits remain, C83_text_partial) and whose macros are all used, each with the same primitives every time (see C47); proved for the drill files of C28 in which a tool number means one size. Violated otherwise: aperture sizes are rounded to four digits, drill sizes are cut to the decimals of the coordinates, a change of format within the file, a macro used with different modifiers, commands in the same line after G90/G91 or an unknown command before the first parameter in per cent signs."
  },
  {
   "property": "C84",
   "status": "partial",
   "theorems": [
    "Verif.Am.C84_numbers_inch",
    "Verif.Am.C84_numbers_metric",
    "Verif.Am.C84_shape_inch",
    "Verif.Am.C84_shape_metric",
    "Verif.Am.C84_back",
    "Verif.Am.C84_written_metric_partial",
    "Verif.Am.C84_written_inch_partial",
    "Verif.Am.C84_rounded_violated",
    "Verif.Am.C84_unknown_code_violated"
   ],
   "note": "Proved for all primitives: which numbers are converted, that the drawn shape (including hulls of vector lines and arcs of thermals) is the old one in the new units, and conversion back and again. Proved for files whose converted primitives are printed exactly (and the conditions of C47): written and read again, the macro apertures are drawn as before in the new units. Proved violations: positions of polygons, thermals, moires and rectangles are printed with 4 digits, so conversion before writing moves them; primitives of unknown code keep their text."
  },
  {
   "property": "C85",
   "status": "partial",
   "theorems": [
    "Verif.Gerber.C85_metric_partial",
    "Verif.Gerber.C85_inch_partial",
    "Verif.Gerber.C85_format_violated",
    "Verif.Gerber.C85_no_units_violated",
    "Verif.Gerber.C85_polygon_violated"
   ],
   "note": "Proved with macros and with the library's arc centre search, for files that state their units before using them, without polygon apertures, with coordinates up to ten million, whose converted statements and macros can be written faithfully (see C13, C47, C84). Violated otherwise: the format is kept, so 5 inch in 2.4 format are read back as 12.7 mm and 0.0001 inch as 0.0025 mm; files without a units statement; polygon vertex counts."
  },
  {
   "property": "C86",
   "status": "partial",
   "theorems": [
    "Verif.Excellon.C86_drilled_partial",
    "Verif.Excellon.C86_drill_format_violated",
    "Verif.Gerber.C86_moved_partial",
    "Verif.Gerber.C86_arc_violated",
    "Verif.Gerber.C86_origin_violated",
    "Verif.Gerber.C86_format_violated"
   ],
   "note": "Proved for Gerber files that draw nothing from the position before the first coordinates and have no arcs with centre offsets, and for drill files of the form of C28, if the moved coordinates fit the number format. Violated otherwise: arc centres move twice, lines from the origin keep their start, offsets finer than or beyond the format are lost or cut."
  },
  {
   "property": "C87",
   "status": "partial",
   "theorems": [
    "Verif.Excellon.C87_optimized_partial",
    "Verif.Excellon.C87_slot_violated",
    "Verif.Excellon.C87_redefined_violated"
   ],
   "note": "Proved for files of the form described in C28 whose tool numbers mean one size and in which no tool was defined again after use. Fails with slots and with tools defined again."
  },
  {
   "property": "C88",
   "status": "partial",
   "theorems": [
    "Verif.Geom.C88_angle",
    "Verif.Geom.C88_rectangle_partial",
    "Verif.Geom.C88_donut_partial",
    "Verif.Geom.C88_rotated_violated",
    "Verif.Geom.C88_moved_violated"
   ],
   "note": "Proved for lines, for rectangles turned by no more than a quarter, and for donuts as constructed (round, square). Fails for rectangles turned further, and for donuts moved by assignment."
  },
  {
   "property": "C89",
   "status": "partial",
   "theorems": [
    "Verif.Excellon.C89_bounds",
    "Verif.Excellon.C89_holes_partial",
    "Verif.Excellon.C89_first_partial",
    "Verif.Excellon.C89_incremental_violated",
    "Verif.Excellon.C89_repeat_violated",
    "Verif.Excellon.C89_slot_violated",
    "Verif.Excellon.C89_omitted_violated",
    "Verif.Excellon.C89_empty_violated"
   ],
   "note": "The bounds are the tight envelope of the given coordinates. Every hole of a file with absolute coordinates, without repeat commands and slots, lies in them, if the first coordinates give both axes. Violated by incremental notation, repeat commands, slots, an omitted axis, and files without coordinates."
  },
  {
   "property": "C90",
   "status": "partial",
   "theorems": [
    "Verif.Gerber.C90_spelling",
    "Verif.Gerber.C90_words",
    "Verif.Gerber.C90_comment",
    "Verif.Gerber.C90_after_end_violated",
    "Verif.Gerber.C90_incremental_violated",
    "Verif.Gerber.C90_placing_violated"
   ],
   "note": "Spelling, G54, comments and names make no difference, errors included; every word without numbers is recognised whatever follows it. Violated: what follows M02 is drawn, incremental coordinates are taken as absolute, and AS, IR, MI, OF, SF change nothing."
  },
  {
   "property": "C91",
   "status": "partial",
   "theorems": [
    "Verif.Excellon.C91_remarks_partial",
    "Verif.Excellon.C91_waiting_violated",
    "Verif.Excellon.C91_after_end_violated"
   ],
   "note": "Holds for all files whose remarks stand anywhere but between a bare G00 or G01 and its coordinates (where blank lines are allowed). Violated there by comments, which make reading fail, and by holes after M30, which are drilled."
  },
  {
   "property": "C92",
   "status": "partial",
   "theorems": [
    "Verif.Gerber.C92_one_settled",
    "Verif.Gerber.C92_broken_one_partial",
    "Verif.Gerber.C92_layout",
    "Verif.Gerber.C92_broken_partial",
    "Verif.Gerber.C92_macro_settled",
    "Verif.Gerber.C92_own_line_violated",
    "Verif.Gerber.C92_space_violated",
    "Verif.Gerber.C92_swallowed_violated"
   ],
   "note": "C92_layout: two texts made of the same blocks with any white space between them (before the first parameter every block ends its line, parameters begin at a line start or directly behind a block) are read alike. C92_broken_partial: also if parameters are broken into indented lines, provided every parameter is read to its end, which C92_macro_settled proves for aperture macros. Violated for a space between blocks before the first parameter, for a closing % on a line of its own in a file without final line break, and after a parameter that ends with an empty block or a comment."
  },
  {
   "property": "C93",
   "status": "partial",
   "theorems": [
    "Verif.Excellon.C93_spelling_partial",
    "Verif.Excellon.C93_padding_partial",
    "Verif.Excellon.C93_repeat_partial",
    "Verif.Excellon.C93_four_digits_violated",
    "Verif.Excellon.C93_space_violated",
    "Verif.Excellon.C93_order_violated",
    "Verif.Excellon.C93_long_violated"
   ],
   "note": "Proved for coordinates, slots, routing moves, repeat commands, tool selections and tool definitions. Tool numbers of four digits, white space within lines, Y before X and zeros beyond the format are violations with proofs."
  },
  {
   "property": "C94",
   "status": "partial",
   "theorems": [
    "Verif.Gerber.C94_plus_partial",
    "Verif.Gerber.C94_zeros_partial",
    "Verif.Gerber.C94_order_violated",
    "Verif.Gerber.C94_point_violated",
    "Verif.Gerber.C94_long_violated"
   ],
   "note": "Plus signs anywhere (C94_plus_partial) and, behind a format statement, zeros within the digits of the format (C94_zeros_partial). Missing: several parameters in one block, further format statements or includes, more digits than the format has. The claim fails for words in another order, numbers with a decimal point, and zeros beyond the format (C94_order_violated, C94_point_violated, C94_long_violated)."
  },
  {
   "property": "C95",
   "status": "partial",
   "theorems": [
    "Verif.Gerber.C95_text_partial",
    "Verif.Gerber.C95_two_codes_violated",
    "Verif.Gerber.C95_rapid_violated",
    "Verif.Gerber.C95_sequence_violated"
   ],
   "note": "Proved for all texts laid out as blocks with one parameter in each extended block. Not covered because the code differs there, with witnesses: several function codes in one block, the code G00 and sequence numbers."
  },
  {
   "property": "C96",
   "status": "partial",
   "theorems": [
    "Verif.Excellon.C96_lines_partial",
    "Verif.Excellon.C96_text",
    "Verif.Excellon.C96_relation",
    "Verif.Excellon.C96_convert",
    "Verif.Excellon.C96_copy_partial",
    "Verif.Excellon.C96_own_partial",
    "Verif.Excellon.C96_copy_violated",
    "Verif.Excellon.C96_units_violated"
   ],
   "note": "Comparison, relation and conversion are proved; that equal text means equivalent tools is proved for tools whose numbers fit a format. Copies can not be compared with their originals, and tools of the same size in different units are not equivalent: both proved as violations."
  },
  {
   "property": "C97",
   "status": "partial",
   "theorems": [
    "Verif.Ipc.C97_remarks_partial",
    "Verif.Ipc.C97_records_partial",
    "Verif.Ipc.C97_conductor_violated",
    "Verif.Ipc.C97_late_unit_violated",
    "Verif.Ipc.C97_after_end_violated",
    "Verif.Ipc.C97_remark_inside_violated"
   ],
   "note": "Proved for all texts of well cut lines. Not covered because the code differs there, with witnesses: conductors are in no list, a unit behind the records it should hold for, lines behind the end, remarks inside of a line that is cut."
  },
  {
   "property": "C98",
   "status": "proved",
   "theorems": [
    "Verif.Gerber.C98_names",
    "Verif.Gerber.C98_loaded",
    "Verif.Gerber.C98_unused",
    "Verif.Gerber.C98_order"
   ],
   "note": "For all statement lists and all environments (macro building and arc centres as parameters of the model)."
  },
  {
   "property": "C99",
   "status": "partial",
   "theorems": [
    "Verif.Excellon.C99_numbers_partial",
    "Verif.Excellon.C99_holes_partial",
    "Verif.Excellon.C99_undefined_violated",
    "Verif.Excellon.C99_first_violated",
    "Verif.Excellon.C99_next_violated"
   ],
   "note": "Proved for files without M00 while drilling that drill with selected and defined tools only; fails otherwise: undefined tools get a diameter from their number, drilling before a selection uses tool 1, and M00 goes to the next number (see the _violated theorems)."
  },
  {
   "property": "C100",
   "status": "proved",
   "theorems": [
    "Verif.Gerber.C100_statement",
    "Verif.Gerber.C100_gerber",
    "Verif.Gerber.C100_file",
    "Verif.Excellon.C100_line",
    "Verif.Excellon.C100_drill",
    "Verif.Ipc.C100_netlist"
   ],
   "note": "For all statement lists and texts. Primitives are values in the model of reading; that Python shares aperture objects matters only for later conversions (C09, C31). The settings and hit counts of drill tools do change, and so does the unit of a netlist if it is set later (C97_late_unit_violated)."
  },
  {
   "property": "C101",
   "status": "partial",
   "theorems": [
    "Verif.Gerber.C101_statements",
    "Verif.Gerber.C101_moves",
    "Verif.Operations.C101_metric_partial",
    "Verif.Operations.C101_inch_partial",
    "Verif.Operations.C101_single_violated",
    "Verif.Excellon.C101_drill_metric_partial",
    "Verif.Excellon.C101_drill_inch_partial",
    "Verif.Excellon.C101_holes_violated"
   ],
   "note": "Proved for the statements of Gerber files and for whole Gerber files with shared objects in one unit; regions, outlines and macros with exactly one part are excluded, since the part is not converted (C101_single_violated). For drill files proved for statements, tools and settings; the holes are not converted at all (C101_holes_violated)."
  },
  {
   "property": "C102",
   "status": "partial",
   "theorems": [
    "Verif.Gerber.C102_inserted",
    "Verif.Gerber.C102_list",
    "Verif.Gerber.C102_read",
    "Verif.Gerber.C102_ignored",
    "Verif.Gerber.C102_edited",
    "Verif.Gerber.C102_saved_partial",
    "Verif.Gerber.C102_percent_violated",
    "Verif.Gerber.C102_lines_violated"
   ],
   "note": "Reading, evaluating, moving, converting, and that comments draw nothing are proved for all files; writing and reading for files that can be written faithfully. Refuted: a per cent sign before the first parameter ends a comment, and the second line of a comment is obeyed."
  }
 ]
}