import Verif.Py.Basic
import Verif.Model.Utils
import Verif.Lemmas.Digits
import Verif.Lemmas.PyNum
import Verif.Lemmas.Codec
import Verif.Props.Codec
import Verif.Model.Cam
import Verif.Props.Cam
import Verif.Py.Regex
import Verif.Lemmas.Regex
import Verif.Model.GerberSplit
import Verif.Props.Split
import Verif.Py.Format
import Verif.Lemmas.Format
import Verif.Model.GerberStmt
import Verif.Model.GerberParse
import Verif.Lemmas.GerberParse
import Verif.Spec.GerberStmt
import Verif.Props.Parse
import Verif.Props.Include
import Verif.Model.Macro
import Verif.Spec.Macro
import Verif.Lemmas.Macro
import Verif.Props.Macro
import Verif.Lemmas.Capture
import Verif.Model.GerberEval
import Verif.Spec.GerberEval
import Verif.Lemmas.Parsed
import Verif.Props.Eval
import Verif.Model.GerberFile
import Verif.Props.File
import Verif.Props.Scale
import Verif.Model.Angle
import Verif.Props.Angle
import Verif.Model.Prim
import Verif.Props.Cache
import Verif.Props.Move
import Verif.Props.PrimUnits
import Verif.Spec.Shapes
import Verif.Props.Boxes
import Verif.Model.Hull
import Verif.Props.Hull
import Verif.Model.Rs274x
import Verif.Spec.Rs274x
import Verif.Props.Rs274x
import Verif.Props.Rs274xCodes
import Verif.Py.Dict
import Verif.Model.ExcellonStmt
import Verif.Model.ExcellonTool
import Verif.Model.Excellon
import Verif.Spec.Excellon
import Verif.Lemmas.Dict
import Verif.Lemmas.Excellon
import Verif.Lemmas.ExcellonCount
import Verif.Lemmas.ExcellonText
import Verif.Props.ExcellonHoles
import Verif.Lemmas.ExcellonUnits
import Verif.Props.ExcellonUnits
import Verif.Props.ExcellonDetect
import Verif.Lemmas.ExcellonTool
import Verif.Props.ExcellonStmts
import Verif.Lemmas.ExcellonWrite
import Verif.Props.ExcellonWrite
import Verif.Model.Layers
import Verif.Props.Layers
import Verif.Model.LayerGuess
import Verif.Props.LayerGuess
import Verif.Model.Render
import Verif.Props.Render
import Verif.Model.Ipc
import Verif.Props.Ipc
import Verif.Model.Load
import Verif.Props.Load
import Verif.Lemmas.Repr
import Verif.Model.AmPrim
import Verif.Spec.AmPrim
import Verif.Lemmas.AmPrim
import Verif.Props.AmPrim
import Verif.Model.ExcellonEdit
import Verif.Props.ExcellonEdit
import Verif.Props.BoxesMore
import Verif.Spec.ExcellonSettings
import Verif.Props.ExcellonSettings
import Verif.Spec.IpcRecord
import Verif.Props.IpcRecord
import Verif.Spec.ToolTable
import Verif.Props.ToolTable
import Verif.Props.ToolReport
import Verif.Model.SettingsFile
import Verif.Props.SettingsFile
import Verif.Model.ExcellonBackend
import Verif.Props.ExcellonBackend
import Verif.Model.Directory
import Verif.Props.Directory
import Verif.Spec.Netlist
import Verif.Props.Netlist
import Verif.Model.Vertices
import Verif.Props.Vertices
import Verif.Model.AmShape
import Verif.Spec.AmShape
import Verif.Props.AmShape
import Verif.Model.Theme
import Verif.Props.Theme
import Verif.Model.Cairo
import Verif.Spec.Cairo
import Verif.Props.CairoFrame
import Verif.Props.CairoClip
import Verif.Props.CairoLayer
import Verif.Props.CairoShape
import Verif.Props.CairoArea
import Verif.Model.Equiv
import Verif.Spec.Equiv
import Verif.Props.Equiv
import Verif.Props.EquivWrite
import Verif.Props.Rs274xOnly
import Verif.Props.Rs274xText
import Verif.Model.GroupWrite
import Verif.Props.GroupWrite
import Verif.Model.Report
import Verif.Props.Report
import Verif.Model.Main
import Verif.Props.Main
import Verif.Spec.ToolUse
import Verif.Lemmas.ToolUse
import Verif.Props.ToolUse
import Verif.Model.DrillPicture
import Verif.Spec.DrillPicture
import Verif.Props.DrillPicture
import Verif.Model.GerberPicture
import Verif.Spec.GerberPicture
import Verif.Props.GerberPicture
import Verif.Props.CairoArc
import Verif.Props.GerberPictureFail
import Verif.Model.MacroPicture
import Verif.Spec.MacroPicture
import Verif.Props.MacroPicture
import Verif.Props.MacroPictureFail
import Verif.Spec.Winding
import Verif.Props.Winding
import Verif.Props.CairoWinding
import Verif.Model.PrimHistory
import Verif.Props.StoredCorners
import Verif.Props.Enclosed
import Verif.Model.Operations
import Verif.Spec.Operations
import Verif.Props.Operations
import Verif.Props.OperationsDrill
import Verif.Props.MacroPaint
import Verif.Spec.Inverted
import Verif.Props.Inverted
import Verif.Model.LayerOrder
import Verif.Props.LayerOrder
import Verif.Spec.FromPart
import Verif.Props.FromPart
import Verif.Props.Quadrant
import Verif.Props.Center
import Verif.Props.QuadrantPicture
import Verif.Props.CairoHoles
import Verif.Props.Tight
import Verif.Props.TightFile
import Verif.Model.GerberSave
import Verif.Props.GerberSave
import Verif.Props.DrillSave
import Verif.Model.AmUnits
import Verif.Props.AmUnits
import Verif.Model.GerberConvert
import Verif.Props.GerberConvert
import Verif.Props.GerberMove
import Verif.Props.DrillMove
import Verif.Props.CairoSquareArc
import Verif.Lemmas.Written
import Verif.Props.GerberText
import Verif.Model.DrillOptimize
import Verif.Props.DrillOptimize
import Verif.Model.Corners
import Verif.Props.Corners
import Verif.Model.DrillBounds
import Verif.Props.DrillBounds
import Verif.Props.Words
import Verif.Props.DrillRemarks
import Verif.Props.Layout
import Verif.Props.DrillWords
import Verif.Props.GerberNumbers
import Verif.Props.SameText
import Verif.Model.ToolEquiv
import Verif.Props.ToolEquiv
import Verif.Model.IpcLists
import Verif.Props.IpcLists
import Verif.Props.Renaming
import Verif.Props.ToolNumbers
import Verif.Props.Append
import Verif.Props.MoveConvert
import Verif.Props.NetlistAppend
import Verif.Model.GerberComments
import Verif.Props.GerberComments
import Verif.Props.CommentInserted

/-! Axioms used by every property theorem. -/

#print axioms Verif.Am.C47_empty_violated
#print axioms Verif.Am.C47_exponent_violated
#print axioms Verif.Am.C47_rebuilt_partial
#print axioms Verif.Am.C47_rounded_violated
#print axioms Verif.Am.C47_two_uses_violated
#print axioms Verif.Am.C47_unknown_code_violated
#print axioms Verif.Am.C47_written_text_partial
#print axioms Verif.Am.C48_digits_needed
#print axioms Verif.Am.C48_round_trip
#print axioms Verif.Am.C63_center_line
#print axioms Verif.Am.C63_center_line_chain_violated
#print axioms Verif.Am.C63_circle
#print axioms Verif.Am.C63_comment
#print axioms Verif.Am.C63_group
#print axioms Verif.Am.C63_group_violated
#print axioms Verif.Am.C63_nothing_violated
#print axioms Verif.Am.C63_outline
#print axioms Verif.Am.C63_polygon_iff
#print axioms Verif.Am.C63_thermal_chain_violated
#print axioms Verif.Am.C63_thermal_gap_violated
#print axioms Verif.Am.C63_thermal_hole_violated
#print axioms Verif.Am.C63_thermal_partial
#print axioms Verif.Am.C63_thermal_place_iff
#print axioms Verif.Am.C63_vector_line_partial
#print axioms Verif.Am.C63_vector_line_thin_violated
#print axioms Verif.Am.C63_vector_line_violated
#print axioms Verif.Am.C81_area_partial
#print axioms Verif.Am.C81_clear_violated
#print axioms Verif.Am.C81_group_partial
#print axioms Verif.Am.C81_line_violated
#print axioms Verif.Am.C81_made_iff
#print axioms Verif.Am.C81_outline
#print axioms Verif.Am.C81_painted_partial
#print axioms Verif.Am.C81_polygon_violated
#print axioms Verif.Am.C81_rectangle_violated
#print axioms Verif.Am.C84_back
#print axioms Verif.Am.C84_numbers_inch
#print axioms Verif.Am.C84_numbers_metric
#print axioms Verif.Am.C84_rounded_violated
#print axioms Verif.Am.C84_shape_inch
#print axioms Verif.Am.C84_shape_metric
#print axioms Verif.Am.C84_unknown_code_violated
#print axioms Verif.Am.C84_written_inch_partial
#print axioms Verif.Am.C84_written_metric_partial
#print axioms Verif.Cairo.C65_bounds_kept
#print axioms Verif.Cairo.C65_fits
#print axioms Verif.Cairo.C65_flat_violated
#print axioms Verif.Cairo.C65_layers
#print axioms Verif.Cairo.C65_no_bounds_violated
#print axioms Verif.Cairo.C65_place
#print axioms Verif.Cairo.C65_ranges
#print axioms Verif.Cairo.C65_scale_violated
#print axioms Verif.Cairo.C65_visible
#print axioms Verif.Cairo.C65_whole_partial
#print axioms Verif.Cairo.C65_whole_violated
#print axioms Verif.Cairo.C66_aligned_partial
#print axioms Verif.Cairo.C66_box_arc
#print axioms Verif.Cairo.C66_box_circle
#print axioms Verif.Cairo.C66_box_line
#print axioms Verif.Cairo.C66_box_polygon
#print axioms Verif.Cairo.C66_box_rectangle
#print axioms Verif.Cairo.C66_clip_iff
#print axioms Verif.Cairo.C66_clip_partial
#print axioms Verif.Cairo.C66_clip_violated
#print axioms Verif.Cairo.C66_covered
#print axioms Verif.Cairo.C66_thin_violated
#print axioms Verif.Cairo.C67_complement_partial
#print axioms Verif.Cairo.C67_complement_violated
#print axioms Verif.Cairo.C67_group_partial
#print axioms Verif.Cairo.C67_group_violated
#print axioms Verif.Cairo.C67_inverted
#print axioms Verif.Cairo.C67_painted
#print axioms Verif.Cairo.C68_arc_partial
#print axioms Verif.Cairo.C68_circle
#print axioms Verif.Cairo.C68_circle_violated
#print axioms Verif.Cairo.C68_convex
#print axioms Verif.Cairo.C68_drill
#print axioms Verif.Cairo.C68_full_circle_violated
#print axioms Verif.Cairo.C68_hole_partial
#print axioms Verif.Cairo.C68_hole_violated
#print axioms Verif.Cairo.C68_holes_partial
#print axioms Verif.Cairo.C68_holes_violated
#print axioms Verif.Cairo.C68_line
#print axioms Verif.Cairo.C68_line_rectangle_partial
#print axioms Verif.Cairo.C68_line_violated
#print axioms Verif.Cairo.C68_lines
#print axioms Verif.Cairo.C68_obround_partial
#print axioms Verif.Cairo.C68_obround_violated
#print axioms Verif.Cairo.C68_polygon_partial
#print axioms Verif.Cairo.C68_rect_hole_partial
#print axioms Verif.Cairo.C68_rect_hole_violated
#print axioms Verif.Cairo.C68_rectangle_partial
#print axioms Verif.Cairo.C68_rectangle_violated
#print axioms Verif.Cairo.C68_region_arcs_partial
#print axioms Verif.Cairo.C68_region_partial
#print axioms Verif.Cairo.C68_region_violated
#print axioms Verif.Cairo.C68_slot
#print axioms Verif.Cairo.C68_square_arc_partial
#print axioms Verif.Cairo.C68_square_arc_violated
#print axioms Verif.Cairo.C68_test_record_violated
#print axioms Verif.Cairo.C79_layer_partial
#print axioms Verif.Cam.C07_constructor_rejects
#print axioms Verif.Cam.C07_constructor_valid
#print axioms Verif.Cam.C07_history_valid
#print axioms Verif.Cam.C07_setitem_zero_reads_back
#print axioms Verif.Cam.C07_zeros_never_equal
#print axioms Verif.Cam.C08_default_settings
#print axioms Verif.Cam.C08_none_suppression_violated
#print axioms Verif.Cam.C08_radians_violated
#print axioms Verif.Cam.C08_settings_idempotent
#print axioms Verif.Cam.C08_settings_roundtrip_partial
#print axioms Verif.Cli.C72_board_partial
#print axioms Verif.Cli.C72_copper_violated
#print axioms Verif.Cli.C72_files_background_violated
#print axioms Verif.Cli.C72_files_partial
#print axioms Verif.Cli.C72_files_size_violated
#print axioms Verif.Cli.C72_many_violated
#print axioms Verif.Cli.C72_one_side_violated
#print axioms Verif.Cli.C72_total_partial
#print axioms Verif.Equiv.C69_again
#print axioms Verif.Equiv.C69_alike_partial
#print axioms Verif.Equiv.C69_chain_violated
#print axioms Verif.Equiv.C69_class_violated
#print axioms Verif.Equiv.C69_hash_place
#print axioms Verif.Equiv.C69_hash_total
#print axioms Verif.Equiv.C69_hole_violated
#print axioms Verif.Equiv.C69_move
#print axioms Verif.Equiv.C69_name
#print axioms Verif.Equiv.C69_names_violated
#print axioms Verif.Equiv.C69_nearly
#print axioms Verif.Equiv.C69_place
#print axioms Verif.Equiv.C69_polarity_violated
#print axioms Verif.Equiv.C69_rotation_violated
#print axioms Verif.Equiv.C69_square_hole_violated
#print axioms Verif.Equiv.C69_squares_violated
#print axioms Verif.Equiv.C69_total
#print axioms Verif.Excellon.C09_excellon_file_inch
#print axioms Verif.Excellon.C09_excellon_file_metric
#print axioms Verif.Excellon.C09_excellon_statement_idempotent
#print axioms Verif.Excellon.C09_excellon_statement_reversible
#print axioms Verif.Excellon.C09_excellon_tool
#print axioms Verif.Excellon.C100_drill
#print axioms Verif.Excellon.C100_line
#print axioms Verif.Excellon.C101_drill_inch_partial
#print axioms Verif.Excellon.C101_drill_metric_partial
#print axioms Verif.Excellon.C101_holes_violated
#print axioms Verif.Excellon.C24_absolute
#print axioms Verif.Excellon.C24_holes_follow_statements
#print axioms Verif.Excellon.C24_incremental
#print axioms Verif.Excellon.C24_line
#print axioms Verif.Excellon.C24_slot_in_incremental_notation
#print axioms Verif.Excellon.C25_bare_cut_violated
#print axioms Verif.Excellon.C25_counts_le_partial
#print axioms Verif.Excellon.C25_counts_partial
#print axioms Verif.Excellon.C25_hit_count_partial
#print axioms Verif.Excellon.C25_redefined_violated
#print axioms Verif.Excellon.C26_header_violated
#print axioms Verif.Excellon.C26_no_tool_violated
#print axioms Verif.Excellon.C26_repeat_line_partial
#print axioms Verif.Excellon.C26_repeat_partial
#print axioms Verif.Excellon.C27_diameters_to_inch_partial
#print axioms Verif.Excellon.C27_diameters_to_metric_partial
#print axioms Verif.Excellon.C27_positions_kept
#print axioms Verif.Excellon.C27_positions_violated
#print axioms Verif.Excellon.C27_tool_before_unit_violated
#print axioms Verif.Excellon.C28_header_not_ended_violated
#print axioms Verif.Excellon.C28_no_selection_violated
#print axioms Verif.Excellon.C28_slot_violated
#print axioms Verif.Excellon.C28_write_read_partial
#print axioms Verif.Excellon.C29_comment_partial
#print axioms Verif.Excellon.C29_comment_violated
#print axioms Verif.Excellon.C29_constant
#print axioms Verif.Excellon.C29_coordinate
#print axioms Verif.Excellon.C29_coordinate_mode_partial
#print axioms Verif.Excellon.C29_end_partial
#print axioms Verif.Excellon.C29_end_violated
#print axioms Verif.Excellon.C29_format
#print axioms Verif.Excellon.C29_incremental
#print axioms Verif.Excellon.C29_infeed
#print axioms Verif.Excellon.C29_link_empty_violated
#print axioms Verif.Excellon.C29_link_partial
#print axioms Verif.Excellon.C29_measuring
#print axioms Verif.Excellon.C29_repeat_partial
#print axioms Verif.Excellon.C29_repeat_zero_violated
#print axioms Verif.Excellon.C29_rout_lines_violated
#print axioms Verif.Excellon.C29_route_mode_violated
#print axioms Verif.Excellon.C29_rpm_violated
#print axioms Verif.Excellon.C29_slot_end_violated
#print axioms Verif.Excellon.C29_slot_partial
#print axioms Verif.Excellon.C29_tool_partial
#print axioms Verif.Excellon.C29_tool_selection_partial
#print axioms Verif.Excellon.C29_tool_selection_violated
#print axioms Verif.Excellon.C29_unit_format_violated
#print axioms Verif.Excellon.C29_unit_partial
#print axioms Verif.Excellon.C29_version
#print axioms Verif.Excellon.C30_comment_format
#print axioms Verif.Excellon.C30_decide
#print axioms Verif.Excellon.C30_detect
#print axioms Verif.Excellon.C30_no_candidate
#print axioms Verif.Excellon.C49_back
#print axioms Verif.Excellon.C49_defined
#print axioms Verif.Excellon.C49_hits_moved
#print axioms Verif.Excellon.C49_incremental_violated
#print axioms Verif.Excellon.C49_origin_violated
#print axioms Verif.Excellon.C49_slot_violated
#print axioms Verif.Excellon.C49_statements_partial
#print axioms Verif.Excellon.C50_contains
#print axioms Verif.Excellon.C50_empty_violated
#print axioms Verif.Excellon.C50_no_diameter_violated
#print axioms Verif.Excellon.C50_tight
#print axioms Verif.Excellon.C51_defined
#print axioms Verif.Excellon.C51_path_length_partial
#print axioms Verif.Excellon.C51_slot_violated
#print axioms Verif.Excellon.C52_hits
#print axioms Verif.Excellon.C52_unknown
#print axioms Verif.Excellon.C52_update
#print axioms Verif.Excellon.C53_line
#print axioms Verif.Excellon.C53_lines
#print axioms Verif.Excellon.C53_units_only_file_violated
#print axioms Verif.Excellon.C53_units_only_violated
#print axioms Verif.Excellon.C55_comment
#print axioms Verif.Excellon.C55_fraction_violated
#print axioms Verif.Excellon.C55_table_partial
#print axioms Verif.Excellon.C55_table_plating_violated
#print axioms Verif.Excellon.C55_tools_partial
#print axioms Verif.Excellon.C56_other_line_violated
#print axioms Verif.Excellon.C56_report_partial
#print axioms Verif.Excellon.C58_no_hit_violated
#print axioms Verif.Excellon.C58_program_partial
#print axioms Verif.Excellon.C58_python3_violated
#print axioms Verif.Excellon.C58_renders
#print axioms Verif.Excellon.C58_round_slot_violated
#print axioms Verif.Excellon.C58_same_point_violated
#print axioms Verif.Excellon.C71_info_partial
#print axioms Verif.Excellon.C71_info_violated
#print axioms Verif.Excellon.C71_length
#print axioms Verif.Excellon.C71_name
#print axioms Verif.Excellon.C71_slot_violated
#print axioms Verif.Excellon.C71_table
#print axioms Verif.Excellon.C71_total_partial
#print axioms Verif.Excellon.C71_unused_violated
#print axioms Verif.Excellon.C73_no_next_tool_violated
#print axioms Verif.Excellon.C73_selected_diameter_partial
#print axioms Verif.Excellon.C73_selected_tool_partial
#print axioms Verif.Excellon.C73_tools_follow_statements_partial
#print axioms Verif.Excellon.C73_undefined_tool_violated
#print axioms Verif.Excellon.C74_empty_violated
#print axioms Verif.Excellon.C74_inner_partial
#print axioms Verif.Excellon.C74_picture_partial
#print axioms Verif.Excellon.C74_slot_violated
#print axioms Verif.Excellon.C74_text_partial
#print axioms Verif.Excellon.C74_top_violated
#print axioms Verif.Excellon.C74_units_violated
#print axioms Verif.Excellon.C79_drill
#print axioms Verif.Excellon.C83_diameter_violated
#print axioms Verif.Excellon.C83_drill_picture_partial
#print axioms Verif.Excellon.C83_drilled_partial
#print axioms Verif.Excellon.C86_drill_format_violated
#print axioms Verif.Excellon.C86_drilled_partial
#print axioms Verif.Excellon.C87_optimized_partial
#print axioms Verif.Excellon.C87_redefined_violated
#print axioms Verif.Excellon.C87_slot_violated
#print axioms Verif.Excellon.C89_bounds
#print axioms Verif.Excellon.C89_empty_violated
#print axioms Verif.Excellon.C89_first_partial
#print axioms Verif.Excellon.C89_holes_partial
#print axioms Verif.Excellon.C89_incremental_violated
#print axioms Verif.Excellon.C89_omitted_violated
#print axioms Verif.Excellon.C89_repeat_violated
#print axioms Verif.Excellon.C89_slot_violated
#print axioms Verif.Excellon.C91_after_end_violated
#print axioms Verif.Excellon.C91_remarks_partial
#print axioms Verif.Excellon.C91_waiting_violated
#print axioms Verif.Excellon.C93_four_digits_violated
#print axioms Verif.Excellon.C93_long_violated
#print axioms Verif.Excellon.C93_order_violated
#print axioms Verif.Excellon.C93_padding_partial
#print axioms Verif.Excellon.C93_repeat_partial
#print axioms Verif.Excellon.C93_space_violated
#print axioms Verif.Excellon.C93_spelling_partial
#print axioms Verif.Excellon.C96_convert
#print axioms Verif.Excellon.C96_copy_partial
#print axioms Verif.Excellon.C96_copy_violated
#print axioms Verif.Excellon.C96_lines_partial
#print axioms Verif.Excellon.C96_own_partial
#print axioms Verif.Excellon.C96_relation
#print axioms Verif.Excellon.C96_text
#print axioms Verif.Excellon.C96_units_violated
#print axioms Verif.Excellon.C99_first_violated
#print axioms Verif.Excellon.C99_holes_partial
#print axioms Verif.Excellon.C99_next_violated
#print axioms Verif.Excellon.C99_numbers_partial
#print axioms Verif.Excellon.C99_undefined_violated
#print axioms Verif.Geom.C09_file_inch
#print axioms Verif.Geom.C09_file_metric
#print axioms Verif.Geom.C09_file_objects_inch_partial
#print axioms Verif.Geom.C09_file_objects_metric_partial
#print axioms Verif.Geom.C09_mixed_violated
#print axioms Verif.Geom.C09_primitives
#print axioms Verif.Geom.C09_single_violated
#print axioms Verif.Geom.C21_center
#print axioms Verif.Geom.C31_aperture_violated
#print axioms Verif.Geom.C31_fresh_partial
#print axioms Verif.Geom.C31_line_partial
#print axioms Verif.Geom.C31_plain_violated
#print axioms Verif.Geom.C31_region_violated
#print axioms Verif.Geom.C31_slot_violated
#print axioms Verif.Geom.C32_arc_circle
#print axioms Verif.Geom.C32_arc_path
#print axioms Verif.Geom.C32_arc_rectangle
#print axioms Verif.Geom.C32_circle
#print axioms Verif.Geom.C32_donut_hexagon_partial
#print axioms Verif.Geom.C32_donut_round
#print axioms Verif.Geom.C32_donut_square_partial
#print axioms Verif.Geom.C32_ellipse
#print axioms Verif.Geom.C32_group
#print axioms Verif.Geom.C32_line_circle
#print axioms Verif.Geom.C32_line_polygon_violated
#print axioms Verif.Geom.C32_line_rectangle
#print axioms Verif.Geom.C32_line_rotated_violated
#print axioms Verif.Geom.C32_obround_partial
#print axioms Verif.Geom.C32_one_quadrant_partial
#print axioms Verif.Geom.C32_polygon
#print axioms Verif.Geom.C32_rectangle_iff
#print axioms Verif.Geom.C32_rectangular_partial
#print axioms Verif.Geom.C32_region
#print axioms Verif.Geom.C32_rotated_violated
#print axioms Verif.Geom.C32_single_quadrant_partial
#print axioms Verif.Geom.C32_single_quadrant_violated
#print axioms Verif.Geom.C32_slot
#print axioms Verif.Geom.C32_square_partial
#print axioms Verif.Geom.C32_square_rotated_violated
#print axioms Verif.Geom.C33_move_partial
#print axioms Verif.Geom.C33_moves_add
#print axioms Verif.Geom.C33_slot_violated
#print axioms Verif.Geom.C34_compose
#print axioms Verif.Geom.C34_fixes_center
#print axioms Verif.Geom.C34_inverse
#print axioms Verif.Geom.C34_isometry
#print axioms Verif.Geom.C34_orientation
#print axioms Verif.Geom.C34_quarter
#print axioms Verif.Geom.C35_ccw_violated
#print axioms Verif.Geom.C35_range
#print axioms Verif.Geom.C35_sweep_partial
#print axioms Verif.Geom.C36_ccw_violated
#print axioms Verif.Geom.C36_center_partial
#print axioms Verif.Geom.C36_clockwise
#print axioms Verif.Geom.C36_clockwise_exact
#print axioms Verif.Geom.C36_counterclockwise_partial
#print axioms Verif.Geom.C36_quarter_violated
#print axioms Verif.Geom.C41_placement
#print axioms Verif.Geom.C42_collinear_violated
#print axioms Verif.Geom.C42_defined
#print axioms Verif.Geom.C42_hull_partial
#print axioms Verif.Geom.C42_planar_defined
#print axioms Verif.Geom.C62_chamfer_iff
#print axioms Verif.Geom.C62_chamfer_order_violated
#print axioms Verif.Geom.C62_diamond_around
#print axioms Verif.Geom.C62_diamond_iff
#print axioms Verif.Geom.C62_line_partial
#print axioms Verif.Geom.C62_line_polygon_violated
#print axioms Verif.Geom.C62_line_rotated_violated
#print axioms Verif.Geom.C62_line_thin_violated
#print axioms Verif.Geom.C62_polygon
#print axioms Verif.Geom.C62_polygon_around
#print axioms Verif.Geom.C62_rectangle_around
#print axioms Verif.Geom.C62_rectangle_iff
#print axioms Verif.Geom.C62_segments_partial
#print axioms Verif.Geom.C62_segments_violated
#print axioms Verif.Geom.C77_aperture_violated
#print axioms Verif.Geom.C77_chamfer_iff
#print axioms Verif.Geom.C77_diamond_iff
#print axioms Verif.Geom.C77_line_partial
#print axioms Verif.Geom.C77_outline_violated
#print axioms Verif.Geom.C77_polygon
#print axioms Verif.Geom.C77_rectangle_iff
#print axioms Verif.Geom.C77_segments_partial
#print axioms Verif.Geom.C77_sides_violated
#print axioms Verif.Geom.C77_vertices_partial
#print axioms Verif.Geom.C82_arc_circle
#print axioms Verif.Geom.C82_arc_edge
#print axioms Verif.Geom.C82_arc_rectangle_violated
#print axioms Verif.Geom.C82_circle
#print axioms Verif.Geom.C82_diamond_violated
#print axioms Verif.Geom.C82_edge
#print axioms Verif.Geom.C82_ellipse
#print axioms Verif.Geom.C82_group
#print axioms Verif.Geom.C82_line_circle
#print axioms Verif.Geom.C82_line_rectangle_partial
#print axioms Verif.Geom.C82_obround_violated
#print axioms Verif.Geom.C82_parts
#print axioms Verif.Geom.C82_polygon_iff
#print axioms Verif.Geom.C82_rectangle_partial
#print axioms Verif.Geom.C82_region
#print axioms Verif.Geom.C82_slot
#print axioms Verif.Geom.C82_unique
#print axioms Verif.Geom.C82_unrotated_partial
#print axioms Verif.Geom.C88_angle
#print axioms Verif.Geom.C88_donut_partial
#print axioms Verif.Geom.C88_moved_violated
#print axioms Verif.Geom.C88_rectangle_partial
#print axioms Verif.Geom.C88_rotated_violated
#print axioms Verif.Gerber.C09_statements
#print axioms Verif.Gerber.C100_file
#print axioms Verif.Gerber.C100_gerber
#print axioms Verif.Gerber.C100_statement
#print axioms Verif.Gerber.C101_moves
#print axioms Verif.Gerber.C101_statements
#print axioms Verif.Gerber.C102_edited
#print axioms Verif.Gerber.C102_ignored
#print axioms Verif.Gerber.C102_inserted
#print axioms Verif.Gerber.C102_lines_violated
#print axioms Verif.Gerber.C102_list
#print axioms Verif.Gerber.C102_percent_violated
#print axioms Verif.Gerber.C102_read
#print axioms Verif.Gerber.C102_saved_partial
#print axioms Verif.Gerber.C12_block_is_one_command
#print axioms Verif.Gerber.C12_line_is_one_command
#print axioms Verif.Gerber.C12_nothing_dropped
#print axioms Verif.Gerber.C12_parameter_is_one_command
#print axioms Verif.Gerber.C12_split_commands_clean
#print axioms Verif.Gerber.C12_split_lossless
#print axioms Verif.Gerber.C12_tail_dropped_violated
#print axioms Verif.Gerber.C13_aperture_one_violated
#print axioms Verif.Gerber.C13_aperture_size_violated
#print axioms Verif.Gerber.C13_macro_name_violated
#print axioms Verif.Gerber.C13_scale_factor_violated
#print axioms Verif.Gerber.C13_small_offset_violated
#print axioms Verif.Gerber.C13_statement_roundtrip_partial
#print axioms Verif.Gerber.C13_write_read_agreeing_partial
#print axioms Verif.Gerber.C13_write_read_partial
#print axioms Verif.Gerber.C14_draw
#print axioms Verif.Gerber.C14_file_picture
#print axioms Verif.Gerber.C14_flash
#print axioms Verif.Gerber.C14_move
#print axioms Verif.Gerber.C14_picture
#print axioms Verif.Gerber.C14_total
#print axioms Verif.Gerber.C15_polarity
#print axioms Verif.Gerber.C16_flash_violated
#print axioms Verif.Gerber.C16_regions_exact
#print axioms Verif.Gerber.C16_regions_partial
#print axioms Verif.Gerber.C16_single_segment_violated
#print axioms Verif.Gerber.C17_chain
#print axioms Verif.Gerber.C17_include_reads
#print axioms Verif.Gerber.C17_line_rounds
#print axioms Verif.Gerber.C17_nesting_bounded
#print axioms Verif.Gerber.C17_no_stack_overflow
#print axioms Verif.Gerber.C17_self_include
#print axioms Verif.Gerber.C18_again
#print axioms Verif.Gerber.C18_explicit_operations
#print axioms Verif.Gerber.C18_file
#print axioms Verif.Gerber.C19_bounds
#print axioms Verif.Gerber.C19_file
#print axioms Verif.Gerber.C19_sentinel
#print axioms Verif.Gerber.C19_size
#print axioms Verif.Gerber.C20_arc_violated
#print axioms Verif.Gerber.C20_offset_partial
#print axioms Verif.Gerber.C20_origin_violated
#print axioms Verif.Gerber.C20_scale_violated
#print axioms Verif.Gerber.C21_macro_violated
#print axioms Verif.Gerber.C21_no_units_violated
#print axioms Verif.Gerber.C21_polygon_violated
#print axioms Verif.Gerber.C21_to_inch_partial
#print axioms Verif.Gerber.C21_to_metric_partial
#print axioms Verif.Gerber.C75_empty_violated
#print axioms Verif.Gerber.C75_full_circle_violated
#print axioms Verif.Gerber.C75_hole_violated
#print axioms Verif.Gerber.C75_inner_partial
#print axioms Verif.Gerber.C75_negative_violated
#print axioms Verif.Gerber.C75_obround_line_violated
#print axioms Verif.Gerber.C75_picture_partial
#print axioms Verif.Gerber.C75_polygon_line_violated
#print axioms Verif.Gerber.C75_quadrant_violated
#print axioms Verif.Gerber.C75_quarter_violated
#print axioms Verif.Gerber.C75_round_region_violated
#print axioms Verif.Gerber.C75_step_repeat_violated
#print axioms Verif.Gerber.C75_text_partial
#print axioms Verif.Gerber.C75_top_violated
#print axioms Verif.Gerber.C75_units_violated
#print axioms Verif.Gerber.C76_clear_violated
#print axioms Verif.Gerber.C76_dropped_violated
#print axioms Verif.Gerber.C76_empty_violated
#print axioms Verif.Gerber.C76_hole_violated
#print axioms Verif.Gerber.C76_inner_partial
#print axioms Verif.Gerber.C76_layers_partial
#print axioms Verif.Gerber.C76_line_violated
#print axioms Verif.Gerber.C76_painted
#print axioms Verif.Gerber.C76_painted_text
#print axioms Verif.Gerber.C76_picture
#print axioms Verif.Gerber.C76_text_partial
#print axioms Verif.Gerber.C76_thermal_violated
#print axioms Verif.Gerber.C76_vector_line_violated
#print axioms Verif.Gerber.C79_clear_violated
#print axioms Verif.Gerber.C79_gerber_partial
#print axioms Verif.Gerber.C79_hole_violated
#print axioms Verif.Gerber.C79_text_partial
#print axioms Verif.Gerber.C82_file_partial
#print axioms Verif.Gerber.C82_primitive_partial
#print axioms Verif.Gerber.C83_aperture_violated
#print axioms Verif.Gerber.C83_deprecated_violated
#print axioms Verif.Gerber.C83_format_violated
#print axioms Verif.Gerber.C83_macro_violated
#print axioms Verif.Gerber.C83_picture_partial
#print axioms Verif.Gerber.C83_saved_partial
#print axioms Verif.Gerber.C83_stable_partial
#print axioms Verif.Gerber.C83_text_partial
#print axioms Verif.Gerber.C83_text_stable_partial
#print axioms Verif.Gerber.C83_unknown_violated
#print axioms Verif.Gerber.C85_format_violated
#print axioms Verif.Gerber.C85_inch_partial
#print axioms Verif.Gerber.C85_metric_partial
#print axioms Verif.Gerber.C85_no_units_violated
#print axioms Verif.Gerber.C85_polygon_violated
#print axioms Verif.Gerber.C86_arc_violated
#print axioms Verif.Gerber.C86_format_violated
#print axioms Verif.Gerber.C86_moved_partial
#print axioms Verif.Gerber.C86_origin_violated
#print axioms Verif.Gerber.C90_after_end_violated
#print axioms Verif.Gerber.C90_comment
#print axioms Verif.Gerber.C90_incremental_violated
#print axioms Verif.Gerber.C90_placing_violated
#print axioms Verif.Gerber.C90_spelling
#print axioms Verif.Gerber.C90_words
#print axioms Verif.Gerber.C92_broken_one_partial
#print axioms Verif.Gerber.C92_broken_partial
#print axioms Verif.Gerber.C92_layout
#print axioms Verif.Gerber.C92_macro_settled
#print axioms Verif.Gerber.C92_one_settled
#print axioms Verif.Gerber.C92_own_line_violated
#print axioms Verif.Gerber.C92_space_violated
#print axioms Verif.Gerber.C92_swallowed_violated
#print axioms Verif.Gerber.C94_long_violated
#print axioms Verif.Gerber.C94_order_violated
#print axioms Verif.Gerber.C94_plus_partial
#print axioms Verif.Gerber.C94_point_violated
#print axioms Verif.Gerber.C94_zeros_partial
#print axioms Verif.Gerber.C95_rapid_violated
#print axioms Verif.Gerber.C95_sequence_violated
#print axioms Verif.Gerber.C95_text_partial
#print axioms Verif.Gerber.C95_two_codes_violated
#print axioms Verif.Gerber.C98_loaded
#print axioms Verif.Gerber.C98_names
#print axioms Verif.Gerber.C98_order
#print axioms Verif.Gerber.C98_unused
#print axioms Verif.Ipc.C09_netlist_violated
#print axioms Verif.Ipc.C100_netlist
#print axioms Verif.Ipc.C39_continuation_partial
#print axioms Verif.Ipc.C39_independent_partial
#print axioms Verif.Ipc.C39_space_violated
#print axioms Verif.Ipc.C40_crash_violated
#print axioms Verif.Ipc.C40_heading
#print axioms Verif.Ipc.C40_heading_violated
#print axioms Verif.Ipc.C40_not_heading_partial
#print axioms Verif.Ipc.C54_file_partial
#print axioms Verif.Ipc.C54_last_digit_violated
#print axioms Verif.Ipc.C54_negative_violated
#print axioms Verif.Ipc.C54_optional_end_violated
#print axioms Verif.Ipc.C54_optional_partial
#print axioms Verif.Ipc.C54_radians_violated
#print axioms Verif.Ipc.C54_record_partial
#print axioms Verif.Ipc.C60_file_partial
#print axioms Verif.Ipc.C60_negative_violated
#print axioms Verif.Ipc.C60_type_violated
#print axioms Verif.Ipc.C61_components
#print axioms Verif.Ipc.C61_drawn
#print axioms Verif.Ipc.C61_no_id_violated
#print axioms Verif.Ipc.C61_two_layers_violated
#print axioms Verif.Ipc.C97_after_end_violated
#print axioms Verif.Ipc.C97_conductor_violated
#print axioms Verif.Ipc.C97_late_unit_violated
#print axioms Verif.Ipc.C97_records_partial
#print axioms Verif.Ipc.C97_remark_inside_violated
#print axioms Verif.Ipc.C97_remarks_partial
#print axioms Verif.Layers.C37_from_files
#print axioms Verif.Layers.C37_plain_internal_violated
#print axioms Verif.Layers.C37_sort_layers_partial
#print axioms Verif.Layers.C37_stack_unique
#print axioms Verif.Layers.C38_bottom_view_partial
#print axioms Verif.Layers.C38_copper
#print axioms Verif.Layers.C38_no_bottom_view
#print axioms Verif.Layers.C38_no_view
#print axioms Verif.Layers.C38_outline
#print axioms Verif.Layers.C38_paste_violated
#print axioms Verif.Layers.C38_top_view_partial
#print axioms Verif.Layers.C38_top_view_violated
#print axioms Verif.Layers.C43_case
#print axioms Verif.Layers.C43_classes
#print axioms Verif.Layers.C43_directory
#print axioms Verif.Layers.C43_extension
#print axioms Verif.Layers.C43_first_hint
#print axioms Verif.Layers.C59_bad_file_violated
#print axioms Verif.Layers.C59_directory_partial
#print axioms Verif.Layers.C59_exception
#print axioms Verif.Layers.C59_listing
#print axioms Verif.Layers.C59_path_digits_violated
#print axioms Verif.Layers.C59_unknown_violated
#print axioms Verif.Layers.C80_compare
#print axioms Verif.Layers.C80_congruent
#print axioms Verif.Layers.C80_sort
#print axioms Verif.Layers.C80_sort_error
#print axioms Verif.Layers.C80_sorted
#print axioms Verif.Layers.C80_transitive
#print axioms Verif.Layers.C80_type_error
#print axioms Verif.Load.C44_continuation
#print axioms Verif.Load.C44_first_signature
#print axioms Verif.Load.C44_loads
#print axioms Verif.Load.C44_total
#print axioms Verif.Load.C44_unknown
#print axioms Verif.Macro.C10_actual_values_partial
#print axioms Verif.Macro.C10_compiler_partial
#print axioms Verif.Macro.C10_expression_values_partial
#print axioms Verif.Macro.C10_leading_zero_violated
#print axioms Verif.Macro.C10_modifier_minus_violated
#print axioms Verif.Macro.C10_negated_variable_violated
#print axioms Verif.Macro.C10_negative_definition_violated
#print axioms Verif.Macro.C10_subtraction_violated
#print axioms Verif.Macro.C11_comment_violated
#print axioms Verif.Macro.C11_default_dictionary_violated
#print axioms Verif.Macro.C11_independent
#print axioms Verif.Macro.C11_one_per_primitive
#print axioms Verif.Macro.C11_own_modifiers_partial
#print axioms Verif.Macro.C11_primitives_separate
#print axioms Verif.Operations.C101_inch_partial
#print axioms Verif.Operations.C101_metric_partial
#print axioms Verif.Operations.C101_single_violated
#print axioms Verif.Operations.C78_drill_inch
#print axioms Verif.Operations.C78_drill_metric
#print axioms Verif.Operations.C78_drill_offset
#print axioms Verif.Operations.C78_gerber_violated
#print axioms Verif.Operations.C78_inch_partial
#print axioms Verif.Operations.C78_metric_partial
#print axioms Verif.Operations.C78_netlist_violated
#print axioms Verif.Operations.C78_offset_partial
#print axioms Verif.Operations.C78_stubs_violated
#print axioms Verif.Operations.C78_total_partial
#print axioms Verif.Render.C45_every_theme_violated
#print axioms Verif.Render.C45_exhausted_violated
#print axioms Verif.Render.C45_request_partial
#print axioms Verif.Render.C46_assign_partial
#print axioms Verif.Render.C46_history_partial
#print axioms Verif.Render.C46_nan_violated
#print axioms Verif.Render.C46_stored
#print axioms Verif.Render.C64_again
#print axioms Verif.Render.C64_again_violated
#print axioms Verif.Render.C64_invert
#print axioms Verif.Render.C64_mirror_partial
#print axioms Verif.Render.C64_mirror_violated
#print axioms Verif.Render.C64_opacity
#print axioms Verif.Render.C64_sides
#print axioms Verif.Render.C64_unknown_violated
#print axioms Verif.Render.C64_valid
#print axioms Verif.Rs274x.C22_circle_violated
#print axioms Verif.Rs274x.C22_contour_violated
#print axioms Verif.Rs274x.C22_hole_violated
#print axioms Verif.Rs274x.C22_polarity_violated
#print axioms Verif.Rs274x.C22_polygon_violated
#print axioms Verif.Rs274x.C22_reproduced_partial
#print axioms Verif.Rs274x.C22_roundtrip_partial
#print axioms Verif.Rs274x.C22_text_partial
#print axioms Verif.Rs274x.C22_total
#print axioms Verif.Rs274x.C22_total_used
#print axioms Verif.Rs274x.C23_defined_once
#print axioms Verif.Rs274x.C23_distinct
#print axioms Verif.Rs274x.C23_macros_shared
#print axioms Verif.Rs274x.C23_selected_defined
#print axioms Verif.Rs274x.C23_shared_partial
#print axioms Verif.Rs274x.C23_shared_violated
#print axioms Verif.Rs274x.C69_cleared_violated
#print axioms Verif.Rs274x.C69_file_partial
#print axioms Verif.Rs274x.C69_merged_violated
#print axioms Verif.Rs274x.C69_text
#print axioms Verif.Rs274x.C69_turned_violated
#print axioms Verif.Rs274x.C69_written
#print axioms Verif.Rs274x.C70_file_partial
#print axioms Verif.Rs274x.C70_flash
#print axioms Verif.Rs274x.C70_no_statement_empty
#print axioms Verif.Rs274x.C70_no_statement_violated
#print axioms Verif.Rs274x.C70_two_uses_violated
#print axioms Verif.SettingsFile.C57_incremental_violated
#print axioms Verif.SettingsFile.C57_missing
#print axioms Verif.SettingsFile.C57_settings_partial
#print axioms Verif.Utils.C01_trailing_no_decimals_violated
#print axioms Verif.Utils.C01_trailing_no_integers_violated
#print axioms Verif.Utils.C01_write_parse_double_partial
#print axioms Verif.Utils.C01_write_parse_near_partial
#print axioms Verif.Utils.C01_write_parse_partial
#print axioms Verif.Utils.C02_write_rounds_to_nearest
#print axioms Verif.Utils.C03_write_injective
#print axioms Verif.Utils.C03_write_length
#print axioms Verif.Utils.C03_write_normal_form
#print axioms Verif.Utils.C04_out_of_range_always_corrupted
#print axioms Verif.Utils.C05_parse_bounded
#print axioms Verif.Utils.C05_parse_leading
#print axioms Verif.Utils.C05_parse_sign
#print axioms Verif.Utils.C05_parse_trailing
#print axioms Verif.Utils.C06_parse_rejects_format
#print axioms Verif.Utils.C06_parse_rejects_iff
#print axioms Verif.Utils.C06_write_rejects_iff
