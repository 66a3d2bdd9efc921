# Formal model of pcb-tools (`/repo/gerber`) in Lean 4

`properties.jsonl` lists the claims (C01, C02, ...).  `lean/Verif/` contains the
model and the proofs.  `MANIFEST.json` maps each claim to the theorems about it.
`seeded/LOG.jsonl` records mutation tests of the theorems.

## 1. Trusted base

* Lean's kernel (4.33.0) and Mathlib's definitions used in statements (`Rat`,
  `Real`, `List`, trigonometric functions, `Complex.arg`).
* Axioms: every property theorem depends on at most `propext`,
  `Classical.choice`, `Quot.sound`.  No own axioms, no `sorry`, no
  `native_decide`, no `bv_decide`.  `lean/Verif/Audit.lean` prints them.
* The reading of the Python code.  Nothing ties the model to the code except the
  file/line citations in the doc comment of every model definition.
* Conventions of the model (each is a deliberate simplification):
  * **Text** is `List Char`; a Python `str` is a sequence of code points.
    Python's case folding, `\d`, `\w`, `strip()` are modelled for ASCII.
  * **Numbers.** A Python `float` is modelled by an exact rational (`ℚ`), in
    geometry with angles by a real (`ℝ`).  IEEE rounding of intermediate results,
    overflow, `inf`, `nan` are not modelled.  Where rounding matters to a claim
    (C01) the theorem is additionally stated for an arbitrary perturbation of
    relative size 2^-53.  `%.nf` formatting is modelled exactly (round half even
    on the exact value, which is what C's printf does with a double).
  * **Exceptions** are values (`Except PyErr`); the exception class is kept, the
    message is not.
  * **Mutation.** A method that mutates `self` is a function returning the new
    value.  Aliasing is modelled only where a claim is about it (shared
    apertures, shared default arguments, caches).
  * **Regular expressions** are data of a small syntax (`Verif/Py/Regex.lean`)
    with an ordered-choice (backtracking, greedy) semantics, i.e. the semantics of
    Python's `re` for the constructs the code uses.

## 2. Layout

* `Verif/Py/*` - the parts of Python the code relies on (strings, numbers,
  formatting, regular expressions).
* `Verif/Model/*` - the model, function by function, with citations.
* `Verif/Spec/*` - small independent specifications used in statements.
* `Verif/Lemmas/*` - helper lemmas.
* `Verif/Props/*` - the property theorems, each followed by an `example` showing
  that its hypotheses are met by a concrete non-trivial case.

If the code violates a claim, the negation is proved with a concrete witness
(`..._violated` / `..._counterexample`) and the part that does hold is proved
under explicit hypotheses with suffix `_partial`.

## 3. What is modelled

| model file | code | claims |
|---|---|---|
| `Utils` | `utils.py`: `parse_gerber_value`, `write_gerber_value`, `decimal_string`, `validate_coordinates`-style helpers, `detect_file_format` is in `Load` | C01-C06 |
| `Cam` | `cam.py`: `FileSettings` (all setters), `CamFile.__init__/settings/bounds` | C07, C08, C19 |
| `Prim` | `primitives.py`: all primitive classes as heap objects with cached boxes; `to_inch/to_metric/offset`, setters, bounding boxes | C09, C31-C33, C41, C82 |
| `Angle` | `utils.rotate_point`, `Arc.sweep_angle`, `rs274x._find_center` | C34-C36 |
| `Hull` | `utils.ConvexHull_qh` | C42 |
| `Macro`, `AmPrim` | `am_read.py`, `am_eval.py`, `am_statements.py` (text forms), `AMParamStmt` | C10, C11, C47, C48 |
| `GerberStmt`, `GerberSplit`, `GerberParse` | `gerber_statements.py` (text forms), `_split_commands`, `_parse` with its regular expressions and include files | C12, C13, C17, C92, C94, C95 |
| `GerberEval`, `GerberFile` | `evaluate` and everything it calls; `GerberFile.to_inch/to_metric/offset/write/bounds` | C14-C16, C18, C20, C21, C90, C98, C100, C101 |
| `GerberComments` | `GerberFile.comments` | C102 |
| `Rs274x` | `render/rs274x_backend.py` | C22, C23 |
| `Excellon`, `ExcellonStmt`, `ExcellonTool`, `ToolEquiv` | `excellon.py` (parser, file, hits, format detection), `excellon_statements.py`, `excellon_tool.py` | C24-C30, C53, C55, C56, C91, C93, C96, C99, C100, C101 |
| `SettingsFile` | `excellon_settings.py` | C57 |
| `Directory` | `PCB.from_directory` (pcb.py), `listdir` (utils.py); reading of the files is a parameter | C59 |
| `ExcellonBackend` | `render/excellon_backend.py` (Python 2: hashing and comparing of tools by identity is a parameter) | C58 |
| `ExcellonEdit` | `ExcellonFile.bounding_box/offset/path_length/update_tool`, `DrillHit`, `DrillSlot` | C49-C52 |
| `Ipc`, `IpcLists` | `ipc356.py`: joining of lines, every record type, name substitution, `nets`, `components`, `vias`, `primitives`, which of them are drawn, the lists of records | C39, C40, C54, C60, C61, C97, C100 |
| `Layers`, `LayerGuess` | `layers.py`, `pcb.py` layer views | C37, C38, C43 |
| `LayerOrder` | comparisons of layers (layers.py), `list.sort` of CPython for fewer than 64 elements | C80 |
| `Load` | `common.py`, `utils.detect_file_format` | C44 |
| `GerberSave` | `GerberFile.write` (rs274x.py) of a file that was read, with the primitives that reading has left in its macro statements | C83 |
| `PrimHistory` | `primitives.py`: stored corners and segments, histories of reads and assignments | C31, C77 |
| `Vertices` | `vertices` and `segments` of shapes (primitives.py) | C62 |
| `AmShape` | `to_primitive` of macro primitives (am_statements.py), `AMGroup`, `Outline` | C63 |
| `Theme` | colours, themes and the settings of layers (render/theme.py) | C64 |
| `Cairo` | rendering with cairo (render/cairo_backend.py, `GerberContext.render` in render/render.py); ideal effects of cairo calls as sets of points, areas of general paths are parameters, with the hypothesis `Engine.Winding` (closed paths of lines and arcs are filled by the winding rule: `enclosed` of Spec/Winding, the points on the arcs and those that all fine enough inscribed polygons go around; `C68_convex` derives `Engine.Convex`, filling of convex polygons, from it) and `Engine.SquareCaps` (strokes of arcs with square caps) where used | C65, C66, C67, C68 |
| `Equiv` | `equivalent` of shapes and groups (primitives.py), `nearly_equal` (utils.py), `_hash_amacro` and `_get_amacro` (render/rs274x_backend.py); `str(x)[0:2]` is a parameter | C69 |
| `GroupWrite` | `AMGroupContext` (render/rs274x_backend.py) and `from_primitive` (am_statements.py); `math.degrees` is a parameter | C70, C81 |
| `Report` | `ExcellonFile.report` (excellon.py); `{:f}` of floats rounds the exact number half to even | C71 |
| `Main` | `main` (`__main__.py`) after the parsing of options; reading and drawing files are those of the other modules | C72 |
| `DrillPicture` | `CamFile.render` (cam.py), `ExcellonFile.primitives`; colors of the context as created | C74 |
| `GerberPicture` | `CamFile.render` (cam.py), `GerberFile.bounding_box`, the primitives made by `GerberParser` as the renderer sees them; the parts of macros are a parameter | C75 |
| `MacroPicture` | `AMGroup` (primitives.py) on pictures: its parts, their place and polarity, and the interpreter with macros | C76 |
| `Operations` | `operations.py` and `copy.deepcopy` as far as files need it; statements are values | C78 |
| `Render` | `render/render.py` settings, `render/theme.py` | C45, C46 |
| `AmUnits` | `to_inch`/`to_metric` of the macro primitive classes (am_statements.py) and of `AMParamStmt` | C84 |
| `GerberConvert` | `GerberFile.to_metric`/`to_inch`/`offset` followed by `write` (rs274x.py:149-177) | C85, C86 |
| `DrillOptimize` | examples/excellon_optimize.py; the solver is any function of the hole positions | C87 |
| `Corners` | `Line.angle`, `lower_left`, `upper_right` (primitives.py) | C88 |
| `DrillBounds` | `ExcellonParser.coordinates`, `bounds` (excellon.py) | C89 |

Abstracted inside these: the geometry of macro apertures is an arbitrary type `G`
with an arbitrary builder in `GerberEval`/`Rs274x` (`AmPrim` has the real text
level builder); the arc centre of the interpreter is an arbitrary function in C14-C18
(the real one is C36); file systems are arbitrary functions from names to texts.

Not modelled at all: pixels and antialiasing of cairo (only the areas its calls paint),
reading files from disk, command line parsing, printing to the console,
`__str__`/`__repr__`.

## 4. Where the code disagrees with the claims

Each of these is proved (theorem in parentheses); the claim is then kept as a
`_partial` theorem under the hypotheses that exclude it.

* For formats without decimal digits in trailing mode: in 2:0 format the value 1 is written `001`, which reads as 0.1. (`C01_trailing_no_decimals_violated`)
* For formats without integer digits in trailing mode: in 0:5 format 0.5 is written `05`, which reads as 0.05. (`C01_trailing_no_integers_violated`)
* For the mode without zero suppression (produced by an `FS` statement that names neither `L` nor `T`, and by assigning the attribute): the file reports `leading`. (`C08_none_suppression_violated`)
* For radians: the file reports degrees. (`C08_radians_violated`)
* For a line in millimetres whose aperture is in inches: to inch and back leaves the aperture in millimetres. (`C09_mixed_violated`)
* For a region with a single part: `to_inch` leaves the part in millimetres. (`C09_single_violated`)
* Netlists: `to_inch` and `to_metric` do nothing. (`C09_netlist_violated`)
* A number with a leading zero counts as two modifiers. (`C10_leading_zero_violated`)
* A minus sign anywhere in a modifier that does not start with one is taken as a sign: `1,$1-$2` is a primitive with two modifiers. (`C10_modifier_minus_violated`)
* The sign of `-$1` is dropped, or moves to a later number: `1,-$1,2` is read as `1,$1,-2`. (`C10_negated_variable_violated`)
* A definition that starts with a minus sign fails with an `IndexError`. (`C10_negative_definition_violated`)
* `SUB` pushes `op2 - op2`: with `$1=5`, `$2=3` the definition `$3=$1-$2` gives 0, not 2. (`C10_subtraction_violated`)
* A comment with an equals sign is taken for a definition, and what it leaves on the stack becomes a modifier of the next primitive: here the circle gets a modifier 0 in front. (`C11_comment_violated`)
* Called without modifiers, an evaluation sees the variables defined by earlier ones. (`C11_default_dictionary_violated`)
* A text without line break at the end can lose its last command: the tail is dropped. (`C12_tail_dropped_violated`)
* Selecting aperture 1 is read back as a draw operation. (`C13_aperture_one_violated`)
* Aperture sizes with more than four significant digits are rounded when written. (`C13_aperture_size_violated`)
* A macro aperture without parameters whose macro name begins with `C` makes the parser fail (read as a circle with a malformed diameter). (`C13_macro_name_violated`)
* A scale factor is not read back: the `SF` expression captures no factors. (`C13_scale_factor_violated`)
* A small offset loses its exponent when written: the value written is about 10000 times too large. (`C13_small_offset_violated`)
* A flash inside a region is drawn. (`C16_flash_violated`)
* A contour with one segment is lost if a move follows: the segment from (0, 0) to (1, 0) is drawn nowhere. (`C16_single_segment_violated`)
* `offset` moves the centre offsets I and J of an arc as if they were positions, so the centre is displaced by twice the offset. (`C20_arc_violated`)
* A line from the default start position keeps its start. (`C20_origin_violated`)
* A macro with a circle of diameter 0.5: the text that is interpreted, and so the diameter, is the same after conversion to millimetres. (`C21_macro_violated`; the text that is *written* comes from the converted primitives, see C84.)
* A file without a units statement is in inch by default; after conversion it still has no units statement, so its millimetres are read as inches. (`C21_no_units_violated`)
* A hexagon becomes a polygon with 152 sides, rotated by 762 instead of 30 degrees. (`C21_polygon_violated`)
* With `explicit_region_move_end`, a region bounded by one full circle disappears. (`C22_circle_violated`)
* If the edges of a region are not contiguous, the move between them ends the contour, and a contour of one edge is dropped. (`C22_contour_violated`)
* A rectangle with a hole loses the hole when drawn with. (`C22_hole_violated`)
* A region whose edges have another polarity takes on theirs. (`C22_polarity_violated`)
* Drawing with a polygon is refused. (`C22_polygon_violated`)
* A rectangle that is flashed and drawn with is defined twice, since the hole attributes are zero in one key and `None` in the other. (`C23_shared_violated`)
* For a slot cut by a coordinate without `G01`: two slots are made, one is counted. (`C25_bare_cut_violated`)
* If a number is defined again after use: the hole made with the first tool 1 is reported for no tool. (`C25_redefined_violated`)
* In the header, where the parser drills holes but ignores repeat commands. (`C26_header_violated`)
* Without an active tool: `AttributeError`. (`C26_no_tool_violated`)
* A hole at (1, 2) inch is at (1, 2) millimetres after `to_metric`; only the tool is converted. (`C27_positions_violated`)
* For the diameter of a tool that is defined before the unit is given: it counts as inch, so that `to_inch` of the metric file keeps its value. (`C27_tool_before_unit_violated`)
* A header without an end: the tool selection is read as a definition, and the holes are written twice. (`C28_header_not_ended_violated`)
* Without a tool selection everything is taken for the header: the holes are written twice. (`C28_no_selection_violated`)
* Files with slots cannot be written. (`C28_slot_violated`)
* A comment beginning with a semicolon loses it. (`C29_comment_violated`)
* The coordinates at the end of the program are written without regard to the settings, and negative ones are not read. (`C29_end_violated`)
* The empty list cannot be read. (`C29_link_empty_violated`)
* A step of zero is not written and read as missing. (`C29_repeat_zero_violated`)
* A routing move is written in two lines, the command and the command with coordinates; reading them back fails. (`C29_rout_lines_violated`)
* The commands `G00` and `G01` on a line of their own are not kept. (`C29_route_mode_violated`)
* Spindle speeds from 100000 rpm are written without decimals and read as something else. (`C29_rpm_violated`)
* An end coordinate that is missing is read as the start's. (`C29_slot_end_violated`)
* Tool numbers of four digits are read as tool and compensation; numbers of three digits with compensation are cut after two. (`C29_tool_selection_violated`)
* The number format of a unit statement is not written. (`C29_unit_format_violated`)
* A line whose aperture is assigned after its box was read; and a line sharing its aperture with another one that is converted. (`C31_aperture_violated`)
* Butterflies and donuts: a position or size assigned after the box was read. (`C31_plain_violated`)
* A region (0) one of whose lines (1) is moved after the box of the region was read. (`C31_region_violated`)
* A slot: moved after its box was read. (`C31_slot_violated`)
* For lines drawn with a polygon: there is no box, since a polygon has no `width`. (`C32_line_polygon_violated`)
* A rectangle as the aperture of a line: turned by 90 degrees, a point at its far end is outside the line's box, which is computed as if it were not turned. (`C32_line_rotated_violated`)
* Turned by 180 degrees the box is inside out: it contains no point at all. (`C32_rotated_violated`)
* Square butterflies and square donuts: the box ignores the rotation. (`C32_square_rotated_violated`)
* The arc of 90 degrees from -45 to 45 degrees on the unit circle: its rightmost point (1, 0) is not in the box. (`C32_single_quadrant_violated`)
* A slot's box stays where it was if it was read before the move. (`C33_slot_violated`)
* A counterclockwise arc from the direction of the negative y axis to that of the positive x axis is a quarter turn; the code computes three quarters. (`C35_ccw_violated`)
* A counterclockwise quarter turn around the origin, from 315 to 45 degrees: the code takes the mirrored centre, around which the arc travels three quarters of a turn. (`C36_ccw_violated`)
* The counterclockwise quarter from (0, -1) to (1, 0) around the origin, the lower right corner of a rounded rectangle: the code takes the centre (0, -2), whose distances from the ends differ, since the angle of the end is 0 and not 360 degrees. (`C36_quarter_violated`, `C75_quarter_violated`)
* For two layers of class `internal` that were not made as `InternalLayer`: `sorted` raises `TypeError`. (`C37_plain_internal_violated`)
* The paste layers are on a side of the board but in neither view. (`C38_paste_violated`)
* For boards without a layer on the top side. (`C38_top_view_violated`)
* When a piece that is followed by another one ends in a space: the space is lost. (`C39_space_violated`)
* A net that heads a record and is named again makes `nets` raise `AttributeError`. (`C40_crash_violated`)
* A net that heads a record is reported without adjacent nets. (`C40_heading_violated`)
* For points on one line, unless it is vertical: the hull has no vertices at all. (`C42_collinear_violated`)
* No theme at all gives a colour for every internal layer. (`C45_every_theme_violated`)
* The ninth request to the default theme raises `StopIteration`. (`C45_exhausted_violated`)
* For the float `nan`, which is neither below 0 nor above 1: it is accepted. (`C46_nan_violated`)
* A used macro without primitives is written as `%AMname*%`, which is not read as a macro: the aperture definition then fails. (`C47_empty_violated`)
* Small numbers are written with an exponent, which macros cannot contain. (`C47_exponent_violated`)
* Positions of polygons are written with four digits. (`C47_rounded_violated`)
* A macro used by two apertures with different modifiers is written with the values of the last use: the first aperture gets the size of the second. (`C47_two_uses_violated`)
* A primitive of unknown code is written without its star, so that it swallows the next one. (`C47_unknown_code_violated`)
* Moving a drill file in incremental notation: the offset is added to every step. (`C49_incremental_violated`)
* Moving a drill file whose first coordinates are left to the origin: the statement without `Y` cannot be moved. (`C49_origin_violated`)
* A `G85` slot that leaves out a coordinate cannot be moved at all. (`C49_slot_violated`)
* A drill file without hits has a box that is inside out. (`C50_empty_violated`)
* A tool whose diameter the file does not give: the bounding box raises `TypeError`. (`C50_no_diameter_violated`)
* A drill file with a slot has no path lengths: a `DrillSlot` has no `position`. (`C51_slot_violated`)
* A unit line of a drill file that names no zero mode resets it to trailing. (`C53_units_only_violated`, `C53_units_only_file_violated`)
* In a test record without a dash in column 27, the sign of a negative coordinate is taken for the dash: all columns move. (`C54_negative_violated`)
* While angles are radians, a rotation in a test record raises `TypeError`. (`C54_radians_violated`)
* A test record that ends with its second coordinate loses the last digit of it. (`C54_last_digit_violated`)
* Optional columns at the end of a test record lose their last character. (`C54_optional_end_violated`)
* The letters `P` and `N` of rows of tool tables are not recognised: the plating of the tools stays unknown. (`C55_table_plating_violated`)
* A tool size written as a fraction is matched by the pattern but raises `ValueError`. (`C55_fraction_violated`)
* A line of six words after the table makes a tool report raise `ValueError`. (`C56_other_line_violated`)
* A settings file with incremental coordinates is rejected: the code calls them `relative`, which is not a notation. (`C57_incremental_violated`)
* The Excellon backend reads an attribute `hit` that `Drill` and `Slot` do not have: nothing can be rendered with it. (`C58_no_hit_violated`)
* Tools define `__eq__` without `__hash__`; in Python 3 they cannot be put into the set the Excellon backend keeps, so every rendering raises. (`C58_python3_violated`)
* A second hole at the same point (with another tool) becomes an empty line in the rendered program and is lost. (`C58_same_point_violated`)
* A routed slot of length zero becomes a bare `G01` that swallows the next line. (`C58_round_slot_violated`)
* One file in a directory that raises anything but `ParseError` and `IOError` (a picture: `UnicodeDecodeError`) makes the whole board fail. (`C59_bad_file_violated`)
* Layers of unknown class and netlists in a directory are not in the board. (`C59_unknown_violated`)
* Inner layers are ordered by the first digits anywhere in the path, so digits in the name of the directory destroy the order. (`C59_path_digits_violated`)
* Negative coordinates in outlines and conductors of netlists are read as the previous coordinate, at first 0: the expression has no sign. (`C60_negative_violated`)
* The second word of the type of an outline counts as a point. (`C60_type_violated`)
* Access code 2, the other side of a board with two layers, is named `layer2`, and such test points are drawn for no side. (`C61_two_layers_violated`)
* A test point without identification gives a component with the empty name. (`C61_no_id_violated`)
* The corners of rectangles, diamonds and chamfered rectangles are turned about the origin of the drawing, not about the centre of the shape: wrong for every turned shape that is elsewhere. (`C62_rectangle_iff`, `C62_diamond_iff`, `C62_chamfer_iff`)
* The corners of chamfered rectangles do not run around the shape. (`C62_chamfer_order_violated`)
* Lines drawn with a turned rectangle have the corners of the unturned one. (`C62_line_rotated_violated`)
* Lines drawn with a rectangle of width or height 0 along an axis: the hull raises or is empty. (`C62_line_thin_violated`)
* Lines drawn with a polygon have no corners. (`C62_line_polygon_violated`)
* The segments of a shape with four corners or more include its diagonals. (`C62_segments_violated`)
* Vector lines of macros fill more than the described rectangle: they extend beyond their ends, and are thicker if slanted. (`C63_vector_line_violated`)
* Vector lines of width 0 raise. (`C63_vector_line_thin_violated`)
* Polygons and thermals of macros are turned about their own centre, not about the origin of the macro. (`C63_polygon_iff`, `C63_thermal_place_iff`)
* The lines made for centre lines and thermals all start at one corner: `prev_point` is never advanced (also for vector lines). (`C63_center_line_chain_violated`, `C63_thermal_chain_violated`)
* Thermals with inner diameter 0 raise `ZeroDivisionError`, with gaps wider than the hole `ValueError`. (`C63_thermal_hole_violated`, `C63_thermal_gap_violated`)
* Moires and lower-left lines are not drawn. (`C63_nothing_violated`)
* One primitive of a macro that raises leaves the whole macro without shape. (`C63_group_violated`)
* The bottom mask of theme Blue and the bottom copper of both transparent themes are not mirrored, though their silkscreen is. (`C64_mirror_violated`)
* Layer classes without an entry, such as pastes and outlines, get black settings that are never mirrored. (`C64_unknown_violated`)
* Internal layers use up the theme: rendering again gives other colours, and after eight of them `StopIteration`. (`C64_again_violated`)
* `render_layers` computes the range of all layers but shows only the bounds of the first; the rest is cut off. (`C65_whole_violated`)
* Boards larger than the picture in their units get scale 0. (`C65_scale_violated`)
* Layers without width or height raise `ZeroDivisionError`; a first layer without bounds raises, whatever follows. (`C65_flat_violated`, `C65_no_bounds_violated`)
* The upper limit of the clipping rectangle is rounded down: upper edges are cut off, and primitives between two rows of pixels are not drawn. (`C66_clip_violated`, `C66_thin_violated`)
* Clear primitives remove from inverted layers as dark ones do, so these are not the complement. (`C67_complement_violated`)
* Clear parts of macros remove what was painted before the macro. (`C67_group_violated`)
* Lines of width 0 are not drawn, arcs of width 0 are. (`C68_line_violated`)
* Turned rectangles are drawn upright and displaced; the rotation of obrounds is ignored. (`C68_rectangle_violated`, `C68_obround_violated`)
* Round holes of clear rectangles, and of all rectangles on inverted layers, are drawn instead of left out. (`C68_hole_violated`)
* Clockwise whole circles in multi-quadrant mode are drawn as dots. (`C68_full_circle_violated`)
* Test points are displaced by the origin of the picture. (`C68_test_record_violated`)
* Rectangular holes of clear circles, and of all circles on inverted layers, are added instead of left out. (`C68_rect_hole_violated`)
* Regions without any line raise. (`C68_region_violated`)
* Comparing macro groups ignores polarity: a group with a cleared part is written as the one with a dark part. (`C69_polarity_violated`, `C69_cleared_violated`)
* It ignores the rotation of polygons too: squares turned by different angles are written as the same. (`C69_rotation_violated`, `C69_squares_violated`, `C69_turned_violated`)
* Of the holes of circles only the diameter is compared, so rectangular holes get lost. (`C69_hole_violated`, `C69_square_hole_violated`)
* Shapes without `equivalent` make the comparison raise. (`C69_class_violated`)
* Being taken for the same is not transitive, so the written macro depends on the order of the primitives. (`C69_chain_violated`)
* Groups that differ can get the same hash. (`C69_names_violated`)
* A group is written with the shapes of the last use of its macro: a flash of the first of two apertures comes back as one of the second. (`C70_two_uses_violated`)
* The macro of a group without a statement is written empty, and the file cannot be read. (`C70_no_statement_empty`, `C70_no_statement_violated`)
* A drill report leaves out the data mode of incremental files and the units of metric files: the conditional expression takes the whole line. (`C71_info_violated`)
* A drill file with a tool that makes no hole has no report (`TypeError`), nor has one with a slot. (`C71_unused_violated`, `C71_slot_violated`)
* The command line program draws no holes on the copper picture of a board without an outline. (`C72_copper_violated`)
* It writes no picture at all (`IndexError`) if one of the sides has no layer. (`C72_one_side_violated`)
* With more than six internal layers the copper picture raises `StopIteration`. (`C72_many_violated`)
* Single files are drawn with 300 pixels per unit, `--width` and `--height` are ignored, and the background is that of the theme `default`. (`C72_files_size_violated`, `C72_files_background_violated`)
* A drill file that selects a tool that nobody defined is accepted: the hole is made with a size computed from the
  number of the tool. (`C73_undefined_tool_violated`)
* `M00` without a tool with the next number leaves no tool in the spindle, and the next hole is made with tool 1.
  (`C73_no_next_tool_violated`)
* The topmost points of a hole or slot are not painted when its top is not on a row of pixels. (`C74_top_violated`)
* Slots with a missing coordinate are read but cannot be drawn (`TypeError`). (`C74_slot_violated`)
* The picture of a drill file without hits has 6 · 10¹³ pixels in both directions. (`C74_empty_violated`)
* The renderer ignores units: the same hole in inches and in millimetres has pictures of different sizes.
  (`C74_units_violated`)
* The topmost points of a flash are not painted when its top is not on a row of pixels. (`C75_top_violated`)
* Lines drawn with obround apertures are missing from the picture. (`C75_obround_line_violated`)
* A file with a line drawn with a polygon cannot be rendered (`AttributeError`). (`C75_polygon_line_violated`)
* A clear rectangle with a hole also removes what is in the hole. (`C75_hole_violated`)
* A whole circle drawn clockwise is only a dot on the picture. (`C75_full_circle_violated`)
* Arcs crossing an axis in single-quadrant mode are cut off on the picture at the box of their ends. (`C75_quadrant_violated`)
* The picture of a Gerber file without primitives has 6 · 10⁸ pixels in both directions. (`C75_empty_violated`)
* `%SR` statements do not change the picture. (`C75_step_repeat_violated`)
* `%IPNEG` does not change the picture. (`C75_negative_violated`)
* A macro flashed with clear polarity is painted dark, since only the group gets the polarity and only the parts are
  drawn. (`C76_clear_violated`)
* A part of a macro with exposure off erases what other primitives drew there before. (`C76_hole_violated`)
* Lower left lines and moire patterns of macros are not drawn. (`C76_dropped_violated`)  A file with a macro made only
  of them cannot be drawn. (`C76_empty_violated`)
* A file with a line drawn with a macro aperture cannot be drawn. (`C76_line_violated`)
* Vector lines of macros are painted beyond their ends. (`C76_vector_line_violated`)
* Points of thermals near the outer circle are never painted: edges are straight. (`C76_thermal_violated`)
* A Gerber file in millimetres gives a picture 25.4 times as large as the same board in inches. (`C75_units_violated`)
* Segments of a polygon stored before its number of sides is assigned stay. (`C77_sides_violated`)
* Corners of a line stored before its aperture is changed stay. (`C77_aperture_violated`)
* Corners of an outline can not be read: AttributeError. (`C77_outline_violated`)
* A region that is bounded by one whole circle is not filled: only the point where the circle begins is, because the
  second angle given to cairo equals the first. (`C68_circle_violated`, `C75_round_region_violated`)
* Operations on copies never succeed for Gerber files that were read: their attribute `apertures` is a view of a
  dictionary, and `copy.deepcopy` raises TypeError for it. (`C78_gerber_violated`)
* `scale` and `rotate` of operations.py do nothing and return None. (`C78_stubs_violated`)
* Netlists are not converted by `to_inch` and `to_metric`, and have no `offset`: AttributeError. (`C78_netlist_violated`)
* Inverted pictures are not negatives: what a clear primitive removes, and the holes of rectangles, are painted neither in
  the picture nor in the inverted one. (`C79_clear_violated`, `C79_hole_violated`)
* Macro primitives made of objects (`from_primitive`) do not look like them if the object is a turned rectangle (its
  rotation, in degrees, goes through `math.degrees`), a polygon turned beside the origin (macro primitives are turned
  about the origin), a line drawn with a rectangle (the ends are cut off), or clear (the exposure is always on).
  (`C81_rectangle_violated`, `C81_polygon_violated`, `C81_line_violated`, `C81_clear_violated`)
* Clear apertures and apertures on inverted layers: holes are drawn instead of being left out (both holes of rectangles and polygons, rectangular holes of circles, on inverted layers those of obrounds). (`C68_holes_violated`)

* The box of a regular polygon is that of the circle through its corners, which is too large unless the number of corners
  is a multiple of four (or the polygon is turned suitably). (`C82_polygon_iff`)
* Rotated obrounds and diamonds get the box of the rotated rectangle around them, which is too large.
  (`C82_obround_violated`, `C82_diamond_violated`)
* The box of an arc drawn with a rectangle or an obround has margins of the whole width and height of the aperture instead
  of half of them. (`C82_arc_rectangle_violated`)
* Reading, writing and reading again changes pictures: sizes of apertures are rounded to four digits
  (`C83_aperture_violated`), all coordinates are written in the format the file ends with
  (`C83_format_violated`), and of a macro used with different modifiers only the last use is written
  (`C83_macro_violated`); diameters of drills are cut to the decimals of the
  coordinates (`C83_diameter_violated`).  Before the first parameter in per cent signs a line is one
  command: what follows `G90*` in it is written twice (`C83_deprecated_violated`), what follows an unknown
  command is skipped at first and drawn from the saved file (`C83_unknown_violated`).
* A macro's hexagon at x = 0.1255 inch, written exactly before, is written at 3.188 mm instead of 3.1877 after conversion: positions are printed with 4 digits. (`C84_rounded_violated`)
* Macro primitives of unknown code keep their text when the file is converted, and so the lengths in the old units. (`C84_unknown_code_violated`)
* After conversion the number format is kept: 5 inch in 2.4 format are 127 mm, written as `X1270000` and read back as 12.7 mm; 0.0001 inch are read back as 0.0025 mm. (`C85_format_violated`)
* A file without a units statement has none after conversion either, and its millimetres are read as inch. (`C85_no_units_violated`)
* A hexagonal aperture of a converted and saved file has 152 sides. (`C85_polygon_violated`)
* Arcs drawn with a rectangular aperture are stroked with the larger of its sides as width, and with caps in the direction of the arc: an aperture 1 wide and 0.2 high paints up to 0.5 above a half circle, and the corners of a square aperture are missing between the ends. (`C68_square_arc_violated`)
* After moving, saving and reading a Gerber file again, the centre of an arc has moved by twice the offset, and a line that was drawn from the default position still starts at the origin. (`C86_arc_violated`, `C86_origin_violated`)
* Offsets that do not fit the number format of the file are lost or cut when it is saved: moved by 127 inch in 2.4 format, a pad is read back at 12.7 inch; a hole moved by 100 mm from 1 mm is read back at 10.1 mm. (`C86_format_violated`, `C86_drill_format_violated`)
* examples/excellon_optimize.py raises AttributeError for files with slots. (`C87_slot_violated`)
* The same script loses holes of tools defined again after use, and drills others with the wrong diameter: it takes the
  count of the new tool for the number of positions under that tool number. (`C87_redefined_violated`)
* The lower left corner of a rectangle turned by half a turn is its upper right one. (`C88_rotated_violated`)
* A donut moved by assigning a position keeps the box it had, although its corners move. (`C88_moved_violated`)
* Moving a Gerber file moves its scale factors as if they were positions. (`C20_scale_violated`)
* The bounds the parser of drill files reports take incremental distances for positions. (`C89_incremental_violated`)
* These bounds leave out holes made by a repeat command. (`C89_repeat_violated`)
* These bounds leave out slots. (`C89_slot_violated`)
* These bounds leave out the 0 of an axis the first coordinates omit. (`C89_omitted_violated`)
* Of a file without coordinates these bounds are the numbers the search begins with, upside down. (`C89_empty_violated`)
* What follows the end of a Gerber file (`M02`) is drawn. (`C90_after_end_violated`)
* Incremental coordinates of Gerber files, by `G91` or by the format statement, are taken as absolute. (`C90_incremental_violated`)
* Axis selection, image rotation, mirror, offset and scale factor of Gerber files change nothing. (`C90_placing_violated`)
* A comment between a bare `G01` and its coordinates makes a drill file unreadable: ValueError. (`C91_waiting_violated`)
* Holes after the end of a drill program (`M30`) are drilled. (`C91_after_end_violated`)
* Before the first parameter a space between two blocks on one line turns the second block into an
  unknown statement. (`C92_space_violated`)
* If the closing `%` of a parameter stands on a line of its own and the rest of the file follows
  directly without a final line break, the parameter and everything behind it are lost.
  (`C92_own_line_violated`)
* After a parameter that ends with an empty block or a comment (`%LPD**%`, `%LPD*G04 dark*%`) all
  blocks up to the next parameter disappear. (`C92_swallowed_violated`)
* A tool number of four digits selects no tool: `T0002` is read as tool 0 with compensation index 2, and the holes after it
  are drilled with the tool before. (`C93_four_digits_violated`)
* A space between the coordinates of a drill line counts as a digit: `X10 Y20` is ten times as far out as `X10Y20`.
  (`C93_space_violated`)
* A drill line with `Y` before `X` can not be read: ValueError. (`C93_order_violated`)
* With leading zeros left out, a zero in front of the full number of digits divides the coordinate by ten.
  (`C93_long_violated`)
* A Gerber coordinate block with `Y` before `X` is not read as coordinates but becomes an unknown
  statement. (`C94_order_violated`)
* `parse_gerber_value` reads numbers with a decimal point, but the expression of coordinate blocks does
  not let them through: such a block becomes an unknown statement. (`C94_point_violated`)
* A Gerber number with more leading zeros than the format has digits is read as another value.
  (`C94_long_violated`)
* A block with function codes of several kinds (`G75G01X10000Y20000D03*`) is read as an unknown statement and lost, although
  the same codes in blocks of their own are read. (`C95_two_codes_violated`)
* The code `G00` is not known to the coordinate expression, so that a move written with it is lost and the next line begins at
  the wrong place. (`C95_rapid_violated`)
* A block with a sequence number (`N10G01X10000Y20000D03*`) is lost. (`C95_sequence_violated`)
* `ExcellonTool.from_tool` makes a tool without settings: comparing it with its original, or writing it without giving
  settings, is an AttributeError. (`C96_copy_violated`)
* `ExcellonTool.equivalent` compares diameters as numbers and then the units: a tool of 1 inch and one of 25.4 mm are different
  until both are converted. (`C96_units_violated`)
* Conductor records of a netlist are in none of its lists and show up nowhere. (`C97_conductor_violated`)
* A `UNITS` parameter behind test records becomes the unit of the netlist although the records were read in inches.
  (`C97_late_unit_violated`)
* Netlist lines behind `999` are read. (`C97_after_end_violated`)
* A remark between a netlist line and its continuation takes the continuation. (`C97_remark_inside_violated`)
* C99: the diameter of a drill tool that is selected but never defined depends on its number. (`C99_undefined_violated`)
* C99: a file that drills before it selects a tool drills with the tool of the number 1. (`C99_first_violated`)
* C99: `M00` selects the tool with the next number; if there is none, the next hole is drilled with tool 1. (`C99_next_violated`)
* Moving by 254 mm and converting to inch is not converting and moving by 10 inch for a region with a single line: the line
  moves with its region but is not converted with it. (`C101_single_violated`)
* The same for the holes of every drill file, which `to_inch` and `to_metric` leave unconverted while its statements are
  converted. (`C101_holes_violated`)
* A per cent sign in a comment before the first parameter ends the comment, and what follows the sign is obeyed.
  (`C102_percent_violated`)
* The second line of a comment is obeyed as a command. (`C102_lines_violated`)

Further disagreements noticed while modelling (visible in the model, no theorem
of their own):

* Layer hints: the names for inner planes are `gp1` to `gp4`, `gt5` (probably
  meant to be `gp5`), `gp6`; the extensions `.gp1` to `.gp6` are not known.
* Gerber: `%MIA1*%` and `%OFA1*%` raise `TypeError`; `SF` factors are discarded;
  a macro aperture whose name starts with `C`, `R`, `O`, `P` can be taken for a
  standard aperture; macro names of one character are not matched; a comment
  containing `%` before the first parameter is split; `DeprecatedStmt` keeps the
  whole rest of the line; standard apertures without modifiers are unknown
  statements; arcs inside regions reset the interpolation mode to linear on the
  written side; comments
  in macros gain a leading comma each time the macro is built.
* Excellon: `G85` slots in incremental mode use raw coordinates; `tools.keys()[0]`
  is a `TypeError` in Python 3; a rout slot by a bare coordinate is not counted;
  format detection raises `ValueError` if no candidate survives.
* IPC-356: short lines lose their last character; negative coordinates of outlines
  are ignored; rotation in radians raises `TypeError`; `to_inch`/`to_metric` do
  nothing.
* Layers: unknown and netlist layers are dropped by sorting; the order of an
  internal layer comes from the first digits anywhere in the path.
