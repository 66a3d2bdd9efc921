{"id": "C01", "title": "Coordinate numbers survive write then parse", "statement": "Writing a value with write_gerber_value and reading the text back with parse_gerber_value under the same format and zero-suppression mode gives the same value, whenever the value is a multiple of 10^-decimals and below 10^integers in magnitude. The same holds when the float handed in differs from the decimal value by double-precision rounding error.", "quantifier": "every accepted format (integers, decimals), both zero-suppression modes, every representable value of either sign", "why_tests_cant": "There are 8*7 formats, two modes and up to 2*10^13 values each; sample tests miss the degenerate formats (0 integer or 0 decimal digits) and particular digit patterns.", "anchors": ["gerber/utils.py:write_gerber_value", "gerber/utils.py:parse_gerber_value"]}
{"id": "C02", "title": "Writing rounds to the nearest representable coordinate", "statement": "The value read back from a written coordinate differs from the original by at most half of the last decimal place, for arbitrary (not just representable) values that fit the format after rounding.", "quantifier": "every rational value (hence every finite float), every accepted format with at least one integer and one decimal digit, both modes", "why_tests_cant": "The set of values is infinite; ties and carries into a new digit are exactly the cases samples miss.", "anchors": ["gerber/utils.py:write_gerber_value", "gerber/utils.py:parse_gerber_value"]}
{"id": "C03", "title": "Written coordinates are in zero-suppressed normal form", "statement": "The text produced by write_gerber_value is an optional '-' followed by one or more digits, at most integers+decimals of them for in-range values; unless it is '0' it has no leading zero in leading-suppression mode and no trailing zero in trailing-suppression mode. Two in-range representable values give the same text only if they are equal.", "quantifier": "every format, mode and value", "why_tests_cant": "Injectivity and normal form are statements about all pairs of values.", "anchors": ["gerber/utils.py:write_gerber_value"]}
{"id": "C04", "title": "Out-of-range coordinates are not silently corrupted", "statement": "Writing a value that does not fit the coordinate format either raises or yields text that reads back as that value.", "quantifier": "every value and format", "why_tests_cant": "The claim is universal over out-of-range values; passing samples cannot establish it.", "anchors": ["gerber/utils.py:write_gerber_value"]}
{"id": "C05", "title": "Meaning of a coordinate digit string", "statement": "A digit string s of length at most integers+decimals reads as int(s)*10^-decimals in leading-suppression mode and as int(s)*10^(integers-len(s)) in trailing-suppression mode; a leading '-' negates, a leading '+' is ignored; the magnitude of any such value is below 10^integers (hence below 10^6), even for over-long digit strings.", "quantifier": "every digit string, sign, accepted format and mode", "why_tests_cant": "The domain is all strings.", "anchors": ["gerber/utils.py:parse_gerber_value"]}
{"id": "C06", "title": "Coordinate formats are validated identically when reading and writing", "statement": "write_gerber_value raises ValueError exactly when integers>6 or decimals>7 or integers+decimals>13, and parse_gerber_value does the same for every text without a decimal point; for accepted formats every signed digit string parses and every value can be written.", "quantifier": "every pair of natural numbers as format, every digit string, every value", "why_tests_cant": "Requires totality on all inputs.", "anchors": ["gerber/utils.py:write_gerber_value", "gerber/utils.py:parse_gerber_value"]}
{"id": "C07", "title": "Zero-suppression settings never contradict each other", "statement": "For a FileSettings object, zeros and zero_suppression are always 'leading'/'trailing' opposites and units, notation, angle_units stay in their documented sets, whatever sequence of item assignments, attribute assignments of documented values, and rejected assignments is performed; a rejected assignment changes nothing.", "quantifier": "every constructor argument combination and every finite history of assignments", "why_tests_cant": "The set of histories is infinite.", "anchors": ["gerber/cam.py:FileSettings"]}
{"id": "C08", "title": "A CAM file reports the settings it was built with", "statement": "The settings of a CamFile built from a FileSettings equal that FileSettings (units, notation, format, zero suppression).", "quantifier": "every FileSettings value that the constructor or the FS statement can produce", "why_tests_cant": "Universal over settings; violated for the no-suppression mode.", "anchors": ["gerber/cam.py:CamFile", "gerber/cam.py:FileSettings"]}
{"id": "C09", "title": "Unit conversion is reversible and idempotent", "statement": "Converting a statement, tool, primitive or file to inch and back to metric (or the reverse) restores every dimension; converting twice to the same unit equals converting once; an aperture shared by many primitives is converted once.", "quantifier": "every statement kind, primitive and file, every value, every sequence of to_inch/to_metric calls", "why_tests_cant": "Quantifies over all objects and all call histories, including sharing.", "anchors": ["gerber/utils.py:inch", "gerber/utils.py:metric", "gerber/gerber_statements.py:CoordStmt.to_inch", "gerber/primitives.py:Primitive.to_inch", "gerber/cam.py"]}
{"id": "C10", "title": "Aperture-macro expressions have their arithmetic meaning", "statement": "A macro modifier or variable definition written as an arithmetic expression over numbers, variables, + - x / and parentheses evaluates to its conventional value (x and / bind tighter than + and -, left associative).", "quantifier": "every expression and every assignment of variables", "why_tests_cant": "Expressions are an infinite recursive family; operator interaction bugs appear only for particular shapes.", "anchors": ["gerber/am_read.py:read_macro", "gerber/am_eval.py:eval_macro"]}
{"id": "C11", "title": "Macro instances are independent and in order", "statement": "Evaluating a macro with given modifiers yields one primitive text per primitive block in source order, each carrying exactly the modifiers of its own block, and the result depends only on the macro and the given modifiers, not on earlier evaluations.", "quantifier": "every instruction sequence, modifier list and history of earlier evaluations", "why_tests_cant": "Histories and programs are unbounded.", "anchors": ["gerber/am_eval.py:eval_macro", "gerber/am_read.py:read_macro"]}
{"id": "C12", "title": "Splitting a Gerber file into commands loses nothing", "statement": "The commands produced from a Gerber text, concatenated in order with the unterminated tail, are the text without its line breaks; no command contains a line break and none is empty.", "quantifier": "every input text", "why_tests_cant": "All strings, including malformed ones.", "anchors": ["gerber/rs274x.py:GerberParser._split_commands"]}
{"id": "C13", "title": "A written Gerber file reads back to the same statements", "statement": "Dumping a list of well-formed Gerber statements to text, one per line, and parsing that text yields the same statements in the same order.", "quantifier": "every finite list of well-formed statements, every valid format specification", "why_tests_cant": "Unbounded lists and values; the parser's regular-expression priority order makes statement kinds interfere.", "anchors": ["gerber/rs274x.py:GerberParser._parse", "gerber/rs274x.py:GerberFile.write", "gerber/gerber_statements.py"]}
{"id": "C14", "title": "Gerber drawing follows the pen", "statement": "In file order, every draw operation adds one line or arc running from the current point to the new point with the current aperture, every flash adds one copy of the current aperture at the new point, a move adds nothing; omitted coordinates keep their previous value and omitted operation codes repeat the last one.", "quantifier": "every statement sequence", "why_tests_cant": "State-machine behaviour over unbounded histories.", "anchors": ["gerber/rs274x.py:GerberParser.evaluate", "gerber/rs274x.py:GerberParser._evaluate_coord"]}
{"id": "C15", "title": "Every primitive carries the polarity in force where it was drawn", "statement": "Each primitive produced by evaluating a Gerber file has the level polarity set by the latest LP statement before it (dark if none).", "quantifier": "every statement sequence", "why_tests_cant": "Unbounded histories; regions are emitted later than their edges.", "anchors": ["gerber/rs274x.py:GerberParser._evaluate_param", "gerber/rs274x.py:GerberParser._evaluate_coord"]}
{"id": "C16", "title": "Region contours are collected completely", "statement": "Between G36 and G37 every maximal run of draw operations becomes exactly one region made of those edges in order, with no edge lost and none shared; nothing else is drawn.", "quantifier": "every statement sequence inside a region", "why_tests_cant": "Unbounded contours; short contours are the edge case.", "anchors": ["gerber/rs274x.py:GerberParser._evaluate_mode", "gerber/rs274x.py:GerberParser._evaluate_coord"]}
{"id": "C17", "title": "Include statements cannot recurse forever", "statement": "Parsing terminates for every system of mutually including files and never nests includes more than ten levels deep; deeper nesting is reported as an error.", "quantifier": "every file system (map of names to texts)", "why_tests_cant": "Termination over all cyclic include graphs.", "anchors": ["gerber/rs274x.py:GerberParser._parse"]}
{"id": "C18", "title": "Parsed coordinates are self-contained", "statement": "After parsing, every coordinate statement that draws, moves or flashes carries an explicit operation code, equal to the one used to interpret it.", "quantifier": "every input file", "why_tests_cant": "Unbounded histories of modal codes.", "anchors": ["gerber/rs274x.py:GerberParser._evaluate_coord"]}
{"id": "C19", "title": "Gerber file bounds are the tight envelope of its coordinates", "statement": "The bounds reported for a Gerber file contain every coordinate that occurs in it, and each bound is attained, if it has at least one x and one y coordinate.", "quantifier": "every list of statements with coordinates below one million units, including every file read from text", "why_tests_cant": "Needs an argument over all lists and the sentinel initial values.", "anchors": ["gerber/rs274x.py:GerberFile.bounds"]}
{"id": "C20", "title": "Offsetting a Gerber file moves the picture", "statement": "Interpreting a file after offset(dx, dy) gives the same primitives as interpreting it before, each translated by (dx, dy).", "quantifier": "every statement sequence and offset", "why_tests_cant": "Commutation of two transformations over unbounded programs.", "anchors": ["gerber/rs274x.py:GerberFile.offset", "gerber/gerber_statements.py:CoordStmt.offset"]}
{"id": "C21", "title": "Unit-converting a Gerber file scales the picture", "statement": "Interpreting a file after to_metric (to_inch) gives the same primitives as before with every length multiplied (divided) by 25.4 and with non-length parameters such as vertex counts and rotations unchanged.", "quantifier": "every statement sequence and aperture table", "why_tests_cant": "Commutation over unbounded programs; per-shape modifier meaning matters.", "anchors": ["gerber/rs274x.py:GerberFile.to_metric", "gerber/gerber_statements.py:ADParamStmt.to_metric"]}
{"id": "C22", "title": "Rendering to Gerber and reading back reproduces the primitives", "statement": "Rendering a list of primitives with the Gerber backend and interpreting the resulting statements yields the same primitives in the same order (zero-length lines excepted).", "quantifier": "every list of renderable primitives", "why_tests_cant": "The backend elides modal state; correctness depends on the whole history of earlier primitives.", "anchors": ["gerber/render/rs274x_backend.py:Rs274xContext", "gerber/rs274x.py:GerberParser.evaluate"]}
{"id": "C23", "title": "Generated aperture codes are consistent", "statement": "In a file produced by the Gerber backend each aperture code from 10 upward is defined exactly once, distinct shapes have distinct codes, equal shapes share one, and every code selected in the body is defined in the header.", "quantifier": "every sequence of rendered primitives", "why_tests_cant": "Invariant of a cache over unbounded histories.", "anchors": ["gerber/render/rs274x_backend.py:Rs274xContext._select_aperture"]}
{"id": "C24", "title": "Drill positions follow the coordinate notation", "statement": "Each drilled hole is located at the coordinates of its command in absolute mode (omitted axes keep their last value) and at the running sum of coordinate commands in incremental mode.", "quantifier": "every sequence of drill commands", "why_tests_cant": "Unbounded histories mixing modes.", "anchors": ["gerber/excellon.py:ExcellonParser._parse_line"]}
{"id": "C25", "title": "Tool hit counts match the holes", "statement": "After parsing, the number of hits reported for each tool equals the number of drill hits and slots that use it.", "quantifier": "every drill program", "why_tests_cant": "Counting invariant over all programs; one rout path forgets to count.", "anchors": ["gerber/excellon.py:ExcellonParser", "gerber/excellon.py:ExcellonFile.hit_count"]}
{"id": "C26", "title": "Repeat-hole commands drill an evenly spaced row", "statement": "A repeat command with count n and step (dx, dy) adds exactly n holes with the active tool, the k-th displaced by k*(dx,dy) from the position before the command, and leaves the position at the last one.", "quantifier": "every count, step and starting state", "why_tests_cant": "Count is unbounded.", "anchors": ["gerber/excellon.py:ExcellonParser._parse_line", "gerber/excellon_statements.py:RepeatHoleStmt"]}
{"id": "C27", "title": "Converting a drill file converts its holes", "statement": "After to_metric or to_inch every hole position and tool diameter is the old one expressed in the new unit.", "quantifier": "every drill file", "why_tests_cant": "Universal over files; order of conversion steps matters.", "anchors": ["gerber/excellon.py:ExcellonFile.to_metric", "gerber/excellon.py:ExcellonFile.to_inch", "gerber/excellon.py:DrillHit"]}
{"id": "C28", "title": "A written drill file reads back to the same holes", "statement": "Writing a parsed absolute-notation drill file and parsing the text with the same settings gives, for every tool, the same holes in the same order.", "quantifier": "every drill file consisting of a header with tool definitions and drill hits on the format's grid", "why_tests_cant": "Unbounded hit lists and tools; grouping by tool reorders the file.", "anchors": ["gerber/excellon.py:ExcellonFile.write", "gerber/excellon.py:ExcellonParser"]}
{"id": "C29", "title": "Excellon statements survive text round trips", "statement": "Writing an Excellon statement (tool, coordinate, repeat, slot, unit, mode, version, format, link, measuring mode) and reading it back gives the same statement.", "quantifier": "every well-formed statement and file settings", "why_tests_cant": "Infinite value domains; optional fields interact.", "anchors": ["gerber/excellon_statements.py"]}
{"id": "C30", "title": "Drill format detection returns the best admissible candidate", "statement": "The detected (format, zeros) pair is one of the fixed candidates, is the only surviving candidate when there is one, and otherwise has a size score no worse than any other surviving candidate.", "quantifier": "every table of candidate parse results", "why_tests_cant": "Selection logic over arbitrary scores.", "anchors": ["gerber/excellon.py:detect_excellon_format", "gerber/excellon.py:_layer_size_score"]}
{"id": "C31", "title": "Bounding boxes are never stale", "statement": "Reading bounding_box after any sequence of moves, attribute changes, unit conversions and earlier reads gives what a freshly built primitive with the current attributes would give.", "quantifier": "every sequence of mutations and reads", "why_tests_cant": "Cache coherence over all histories.", "anchors": ["gerber/primitives.py:Primitive", "gerber/primitives.py:Slot", "gerber/primitives.py:Line"]}
{"id": "C32", "title": "Bounding boxes contain the shape", "statement": "Every point of a line, circle, ellipse, rectangle, polygon, obround or arc primitive lies in its bounding box.", "quantifier": "every primitive and every point of its area (real geometry, every rotation)", "why_tests_cant": "Continuum of points and angles.", "anchors": ["gerber/primitives.py:Line.bounding_box", "gerber/primitives.py:Arc.bounding_box", "gerber/primitives.py:Rectangle.bounding_box", "gerber/primitives.py:Ellipse.bounding_box"]}
{"id": "C33", "title": "Moving a primitive moves its bounding box", "statement": "After offset(dx, dy) a primitive's bounding box is its old one translated by (dx, dy), and successive offsets add up.", "quantifier": "every primitive kind, every offset sequence, every cache state", "why_tests_cant": "All histories and values.", "anchors": ["gerber/primitives.py:Primitive.offset"]}
{"id": "C34", "title": "Point rotation is a rigid motion", "statement": "rotate_point preserves distances, fixes the centre, and composing rotations adds the angles; rotating by the opposite angle undoes it.", "quantifier": "every point, centre and angle", "why_tests_cant": "Continuum of inputs.", "anchors": ["gerber/utils.py:rotate_point"]}
{"id": "C35", "title": "Arc sweep is the angle actually travelled", "statement": "For an arc, sweep_angle lies in [0, 2*pi) and travelling that angle from the start point in the arc's direction reaches the end direction.", "quantifier": "every pair of start and end directions, both directions of travel", "why_tests_cant": "Wrap-around only shows for particular angle pairs.", "anchors": ["gerber/primitives.py:Arc.sweep_angle"]}
{"id": "C36", "title": "Single-quadrant arc centres are the best admissible choice", "statement": "In single-quadrant mode the centre found for an arc is one of the four sign combinations of the given offsets, admissible (sweep at most 90 degrees), and minimises the radius mismatch among admissible candidates; an arc with a consistent centre of sweep at most 90 degrees always gets a centre.", "quantifier": "every start, end and offset pair", "why_tests_cant": "Continuum of inputs; sign-combinations near the axes.", "anchors": ["gerber/rs274x.py:GerberParser._find_center"]}
{"id": "C37", "title": "Layer sorting is an ordered rearrangement", "statement": "sort_layers returns every layer of a board class exactly once, ordered outline, paste, silk, mask, top copper, internal (ascending order), bottom copper, mask, silk, paste (or the reverse), followed by drill and drawing layers; layers of one class keep their relative order from the top.", "quantifier": "every list of layers", "why_tests_cant": "All permutations and multiplicities.", "anchors": ["gerber/layers.py:sort_layers"]}
{"id": "C38", "title": "Board layer views are consistent", "statement": "layer_count equals the number of copper layers; copper layers are exactly top, internal and bottom ones; the top (bottom) view contains exactly the top-side (bottom-side) board layers in stacking order plus drills.", "quantifier": "every list of layers", "why_tests_cant": "All inputs.", "anchors": ["gerber/pcb.py:PCB"]}
{"id": "C39", "title": "Netlist continuation lines are rejoined", "statement": "Splitting a logical IPC-D-356 line into physical lines with continuation markers and parsing gives the same records as parsing the unsplit line, independent of how it was split.", "quantifier": "every logical line and every split", "why_tests_cant": "Infinitely many splits.", "anchors": ["gerber/ipc356.py:IPCNetlistParser.parse_raw"]}
{"id": "C40", "title": "Net adjacency is reported completely", "statement": "For every net of a netlist the reported adjacent nets are exactly those named with it in an adjacency record.", "quantifier": "every netlist", "why_tests_cant": "All record combinations; fails as soon as one record heads with the net.", "anchors": ["gerber/ipc356.py:IPCNetlist.nets"]}
{"id": "C41", "title": "Macro flash placement is path independent", "statement": "After any sequence of position assignments and offsets, the parts of a macro aperture are displaced from their definition by exactly its current position.", "quantifier": "every sequence of moves", "why_tests_cant": "Unbounded histories.", "anchors": ["gerber/primitives.py:AMGroup"]}
{"id": "C42", "title": "Convex hull encloses the points", "statement": "The convex hull of a point set consists of input points and its polygon contains all of them.", "quantifier": "every finite set of points", "why_tests_cant": "Unbounded sets, degenerate positions.", "anchors": ["gerber/utils.py:ConvexHull_qh"]}
{"id": "C43", "title": "Layer class guessing is total and deterministic by priority", "statement": "guess_layer_class returns a class for every name; it is the first hint (in table order) matched by extension or name pattern, ignoring case and directory, else 'unknown'.", "quantifier": "every file name", "why_tests_cant": "All strings.", "anchors": ["gerber/layers.py:guess_layer_class"]}
{"id": "C44", "title": "File type detection depends on the first signature", "statement": "A text is classified by its first line containing a drill, Gerber or netlist signature, independent of anything after it; without any signature it is 'unknown' and loading raises ParseError.", "quantifier": "every text", "why_tests_cant": "All strings.", "anchors": ["gerber/utils.py:detect_file_format", "gerber/common.py:loads"]}
{"id": "C45", "title": "Themes give every internal layer a colour", "statement": "Asking a theme for internal-layer render settings repeatedly always gives settings.", "quantifier": "every number of requests", "why_tests_cant": "Unbounded request counts; fails after the built-in list is exhausted.", "anchors": ["gerber/render/theme.py:Theme"]}
{"id": "C46", "title": "Render context settings stay valid", "statement": "Colour components and alpha values accepted by a render context are always within [0, 1]; invalid assignments raise and change nothing.", "quantifier": "every history of assignments", "why_tests_cant": "All histories.", "anchors": ["gerber/render/render.py:GerberContext"]}
{"id": "C47", "title": "Macros are written as they were defined", "statement": "Writing a parsed Gerber file writes every aperture macro with a body from which every aperture that uses it is rebuilt identically.", "quantifier": "every file, any number of apertures per macro", "why_tests_cant": "Depends on combinations of uses; fails for two uses with different modifiers.", "anchors": ["gerber/gerber_statements.py:AMParamStmt"]}
{"id": "C48", "title": "Aperture-macro primitives survive text round trips", "statement": "Writing a macro primitive (circle, vector line, outline, polygon, moire, thermal, centre line, lower-left line) and reading it back gives the same primitive.", "quantifier": "every primitive whose values have at most the printed number of digits", "why_tests_cant": "Infinite domains.", "anchors": ["gerber/am_statements.py"]}
{"id": "C49", "title": "Moving a drill file", "statement": "Offsetting a drill file moves every hole and slot by exactly the offset, changes nothing else, can be undone, and its statements then describe the moved holes.", "quantifier": "every parsed file and offset", "why_tests_cant": "All files; fails for incremental notation, omitted first coordinates and incomplete slots.", "anchors": ["gerber/excellon.py:ExcellonFile.offset", "gerber/excellon_statements.py"]}
{"id": "C50", "title": "Drill bounding boxes enclose everything drilled", "statement": "The bounding box of a drill file contains every point removed by its holes and slots and each side is touched by one of them.", "quantifier": "every file", "why_tests_cant": "All files; fails without hits and for tools without diameter.", "anchors": ["gerber/excellon.py:ExcellonFile.bounding_box", "gerber/excellon.py:DrillHit", "gerber/excellon.py:DrillSlot"]}
{"id": "C51", "title": "Path lengths of tools", "statement": "The path length reported for a tool number is the length of the way from the origin through all its hits in order.", "quantifier": "every file", "why_tests_cant": "All files; fails for every file with a slot.", "anchors": ["gerber/excellon.py:ExcellonFile.path_length"]}
{"id": "C52", "title": "Editing a tool edits only that tool", "statement": "update_tool changes exactly the given parameters of exactly the given tool, and every hit of its number is then made with it.", "quantifier": "every file, tool number and set of parameters", "why_tests_cant": "All combinations of arguments and sharing.", "anchors": ["gerber/excellon.py:ExcellonFile.update_tool"]}
{"id": "C53", "title": "Setting lines of a drill file set exactly what they name", "statement": "Each setting line of a drill file (unit lines with optional zero mode and format, FMT, ICI, G90/G91, M71/M72, LZ/TZ lines) changes exactly the settings it names to the values it names, and leaves all others alone; a sequence of such lines acts in order.", "quantifier": "every setting line, every parser state, every sequence of lines", "why_tests_cant": "All combinations of previous settings and lines; the violation needs a unit line without a zero mode after another one.", "anchors": ["gerber/excellon.py:ExcellonParser._parse_line", "gerber/excellon_statements.py:UnitStmt.from_excellon"]}
{"id": "C54", "title": "Test records of netlists are read by their columns", "statement": "A test record line that has a value in each column is read as exactly these values, numbers scaled by the unit chosen before; a file of such records after unit and name statements gives exactly these points, with net name variables replaced by the names given last.", "quantifier": "every record whose values fit their columns, every file of such records", "why_tests_cant": "All contents of the columns; the violations depend on signs and line lengths.", "anchors": ["gerber/ipc356.py:IPC356_TestRecord.from_line", "gerber/ipc356.py:IPCNetlistParser._parse_line"]}
{"id": "C55", "title": "Tool tables define exactly the tools they list", "statement": "A tool table (comment lines such as 'Holesize 1. = 12.0 Tolerance = ...' or rows of sizes in mils) defines for each tool number exactly the tool of the last line with this number: its diameter in the unit of the file and its plating; it defines no other tools and other lines do not matter.", "quantifier": "every table made of entries of both kinds and other lines, with any numbers, gaps and line ends", "why_tests_cant": "All numbers, gaps and mixtures of lines; the patterns backtrack over the numbers.", "anchors": ["gerber/excellon_tool.py:ExcellonToolDefinitionParser._parse", "gerber/excellon_tool.py:ExcellonToolDefinitionParser.parse_raw"]}
{"id": "C56", "title": "Tool reports define exactly the tools they list", "statement": "A tool report, that is any lines, a header and then rows of six columns between other lines, defines for each tool number exactly the tool of the last row with this number, with its diameter, feed rate, speed and plating, and no other tools.", "quantifier": "every report with any preface, gaps, rows and other lines", "why_tests_cant": "All rows, gaps and prefaces; the violation needs a remark of six words after the table.", "anchors": ["gerber/excellon_tool.py:ExcellonReportParser._parse"]}
{"id": "C57", "title": "Settings files of drill programs mean the values that occur last", "statement": "A settings file of a drill program gives format, units and notation of its last lines for each of these; any other lines do not matter; a file in which one of them does not occur is rejected.", "quantifier": "every settings file made of lines for the four settings and other lines, with any blanks", "why_tests_cant": "All orders, repetitions and blanks; the violation needs incremental coordinates.", "anchors": ["gerber/excellon_settings.py:ExcellonSettingsParser._parse", "gerber/excellon_settings.py:ExcellonSettingsParser.parse_raw", "gerber/excellon_settings.py:map_coordinates"]}
{"id": "C58", "title": "Programs rendered from drills and slots make these drills and slots", "statement": "The statements that the Excellon backend makes from a list of drills and slots, executed by a drilling machine, make exactly these holes and slots in this order, each with its tool; each tool used is defined exactly once in the header.", "quantifier": "every list of drills and slots of both kinds, every number of tools, every settings with absolute notation", "why_tests_cant": "All orders of holes, routed slots and G85 slots with changes of tools; the backend keeps mode, position and tool between them.", "anchors": ["gerber/render/excellon_backend.py:ExcellonContext._render_drill", "gerber/render/excellon_backend.py:ExcellonContext._render_slot", "gerber/render/excellon_backend.py:ExcellonContext._start_drill_mode", "gerber/render/excellon_backend.py:ExcellonContext.statements"]}
{"id": "C59", "title": "A board made from a directory has the layers of its files", "statement": "A board made from a directory consists of the layers of all visible files that are board files, stacked in order; files that are no board files are skipped, hidden files and files of the operating system are ignored; the name of the board is the one given, else the one suggested by all files, else the name of the directory, whatever the order in which the files are listed.", "quantifier": "every directory, every content of files, every order of listing", "why_tests_cant": "All sets of files and orders of listing; the violations need particular files.", "anchors": ["gerber/pcb.py:PCB.from_directory", "gerber/utils.py:listdir"]}
{"id": "C60", "title": "Every line of a netlist file becomes its record", "statement": "Parsing a netlist file made of comments, unit choices, net name variables, other parameters, test records, conductors, adjacency records, outlines, end marks and unknown lines, in any order, cut into continuation lines or not, gives exactly the records of these lines in order: numbers are scaled by the unit chosen last before their line, net name variables are replaced by the name given last, and a coordinate of a path that is not written is the previous one of the same shape.", "quantifier": "all sequences of lines, all layouts of their words, all cuts into physical lines, both line ends", "why_tests_cant": "The state (units, names, modal coordinates) depends on everything before a line; tests only check single example files.", "anchors": ["gerber/ipc356.py:170-238", "gerber/ipc356.py:373-461"]}
{"id": "C61", "title": "Components, vias and drawn test points of a netlist", "statement": "The components of a netlist are the identifications of its test points other than VIA, each once; there are as many vias as test points identified so; rendering a side draws exactly the test points accessible from that side, in order, and rendering both sides draws those accessible from either.", "quantifier": "all netlists made of lines as in C60, all three values of layer", "why_tests_cant": "Sets and filters over arbitrary record lists.", "anchors": ["gerber/ipc356.py:121-150"]}
{"id": "C62", "title": "Corners span the drawn shape", "statement": "The corners reported for rectangles, diamonds, chamfered rectangles, polygons and drawn lines span exactly the area of the shape, turned about its own centre, and run once around it; the segments reported for a shape are its edges.", "quantifier": "all shapes of these kinds, with all positions, sizes and rotations", "why_tests_cant": "Tests use shapes at the origin or without rotation; that the corners are the extreme points of the area, for every angle and place, is a statement about all points of the plane.", "anchors": ["gerber/primitives.py", "gerber/utils.py"]}
{"id": "C63", "title": "Macro primitives become the shapes they describe", "statement": "Each primitive of an aperture macro becomes shapes that fill exactly the area it describes, turned about the origin of the macro, dark if exposed and clear if not; the lines of an outline are connected; the shapes of a group are those of its primitives, in order.", "quantifier": "all macro primitives with all parameters, and all groups of them", "why_tests_cant": "Tests check a few primitives, mostly without rotation and at the origin; equality of filled areas for all parameters cannot be sampled.", "anchors": ["gerber/am_statements.py", "gerber/primitives.py"]}
{"id": "C64", "title": "Themes", "statement": "Every predefined theme gives valid settings for every layer class; what belongs to the bottom side is mirrored and what belongs to the top side is not; the two sides look alike otherwise, with equally opaque layers; soldermasks and only they are inverted; the settings of a layer do not depend on what was rendered before.", "quantifier": "all predefined themes, all layer classes, all sequences of layers rendered before", "why_tests_cant": "Tests render a few layers with the default theme; whether settings depend on what was rendered before is a statement about all histories.", "anchors": ["gerber/render/theme.py"]}
{"id": "C65", "title": "Every point of a board has its place on the picture", "statement": "A point of a board appears on the picture at its distance from the edges of the box shown, mirrored layers seen from the other side; the picture shows exactly the points of the box; render_layers paints the background once and then every layer once in order with the settings of the theme; the picture shows all layers completely and is not larger than allowed.", "quantifier": "all boxes, scales, points, lists of layers, themes", "why_tests_cant": "Tests compare a few rendered pictures; the place of every point under every origin, size and mirroring is not enumerable.", "anchors": ["gerber/render/cairo_backend.py:54-131", "gerber/render/cairo_backend.py:533-566"]}
{"id": "C66", "title": "Clipping does not change what is drawn", "statement": "Clipping to the bounding box of a primitive rounded to pixels removes no point of the box.", "quantifier": "all boxes, frames and points", "why_tests_cant": "Whether rounding cuts off points depends on fractions of pixels; tests use a few boxes.", "anchors": ["gerber/render/cairo_backend.py:568-613"]}
{"id": "C67", "title": "Later primitives cover earlier ones", "statement": "A point of a layer is painted exactly if the last primitive covering it is dark; an inverted layer shows the complement; a macro paints its own area and leaves the rest of the layer alone.", "quantifier": "all layers, frames, points", "why_tests_cant": "The statement is about all sequences of dark and clear primitives.", "anchors": ["gerber/render/cairo_backend.py:193-200", "gerber/render/cairo_backend.py:514-516", "gerber/render/cairo_backend.py:533-558", "gerber/render/render.py:138-170"]}
{"id": "C68", "title": "Primitives are drawn as the areas they stand for", "statement": "The mask drawn for a primitive is its area in pixels: discs, slots, swept apertures, turned rectangles, obrounds and polygons, without their holes.", "quantifier": "all primitives, scales, polarities", "why_tests_cant": "Areas are infinite sets of points over continuous parameters; tests compare a few bitmaps.", "anchors": ["gerber/render/cairo_backend.py:202-532"]}
{"id": "C69", "title": "Macro groups share a definition only if they look the same", "statement": "Two macro groups are written with one macro definition only if their parts agree up to half a millionth wherever the groups are placed; the same group always shares its definition; reading back gives groups that look the same.", "quantifier": "all groups, positions, lists of primitives", "why_tests_cant": "Comparison with tolerances over continuous positions, and a cache over lists of any length.", "anchors": ["gerber/primitives.py:equivalent", "gerber/utils.py:nearly_equal", "gerber/render/rs274x_backend.py:_get_amacro", "gerber/render/rs274x_backend.py:_hash_amacro"]}
{"id": "C70", "title": "Macro groups are written as what they are", "statement": "A primitive whose aperture is a macro group, rendered by the Gerber backend and written to a file, is read back with a group of the same shapes.", "quantifier": "all lists of primitives with all groups and all statements the groups were made by", "why_tests_cant": "The text of a macro is made from the primitives that the statement happens to hold when it is written; whether it is read again as the same shapes depends on every number, on line breaks, names and other uses of the statement.", "anchors": ["gerber/render/rs274x_backend.py:17-81", "gerber/render/rs274x_backend.py:398-485", "gerber/gerber_statements.py:394-471", "gerber/am_statements.py"]}
{"id": "C71", "title": "Drill reports show every tool", "statement": "Whenever a drill file has a report, the table of the report has one line for every tool of the file, in the order of the tools, and the line reads back to the number of the tool, its size up to half a unit of the last decimal, the number of its hits, and the length of the way along its hits. The report says whether coordinates are absolute or incremental and in which unit the file is.", "quantifier": "all drill files, settings, tools and hits", "why_tests_cant": "The report formats real numbers and sums path lengths over any number of hits; tests print a few files and cannot show that every line reads back to the tool it belongs to.", "anchors": ["gerber/excellon.py:236-260", "gerber/excellon.py:321-340"]}
{"id": "C72", "title": "The command line program draws every layer", "statement": "Given a directory, the program writes three pictures named after the output file: the top side, the bottom side and the copper. Each begins with the outline of the board; the sides show their copper, mask and silkscreen from the board outwards with the holes that reach the side behind the first of these, the copper picture shows all copper layers from bottom to top and all holes. Given files, the program writes one picture that shows all of them in the order given. Layers and background have the settings of the theme asked for (the copper picture those of the multilayer theme), and no picture is larger than the size asked for.", "quantifier": "all boards, lists of files, options and contents of files", "why_tests_cant": "Tests render a few boards to images; which layers are drawn, in which order and with which settings depends on the set of layers present, and branches for missing outlines, one-sided boards and many internal layers are not exercised.", "anchors": ["gerber/__main__.py:71-117", "gerber/pcb.py:78-108", "gerber/render/cairo_backend.py:79-131"]}
{"id": "C73", "title": "Every hole is made with the tool selected for it", "statement": "When a drill file is read, every hole and slot is made with the tool most recently selected, in the latest definition of that number before the selection, whatever else the file contains: definitions put tools in the rack, selections take them, M00 takes the tool with the next number, and tool 1 is used before any selection. A file that asks for a tool that nobody defined is not accepted.", "quantifier": "all texts, settings and external tool tables", "why_tests_cant": "The parser keeps a table of tools, an active tool, external tools and invents tools while the statements are read; tests read a few files with one or two tools and cannot show that the tool of every hole follows from the statements.", "anchors": ["gerber/excellon.py:490-500", "gerber/excellon.py:636-672", "gerber/excellon.py:704-745", "gerber/excellon.py:780-795"]}
{"id": "C74", "title": "The picture of a drill file shows what is drilled", "statement": "Rendering a drill file draws exactly what a machine removes that executes the statements of the file with the tools selected for them: every hole is a disc and every slot a round-ended bar of the diameter of its tool, at its place on the picture, nothing else is painted, and everything lies within the picture. The picture does not depend on the unit the file is written in.", "quantifier": "all texts of drill files, settings, tool tables and scales", "why_tests_cant": "The picture depends on the parser, the tool table, the bounding box, pixel rounding and the masks of the renderer together; tests compare a few images and cannot show that every point of every hole is painted.", "anchors": ["gerber/excellon.py:208-234", "gerber/cam.py:263-289", "gerber/render/cairo_backend.py:492-512", "gerber/render/cairo_backend.py:568-613"]}
{"id": "C75", "title": "The picture of a Gerber file shows what its text describes", "statement": "Rendering a Gerber file draws what a plotter executing its statements leaves dark: every dark primitive (line, arc, flash, region) adds the area of its aperture moved along the path or to the point, every clear one removes its area from what was drawn before, every point is shown at its place, nothing else is painted and everything lies within the picture. Repeated and negative images are drawn as such, and the picture does not depend on the unit of the file.", "quantifier": "all texts of Gerber files without macros, all scales", "why_tests_cant": "The picture depends on the parser, the graphics state, the bounding box, pixel rounding and the masks of the renderer together; tests compare a few images and cannot show that every point of every primitive is painted.", "anchors": ["gerber/rs274x.py:134-147", "gerber/rs274x.py:590-724", "gerber/cam.py:263-289", "gerber/render/cairo_backend.py:193-490", "gerber/render/cairo_backend.py:568-613"]}
{"id": "C76", "title": "The picture of a Gerber file shows the macros it flashes", "statement": "A flashed macro aperture is drawn as the Gerber specification describes: the points whose last containing macro primitive is exposed, moved to the flash point. With dark polarity exactly these points are added and with clear polarity exactly these are removed; parts with exposure off remove only from the macro itself. Every macro that can be read can be drawn.", "quantifier": "all texts of Gerber files with macros, all scales", "why_tests_cant": "The picture depends on the macro evaluator, the shapes made from macro primitives, rotations, the order of parts and their polarities, and the clipping of the renderer together; tests compare a few images of a few macros.", "anchors": ["gerber/primitives.py:1254-1343", "gerber/rs274x.py:577-584", "gerber/rs274x.py:697-711", "gerber/am_statements.py:83-945", "gerber/render/cairo_backend.py:193-490"]}
{"id": "C77", "title": "Stored corners are never out of date", "statement": "Reading vertices or segments of a primitive always gives the value a freshly built primitive with the same attributes would give, however often they were read, stored, and the primitive moved, resized, turned, converted or otherwise changed before.", "quantifier": "all heaps of primitives, all finite histories of reads, assignments, moves and conversions on any of the objects", "why_tests_cant": "the values are stored on first read and dropped by _changed(), which every assignment must reach; tests read corners of freshly built primitives only", "anchors": ["gerber/primitives.py:Primitive.segments", "gerber/primitives.py:Rectangle.vertices", "gerber/primitives.py:Line.vertices", "gerber/primitives.py:Primitive._changed"]}
{"id": "C78", "title": "Operations work on copies", "statement": "to_inch, to_metric and offset of operations.py return a copy of the file that is what the method of that name would make of the file itself, with the same sharing of apertures and tools inside; the copy shares nothing with the file, and the file and everything else in memory stay as they were. scale and rotate return a scaled and a turned copy. All files that were read can be copied.", "quantifier": "for all files, whatever objects their primitives, statements and hits refer to and share, all moves, all contents of memory", "why_tests_cant": "Aliasing: whether a copied line and the copied aperture list still share one aperture, and whether some part of the copy is still an object of the source, shows only in particular graphs of references; tests convert one small file.", "anchors": ["gerber/operations.py:to_inch", "gerber/operations.py:to_metric", "gerber/operations.py:offset", "gerber/operations.py:scale", "gerber/operations.py:rotate"]}
{"id": "C79", "title": "Inverted pictures are negatives", "statement": "Drawing a layer or a file inverted (CamFile.render with invert, RenderSettings.invert for solder masks) gives a picture of the same size with the same background in which exactly those points of the layer are painted that are not painted when it is drawn normally; and it fails exactly when, and as, the normal drawing fails.", "quantifier": "for all layers of boards, all drill files, all Gerber files with and without macros, all contexts and all engines that fill paths", "why_tests_cant": "The complement has to hold at every point, with the operator, the clearing of holes and the initial fill of the layer all depending on the flag in different places; a test compares one image with a stored one.", "anchors": ["gerber/cam.py:CamFile.render", "gerber/render/cairo_backend.py:GerberCairoContext._new_render_layer", "gerber/render/cairo_backend.py:GerberCairoContext.render_layer", "gerber/render/cairo_backend.py:GerberCairoContext._render_circle", "gerber/render/cairo_backend.py:GerberCairoContext._render_rectangle"]}
{"id": "C80", "title": "Layers are compared and sorted consistently", "statement": "Comparisons of internal layers form a total preorder by their order: of <, == and > exactly one holds, <=, >= and != follow from these, < is transitive and equal layers compare alike. A comparison of an internal layer with another kind of layer raises TypeError, whichever side it is on; other layers are equal only to themselves and can not be ordered. Sorting internal layers returns the same layers, none after one above it, those with equal order as they were, and raises TypeError exactly if there are at least two and one of them can not be compared.", "quantifier": "all layers of all classes; lists of internal layers of any length", "why_tests_cant": "Six methods with the same shape of body, where a wrong sign or a wrong operand shows for particular orders; sorting has to be stable for all arrangements, and its failure depends on which pairs the algorithm happens to compare.", "anchors": ["gerber/layers.py:InternalLayer.__eq__", "gerber/layers.py:InternalLayer.__ne__", "gerber/layers.py:InternalLayer.__gt__", "gerber/layers.py:InternalLayer.__lt__", "gerber/layers.py:InternalLayer.__ge__", "gerber/layers.py:InternalLayer.__le__", "gerber/layers.py:sort_layers"]}
{"id": "C81", "title": "A macro primitive that is made of an object looks like the object", "statement": "Whenever the backend makes a macro primitive of an object in a group, the primitive stands for the area of the object and adds or removes as the object does, and the primitives of a group stand together for what the group stands for. Corners of outlines are kept to half a millionth. Objects that no macro primitive stands for are refused.", "quantifier": "all objects of all classes, sizes, positions and rotations, and all groups", "why_tests_cant": "Circles, polygons and rectangles have real sizes and rotations, groups any number of parts; tests convert a few and compare attributes, not areas.", "anchors": ["gerber/am_statements.py:193-194", "gerber/am_statements.py:265-266", "gerber/am_statements.py:375-384", "gerber/am_statements.py:497-498", "gerber/am_statements.py:873-878", "gerber/render/rs274x_backend.py:23-55"]}
{"id": "C82", "title": "Bounding boxes are as small as possible", "statement": "The bounding box of a primitive is the smallest box around the area the primitive covers, and the bounding box of a Gerber file is the smallest box around everything the file draws.", "quantifier": "every primitive of every kind, size, position and rotation; every file", "why_tests_cant": "A box that is too large still contains every sampled point; the smallest one is a statement about all boxes and all points.", "anchors": ["gerber/primitives.py:Line.bounding_box", "gerber/primitives.py:Arc.bounding_box", "gerber/primitives.py:Polygon.bounding_box", "gerber/primitives.py:Obround.bounding_box", "gerber/rs274x.py:GerberFile.bounding_box"]}
{"id": "C83", "title": "A file that is written and read again shows the same", "statement": "Reading a Gerber file, writing it with its own settings and reading the written text gives a file with the same primitives in the same order and the same settings, hence the same picture and the same bounding box; without macros it is the very same file, so that it is written as the same text again. The same holds for the holes of a drill file with their sizes.", "quantifier": "for all texts that can be read, all included files, all ways of choosing arc centres, all backends", "why_tests_cant": "A test compares the output for the few files of the test suite; whether some other file changes its picture when it is only read and written again cannot be seen from them.", "anchors": ["gerber/rs274x.py:149-155", "267-277", "482-510", "gerber/gerber_statements.py:427-471", "gerber/excellon.py:262-280"]}
{"id": "C84", "title": "Converting a file's units converts its aperture macros", "statement": "Converting a Gerber file to the other units converts every primitive of its aperture macros: each length and position is multiplied (divided) by 25.4, while exposure, numbers of points, vertices and rings, and angles stay; what is drawn for the primitive is the same shape in the new units; converting back restores the macro and converting again changes nothing; and when the converted file is written and read again, its macro apertures are drawn as before in the new units.", "quantifier": "every macro primitive and every file with macros", "why_tests_cant": "Ten primitive classes with different meanings of their numbers, real-valued shapes, and unbounded files.", "anchors": ["gerber/am_statements.py:AMPrimitive.to_inch", "gerber/am_statements.py:AMPrimitive.to_metric", "gerber/gerber_statements.py:AMParamStmt.to_inch", "gerber/gerber_statements.py:AMParamStmt.to_metric", "gerber/rs274x.py:GerberFile.to_metric"]}
{"id": "C85", "title": "A Gerber file converted, saved and read again shows the same in the new units", "statement": "Reading a Gerber file, converting it to the other units, writing it and reading the written text gives the same primitives in the same order with every length multiplied (divided) by 25.4 - positions, aperture sizes, holes, arcs with the centres chosen for them, and the primitives of aperture macros - and the same settings but for the units.", "quantifier": "for all texts that can be read, all included files", "why_tests_cant": "Depends on reader, interpreter, conversion, writer, macro text and arc centre search together, over unbounded files; sample files do not show which others lose digits.", "anchors": ["gerber/rs274x.py:149-171", "gerber/rs274x.py:727-781", "gerber/cam.py:235-245", "gerber/gerber_statements.py:to_inch", "gerber/gerber_statements.py:to_metric"]}
{"id": "C86", "title": "A file moved, saved and read again shows the same, moved", "statement": "Reading a Gerber or drill file, moving it by an offset, writing it and reading the written text gives the same primitives (holes with the same diameters), each moved by exactly that offset, and the same settings.", "quantifier": "for all texts that can be read, all offsets", "why_tests_cant": "Depends on reader, interpreter, offset and writer together, over unbounded files and offsets; sample files do not show which others move wrongly.", "anchors": ["gerber/rs274x.py:149-155", "gerber/rs274x.py:173-177", "gerber/gerber_statements.py:1026-1034", "gerber/excellon.py:262-280", "gerber/excellon.py:313-319"]}
{"id": "C87", "title": "Changing the order of the holes drills the same holes", "statement": "Reading a drill file, putting the holes of every tool in the order a solver returns that visits every hole once, writing it and reading the written text gives the holes of every tool in exactly that order, and the same holes with the same diameters.", "quantifier": "for all drill files that can be read, all solvers", "why_tests_cant": "Depends on the tool counts, tool table, positions, writer and reader together, over unbounded files and orders; sample files do not show which others lose holes.", "anchors": ["examples/excellon_optimize.py:49-82", "gerber/excellon.py:198-212", "gerber/excellon.py:262-280"]}
{"id": "C88", "title": "Angles of lines and corners of rectangles and donuts", "statement": "The angle of a line is the direction from its start to its end, greater than -pi and not greater than pi. The lower left and upper right corners of a rectangle or donut are the smallest and largest coordinates of its area, and agree with its bounding box.", "quantifier": "for all lines, rectangles and donuts with real attributes, all rotations", "why_tests_cant": "Real-valued sizes, positions and rotations; rotated rectangles go wrong only beyond a quarter turn, and boxes only after a certain order of reads and assignments.", "anchors": ["gerber/primitives.py:239-244", "gerber/primitives.py:725-733", "gerber/primitives.py:1551-1559"]}
{"id": "C89", "title": "The bounds a drill parser reports hold the holes", "statement": "The bounds reported by the parser of drill files are the smallest and the largest coordinate given for each axis, and every hole and slot of the file lies within them.", "quantifier": "for all drill files and settings, any number of statements", "why_tests_cant": "The numbers the search begins with and the position carried from statement to statement show only in files of particular form; the claim is about all sequences of statements.", "anchors": ["gerber/excellon.py:403-405", "gerber/excellon.py:407-418"]}
{"id": "C90", "title": "Gerber words mean the same however they are spelled", "statement": "Leading zeros of G, D and M codes, the word G54 before an aperture number, comments and names make no difference to what a Gerber file draws. Nothing after the end of the file is drawn, and every word that places the image or says how coordinates are given takes effect.", "quantifier": "for all sequences of statements and all settings, whatever follows a word on its line", "why_tests_cant": "The current operation is kept in the spelling it was given in and carried over any number of later statements.", "anchors": ["gerber/rs274x.py:220-236", "gerber/rs274x.py:418-478", "gerber/rs274x.py:481-510", "gerber/rs274x.py:618-725"]}
{"id": "C91", "title": "Remarks in drill files make no difference", "statement": "Blank lines and comments that say nothing the parser reads, put anywhere between the lines of a drill file, make no difference to the holes, tools, counts and settings read, nor to whether reading fails; nothing after the end of the program is drilled.", "quantifier": "for all drill files, all settings and external tools, any number of remarks anywhere", "why_tests_cant": "The parser keeps a bare G00 or G01 for the next line and collects statements it later inserts into; whether a remark disturbs this depends on everything read before.", "anchors": ["gerber/excellon.py:441-450", "gerber/excellon.py:451-478", "gerber/excellon.py:528-586"]}
{"id": "C92", "title": "The layout of a Gerber text makes no difference", "statement": "White space and line breaks between the blocks of a Gerber file, and line breaks with indentation inside its parameters, make no difference to the statements read, nor to whether reading fails.", "quantifier": "for all Gerber texts with any number of blocks, any white space between them, any contents of included files", "why_tests_cant": "The splitter switches between two ways to end a command and keeps unfinished lines for later; what a line break does depends on everything read before.", "anchors": ["gerber/rs274x.py:279-308", "gerber/rs274x.py:318-335", "gerber/rs274x.py:470-480"]}
{"id": "C93", "title": "Drill lines mean the same however they are spelled", "statement": "Reading a drill file gives the same result however its lines are spelled: with or without plus signs, with any number of zeros around decimal points, with or without the zeros that the format allows to leave out, with leading zeros in tool numbers, with the words of a tool definition in any order and with any white space around lines.", "quantifier": "for all drill files, settings and respellings of their lines", "why_tests_cant": "There are unboundedly many spellings of each line, and their effect depends on the format, on the omitted zeros and on the state of the parser.", "anchors": ["gerber/excellon.py:441-747", "gerber/excellon_statements.py:138-179", "gerber/excellon_statements.py:278-302", "gerber/excellon_statements.py:378-394", "gerber/utils.py:32-94"]}
{"id": "C94", "title": "The spelling of numbers in Gerber coordinates makes no difference", "statement": "Two Gerber texts whose coordinate blocks differ only in how the numbers are spelled - with or without a plus sign, with or without zeros that the format in force allows to leave out - are read to the same statements.", "quantifier": "all texts laid out as blocks, all formats, all words", "why_tests_cant": "tests read a few files in one spelling; a regular expression or a padding rule that is wrong for signs or for long words shows only for other spellings", "anchors": ["gerber/rs274x.py:183", "gerber/rs274x.py:220-227", "gerber/gerber_statements.py:889-911", "gerber/utils.py:39-95"]}
{"id": "C95", "title": "Gerber texts that say the same show the same", "statement": "Two Gerber texts that differ only in spelling - line layout, remarks, plus signs, zeros that the format in force allows to leave out, one or two digits in function and operation codes, the prefix and leading zeros of an aperture selection, the two ways to set the unit, the spelling of the end, a function code in a block of its own - are loaded to the same primitives and the same settings, or fail with the same error.", "quantifier": "all texts laid out as blocks, all formats, all combinations of the spellings", "why_tests_cant": "tests read a few files, each in the spelling of one program; the combination of spellings is unbounded", "anchors": ["gerber/rs274x.py:183", "gerber/rs274x.py:219-245", "gerber/rs274x.py:300-520", "gerber/rs274x.py:600-720"]}
{"id": "C96", "title": "Drill tools are compared by what they do", "statement": "Two drill tools are equivalent exactly if they are written the same under the same number, have the same plating and the same unit; the comparison is an equivalence relation, its answer does not change when both tools are converted, and a copy of a tool is equivalent to it.", "quantifier": "all tools, all settings", "why_tests_cant": "tests compare a few tools; that the comparison agrees with the written text for all field values can not be sampled", "anchors": ["gerber/excellon_statements.py:123-136", "gerber/excellon_statements.py:200-236", "gerber/excellon_statements.py:253-268"]}
{"id": "C97", "title": "The records of a netlist are those of its lines, and remarks make no difference", "statement": "A netlist has the remarks and the parameters of the lines of its text, in order, and one test record, outline or adjacency for each line with its code; every question that can be asked of it has the same answer when remarks are added to or removed from the text.", "quantifier": "all texts, all ways to cut lines, all remarks", "why_tests_cant": "tests read one file; remarks can stand at unboundedly many places", "anchors": ["gerber/ipc356.py:92-138", "gerber/ipc356.py:170-238"]}
{"id": "C98", "title": "The numbers of apertures and the names of macros do not matter", "statement": "A Gerber file whose apertures have other numbers and whose macros have other names makes the same primitives or the same error; an aperture that is selected nowhere may be left out; the definition of an aperture may change places with every statement that neither draws, nor sets the unit, nor defines its macro or the same aperture.", "quantifier": "all lists of statements, all injective renumberings and renamings, all places of a definition", "why_tests_cant": "tests use the numbers of a few files; a table that mixes up numbers shows only for others", "anchors": ["gerber/rs274x.py:482-510", "gerber/rs274x.py:512-587", "gerber/rs274x.py:641-724"]}
{"id": "C99", "title": "The numbers of the tools of a drill file do not matter", "statement": "A drill file whose tools have other numbers, in all definitions, selections and tables of external tools, has the same holes and slots with the same tools but for their numbers, and the same settings, or fails with the same error.", "quantifier": "all texts, all injective renumberings that keep 0, all settings and external tools", "why_tests_cant": "tests use tools numbered from 1 in the order of their use; a table that mixes up numbers shows only for others", "anchors": ["gerber/excellon.py:637-672", "gerber/excellon.py:767-795", "gerber/excellon_statements.py:138-179", "gerber/excellon_statements.py:278-302"]}
{"id": "C100", "title": "What has been read is not changed by what follows", "statement": "The primitives of the beginning of a Gerber file are the first ones of the whole file, and each statement adds at most one; the holes and slots of the beginning of a drill file are the first ones of the whole file with tools of the same sizes, and each line adds at most one, or as many as a repeat command says; the records and test points of the beginning of a netlist, up to a line break behind which no continuation follows, are the first ones of the whole netlist.", "quantifier": "all lists of statements and lines, all places to cut them, all states", "why_tests_cant": "tests read whole files; something that changes earlier results when a number is used again shows only in files that do so", "anchors": ["gerber/rs274x.py:482-510", "gerber/rs274x.py:590-598", "gerber/rs274x.py:618-725", "gerber/excellon.py:441-747", "gerber/ipc356.py:170-238"]}
{"id": "C101", "title": "Moving and converting may change places", "statement": "Moving a Gerber or drill file by a distance and converting it to the other unit gives the same statements, primitives, tools and holes as converting it first and moving it by the distance expressed in the new unit; two moves are one by the sum of the distances.", "quantifier": "for all files, offsets and both directions of conversion", "why_tests_cant": "Each operation is tested alone; the agreement of the two orders concerns every combination of file, shared objects and offset.", "anchors": ["gerber/rs274x.py:155-175", "gerber/primitives.py:127-186", "gerber/gerber_statements.py:998-1034", "gerber/excellon.py:282-319", "gerber/excellon_statements.py:416-436"]}
{"id": "C102", "title": "Comments of a Gerber file are kept and draw nothing", "statement": "The comments a Gerber file lists are those of its text, in their order: evaluating, moving, converting, and writing and reading the file leave them as they are; none contains a line break or the star that ends it; and a program without its comments draws the same.", "quantifier": "all texts, all files, all moves, both conversions", "why_tests_cant": "Tests look at the comments of a few sample files just read; none looks at them after an edit, and none has a comment with a per cent sign or of two lines.", "anchors": ["gerber/rs274x.py:108-111", "gerber/rs274x.py:279-330", "gerber/rs274x.py:440-447"]}
