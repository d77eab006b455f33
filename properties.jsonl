{"id": "C01", "title": "Column labels decode to the number they encode", "statement": "alphabet_to_int(int_to_alphabet(n)) == n for every non-negative integer n, with any non-empty alphabet without repeated letters; int_to_alphabet raises ValueError exactly on negative integers.", "quantifier": "every integer n and every non-empty duplicate-free alphabet", "why_tests_cant": "infinitely many integers and alphabets; carries only appear at powers of the base", "anchors": ["benker/alphabet.py:int_to_alphabet", "benker/alphabet.py:alphabet_to_int"]}
{"id": "C02", "title": "Every word is the label of exactly one number", "statement": "For every word over the alphabet, int_to_alphabet(alphabet_to_int(word)) == word, and alphabet_to_int raises ValueError exactly when the word contains a character outside the alphabet.", "quantifier": "every string and every non-empty duplicate-free alphabet", "why_tests_cant": "strings are unbounded in length", "anchors": ["benker/alphabet.py:int_to_alphabet", "benker/alphabet.py:alphabet_to_int"]}
{"id": "C03", "title": "Column labels are ordered like spreadsheet columns", "statement": "If 0 <= m < n then the label of m is shorter than the label of n, or has the same length and precedes it in alphabet order; in particular no two columns share a label.", "quantifier": "every pair of non-negative integers and every alphabet", "why_tests_cant": "the order must hold across every length change", "anchors": ["benker/alphabet.py:int_to_alphabet"]}
{"id": "C04", "title": "Excel-like names of coordinates and boxes are unambiguous", "statement": "Two coordinates with positive members print the same string only if they are equal; two boxes print the same string only if they are equal.", "quantifier": "every pair of coordinates and of boxes", "why_tests_cant": "ambiguity would be a collision between two specific inputs out of infinitely many", "anchors": ["benker/coord.py:Coord.__str__", "benker/box.py:Box.__str__", "benker/alphabet.py:int_to_alphabet"]}
{"id": "C05", "title": "Coordinates and sizes follow vector arithmetic and reject meaningless operands", "statement": "(c + s) - s == c and (c - s) + s == c for every coordinate c and every size, pair or integer s; sizes form a commutative group under +, - with * as integer scaling; adding a coordinate to a coordinate, or multiplying by a non-integer, raises TypeError.", "quantifier": "every coordinate, size, pair, integer and operand type", "why_tests_cant": "unbounded integers, and the operand is dynamically typed", "anchors": ["benker/size.py:Size", "benker/coord.py:Coord"]}
{"id": "C06", "title": "A box exists only if it is a non-empty area of the 1-based quadrant", "statement": "Every form of the Box constructor either raises or yields a box with 1 <= min.x <= max.x and 1 <= min.y <= max.y holding exactly the requested corners; it raises ValueError exactly when the requested corners violate these inequalities and TypeError for any other argument shape.", "quantifier": "every argument tuple of any dynamic type", "why_tests_cant": "argument combinations are unbounded", "anchors": ["benker/box.py:Box.__new__"]}
{"id": "C07", "title": "Size, move and resize describe the same rectangle", "statement": "The width and height of a box are positive and width*height is the number of coordinates in it; move_to keeps the size and puts the top-left corner where asked; resize keeps the top-left corner and gives the requested size; transform does both; each raises ValueError exactly if the resulting area is invalid.", "quantifier": "every valid box, target coordinate and size", "why_tests_cant": "unbounded integers", "anchors": ["benker/box.py:Box.width", "benker/box.py:Box.transform", "benker/box.py:Box.move_to", "benker/box.py:Box.resize"]}
{"id": "C08", "title": "Membership in a box is membership of the area", "statement": "A coordinate (Coord or pair of ints) is in a box iff it lies between the corners inclusively; a box is in a box iff all its coordinates are; every other operand type raises TypeError. Box(c) contains only c.", "quantifier": "every box and every operand", "why_tests_cant": "infinitely many boxes; the box-in-box test only looks at two corners", "anchors": ["benker/box.py:Box.__contains__"]}
{"id": "C09", "title": "intersect/isdisjoint decide whether two boxes share a coordinate", "statement": "b1.intersect(b2) is True iff some coordinate belongs to both boxes, isdisjoint is its negation, and both are symmetric.", "quantifier": "every pair of boxes", "why_tests_cant": "the code only tests two of the four corners, so the failing configurations (crossing and anti-diagonal overlaps) must be characterised, not sampled", "anchors": ["benker/box.py:Box.intersect", "benker/box.py:Box.isdisjoint"]}
{"id": "C10", "title": "union is the smallest enclosing box", "statement": "b.union(*others) succeeds for every collection of boxes, contains each of them, and is contained in every box that contains each of them; hence it does not depend on order, grouping or repetition.", "quantifier": "every non-empty finite collection of boxes", "why_tests_cant": "collections of arbitrary length", "anchors": ["benker/box.py:Box.union"]}
{"id": "C11", "title": "intersection is exactly the common area", "statement": "b.intersection(*others) contains a coordinate iff every box of the collection does, and raises ValueError exactly if no coordinate is common to all of them.", "quantifier": "every non-empty finite collection of boxes", "why_tests_cant": "collections of arbitrary length; emptiness of an n-ary intersection", "anchors": ["benker/box.py:Box.intersection"]}
{"id": "C12", "title": "Box < is a strict total order in reading order", "statement": "< on boxes is irreflexive, transitive and total on distinct boxes; boxes are sorted by top row, then left column, then bottom row, then right column.", "quantifier": "every pair and triple of boxes", "why_tests_cant": "transitivity ranges over all triples", "anchors": ["benker/box.py:Box.__lt__"]}
{"id": "C13", "title": "All comparison operators of Box agree with each other", "statement": "For every two boxes, b1 > b2 iff b2 < b1, b1 <= b2 iff b1 < b2 or b1 == b2, and b1 >= b2 iff b2 <= b1 (Box is declared with functools.total_ordering).", "quantifier": "every pair of boxes", "why_tests_cant": "total_ordering does not override operators inherited from tuple, so disagreement depends on the pair", "anchors": ["benker/box.py:Box", "benker/box.py:Box.__lt__"]}
{"id": "C14", "title": "Cells are ordered like their boxes", "statement": "For every two cells a and b with different boxes exactly one of a < b, b < a holds, a > b iff b < a, and a <= b iff a < b; comparing a cell with a box gives the same answer as comparing the boxes.", "quantifier": "every pair of cells", "why_tests_cant": "derived operators combine < with identity-based equality", "anchors": ["benker/cell.py:Cell.__lt__", "benker/cell.py:Cell"]}
{"id": "C15", "title": "Transforming a cell changes nothing but its box", "statement": "move_to, resize and transform return a cell with the same content, styles and nature and the requested box; creating a cell with non-positive x, y, width or height raises ValueError.", "quantifier": "every cell, coordinate and size", "why_tests_cant": "unbounded integers and arbitrary contents", "anchors": ["benker/cell.py:Cell.__init__", "benker/cell.py:Cell.transform", "benker/cell.py:Cell.move_to", "benker/cell.py:Cell.resize"]}
{"id": "C16", "title": "No two styled objects share their style dictionary", "statement": "After any sequence of creating styled objects from dictionaries or from the styles of other objects, assigning styles, transforming cells and editing styles in place, editing the styles of one object never changes the styles seen through another object.", "quantifier": "every history of constructions, assignments, copies and in-place edits", "why_tests_cant": "aliasing bugs depend on the history of copies", "anchors": ["benker/styled.py:Styled.__init__", "benker/styled.py:Styled.styles", "benker/cell.py:Cell.transform"]}
{"id": "C17", "title": "A grid always iterates its cells in reading order", "statement": "After any history of insertions, deletions, merges and expansions (successful or failed), iterating the grid yields cells in strictly increasing order of (top row, left column), so no two cells have the same top-left coordinate.", "quantifier": "every history of grid operations", "why_tests_cant": "the order rests on a binary search over a list mutated by every earlier operation", "anchors": ["benker/grid.py:Grid.__setitem__", "benker/grid.py:Grid.merge", "benker/grid.py:Grid.__iter__"]}
{"id": "C18", "title": "The cells of a grid are pairwise disjoint", "statement": "After any history of operations no coordinate belongs to two cells of the grid.", "quantifier": "every history of grid operations", "why_tests_cant": "overlaps only arise from particular combinations of spans", "anchors": ["benker/grid.py:Grid.__setitem__", "benker/grid.py:Grid.merge", "benker/box.py:Box.intersect"]}
{"id": "C19", "title": "A grid stores what was put in it", "statement": "After a successful grid[c] = cell, grid[c] is that cell moved to c with its content, styles, nature and size unchanged; every coordinate outside the new box answers as before; grid[c] raises KeyError iff c in grid is False; insertion raises KeyError whenever the new box has a top-left or bottom-right corner in an existing cell or conversely.", "quantifier": "every reachable grid, coordinate and cell", "why_tests_cant": "depends on the whole history of the grid", "anchors": ["benker/grid.py:Grid.__setitem__", "benker/grid.py:Grid.__getitem__", "benker/grid.py:Grid.__contains__"]}
{"id": "C20", "title": "Deleting removes exactly one cell", "statement": "del grid[c] succeeds iff some cell covers c, removes exactly one cell (the one returned by grid[c]) and leaves the others and their order unchanged.", "quantifier": "every reachable grid and coordinate", "why_tests_cant": "depends on the whole history of the grid", "anchors": ["benker/grid.py:Grid.__delitem__"]}
{"id": "C21", "title": "A failed grid operation leaves the grid unchanged", "statement": "If setting, deleting, merging or expanding raises (including when the user-supplied content appender raises), the grid holds the same cells in the same order as before.", "quantifier": "every grid, operation, argument and appender", "why_tests_cant": "the exception may be raised at any step of a loop over the cells", "anchors": ["benker/grid.py:Grid.__setitem__", "benker/grid.py:Grid.__delitem__", "benker/grid.py:Grid.merge", "benker/grid.py:Grid.expand"]}
{"id": "C22", "title": "bounding_box is the smallest box around the cells", "statement": "bounding_box is None iff the grid is empty, otherwise it contains every cell and is contained in every box that contains every cell.", "quantifier": "every reachable grid", "why_tests_cant": "any number of cells", "anchors": ["benker/grid.py:Grid.bounding_box"]}
{"id": "C23", "title": "merge replaces the enclosed cells by one cell", "statement": "A successful merge(start, end) removes exactly the cells enclosed in the box start..end and adds one cell with that box whose nature is that of the first enclosed cell in reading order, whose content is the left-to-right combination of the enclosed contents ignoring None, and whose styles are the enclosed styles with later cells overriding earlier ones; other cells are untouched, and the coordinates covered afterwards are the previous ones plus the box.", "quantifier": "every reachable grid, box and appender", "why_tests_cant": "any number of merged cells and arbitrary spans", "anchors": ["benker/grid.py:Grid.merge"]}
{"id": "C24", "title": "merge fails exactly when the group cannot be merged", "statement": "merge(start, end) raises ValueError if start..end is not a valid box, if no cell is enclosed, or if a cell is cut by the box as detected by intersect; in every other case it succeeds as long as the appender does.", "quantifier": "every grid and pair of coordinates", "why_tests_cant": "any number of cells", "anchors": ["benker/grid.py:Grid.merge"]}
{"id": "C25", "title": "expand grows a cell, and shrinking is possible", "statement": "expand(c, width, height) grows the cell at c by the given amounts, merging the cells it swallows; expand with zero amounts leaves the grid unchanged; as documented, negative amounts shrink the cell.", "quantifier": "every reachable grid, coordinate and amounts", "why_tests_cant": "ranges over all grids and all amounts", "anchors": ["benker/grid.py:Grid.expand"]}
{"id": "C26", "title": "iter_rows partitions the cells by row", "statement": "iter_rows yields non-empty groups, one per distinct top row in increasing order; each group has all the cells starting in that row from left to right; concatenating the groups gives the iteration order.", "quantifier": "every reachable grid", "why_tests_cant": "any number of rows and cells; itertools.groupby only groups adjacent items", "anchors": ["benker/grid.py:Grid.iter_rows"]}
{"id": "C27", "title": "A grid is a working MutableMapping", "statement": "The mapping operations inherited from MutableMapping behave as for a mapping from coordinates: get, pop and setdefault follow lookup, insertion and deletion; popitem, clear, update, items and values work on every grid.", "quantifier": "every grid and operation", "why_tests_cant": "iteration yields cells rather than keys, which breaks the mixins on every non-empty grid", "anchors": ["benker/grid.py:Grid", "benker/grid.py:Grid.__iter__"]}
{"id": "C28", "title": "The order in which disjoint cells are inserted does not matter", "statement": "Building a grid from any permutation of a list of pairwise disjoint cells succeeds and yields the same grid.", "quantifier": "every list of disjoint cells and every permutation", "why_tests_cant": "factorially many orders", "anchors": ["benker/grid.py:Grid.__init__", "benker/grid.py:Grid.__setitem__"]}
{"id": "C29", "title": "Drawings are rectangular", "statement": "Drawing a non-empty grid whose cell texts have no line break yields 2*rows+1 lines, all of 12*columns+1 characters, where rows and columns are the dimensions of the bounding box; drawing an empty grid yields the empty string.", "quantifier": "every grid and every cell text", "why_tests_cant": "every combination of spans, holes and text lengths", "anchors": ["benker/drawing.py:draw", "benker/drawing.py:iter_lines", "benker/drawing.py:iter_tiles", "benker/drawing.py:TILES"]}
{"id": "C30", "title": "Each cell's text is drawn exactly once, inside the cell", "statement": "In the drawing of a grid of disjoint cells, the tile at the middle of each cell carries the (centred, nine-character) text of this cell, and no other tile of the cell, and no uncovered tile, carries text.", "quantifier": "every grid of disjoint cells", "why_tests_cant": "middle computation for every span", "anchors": ["benker/drawing.py:iter_tiles"]}
{"id": "C31", "title": "Row and column views list exactly the cells of the table", "statement": "After any history of table operations, row view y owns each cell whose top row is y exactly once and catches each cell crossing row y exactly once, and nothing else; the same for column views.", "quantifier": "every history of table operations and view accesses", "why_tests_cant": "views are created lazily and updated incrementally, so consistency depends on when they are first accessed", "anchors": ["benker/table.py:TableViewList", "benker/table.py:ViewsProperty.__get__", "benker/table.py:Table._refresh_views", "benker/table.py:TableView.adopt_cell"]}
{"id": "C32", "title": "Deleting, merging and expanding re-synchronise the views", "statement": "After a successful deletion, merge or expansion, the number of row (column) views is the bottom row (right column) of the bounding box, zero if the table is empty, and each view lists its cells in reading order.", "quantifier": "every history of table operations", "why_tests_cant": "depends on the whole history", "anchors": ["benker/table.py:TableViewList.refresh_all", "benker/table.py:TableViewList._fit_to_size"]}
{"id": "C33", "title": "insert_cell uses the first free position", "statement": "Inserting a cell in a row (column) view consistent with the table puts it at the smallest column (row) not covered by any cell in that row (column), and nowhere else.", "quantifier": "every consistent table, row or column, and cell", "why_tests_cant": "any arrangement of spanning cells", "anchors": ["benker/table.py:RowView.insert_cell", "benker/table.py:ColView.insert_cell"]}
{"id": "C34", "title": "Appending single cells never fails and inherits the nature", "statement": "Inserting a cell of width and height 1 through a consistent view always succeeds; the new cell has the given nature, or the nature of the view if None was given.", "quantifier": "every consistent table, view, content, styles and nature", "why_tests_cant": "any arrangement of spanning cells", "anchors": ["benker/table.py:RowView.insert_cell", "benker/table.py:ColView.insert_cell"]}
{"id": "C35", "title": "fill_missing leaves no hole and touches nothing else", "statement": "fill_missing(box, ...) never fails; afterwards every coordinate of the box is covered; all previous cells are still there unchanged; every new cell is 1x1, lies in the box on a previously uncovered coordinate, and has the given content, styles and nature.", "quantifier": "every table and box", "why_tests_cant": "any arrangement of holes", "anchors": ["benker/table.py:Table.fill_missing"]}
{"id": "C36", "title": "View styles and natures survive table updates", "statement": "The styles and nature of a row or column view are unchanged by any table operation as long as the view remains in the list; a view is dropped only if it lies beyond the bounding box when a deletion, merge or expansion refreshes the views.", "quantifier": "every history of table operations", "why_tests_cant": "depends on the order of accesses and updates", "anchors": ["benker/table.py:TableViewList.refresh_all", "benker/table.py:TableViewList.__getitem__"]}
{"id": "C37", "title": "A table answers like its grid", "statement": "For every history of table operations, the cells, lookups, errors and bounding box of the table are those of a plain grid that received the same insertions, deletions, merges and expansions.", "quantifier": "every history", "why_tests_cant": "refinement over all histories, including failing operations", "anchors": ["benker/table.py:Table"]}
{"id": "C38", "title": "Frame attribute round-trip", "statement": "For each CALS frame value, the border styles derived from it give back the same frame value; every style dictionary gives one of the six legal frame values; an unknown frame value raises KeyError.", "quantifier": "every frame string and every style dictionary", "why_tests_cant": "arbitrary border descriptions", "anchors": ["benker/parsers/cals/frame_styles.py:get_frame_styles", "benker/builders/cals.py:get_frame_attr", "benker/builders/cals.py:_get_border_style"]}
{"id": "C39", "title": "colsep/rowsep encode the presence of a border", "statement": "The separator attribute is absent iff the style has no border keyword, '0' iff the last keyword is none, '1' otherwise; parsing '0' or '1' and building again gives the same value.", "quantifier": "every style dictionary", "why_tests_cant": "arbitrary style strings", "anchors": ["benker/builders/cals.py:get_colsep_attr", "benker/builders/cals.py:get_rowsep_attr", "benker/builders/cals.py:_get_border_style"]}
{"id": "C40", "title": "The CALS builder outputs every row once, grouped and sorted by nature", "statement": "In the generated tgroup every row appears exactly once; groups appear in the configured nature order (unknown natures rank as body); rows of the same rank keep their relative order.", "quantifier": "every table and every complete sorting option", "why_tests_cant": "any sequence of natures of any length", "anchors": ["benker/builders/cals.py:CalsBuilder.build_tgroup", "benker/builders/cals.py:CalsBuilder.__init__"]}
{"id": "C41", "title": "The CALS builder emits one entry per cell with its spans", "statement": "With consistent views each cell gives exactly one entry in the row of its top coordinate; namest/nameend are present iff it spans several columns and name its first and last column; morerows is present iff it spans several rows and is the number of extra rows; there is one colspec per column, in order.", "quantifier": "every table", "why_tests_cant": "any arrangement of cells", "anchors": ["benker/builders/cals.py:CalsBuilder.build_cell", "benker/builders/cals.py:CalsBuilder.build_row", "benker/builders/cals.py:CalsBuilder.build_colspec"]}
{"id": "C42", "title": "Mixed content is preserved", "statement": "Appending a list of texts and elements to an empty cell element keeps every element in order and every text at its place: the text content of the cell element is the concatenation of the pieces; parsing back [text] + children and appending again rebuilds the same children and text.", "quantifier": "every sequence of texts and elements", "why_tests_cant": "sequences of any length and any interleaving", "anchors": ["benker/builders/base_builder.py:BaseBuilder.append_cell_elements", "benker/parsers/cals/__init__.py:CalsParser.parse_cals_entry"]}
{"id": "C43", "title": "Text extraction concatenates the pieces", "statement": "The text of a cell content is empty for None, the string itself for a string, and for a list the concatenation of the texts of its items; for XML elements it is the text, the children's text and the tail in document order, comments and processing instructions contributing only their tail.", "quantifier": "every nested content", "why_tests_cant": "arbitrary nesting depth", "anchors": ["benker/cell.py:get_content_text", "benker/cell.py:_get_node_text"]}
{"id": "C44", "title": "The tree walk yields well-nested events", "statement": "iterwalk yields, for each element with a selected tag, exactly one start and one end event, in document order, properly nested; unselected elements yield nothing but their descendants are still visited.", "quantifier": "every tree and tag set", "why_tests_cant": "arbitrary depth and breadth", "anchors": ["benker/common/lxml_iterwalk.py:iterwalk"]}
{"id": "C45", "title": "CALS round-trip keeps the layout", "statement": "For every table without holes nor overlaps, filled from left to right, whose row natures are already in tgroup order and whose contents include no CALS element, parsing the CALS table generated from it gives a table with the same cells: same positions, spans, text content and row natures.", "quantifier": "every hole-free table of any size", "why_tests_cant": "positions are recomputed by the parser from spans only, so correctness depends on all cells above and to the left", "anchors": ["benker/builders/cals.py:CalsBuilder", "benker/parsers/cals/__init__.py:CalsParser"]}
{"id": "C46", "title": "Parsed tables have no hole", "statement": "When parsing a CALS table succeeds, every coordinate of the bounding box of the resulting table is covered by a cell.", "quantifier": "every CALS table element", "why_tests_cant": "arbitrary rows with missing entries and spans", "anchors": ["benker/parsers/cals/__init__.py:CalsParser.parse_table", "benker/table.py:Table.fill_missing"]}
{"id": "C47", "title": "The inside of nested tables does not disturb the enclosing table", "statement": "Parsing a table in which cells contain other tables gives the same layout (positions, spans, styles and natures of cells, rows and columns) or the same exception as parsing it with the inner tables emptied (CALS and Formex parsers).", "quantifier": "every table with nested tables at any depth", "why_tests_cant": "depends on where in the outer table the inner table is closed", "anchors": ["benker/parsers/cals/__init__.py:CalsParser.parse_table", "benker/parsers/formex.py:FormexParser.parse_table"]}
{"id": "C48", "title": "Parsing a table does not depend on tables parsed before", "statement": "The table returned by parse_table is the same whatever tables the parser has parsed before, even if an earlier parse failed half-way.", "quantifier": "every history of parses", "why_tests_cant": "the parser keeps mutable state between calls", "anchors": ["benker/parsers/base_parser.py:BaseParser._State", "benker/parsers/cals/__init__.py:CalsParser.parse_table"]}
{"id": "C49", "title": "Row styles round-trip between the Formex parser and builder", "statement": "For every row tag, legal row type and block level, decoding the row style written by the Formex parser gives back tag, type and level; every string outside the grammar is read as a plain row of level 0.", "quantifier": "every tag, type and level, every string", "why_tests_cant": "levels are unbounded; arbitrary strings", "anchors": ["benker/builders/formex.py:guess_row_info", "benker/parsers/formex.py:FormexParser.parse_fmx_row", "benker/parsers/formex.py:FormexParser.parse_fmx_ti_blk"]}
{"id": "C50", "title": "Block grouping puts each row at its level and keeps the order", "statement": "After grouping, each row of the corpus is nested in exactly as many BLK elements as its level, and reading the rows in document order gives the original order.", "quantifier": "every sequence of rows and levels", "why_tests_cant": "any sequence of level changes", "anchors": ["benker/builders/formex.py:FormexBuilder.insert_blk"]}
{"id": "C51", "title": "Tables are numbered hierarchically", "statement": "NO.SEQ of a table is NO.SEQ of the enclosing table followed by its rank among the tables directly enclosed there, so numbers are unique and in document order.", "quantifier": "every nesting of tables", "why_tests_cant": "arbitrary nesting and branching", "anchors": ["benker/builders/formex.py:FormexBuilder.update_no_seq"]}
{"id": "C52", "title": "Formex round-trip keeps the layout", "statement": "For every table without holes nor overlaps, filled from left to right, whose contents include no element of a Formex table and whose first row is not written as a title, parsing the Formex CORPUS generated from it gives a table with the same cells: same positions, spans and text; header rows are read as header rows.", "quantifier": "every hole-free table of any size", "why_tests_cant": "positions are recomputed by the parser", "anchors": ["benker/builders/formex.py:FormexBuilder", "benker/parsers/formex.py:FormexParser"]}
{"id": "C53", "title": "Header rows keep their type in Formex", "statement": "After finalisation a row of nature header carries TYPE=HEADER in the Formex document.", "quantifier": "every table and option", "why_tests_cant": "finalisation passes rewrite the attributes for every row", "anchors": ["benker/builders/formex.py:FormexBuilder.build_row", "benker/builders/formex.py:FormexBuilder.extract_gr_notes", "benker/builders/formex.py:FormexBuilder.insert_blk"]}
{"id": "C54", "title": "Word table styles are inherited, nearest definition first", "statement": "Resolving the borders of a table style terminates for every stylesheet, and each border property has the value given by the nearest style in the basedOn chain which defines it.", "quantifier": "every stylesheet and style id", "why_tests_cant": "chains of any length, including cyclic ones", "anchors": ["benker/parsers/ooxml/__init__.py:_get_style_borders"]}
{"id": "C55", "title": "Vertically merged Word cells become one cell", "statement": "A cell restarting a vertical merge followed by n continuation cells in the next rows at the same columns becomes one cell of height n+1 with the content of the first.", "quantifier": "every n and table", "why_tests_cant": "any number of continuation rows", "anchors": ["benker/parsers/ooxml/__init__.py:OoxmlParser.parse_tc", "benker/table.py:Table.expand"]}
{"id": "C56", "title": "Widths are parsed by longest number and unit", "statement": "parse_width of a decimal number followed by a known unit gives this number and unit, and the default unit if the unit is missing.", "quantifier": "every decimal numeral and unit", "why_tests_cant": "unbounded numerals; alternation order in the regular expression matters (m vs mm)", "anchors": ["benker/units.py:parse_width"]}
{"id": "C57", "title": "Unit conversion is linear and reversible up to rounding", "statement": "Converting between units is the exact ratio rounded to three decimals; converting to the same unit returns the value rounded to three decimals; unknown units raise KeyError.", "quantifier": "every value and pair of units", "why_tests_cant": "floating point and rounding for every value", "anchors": ["benker/units.py:convert_value"]}
{"id": "C58", "title": "Tables are replaced in place", "statement": "Replacing a table element in its parent keeps the number and order of the siblings and the text following the table.", "quantifier": "every document and table position", "why_tests_cant": "arbitrary siblings", "anchors": ["benker/parsers/cals/__init__.py:CalsParser.transform_tables"]}
{"id": "C59", "title": "Borders are drawn exactly around cells", "statement": "In the drawing of a grid of disjoint cells, a vertical bar stands on the left of a coordinate exactly when a cell starts at that column or the coordinate is free, dashes stand above it exactly when a cell starts at that row or the coordinate is free, and the drawing is closed on the right and at the bottom.", "quantifier": "every grid of disjoint cells, every coordinate of the bounding box", "why_tests_cant": "every combination of spans and holes selects one of sixteen tiles", "anchors": ["benker/drawing.py:iter_tiles", "benker/drawing.py:TILES", "benker/drawing.py:draw"]}
{"id": "C60", "title": "A written width is stable", "statement": "A width written by the converters (two decimals and a unit, below a hundred million) is unchanged when it is parsed and written again in the same unit.", "quantifier": "every such width, every unit, every accurate floating point arithmetic", "why_tests_cant": "unbounded set of widths; accumulated floating point and rounding errors", "anchors": ["benker/units.py:parse_width", "benker/units.py:convert_value", "benker/builders/cals.py:CalsBuilder.build_table", "benker/parsers/cals/__init__.py:CalsParser.parse_cals_table"]}
{"id": "C61", "title": "The presence of a nested table does not move cells", "statement": "Replacing a table nested in a cell of a CALS table by another element does not change the positions and spans of the cells of the enclosing table.", "quantifier": "every table with nested tables", "why_tests_cant": "depends on what has been parsed when the inner table is closed", "anchors": ["benker/parsers/cals/__init__.py:CalsParser.parse_table"]}
{"id": "C62", "title": "Each cell gives one CALS entry, in the order of the columns", "statement": "For every table, each cell gives exactly one entry of the generated CALS table, and the entries of a row come in the order of their columns.", "quantifier": "every table and history", "why_tests_cant": "depends on the order in which cells were inserted and on when the views were first read", "anchors": ["benker/builders/cals.py:CalsBuilder.build_row", "benker/table.py:TableViewList.adopt_cell", "benker/table.py:TableView.owned_cells"]}
{"id": "C63", "title": "Styles of the cells survive a CALS round trip", "statement": "A table without overlap nor hole, written in CALS and read again, has cells with the same alignment, vertical alignment (`bottom` when CALS does not know it), background and cell style, and the same line on the right and at the bottom (own style of the cell, else default of the table) except at the last column and row; cells without content are marked as empty; no other style is kept or invented.", "quantifier": "every such table, every style of the cells and of the table, both places of the default separators (table or tgroup)", "why_tests_cant": "unbounded combinations of spans, own borders, default borders and values", "anchors": ["benker/builders/cals.py:CalsBuilder.build_cell", "benker/parsers/cals/__init__.py:CalsParser.parse_cals_entry"]}
{"id": "C64", "title": "Styles of the rows and columns survive a CALS round trip", "statement": "In the same round trip, the rows keep their vertical alignment, their row style and the line below them (their background is lost); the columns keep their alignment, the lines on the right and at the bottom, and get the width which the builder has written.", "quantifier": "every such table, every row and column", "why_tests_cant": "unbounded combinations of styles and sizes", "anchors": ["benker/builders/cals.py:CalsBuilder.build_row", "benker/builders/cals.py:CalsBuilder.build_colspec", "benker/parsers/cals/__init__.py:CalsParser.parse_cals_row", "benker/parsers/cals/__init__.py:CalsParser.parse_cals_colspec"]}
{"id": "C65", "title": "Styles of the table survive a CALS round trip", "statement": "In the same round trip, the table keeps its nature, its frame when CALS has a value for it (no side gets a border it did not have), the default lines of its cells, its orientation, its background and its width; a number of page columns other than one becomes two.", "quantifier": "every such table, both places of the table style (table or tgroup)", "why_tests_cant": "unbounded combinations of styles", "anchors": ["benker/builders/cals.py:CalsBuilder.build_table", "benker/builders/cals.py:CalsBuilder.build_tgroup", "benker/parsers/cals/__init__.py:CalsParser.parse_cals_table", "benker/parsers/cals/__init__.py:CalsParser.parse_cals_tgroup"]}
{"id": "C66", "title": "Inserted rows stand between readable revision marks", "statement": "Each row gives one `row` element; a row marked as inserted stands between a `change-start` and a `change-end` processing instruction whose attributes tell its identifier, author and date, and can be read back unambiguously whatever characters these hold.", "quantifier": "every table, every row, every identifier, author and date", "why_tests_cant": "the values may hold any character, and are serialised in the text of a processing instruction", "anchors": ["benker/builders/cals.py:CalsBuilder.build_row", "benker/builders/cals.py:revision_mark"]}
{"id": "C67", "title": "Rows of Word tables keep their kind and revision marks", "statement": "A table of a Word document has one row for each `w:tr`, numbered from 1; the row is a header if and only if Word repeats it at the top of each page, otherwise it belongs to the body; its styles tell if it was inserted, and by whom, when and in which revision, and nothing else but its height.", "quantifier": "every Word table with rows of the same number of columns, with any number of rows and merged cells", "why_tests_cant": "the views of the rows are updated at each insertion and expansion of cells; any of them may lose what was set before", "anchors": ["benker/parsers/ooxml/__init__.py:OoxmlParser.parse_tr"]}
{"id": "C68", "title": "Columns of Word tables keep their width", "statement": "A table of a Word document has as many columns as its rows, and the width of the i-th column is the value of the i-th `w:gridCol`, converted from twentieths of a point to points with two decimals.", "quantifier": "every Word table with at least one row, every width", "why_tests_cant": "unbounded numbers; the views of the columns are updated at each insertion of cells", "anchors": ["benker/parsers/ooxml/__init__.py:OoxmlParser.parse_grid_col"]}
{"id": "C69", "title": "Cells of Word tables keep their looks", "statement": "Every `w:tc` which does not continue another one gives a cell with its paragraphs, the nature of its row, and styles which tell its background color, vertical alignment, horizontal alignment (the first of the most frequent alignments of its paragraphs), borders and whether it is empty (no text, no image), and nothing else.", "quantifier": "every Word table, every cell, any number of paragraphs and any depth of nesting of its content", "why_tests_cant": "the alignment is a vote over an unbounded list of paragraphs, the emptiness is a search in an unbounded tree", "anchors": ["benker/parsers/ooxml/__init__.py:OoxmlParser.parse_tc", "benker/parsers/ooxml/w_shd.py:Shd.styles"]}
{"id": "C70", "title": "Word tables keep their style, frame and section", "statement": "The nature of a table of a Word document is the identifier of its style; its background is its shading; its orientation, page size and number of text columns are those of its section; each side of its frame is the border it defines itself, otherwise the border of the nearest style of the chain of its styles, and the default borders of its cells are those of the nearest style.", "quantifier": "every Word table, every section, every acyclic stylesheet", "why_tests_cant": "the styles form chains of unbounded length", "anchors": ["benker/parsers/ooxml/__init__.py:OoxmlParser.parse_tbl", "benker/parsers/ooxml/w_pg_sz.py:PgSz.styles"]}
{"id": "C71", "title": "The Formex builder writes one CELL per cell", "statement": "A table is written as a `TBL` with its number (four digits at least), its number of columns and the size of its page; its `CORPUS` has one `ROW` per row of the table, in order, with the type of its nature, and each row has one `CELL` per cell starting in it, with its column, `COLSPAN`/`ROWSPAN` exactly when it spans several columns/rows (also in the CALS way, with one numbered `colspec` per column, when CALS is asked for), its type when it is not that of the row, and its content (`IE` when it is empty).", "quantifier": "every table reachable by any history of operations, every configuration of the builder, every content", "why_tests_cant": "unbounded tables, spans, contents and histories", "anchors": ["benker/builders/formex.py:FormexBuilder.build_tbl", "benker/builders/formex.py:FormexBuilder.build_corpus", "benker/builders/formex.py:FormexBuilder.build_row", "benker/builders/formex.py:FormexBuilder.build_cell"]}
{"id": "C72", "title": "No text is lost in a generated Formex table, even in a title", "statement": "The text of the generated `TBL` is the text of the cells of the table, row after row, whether the first row is detected as a title or not.", "quantifier": "every table, every content of cells, with and without detection of titles", "why_tests_cant": "contents are unbounded trees, and the title takes the paragraphs of its cell apart", "anchors": ["benker/builders/formex.py:FormexBuilder.build_title", "benker/builders/formex.py:FormexBuilder.build_corpus"]}
{"id": "C73", "title": "CALS tables are read as they are drawn", "statement": "A CALS table whose entries, once laid out row after row from left to right, fill a rectangle without overlapping, is read as the table with exactly these cells: same places and spans (by `namest`/`nameend` numbers and `morerows`), same contents, kinds given by `thead`, `tbody` and `tfoot`; and the styles of the table, its columns, rows and cells are those told by the attributes of `table`, `tgroup`, `colspec`, rows and entries - each attribute in its documented vocabulary, nearest first.", "quantifier": "every CALS document of any size, with any elements of other vocabularies, comments and instructions between the elements of the table", "why_tests_cant": "unbounded numbers of rows, columns and spans; the position of an entry depends on all the spans of the rows above", "anchors": ["benker/parsers/cals/__init__.py:CalsParser.parse_table", "benker/parsers/cals/__init__.py:CalsParser.parse_cals_entry", "benker/parsers/cals/__init__.py:CalsParser.parse_cals_colspec", "benker/parsers/cals/__init__.py:CalsParser.parse_cals_row"]}
{"id": "C74", "title": "CALS tables which break the rules are refused", "statement": "When the CALS parser accepts a table, its frame is one of those of CALS, its `colspec` are in the table or a group and have integer numbers, its rows are in a `thead`, `tbody` or `tfoot`, the names of the columns of its entries contain numbers, in increasing order, and the number of additional rows is an integer which is not negative, at any depth outside of the nested tables. So any other table raises an exception.", "quantifier": "every XML tree, well formed for CALS or not, every state of the parser", "why_tests_cant": "the trees are unbounded and the offending element can be at any depth, after any number of others", "anchors": ["benker/parsers/cals/__init__.py:CalsParser.parse_table", "benker/parsers/cals/__init__.py:CalsParser.parse_cals_entry", "benker/parsers/cals/__init__.py:CalsParser.parse_cals_colspec", "benker/parsers/cals/__init__.py:CalsParser.parse_cals_row"]}
{"id": "C75", "title": "Spaces and shadows of Word borders are kept", "statement": "The distance and the shadow which Word gives to the borders of a table, a style or a cell are told by the styles: `border-collapse` is `collapse` when all the given distances are null and `separate` otherwise, `border-spacing` gives the distance of each side in order, `box-shadow` the size of each side in order, as CSS lengths; a table without its own values has those of the nearest style.", "quantifier": "every Word table, style and cell, every combination of sides, every chain of styles", "why_tests_cant": "the combinations of sides and attributes multiply, and the chains of styles are unbounded", "anchors": ["benker/parsers/ooxml/__init__.py:_get_border_properties", "benker/parsers/ooxml/__init__.py:_border_properties_to_styles", "benker/parsers/ooxml/__init__.py:_get_style_borders"]}
{"id": "C76", "title": "Formex tables are read as they are drawn", "statement": "A Formex table whose cells, titles of blocks and notes, once laid out line after line from left to right, fill a rectangle without overlapping (rows may stop before the last column when the number of columns is known), is read as the table with exactly these cells: same places and spans (`COLSPAN`/`ROWSPAN`, or the CALS way; `COL.START`/`COL.END` for the titles; the whole width for the notes), same contents (nothing for `IE`), empty cells where nothing is drawn; the kinds are those of `TYPE`, each row or title keeps its type and the number of blocks around it, and the styles of the table, columns, rows and cells are those told by the attributes.", "quantifier": "every Formex document of any size, with blocks nested at any depth, and any elements of other vocabularies, comments and instructions between the elements of the table", "why_tests_cant": "unbounded numbers of rows, columns, blocks and spans; the position of a cell depends on all the spans of the rows above", "anchors": ["benker/parsers/formex.py:FormexParser.parse_table", "benker/parsers/formex.py:FormexParser.parse_fmx_corpus", "benker/parsers/formex.py:FormexParser.parse_fmx_row", "benker/parsers/formex.py:FormexParser.parse_fmx_cell", "benker/parsers/formex.py:FormexParser.parse_fmx_ti_blk", "benker/parsers/formex.py:FormexParser.parse_gr_notes"]}
{"id": "C77", "title": "The looks of a table are told in Formex", "statement": "When the CALS attributes are asked for, the Formex document tells the looks of the table: the `CORPUS` has its frame, the default separators, its nature, the orientation and the number of columns of the page, its colour, and its width in the unit of the configuration; each `colspec` the separators, the width and the alignment of its column; each `ROW` the vertical alignment, the separator, the style and the colour of its row; each `CELL` its separators (none in the last column and the last row), its alignments and its colour. A separator is written only where it differs from that of the table. When they are not asked for, none of these attributes is written.", "quantifier": "every table, every style, every configuration of the Formex builder", "why_tests_cant": "the styles are arbitrary dictionaries, and the last row and column depend on all the cells", "anchors": ["benker/builders/formex.py:FormexBuilder.build_corpus", "benker/builders/formex.py:FormexBuilder.build_colspec", "benker/builders/formex.py:FormexBuilder.build_row", "benker/builders/formex.py:FormexBuilder.build_cell"]}
{"id": "C78", "title": "Finalising a Formex document loses no text", "statement": "The finalisation of a Formex document - numbering, opening of the tables directly inside tables, extraction of the notes, grouping in blocks, cleaning of the attributes - keeps its text in order, except that the text of the footer rows of a table comes just before its first `CORPUS`.", "quantifier": "every Formex document, every configuration of the Formex builder", "why_tests_cant": "the documents are unbounded trees, and the tables can be nested at any depth", "anchors": ["benker/builders/formex.py:FormexBuilder.finalize_tree", "benker/builders/formex.py:FormexBuilder.extract_gr_notes", "benker/builders/formex.py:FormexBuilder.insert_blk", "benker/builders/formex.py:FormexBuilder.cleanup_tbl_in_tbl"]}
{"id": "C79", "title": "Finalising a Formex document changes only the attributes it must", "statement": "After the finalisation of a Formex document, no row, cell, title or note inside a table has a `namest`, `nameend`, `morerows` or `rowstyle` attribute; the step which drops them changes nothing else in the document. The footer rows of a table become notes just before its first `CORPUS`, in the order of the rows; each note has the attributes of its row, except its type, where it has not its own.", "quantifier": "every Formex document, every configuration of the Formex builder", "why_tests_cant": "the documents are unbounded trees, tables can be nested, and the rows, titles and notes can be at any depth in blocks", "anchors": ["benker/builders/formex.py:FormexBuilder.drop_superfluous_attrs", "benker/builders/formex.py:FormexBuilder.extract_gr_notes", "benker/builders/formex.py:FormexBuilder.finalize_tree"]}
{"id": "C80", "title": "Tables read from documents list their cells in reading order", "statement": "The rows of a table read by any of the three parsers list each cell once, row after row and from left to right; and there is no hole at the left of a cell in its row. So the builders write the cells of such a table in reading order.", "quantifier": "every CALS, Formex or Word table, of any size and with tables nested in it, every configuration", "why_tests_cant": "the order of a row depends on all the insertions, fills and extensions of cells made while the document is read, and on the tables nested in it", "anchors": ["benker/parsers/cals/__init__.py:CalsParser.parse_table", "benker/parsers/formex.py:FormexParser.parse_table", "benker/parsers/ooxml/__init__.py:OoxmlParser.parse_table", "benker/table.py:TableView.adopt_cell", "benker/table.py:RowView.insert_cell", "benker/table.py:Table.fill_missing"]}
{"id": "C81", "title": "Tables read from documents have no hole", "statement": "Each place of the rectangle of a table read from a document is covered by a cell, and the rectangle begins at the first column.", "quantifier": "every Formex or Word table (see C46 for CALS), every configuration", "why_tests_cant": "unbounded numbers of rows, columns and spans", "anchors": ["benker/parsers/formex.py:FormexParser.parse_fmx_corpus", "benker/parsers/ooxml/__init__.py:OoxmlParser.parse_tr", "benker/table.py:Table.fill_missing", "benker/table.py:TableViewList"]}
{"id": "C82", "title": "Tables read from documents have no overlapping cells", "statement": "No two cells of a table read from a document cover the same place.", "quantifier": "every CALS, Formex or Word table, every configuration", "why_tests_cant": "overlaps depend on the spans of all the cells above", "anchors": ["benker/parsers/cals/__init__.py:CalsParser.parse_cals_entry", "benker/parsers/formex.py:FormexParser.parse_fmx_cell", "benker/parsers/ooxml/__init__.py:OoxmlParser.parse_tc", "benker/grid.py:Grid.__setitem__", "benker/box.py:Box.intersect"]}
{"id": "C83", "title": "Converting a Formex document changes nothing outside of its tables", "statement": "In the document made from a Formex document, each table body (`CORPUS`) is replaced, where it was, by a CALS table followed by the same text; the notes which precede a `CORPUS` among its siblings are moved into its table; all other elements, attributes, texts, comments and instructions keep their places, and no `CORPUS` is left. A document without table is unchanged.", "quantifier": "every Formex document, with tables, notes and blocks nested at any depth, every configuration", "why_tests_cant": "unbounded trees, with several tables per parent and tables nested in cells and notes; the replacement changes the tree which is being visited", "anchors": ["benker/parsers/formex.py:FormexParser.transform_tables", "benker/parsers/formex.py:FormexParser.parse_table", "benker/converters/formex2cals.py:Formex2CalsConverter"]}
{"id": "C84", "title": "The presence of a nested Formex table does not change the enclosing table", "statement": "Replacing a table nested in a cell of a Formex table by another element does not change the rows of the enclosing table, nor the positions and spans of its cells.", "quantifier": "every Formex table with nested tables, with or without notes", "why_tests_cant": "depends on what has been parsed when the inner table is closed", "anchors": ["benker/parsers/formex.py:FormexParser.parse_table", "benker/parsers/formex.py:FormexParser.parse_gr_notes"]}
{"id": "C85", "title": "Conversions to CALS keep what a table shows", "statement": "Converting a Formex or a Word table to CALS gives a CALS table of the same width and height, whose entries fill the same grid without overlapping: the same rows of the same kinds, with the same contents in the same columns and over the same numbers of rows. The rows are sorted by kind as the `tgroup_sorting` option asks for, and otherwise keep their order; when they are already sorted nothing moves.", "quantifier": "every Formex or Word table drawn on a grid, of any size, with any spans, blocks, notes and merged cells, where no cell spans rows of different kinds and the contents hold no CALS table; every configuration for which the conversion succeeds", "why_tests_cant": "depends on all the spans and kinds of unboundedly many rows, through the parser, the table and the builder", "anchors": ["benker/converters/formex2cals.py:Formex2CalsConverter", "benker/converters/ooxml2cals.py:Ooxml2CalsConverter", "benker/parsers/formex.py:FormexParser.parse_table", "benker/parsers/ooxml/__init__.py:OoxmlParser.parse_table", "benker/builders/cals.py:CalsBuilder.generate_table_tree", "benker/builders/cals.py:CalsBuilder.build_tgroup"]}
{"id": "C86", "title": "Which tables can be written", "statement": "Writing a table in CALS or in Formex succeeds exactly when the values of its styles can be told in this format - known alignments and orientations, lengths with a number and a known unit, texts - and its cells contain texts, numbers and nodes; in Formex the natures of the cells must also be known ones or those of their rows and, when titles are looked for, the first row must be one which can be written as a title. Otherwise an exception is raised.", "quantifier": "every table, whatever its history, every configuration", "why_tests_cant": "unbounded numbers of rows, columns, cells and styles; every style of every row, column and cell may prevent the writing", "anchors": ["benker/builders/cals.py:CalsBuilder.generate_table_tree", "benker/builders/cals.py:CalsBuilder.build_cell", "benker/builders/formex.py:FormexBuilder.generate_table_tree", "benker/builders/formex.py:FormexBuilder.build_cell", "benker/units.py:convert_value", "benker/units.py:parse_width"]}
{"id": "C87", "title": "Tables accepted by a parser are converted", "statement": "When a parser accepts a table, the converter makes a table of the other format from it: no exception is raised by the builder.", "quantifier": "every CALS, Formex or Word table, every configuration with a known unit", "why_tests_cant": "the builder may refuse any style, nature or content of any cell, row or column; those given by the parser depend on all the attributes of unboundedly many elements", "anchors": ["benker/converters/base_converter.py:BaseConverter.convert_file", "benker/parsers/cals/__init__.py:CalsParser.parse_table", "benker/parsers/formex.py:FormexParser.parse_fmx_cell", "benker/parsers/ooxml/__init__.py:OoxmlParser.parse_table", "benker/builders/cals.py:CalsBuilder.generate_table_tree", "benker/builders/formex.py:FormexBuilder.generate_table_tree"]}
{"id": "C88", "title": "Conversions to Formex keep what a table shows", "statement": "Converting a CALS or a Word table to Formex gives a `TBL` element whose `CORPUS` has the same width and height and whose cells fill the same grid without overlapping: the same rows in the same order, of the same kinds (the rows of the footer are marked in order to become notes), with the same contents in the same columns and over the same rows. Only the contents of Word cells which have neither text nor image are replaced by an empty cell.", "quantifier": "every CALS or Word table drawn on a grid, of any size, with any spans, kinds of rows and merged cells, whose first row does not look like a title (when titles are looked for), and whose contents hold no Formex table; every configuration for which the conversion succeeds", "why_tests_cant": "depends on all the spans and kinds of unboundedly many rows, through the parser, the table and the builder", "anchors": ["benker/converters/cals2formex.py:Cals2FormexConverter", "benker/converters/ooxml2formex.py:Ooxml2FormexConverter", "benker/parsers/cals/__init__.py:CalsParser.parse_table", "benker/parsers/ooxml/__init__.py:OoxmlParser.parse_table", "benker/builders/formex.py:FormexBuilder.generate_table_tree", "benker/builders/formex.py:FormexBuilder.build_row", "benker/builders/formex.py:FormexBuilder.build_cell"]}
{"id": "C89", "title": "The final Formex document keeps what the tables show", "statement": "Finalising a document (numbering, cleaning, notes, blocks, attributes) keeps its tables, in order. Each table written by the builder keeps its width, its height and its cells, which fill the same grid without overlapping, with the same contents at the same places; the rows of the footer are notes before the `CORPUS`, which are shown at the bottom of the table. The finalisation succeeds. So a CALS or a Word table shows the same in the final Formex document as in the source.", "quantifier": "every document whose tables are all in `TBL` elements, with any number of tables; every CALS or Word table drawn on a grid, of any size, whose footers are full-width rows at the bottom of the table, whose rows have no style of their own when CALS attributes are written, whose first row does not look like a title (when titles are looked for), and whose contents hold no Formex table", "why_tests_cant": "five passes over a tree of unbounded size, which move rows and drop attributes, and depend on all the rows of each table", "anchors": ["benker/builders/formex.py:FormexBuilder.finalize_tree", "benker/builders/formex.py:FormexBuilder.extract_gr_notes", "benker/builders/formex.py:FormexBuilder.insert_blk", "benker/builders/formex.py:FormexBuilder.drop_superfluous_attrs", "benker/converters/cals2formex.py:Cals2FormexConverter", "benker/converters/ooxml2formex.py:Ooxml2FormexConverter"]}
{"id": "C90", "title": "Two conversions in a row keep what a table shows", "statement": "A table which is converted from one format to a second one, and then to a third one (or back to the first one), shows the same at the end: the same width and height, and cells with the same contents over the same columns and rows. CALS to Formex and back to CALS loses only the kind `header` of the rows; Word to Formex to CALS loses only what is in the cells which have neither text nor image; Formex to CALS and back, and Word to CALS to Formex, keep all the contents. When the CALS builder sorts the rows by kind, they are moved as its option tells.", "quantifier": "every CALS, Formex or Word table drawn on a grid, of any size, with any spans; every document with any number of tables; the conditions are those of each conversion (C85, C89)", "why_tests_cant": "the result of a conversion must meet all that the next one relies on, for tables of unbounded size", "anchors": ["benker/converters/cals2formex.py:Cals2FormexConverter", "benker/converters/formex2cals.py:Formex2CalsConverter", "benker/converters/ooxml2cals.py:Ooxml2CalsConverter", "benker/converters/ooxml2formex.py:Ooxml2FormexConverter", "benker/builders/formex.py:FormexBuilder.finalize_tree"]}
{"id": "C91", "title": "A converted document is the same around its tables, which show the same", "statement": "Converting a document gives the same document - the same elements, attributes, texts, comments and processing instructions, in the same order - where each table which is in no other table is replaced by one element of the target format, followed by the same text. In CALS and in final Formex documents, this element shows what the table showed: the same width and height, and cells with the same contents over the same columns and rows. The conversion to Formex succeeds when all the tables can be written.", "quantifier": "every document which is not itself a table, with any number of tables at any depth, and where there are no Formex elements out of the tables (to Formex); each of its tables which meets the conditions of C85 (Word to CALS) or C89 (to Formex) and holds no other table to convert, whatever the other tables are", "why_tests_cant": "the documents, the tables and the places of the tables are unbounded; the conversion of each table and the five passes of the finalisation go through the whole document", "anchors": ["benker/converters/base_converter.py:BaseConverter.convert_file", "benker/parsers/base_parser.py:BaseParser.transform_tables", "benker/builders/formex.py:FormexBuilder.finalize_tree", "benker/converters/cals2formex.py:Cals2FormexConverter", "benker/converters/ooxml2cals.py:Ooxml2CalsConverter", "benker/converters/ooxml2formex.py:Ooxml2FormexConverter"]}
{"id": "C92", "title": "CALS documents tell the looks of tables", "statement": "The attributes of the CALS document tell the looks of the table: the `table` element tells its frame, the orientation and the width of its page, its colour and its width in the unit of the configuration; the `table` element - or the `tgroup`, if the option asks for it - tells its default separators and its style; each `colspec` tells the separators, the width and the alignment of a column; each `row` tells the vertical alignment, the separator and the style of a row, in the order of the sorting option; each `entry` tells the separators (except those on the frame), the alignments, the colour and the style of a cell. No other attributes are written, but those which place columns and cells.", "quantifier": "every table which can be built with the API and written, with any styles on the table, its rows, its columns and its cells; every configuration of the builder", "why_tests_cant": "the styles are unbounded dictionaries on unboundedly many rows, columns and cells, and the separators of the parts depend on those of the whole table", "anchors": ["benker/builders/cals.py:CalsBuilder.build_table", "benker/builders/cals.py:CalsBuilder.build_tgroup", "benker/builders/cals.py:CalsBuilder.build_colspec", "benker/builders/cals.py:CalsBuilder.build_row", "benker/builders/cals.py:CalsBuilder.build_cell"]}
{"id": "C93", "title": "Converting a CALS table to Formex keeps its looks", "statement": "When a CALS table is converted to Formex with CALS attributes, the `CORPUS` has the frame, the separators, the style, the orientation, the page width, the colour and the width of the CALS table (the width being written in the unit of the configuration); each column has the separators, the width and the alignment of the `colspec` of the source; each row and each cell has the separators, the alignments, the styles and the colours which the source tells, those of the last row and column being drawn by the frame.", "quantifier": "every CALS table drawn on a grid, of any size, with any attributes for which the conversion succeeds; every configuration which writes CALS attributes", "why_tests_cant": "the attributes of unboundedly many elements go through the parser, the styles of the table and the builder, and the defaults of the groups, of the columns and of the table interact", "anchors": ["benker/converters/cals2formex.py:Cals2FormexConverter", "benker/parsers/cals/__init__.py:CalsParser.parse_table", "benker/builders/formex.py:FormexBuilder.build_corpus", "benker/builders/formex.py:FormexBuilder.build_colspec", "benker/builders/formex.py:FormexBuilder.build_row", "benker/builders/formex.py:FormexBuilder.build_cell"]}
{"id": "C94", "title": "Converting a Formex table to CALS keeps its looks", "statement": "When a Formex table is converted to CALS, the CALS document tells the frame, the separators, the style, the orientation, the page width, the colour and the width of the table; the separators, the width and the alignment of each described column; the vertical alignment, the separator, the colour and the style - or the type and the level - of each row and title, in the order of the sorting option; the separators, the alignments, the colour and the type of each cell and note.", "quantifier": "every Formex table drawn on a grid, of any size, with blocks, titles and notes, with any CALS attributes for which the conversion succeeds; every configuration of the converter", "why_tests_cant": "the attributes of unboundedly many elements go through the parser, the styles of the table and the builder, which sorts the rows; the defaults of the rows and of the table interact", "anchors": ["benker/converters/formex2cals.py:Formex2CalsConverter", "benker/parsers/formex.py:FormexParser.parse_fmx_cell", "benker/parsers/formex.py:FormexParser.parse_fmx_row", "benker/parsers/formex.py:FormexParser.parse_fmx_corpus", "benker/builders/cals.py:CalsBuilder.build_table", "benker/builders/cals.py:CalsBuilder.build_cell"]}
{"id": "C95", "title": "Converting a Word table keeps its looks", "statement": "When a Word table is converted to CALS, or to Formex with CALS attributes, the result tells the frame of the table (the sides which the table draws or, failing that, those of the nearest of its styles), the lines between its cells, its style, the orientation and the columns of its page, and its colour; the width of each column, within a hundredth of a point, in the unit of the configuration; and, for each cell, its right and bottom lines (except those of the frame), its vertical alignment, the most frequent alignment of its paragraphs and its colour. Merged cells tell the looks of their first cell. The rows come in the order of the source (Formex) or of the sorting option (CALS).", "quantifier": "every Word table of any size, with any merged cells, chain of styles, borders, colours and alignments for which the conversion succeeds; every configuration of the converter (which writes CALS attributes, to Formex)", "why_tests_cant": "the attributes of unboundedly many elements go through the parser, the chain of styles, the styles of the table and the builder; merged cells, defaults of the table and sorting interact", "anchors": ["benker/converters/ooxml2cals.py:Ooxml2CalsConverter", "benker/converters/ooxml2formex.py:Ooxml2FormexConverter", "benker/parsers/ooxml/__init__.py:OoxmlParser.parse_tbl", "benker/parsers/ooxml/__init__.py:OoxmlParser.parse_tc", "benker/parsers/ooxml/__init__.py:OoxmlParser.parse_grid_col", "benker/builders/cals.py:CalsBuilder.build_cell", "benker/builders/formex.py:FormexBuilder.build_cell"]}
{"id": "C96", "title": "A conversion changes no file but its destination, and only if it succeeds", "statement": "Whatever happens during a conversion, and whenever it is interrupted, no file changes but the destination. A conversion which raises an exception has changed nothing. If it is interrupted, the destination is as it was, or it holds a beginning of the result. If it succeeds, the destination holds the conversion of the document which the source held - even when the destination is the source, or the stylesheet. The result depends on the source, on the stylesheet and on the options only, and converting again changes nothing. (Converting in place is not atomic: there is an instant when the document is lost.)", "quantifier": "the four conversions, every set of options, every state of the files, every source and destination (the same or not), every instant of the call, every XML library which reads what it has written", "why_tests_cant": "the states of the files, the documents and the instants of an interruption are unbounded", "anchors": ["benker/converters/base_converter.py:BaseConverter.convert_file", "benker/parsers/base_parser.py:BaseParser.parse_file", "benker/parsers/ooxml/__init__.py:OoxmlParser.transform_tables", "benker/converters/cals2formex.py:convert_cals2formex", "benker/converters/formex2cals.py:convert_formex2cals", "benker/converters/ooxml2cals.py:convert_ooxml2cals", "benker/converters/ooxml2formex.py:convert_ooxml2formex"]}
{"id": "C97", "title": "The options of the conversions have the documented defaults and conditions", "statement": "Giving an option its documented default is the same as not giving it; an option which a conversion does not know is ignored; an empty namespace or prefix is the same as None. A prefix for the CALS elements is refused without a namespace, and a sorting of the rows is refused if it lacks the header, the footer or the body: no file is touched. From CALS to Formex, the option `cals_ns` is both the namespace of the tables which are read and that of the attributes which are written, each with its own default. Without `use_cals`, the namespace and the unit of the Formex builder have no effect on the tables.", "quantifier": "the four conversions, every set of options, every document and every state of the files", "why_tests_cant": "the sets of options and the documents are unbounded, and one dictionary of options is given to the parser and to the builder", "anchors": ["benker/converters/base_converter.py:BaseConverter.convert_file", "benker/builders/cals.py:CalsBuilder.__init__", "benker/builders/formex.py:FormexBuilder.__init__", "benker/parsers/cals/__init__.py:CalsParser.__init__", "benker/parsers/formex.py:FormexParser.__init__", "benker/parsers/ooxml/__init__.py:OoxmlParser.__init__", "benker/parsers/base_parser.py:BaseParser.__init__"]}
{"id": "C98", "title": "A document converted to CALS is the same document, where the tables are CALS tables which look the same", "statement": "When a Formex document is converted to CALS, the result is the same document - elements, attributes, texts, comments and processing instructions in the same order - where the notes of the tables are removed and each table is replaced by a CALS table followed by the same text. If a Formex table is drawn on a grid, then its CALS table tells its looks (see C94 for what these are); if moreover the cells of each of its rows are of one kind and contain no CALS elements, then the CALS table is drawn on the same grid and shows the same texts and elements. A document whose tables are all drawn on grids, with known types, frames and widths, is converted. The same holds of Word documents (see C91 for the contents, C95 for the looks), where tables may be inside the cells of other ones, at any depth: they are all replaced, each one before those inside it.", "quantifier": "every Formex or Word document which is not itself a table, of any size and depth, with any number of tables anywhere; every configuration of the converters", "why_tests_cant": "the number and the places of the tables, and the sizes of the tables and of the document, are unbounded; replacing a table and removing its notes moves the other ones", "anchors": ["benker/parsers/formex.py:FormexParser.transform_tables", "benker/parsers/ooxml/__init__.py:OoxmlParser.transform_tables", "benker/converters/formex2cals.py:Formex2CalsConverter", "benker/converters/ooxml2cals.py:Ooxml2CalsConverter", "benker/builders/cals.py:CalsBuilder.generate_table_tree"]}
{"id": "C99", "title": "Converting a file makes the same document with its tables in the other format, as the options ask", "statement": "Calling one of the four conversions with a source, a destination and options, if it raises no exception, leaves at the destination a document which is the one of the source where each table is replaced by a table of the other format, which shows the same contents on the same grid (C85, C88) and, to CALS, has the same looks (C94, C95). The namespace, the unit, the order of the rows, the detection of titles, the embedding of notes and the stylesheet are those which the options give, or else their documented defaults; the default stylesheet is the first one in the document. Conversely, a file whose tables are all well formed, with options of the documented types, is converted without an exception if the stack is deep enough for the document.", "quantifier": "the four conversions, every set of options, every state of the files, every document of any size and depth with any number of tables", "why_tests_cant": "the documents, their tables and the sets of options are unbounded; one dictionary of options goes through three constructors, and the result through the parser, the builder and, to Formex, two passes over the document", "anchors": ["benker/converters/base_converter.py:BaseConverter.convert_file", "benker/converters/cals2formex.py:convert_cals2formex", "benker/converters/formex2cals.py:convert_formex2cals", "benker/converters/ooxml2cals.py:convert_ooxml2cals", "benker/converters/ooxml2formex.py:convert_ooxml2formex", "benker/parsers/base_parser.py:BaseParser.parse_file"]}
{"id": "C100", "title": "A document which is converted twice is the same document, with the tables it had", "statement": "When the conversion of a document is converted in turn - CALS to Formex to CALS, Word to Formex to CALS, Word to CALS to Formex, Formex to CALS to Formex - the result is the original document (elements, attributes, texts, comments and processing instructions in the same order) where each table is replaced by one which is drawn on the same grid and shows the same contents. Through Formex, headers have become parts of the body, and the CALS table is the only child of the TBL which the first conversion has made. From Formex to Formex, the table and its notes are again a TBL with its notes and CORPUS, not a TBL in a TBL.", "quantifier": "every document which is not itself a table, of any size and depth, with any number of tables anywhere, all the options of both conversions", "why_tests_cant": "the documents and their tables are unbounded, and the second conversion meets what the first one has made, with the numbers and the cleaning of the finalisation", "anchors": ["benker/converters/base_converter.py:BaseConverter.convert_file", "benker/parsers/formex.py:FormexParser.transform_tables", "benker/parsers/cals/__init__.py:CalsParser.transform_tables", "benker/parsers/ooxml/__init__.py:OoxmlParser.transform_tables", "benker/builders/formex.py:FormexBuilder.finalize_tree", "benker/builders/cals.py:CalsBuilder.generate_table_tree"]}
{"id": "C101", "title": "Converting again a document which was converted changes nothing", "statement": "A document which a conversion has made is left exactly as it is - elements, attributes, texts - by the same conversion, with the same namespaces. To CALS this holds of every document, whatever the other options. To Formex the document is numbered and cleaned again: the numbers, the blocks, the notes and the attributes are those which it has.", "quantifier": "every document which a conversion has made, of any size and depth, all the options", "why_tests_cant": "the documents are unbounded, and the finalisation goes over the whole document, where each of its steps meets what the others have made the first time", "anchors": ["benker/builders/formex.py:FormexBuilder.finalize_tree", "benker/builders/formex.py:FormexBuilder.update_no_seq", "benker/builders/formex.py:FormexBuilder.cleanup_tbl_in_tbl", "benker/builders/formex.py:FormexBuilder.extract_gr_notes", "benker/builders/formex.py:FormexBuilder.insert_blk", "benker/builders/formex.py:FormexBuilder.drop_superfluous_attrs", "benker/parsers/formex.py:FormexParser.transform_tables", "benker/parsers/cals/__init__.py:CalsParser.transform_tables", "benker/parsers/ooxml/__init__.py:OoxmlParser.transform_tables"]}
{"id": "C102", "title": "A conversion invents nothing", "statement": "Every character, comment, processing instruction and element of a converted document is in the document which was converted, except the elements of the tables of the new format - to CALS: table, tgroup, colspec, thead, tfoot, tbody, row and entry, in the namespace which the options give; to Formex: TBL, TITLE, TI, STI, CORPUS, ROW, CELL, IE, GR.NOTES, BLK, TI.BLK, STI.BLK, a colspec if CALS attributes are asked for, a bare P if titles are looked for - and the marks of revision, which are made only if the Word document has marks of insertion. In particular no text comes from elsewhere: neither from the stylesheet, nor from the options. This holds of every conversion which raises no exception, however malformed the tables are.", "quantifier": "every document, well formed or not, all the options, the four conversions, all files", "why_tests_cant": "the documents are unbounded, and so are the malformed tables which a parser accepts; the contents go through the cells, the filling, the rows, the titles, the notes and the cleaning", "anchors": ["benker/converters/base_converter.py:BaseConverter.convert_file", "benker/builders/cals.py:CalsBuilder.generate_table_tree", "benker/builders/formex.py:FormexBuilder.generate_table_tree", "benker/builders/formex.py:FormexBuilder.finalize_tree", "benker/parsers/cals/__init__.py:CalsParser.parse_table", "benker/parsers/formex.py:FormexParser.parse_table", "benker/parsers/ooxml/__init__.py:OoxmlParser.parse_table"]}
{"id": "C103", "title": "The elements of a converted document are read from the file in the namespaces which they had", "statement": "When the file which a conversion has written is read, each element is in the namespace which it had in the source document, or which the options give to the elements of tables; in particular the tables can be found by their names, and the contents of the cells are the elements which they were. Whatever the namespaces which are declared, the elements are in the same places, with the same local names, attributes, texts, comments and processing instructions, and the elements which had a namespace have the same one.", "quantifier": "every document, all the options, the four conversions, all the declarations of default namespaces", "why_tests_cant": "the documents and the declarations in them are unbounded; what is read depends on all the elements around, and tests compare the trees before they are written or documents without namespaces", "anchors": ["benker/builders/cals.py:CalsBuilder.ns_map", "benker/builders/cals.py:CalsBuilder._register_namespace", "benker/builders/formex.py:FormexBuilder.ns_map", "benker/parsers/base_parser.py:BaseParser.parse_file", "benker/converters/base_converter.py:BaseConverter.convert_file"]}
{"id": "C104", "title": "A row or column which the caller keeps goes on being the row or column of its table", "statement": "Let view = table.rows[pos] (or table.cols[pos]). Whatever is done afterwards - cells stored, deleted, merged, expanded, inserted by this view or by other ones, the table filled, operations which fail - view is table.rows[pos]: it lists the cells of the table which start in this line and those which cross it, and inserting a cell by it, or assigning its styles or its nature, is doing so by table.rows[pos].", "quantifier": "every table, every history of operations on the table and on views which were kept, all positions", "why_tests_cant": "a view is an object which is shared by the caller and the table; whether it is still the one of the table depends on all the operations which were done since it was obtained", "anchors": ["benker/table.py:TableViewList.refresh_all", "benker/table.py:TableViewList._fit_to_size", "benker/table.py:TableViewList.adopt_cell", "benker/table.py:TableViewList.__getitem__", "benker/table.py:RowView.insert_cell", "benker/table.py:ColView.insert_cell", "benker/table.py:Table._refresh_views"]}
{"id": "C105", "title": "No row of notes is left in a document converted to Formex", "statement": "In a document which has been converted to Formex, no ROW has the provisional type __GR.NOTES__ which the builder gives to the rows of the footers: all of them have been moved to the notes of their tables, whatever the other tables of the document.", "quantifier": "every CALS or Word document, all the options, any number of tables, with or without footers, inside one another or not", "why_tests_cant": "what becomes of a row depends on the rows which precede it in the whole document, since rows are removed while they are enumerated; the documents are unbounded, and tests convert one table at a time", "anchors": ["benker/builders/formex.py:FormexBuilder.extract_gr_notes", "benker/builders/formex.py:FormexBuilder.finalize_tree", "benker/builders/formex.py:FormexBuilder.build_row"]}
{"id": "C106", "title": "Which texts are numbers, and what a cell spans", "statement": "The attributes which are numbers (morerows, colnum, COLSPAN, ROWSPAN, w:gridSpan...) are read as integers exactly if they are made of decimal digits of any script, with single underscores between them, a sign if any and spaces around; otherwise the parser raises ValueError. namest and nameend are read as the first digits which are in them; without digits the parser raises IndexError. The columns and rows of a cell are the ones which these numbers tell, the default ones if the attributes are missing; in Formex non-empty CALS attributes prevail over COLSPAN and ROWSPAN.", "quantifier": "every text of an attribute, every entry, CELL or w:tc element", "why_tests_cant": "texts are unbounded and any Unicode character can be in them; tests try a few ASCII ones", "anchors": ["benker/parsers/cals/__init__.py:CalsParser.parse_cals_entry", "benker/parsers/cals/__init__.py:CalsParser.parse_cals_colspec", "benker/parsers/formex.py:FormexParser.parse_fmx_cell", "benker/parsers/ooxml/__init__.py:OoxmlParser.parse_tc"]}
{"id": "C107", "title": "What does not matter in a document does not change the table", "statement": "Two CALS (or Formex, or Word) tables which differ only by the texts, comments, processing instructions and elements of other vocabularies which are between the elements of the table and outside of its cells, by attributes and Word elements which tell nothing about tables, by the order of the attributes, or by the way the numbers are written, are parsed to the same table with the same state, or refused with the same exception, and are converted to the same table.", "quantifier": "every pair of documents which differ by any number of such differences anywhere, all options", "why_tests_cant": "differences can be anywhere in trees of any size, and pairs of documents are compared; tests parse single documents, mostly with the same layout", "anchors": ["benker/parsers/cals/__init__.py:CalsParser.parse_table", "benker/parsers/formex.py:FormexParser.parse_table", "benker/parsers/formex.py:FormexParser.parse_fmx_corpus", "benker/parsers/cals/__init__.py:CalsParser.parse_cals_entry"]}
{"id": "C108", "title": "The CALS tables which are written are valid for the schema of benker", "statement": "The CALS tables written by the builder are valid for the XML schema which benker ships: the elements are those of the schema, in the order which it asks for, and the attributes are those of the schema (or the documented extensions), once each, with values which the schema allows.", "quantifier": "every table that any history of calls can build, every table of a Formex or Word document, all options", "why_tests_cant": "validity is about every combination of styles, natures and spans; tests compare a few outputs with expected files, and no test validates an output", "anchors": ["benker/builders/cals.py:CalsBuilder.build_table", "benker/builders/cals.py:CalsBuilder.build_tgroup", "benker/builders/cals.py:CalsBuilder.build_row", "benker/schemas/calstblx.xsd"]}
{"id": "C109", "title": "A CALS table whose rows have not the same length is read, and completed with empty cells", "statement": "Put the entries of a CALS table one after the other, each one at the first place of its row which is free. If no entry covers another one, the table is read: there is one cell for each entry, at this place, with its content, its kind and its looks; the places which are left, up to the last column of an entry or of a colspec and to the last row, are empty cells of one column and one row, of the kind of their row if their column is known when the row ends; no two cells share a place; the looks of the rows, of the columns and of the table are those of their attributes. No entry covers another one as soon as no entry of several columns is in a row down to which an entry of a row above goes. The places are the only ones which follow this rule. The conversion to Formex succeeds, and writes the table completed in this way: every row covers all the columns, with the same entries at the same places.", "quantifier": "every CALS table, any number of rows and of entries in each row, all spans, colspecs for more or fewer columns than there are, whatever the number of columns told, a parser used before or not", "why_tests_cant": "the place of an entry depends on all the entries before it, and the rows may be of any lengths; tests parse a few tables, most of which are rectangular", "anchors": ["benker/parsers/cals/__init__.py:CalsParser.parse_table", "benker/parsers/cals/__init__.py:CalsParser.parse_cals_entry", "benker/parsers/cals/__init__.py:CalsParser.parse_cals_row", "benker/table.py:Table.fill_missing", "benker/table.py:RowView.insert_cell"]}
{"id": "C110", "title": "A Formex table whose rows have not the same length is read, and completed with empty cells", "statement": "Put the cells of the rows of a Formex table one after the other, each one at the first place of its row which is free; put each title after as many free places as the column where it starts tells; put each note on a line below, over all the columns. If nothing is drawn over something else, the table is read: there is one cell for each of them, at this place, with its content, its kind and its looks; the places which are left, up to the last column of a cell, a title or a colspec and to the last row, are empty cells of one column and one row, of the kind of their line if their column is known when the line ends; no two cells share a place; the looks of the lines, of the columns and of the table are those of their attributes. Nothing is drawn over something else as soon as no cell or title of several columns is in a line down to which a cell of a line above goes, and no cell goes down to the notes. The places are the only ones which follow this rule. The conversion to CALS succeeds, and writes the table completed in this way: every row covers all the columns, with the same cells, titles and notes at the same places.", "quantifier": "every Formex table, any number of rows, of titles, of notes and of cells in each row, all spans, colspecs for more or fewer columns than there are, a parser used before or not", "why_tests_cant": "the place of a cell depends on all that precedes it, and the rows may be of any lengths; tests parse a few tables, most of which are rectangular", "anchors": ["benker/parsers/formex.py:FormexParser.parse_table", "benker/parsers/formex.py:FormexParser.parse_fmx_cell", "benker/parsers/formex.py:FormexParser.parse_fmx_row", "benker/parsers/formex.py:FormexParser.parse_fmx_ti_blk", "benker/parsers/formex.py:FormexParser.parse_gr_notes", "benker/table.py:Table.fill_missing", "benker/table.py:RowView.insert_cell"]}
{"id": "C111", "title": "A Word table whose rows are shorter than the table is completed with empty cells", "statement": "When the number of columns of a Word table is told by w:tblGrid, or by its first row, and no row has more columns, the table is read: there is one cell for each w:tc which does not continue another one, with its content and its vertical merge; in a row which is too short, each of the places on its right is an empty cell of one column and one row, without styles, of the nature of the row; the cells cover exactly all the columns of all the rows, and no two of them share a place; the rows keep their kinds and their revision marks. The conversions to CALS and to Formex succeed, and write the table completed in this way.", "quantifier": "every Word table, any number of rows, of cells in each row and of columns, all horizontal and vertical merges, w:tblGrid elements for fewer columns than there are if the first row is complete, a parser used before or not", "why_tests_cant": "which places miss depends on the spans of all the cells of the row, and whether they are filled depends on the rows before it; tests parse a few documents, whose rows are complete", "anchors": ["benker/parsers/ooxml/__init__.py:OoxmlParser.parse_table", "benker/parsers/ooxml/__init__.py:OoxmlParser.parse_tr", "benker/parsers/ooxml/__init__.py:OoxmlParser.parse_tc", "benker/table.py:Table.fill_missing"]}
{"id": "C112", "title": "Printing a row or a column lists the texts of the cells which start in it", "statement": "Printing the rows (or the columns) of a table never fails and changes nothing. Each line is printed as the texts of the cells which start in it, each one once, with a comma and a space between them, in square brackets; after a deletion, a merge or an expansion they are in reading order. The texts can be told from each other if there is at least one and none has a comma. Printing the table itself draws each text once, in the middle of its cell, in a drawing whose lines have the same length.", "quantifier": "every table made by any history of operations, every content of cells (strings, numbers, nested lists, XML nodes), every row and column", "why_tests_cant": "what is printed depends on the whole history of the table, which may have cells of any spans; tests print a few tables", "anchors": ["benker/table.py:TableView.__str__", "benker/table.py:Table.__str__", "benker/grid.py:Grid.__str__", "benker/cell.py:Cell.__str__", "benker/cell.py:get_content_text"]}
