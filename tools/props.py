#!/usr/bin/env python3
"""Source of /verif/properties.jsonl: run `python3 tools/props.py` to regenerate it."""
import json, os
P = []
def p(title, statement, quantifier, why, anchors):
    P.append(dict(id="C%02d" % (len(P) + 1), title=title, statement=statement, quantifier=quantifier,
                  why_tests_cant=why, anchors=anchors))

p("Column labels decode to the number they encode",
  "alphabet_to_int(int_to_alphabet(n)) == n for every non-negative integer n, with any non-empty alphabet without repeated letters; int_to_alphabet raises ValueError exactly on negative integers.",
  "every integer n and every non-empty duplicate-free alphabet", "infinitely many integers and alphabets; carries only appear at powers of the base",
  ["benker/alphabet.py:int_to_alphabet", "benker/alphabet.py:alphabet_to_int"])
p("Every word is the label of exactly one number",
  "For every word over the alphabet, int_to_alphabet(alphabet_to_int(word)) == word, and alphabet_to_int raises ValueError exactly when the word contains a character outside the alphabet.",
  "every string and every non-empty duplicate-free alphabet", "strings are unbounded in length",
  ["benker/alphabet.py:int_to_alphabet", "benker/alphabet.py:alphabet_to_int"])
p("Column labels are ordered like spreadsheet columns",
  "If 0 <= m < n then the label of m is shorter than the label of n, or has the same length and precedes it in alphabet order; in particular no two columns share a label.",
  "every pair of non-negative integers and every alphabet", "the order must hold across every length change",
  ["benker/alphabet.py:int_to_alphabet"])
p("Excel-like names of coordinates and boxes are unambiguous",
  "Two coordinates with positive members print the same string only if they are equal; two boxes print the same string only if they are equal.",
  "every pair of coordinates and of boxes", "ambiguity would be a collision between two specific inputs out of infinitely many",
  ["benker/coord.py:Coord.__str__", "benker/box.py:Box.__str__", "benker/alphabet.py:int_to_alphabet"])
p("Coordinates and sizes follow vector arithmetic and reject meaningless operands",
  "(c + s) - s == c and (c - s) + s == c for every coordinate c and every size, pair or integer s; sizes form a commutative group under +, - with * as integer scaling; adding a coordinate to a coordinate, or multiplying by a non-integer, raises TypeError.",
  "every coordinate, size, pair, integer and operand type", "unbounded integers, and the operand is dynamically typed",
  ["benker/size.py:Size", "benker/coord.py:Coord"])
p("A box exists only if it is a non-empty area of the 1-based quadrant",
  "Every form of the Box constructor either raises or yields a box with 1 <= min.x <= max.x and 1 <= min.y <= max.y holding exactly the requested corners; it raises ValueError exactly when the requested corners violate these inequalities and TypeError for any other argument shape.",
  "every argument tuple of any dynamic type", "argument combinations are unbounded",
  ["benker/box.py:Box.__new__"])
p("Size, move and resize describe the same rectangle",
  "The width and height of a box are positive and width*height is the number of coordinates in it; move_to keeps the size and puts the top-left corner where asked; resize keeps the top-left corner and gives the requested size; transform does both; each raises ValueError exactly if the resulting area is invalid.",
  "every valid box, target coordinate and size", "unbounded integers",
  ["benker/box.py:Box.width", "benker/box.py:Box.transform", "benker/box.py:Box.move_to", "benker/box.py:Box.resize"])
p("Membership in a box is membership of the area",
  "A coordinate (Coord or pair of ints) is in a box iff it lies between the corners inclusively; a box is in a box iff all its coordinates are; every other operand type raises TypeError. Box(c) contains only c.",
  "every box and every operand", "infinitely many boxes; the box-in-box test only looks at two corners",
  ["benker/box.py:Box.__contains__"])
p("intersect/isdisjoint decide whether two boxes share a coordinate",
  "b1.intersect(b2) is True iff some coordinate belongs to both boxes, isdisjoint is its negation, and both are symmetric.",
  "every pair of boxes", "the code only tests two of the four corners, so the failing configurations (crossing and anti-diagonal overlaps) must be characterised, not sampled",
  ["benker/box.py:Box.intersect", "benker/box.py:Box.isdisjoint"])
p("union is the smallest enclosing box",
  "b.union(*others) succeeds for every collection of boxes, contains each of them, and is contained in every box that contains each of them; hence it does not depend on order, grouping or repetition.",
  "every non-empty finite collection of boxes", "collections of arbitrary length",
  ["benker/box.py:Box.union"])
p("intersection is exactly the common area",
  "b.intersection(*others) contains a coordinate iff every box of the collection does, and raises ValueError exactly if no coordinate is common to all of them.",
  "every non-empty finite collection of boxes", "collections of arbitrary length; emptiness of an n-ary intersection",
  ["benker/box.py:Box.intersection"])
p("Box < is a strict total order in reading order",
  "< on boxes is irreflexive, transitive and total on distinct boxes; boxes are sorted by top row, then left column, then bottom row, then right column.",
  "every pair and triple of boxes", "transitivity ranges over all triples",
  ["benker/box.py:Box.__lt__"])
p("All comparison operators of Box agree with each other",
  "For every two boxes, b1 > b2 iff b2 < b1, b1 <= b2 iff b1 < b2 or b1 == b2, and b1 >= b2 iff b2 <= b1 (Box is declared with functools.total_ordering).",
  "every pair of boxes", "total_ordering does not override operators inherited from tuple, so disagreement depends on the pair",
  ["benker/box.py:Box", "benker/box.py:Box.__lt__"])
p("Cells are ordered like their boxes",
  "For every two cells a and b with different boxes exactly one of a < b, b < a holds, a > b iff b < a, and a <= b iff a < b; comparing a cell with a box gives the same answer as comparing the boxes.",
  "every pair of cells", "derived operators combine < with identity-based equality",
  ["benker/cell.py:Cell.__lt__", "benker/cell.py:Cell"])
p("Transforming a cell changes nothing but its box",
  "move_to, resize and transform return a cell with the same content, styles and nature and the requested box; creating a cell with non-positive x, y, width or height raises ValueError.",
  "every cell, coordinate and size", "unbounded integers and arbitrary contents",
  ["benker/cell.py:Cell.__init__", "benker/cell.py:Cell.transform", "benker/cell.py:Cell.move_to", "benker/cell.py:Cell.resize"])
p("No two styled objects share their style dictionary",
  "After any sequence of creating styled objects from dictionaries or from the styles of other objects, assigning styles, transforming cells and editing styles in place, editing the styles of one object never changes the styles seen through another object.",
  "every history of constructions, assignments, copies and in-place edits", "aliasing bugs depend on the history of copies",
  ["benker/styled.py:Styled.__init__", "benker/styled.py:Styled.styles", "benker/cell.py:Cell.transform"])
p("A grid always iterates its cells in reading order",
  "After any history of insertions, deletions, merges and expansions (successful or failed), iterating the grid yields cells in strictly increasing order of (top row, left column), so no two cells have the same top-left coordinate.",
  "every history of grid operations", "the order rests on a binary search over a list mutated by every earlier operation",
  ["benker/grid.py:Grid.__setitem__", "benker/grid.py:Grid.merge", "benker/grid.py:Grid.__iter__"])
p("The cells of a grid are pairwise disjoint",
  "After any history of operations no coordinate belongs to two cells of the grid.",
  "every history of grid operations", "overlaps only arise from particular combinations of spans",
  ["benker/grid.py:Grid.__setitem__", "benker/grid.py:Grid.merge", "benker/box.py:Box.intersect"])
p("A grid stores what was put in it",
  "After a successful grid[c] = cell, grid[c] is that cell moved to c with its content, styles, nature and size unchanged; every coordinate outside the new box answers as before; grid[c] raises KeyError iff c in grid is False; insertion raises KeyError whenever the new box has a top-left or bottom-right corner in an existing cell or conversely.",
  "every reachable grid, coordinate and cell", "depends on the whole history of the grid",
  ["benker/grid.py:Grid.__setitem__", "benker/grid.py:Grid.__getitem__", "benker/grid.py:Grid.__contains__"])
p("Deleting removes exactly one cell",
  "del grid[c] succeeds iff some cell covers c, removes exactly one cell (the one returned by grid[c]) and leaves the others and their order unchanged.",
  "every reachable grid and coordinate", "depends on the whole history of the grid",
  ["benker/grid.py:Grid.__delitem__"])
p("A failed grid operation leaves the grid unchanged",
  "If setting, deleting, merging or expanding raises (including when the user-supplied content appender raises), the grid holds the same cells in the same order as before.",
  "every grid, operation, argument and appender", "the exception may be raised at any step of a loop over the cells",
  ["benker/grid.py:Grid.__setitem__", "benker/grid.py:Grid.__delitem__", "benker/grid.py:Grid.merge", "benker/grid.py:Grid.expand"])
p("bounding_box is the smallest box around the cells",
  "bounding_box is None iff the grid is empty, otherwise it contains every cell and is contained in every box that contains every cell.",
  "every reachable grid", "any number of cells",
  ["benker/grid.py:Grid.bounding_box"])
p("merge replaces the enclosed cells by one cell",
  "A successful merge(start, end) removes exactly the cells enclosed in the box start..end and adds one cell with that box whose nature is that of the first enclosed cell in reading order, whose content is the left-to-right combination of the enclosed contents ignoring None, and whose styles are the enclosed styles with later cells overriding earlier ones; other cells are untouched, and the coordinates covered afterwards are the previous ones plus the box.",
  "every reachable grid, box and appender", "any number of merged cells and arbitrary spans",
  ["benker/grid.py:Grid.merge"])
p("merge fails exactly when the group cannot be merged",
  "merge(start, end) raises ValueError if start..end is not a valid box, if no cell is enclosed, or if a cell is cut by the box as detected by intersect; in every other case it succeeds as long as the appender does.",
  "every grid and pair of coordinates", "any number of cells",
  ["benker/grid.py:Grid.merge"])
p("expand grows a cell, and shrinking is possible",
  "expand(c, width, height) grows the cell at c by the given amounts, merging the cells it swallows; expand with zero amounts leaves the grid unchanged; as documented, negative amounts shrink the cell.",
  "every reachable grid, coordinate and amounts", "ranges over all grids and all amounts",
  ["benker/grid.py:Grid.expand"])
p("iter_rows partitions the cells by row",
  "iter_rows yields non-empty groups, one per distinct top row in increasing order; each group has all the cells starting in that row from left to right; concatenating the groups gives the iteration order.",
  "every reachable grid", "any number of rows and cells; itertools.groupby only groups adjacent items",
  ["benker/grid.py:Grid.iter_rows"])
p("A grid is a working MutableMapping",
  "The mapping operations inherited from MutableMapping behave as for a mapping from coordinates: get, pop and setdefault follow lookup, insertion and deletion; popitem, clear, update, items and values work on every grid.",
  "every grid and operation", "iteration yields cells rather than keys, which breaks the mixins on every non-empty grid",
  ["benker/grid.py:Grid", "benker/grid.py:Grid.__iter__"])
p("The order in which disjoint cells are inserted does not matter",
  "Building a grid from any permutation of a list of pairwise disjoint cells succeeds and yields the same grid.",
  "every list of disjoint cells and every permutation", "factorially many orders",
  ["benker/grid.py:Grid.__init__", "benker/grid.py:Grid.__setitem__"])
p("Drawings are rectangular",
  "Drawing a non-empty grid whose cell texts have no line break yields 2*rows+1 lines, all of 12*columns+1 characters, where rows and columns are the dimensions of the bounding box; drawing an empty grid yields the empty string.",
  "every grid and every cell text", "every combination of spans, holes and text lengths",
  ["benker/drawing.py:draw", "benker/drawing.py:iter_lines", "benker/drawing.py:iter_tiles", "benker/drawing.py:TILES"])
p("Each cell's text is drawn exactly once, inside the cell",
  "In the drawing of a grid of disjoint cells, the tile at the middle of each cell carries the (centred, nine-character) text of this cell, and no other tile of the cell, and no uncovered tile, carries text.",
  "every grid of disjoint cells", "middle computation for every span",
  ["benker/drawing.py:iter_tiles"])
p("Row and column views list exactly the cells of the table",
  "After any history of table operations, row view y owns each cell whose top row is y exactly once and catches each cell crossing row y exactly once, and nothing else; the same for column views.",
  "every history of table operations and view accesses", "views are created lazily and updated incrementally, so consistency depends on when they are first accessed",
  ["benker/table.py:TableViewList", "benker/table.py:ViewsProperty.__get__", "benker/table.py:Table._refresh_views", "benker/table.py:TableView.adopt_cell"])
p("Deleting, merging and expanding re-synchronise the views",
  "After a successful deletion, merge or expansion, the number of row (column) views is the bottom row (right column) of the bounding box, zero if the table is empty, and each view lists its cells in reading order.",
  "every history of table operations", "depends on the whole history",
  ["benker/table.py:TableViewList.refresh_all", "benker/table.py:TableViewList._fit_to_size"])
p("insert_cell uses the first free position",
  "Inserting a cell in a row (column) view consistent with the table puts it at the smallest column (row) not covered by any cell in that row (column), and nowhere else.",
  "every consistent table, row or column, and cell", "any arrangement of spanning cells",
  ["benker/table.py:RowView.insert_cell", "benker/table.py:ColView.insert_cell"])
p("Appending single cells never fails and inherits the nature",
  "Inserting a cell of width and height 1 through a consistent view always succeeds; the new cell has the given nature, or the nature of the view if None was given.",
  "every consistent table, view, content, styles and nature", "any arrangement of spanning cells",
  ["benker/table.py:RowView.insert_cell", "benker/table.py:ColView.insert_cell"])
p("fill_missing leaves no hole and touches nothing else",
  "fill_missing(box, ...) never fails; afterwards every coordinate of the box is covered; all previous cells are still there unchanged; every new cell is 1x1, lies in the box on a previously uncovered coordinate, and has the given content, styles and nature.",
  "every table and box", "any arrangement of holes",
  ["benker/table.py:Table.fill_missing"])
p("View styles and natures survive table updates",
  "The styles and nature of a row or column view are unchanged by any table operation as long as the view remains in the list; a view is dropped only if it lies beyond the bounding box when a deletion, merge or expansion refreshes the views.",
  "every history of table operations", "depends on the order of accesses and updates",
  ["benker/table.py:TableViewList.refresh_all", "benker/table.py:TableViewList.__getitem__"])
p("A table answers like its grid",
  "For every history of table operations, the cells, lookups, errors and bounding box of the table are those of a plain grid that received the same insertions, deletions, merges and expansions.",
  "every history", "refinement over all histories, including failing operations",
  ["benker/table.py:Table"])
p("Frame attribute round-trip",
  "For each CALS frame value, the border styles derived from it give back the same frame value; every style dictionary gives one of the six legal frame values; an unknown frame value raises KeyError.",
  "every frame string and every style dictionary", "arbitrary border descriptions",
  ["benker/parsers/cals/frame_styles.py:get_frame_styles", "benker/builders/cals.py:get_frame_attr", "benker/builders/cals.py:_get_border_style"])
p("colsep/rowsep encode the presence of a border",
  "The separator attribute is absent iff the style has no border keyword, '0' iff the last keyword is none, '1' otherwise; parsing '0' or '1' and building again gives the same value.",
  "every style dictionary", "arbitrary style strings",
  ["benker/builders/cals.py:get_colsep_attr", "benker/builders/cals.py:get_rowsep_attr", "benker/builders/cals.py:_get_border_style"])
p("The CALS builder outputs every row once, grouped and sorted by nature",
  "In the generated tgroup every row appears exactly once; groups appear in the configured nature order (unknown natures rank as body); rows of the same rank keep their relative order.",
  "every table and every complete sorting option", "any sequence of natures of any length",
  ["benker/builders/cals.py:CalsBuilder.build_tgroup", "benker/builders/cals.py:CalsBuilder.__init__"])
p("The CALS builder emits one entry per cell with its spans",
  "With consistent views each cell gives exactly one entry in the row of its top coordinate; namest/nameend are present iff it spans several columns and name its first and last column; morerows is present iff it spans several rows and is the number of extra rows; there is one colspec per column, in order.",
  "every table", "any arrangement of cells",
  ["benker/builders/cals.py:CalsBuilder.build_cell", "benker/builders/cals.py:CalsBuilder.build_row", "benker/builders/cals.py:CalsBuilder.build_colspec"])
p("Mixed content is preserved",
  "Appending a list of texts and elements to an empty cell element keeps every element in order and every text at its place: the text content of the cell element is the concatenation of the pieces; parsing back [text] + children and appending again rebuilds the same children and text.",
  "every sequence of texts and elements", "sequences of any length and any interleaving",
  ["benker/builders/base_builder.py:BaseBuilder.append_cell_elements", "benker/parsers/cals/__init__.py:CalsParser.parse_cals_entry"])
p("Text extraction concatenates the pieces",
  "The text of a cell content is empty for None, the string itself for a string, and for a list the concatenation of the texts of its items; for XML elements it is the text, the children's text and the tail in document order, comments and processing instructions contributing only their tail.",
  "every nested content", "arbitrary nesting depth",
  ["benker/cell.py:get_content_text", "benker/cell.py:_get_node_text"])
p("The tree walk yields well-nested events",
  "iterwalk yields, for each element with a selected tag, exactly one start and one end event, in document order, properly nested; unselected elements yield nothing but their descendants are still visited.",
  "every tree and tag set", "arbitrary depth and breadth",
  ["benker/common/lxml_iterwalk.py:iterwalk"])
p("CALS round-trip keeps the layout",
  "For every table without holes nor overlaps, filled from left to right, whose row natures are already in tgroup order and whose contents include no CALS element, parsing the CALS table generated from it gives a table with the same cells: same positions, spans, text content and row natures.",
  "every hole-free table of any size", "positions are recomputed by the parser from spans only, so correctness depends on all cells above and to the left",
  ["benker/builders/cals.py:CalsBuilder", "benker/parsers/cals/__init__.py:CalsParser"])
p("Parsed tables have no hole",
  "When parsing a CALS table succeeds, every coordinate of the bounding box of the resulting table is covered by a cell.",
  "every CALS table element", "arbitrary rows with missing entries and spans",
  ["benker/parsers/cals/__init__.py:CalsParser.parse_table", "benker/table.py:Table.fill_missing"])
p("The inside of nested tables does not disturb the enclosing table",
  "Parsing a table in which cells contain other tables gives the same layout (positions, spans, styles and natures of cells, rows and columns) or the same exception as parsing it with the inner tables emptied (CALS and Formex parsers).",
  "every table with nested tables at any depth", "depends on where in the outer table the inner table is closed",
  ["benker/parsers/cals/__init__.py:CalsParser.parse_table", "benker/parsers/formex.py:FormexParser.parse_table"])
p("Parsing a table does not depend on tables parsed before",
  "The table returned by parse_table is the same whatever tables the parser has parsed before, even if an earlier parse failed half-way.",
  "every history of parses", "the parser keeps mutable state between calls",
  ["benker/parsers/base_parser.py:BaseParser._State", "benker/parsers/cals/__init__.py:CalsParser.parse_table"])
p("Row styles round-trip between the Formex parser and builder",
  "For every row tag, legal row type and block level, decoding the row style written by the Formex parser gives back tag, type and level; every string outside the grammar is read as a plain row of level 0.",
  "every tag, type and level, every string", "levels are unbounded; arbitrary strings",
  ["benker/builders/formex.py:guess_row_info", "benker/parsers/formex.py:FormexParser.parse_fmx_row", "benker/parsers/formex.py:FormexParser.parse_fmx_ti_blk"])
p("Block grouping puts each row at its level and keeps the order",
  "After grouping, each row of the corpus is nested in exactly as many BLK elements as its level, and reading the rows in document order gives the original order.",
  "every sequence of rows and levels", "any sequence of level changes",
  ["benker/builders/formex.py:FormexBuilder.insert_blk"])
p("Tables are numbered hierarchically",
  "NO.SEQ of a table is NO.SEQ of the enclosing table followed by its rank among the tables directly enclosed there, so numbers are unique and in document order.",
  "every nesting of tables", "arbitrary nesting and branching",
  ["benker/builders/formex.py:FormexBuilder.update_no_seq"])
p("Formex round-trip keeps the layout",
  "For every table without holes nor overlaps, filled from left to right, whose contents include no element of a Formex table and whose first row is not written as a title, parsing the Formex CORPUS generated from it gives a table with the same cells: same positions, spans and text; header rows are read as header rows.",
  "every hole-free table of any size", "positions are recomputed by the parser",
  ["benker/builders/formex.py:FormexBuilder", "benker/parsers/formex.py:FormexParser"])
p("Header rows keep their type in Formex",
  "After finalisation a row of nature header carries TYPE=HEADER in the Formex document.",
  "every table and option", "finalisation passes rewrite the attributes for every row",
  ["benker/builders/formex.py:FormexBuilder.build_row", "benker/builders/formex.py:FormexBuilder.extract_gr_notes", "benker/builders/formex.py:FormexBuilder.insert_blk"])
p("Word table styles are inherited, nearest definition first",
  "Resolving the borders of a table style terminates for every stylesheet, and each border property has the value given by the nearest style in the basedOn chain which defines it.",
  "every stylesheet and style id", "chains of any length, including cyclic ones",
  ["benker/parsers/ooxml/__init__.py:_get_style_borders"])
p("Vertically merged Word cells become one cell",
  "A cell restarting a vertical merge followed by n continuation cells in the next rows at the same columns becomes one cell of height n+1 with the content of the first.",
  "every n and table", "any number of continuation rows",
  ["benker/parsers/ooxml/__init__.py:OoxmlParser.parse_tc", "benker/table.py:Table.expand"])
p("Widths are parsed by longest number and unit",
  "parse_width of a decimal number followed by a known unit gives this number and unit, and the default unit if the unit is missing.",
  "every decimal numeral and unit", "unbounded numerals; alternation order in the regular expression matters (m vs mm)",
  ["benker/units.py:parse_width"])
p("Unit conversion is linear and reversible up to rounding",
  "Converting between units is the exact ratio rounded to three decimals; converting to the same unit returns the value rounded to three decimals; unknown units raise KeyError.",
  "every value and pair of units", "floating point and rounding for every value",
  ["benker/units.py:convert_value"])
p("Tables are replaced in place",
  "Replacing a table element in its parent keeps the number and order of the siblings and the text following the table.",
  "every document and table position", "arbitrary siblings",
  ["benker/parsers/cals/__init__.py:CalsParser.transform_tables"])

EXTRA = os.path.join(os.path.dirname(__file__), "props_extra.py")
if os.path.exists(EXTRA):
    exec(open(EXTRA).read())
with open(os.path.join(os.path.dirname(__file__), "..", "properties.jsonl"), "w") as f:
    for q in P:
        f.write(json.dumps(q, ensure_ascii=False) + "\n")
if __name__ == "__main__":
    for q in P: print(q["id"], q["title"])
