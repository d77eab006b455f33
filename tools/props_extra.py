
p("Borders are drawn exactly around cells",
  "In the drawing of a grid of disjoint cells, a vertical bar stands on the left of a coordinate exactly when a cell starts at that column or the coordinate is free, dashes stand above it exactly when a cell starts at that row or the coordinate is free, and the drawing is closed on the right and at the bottom.",
  "every grid of disjoint cells, every coordinate of the bounding box",
  "every combination of spans and holes selects one of sixteen tiles",
  ["benker/drawing.py:iter_tiles", "benker/drawing.py:TILES", "benker/drawing.py:draw"])

p("A written width is stable",
  "A width written by the converters (two decimals and a unit, below a hundred million) is unchanged when it is parsed and written again in the same unit.",
  "every such width, every unit, every accurate floating point arithmetic",
  "unbounded set of widths; accumulated floating point and rounding errors",
  ["benker/units.py:parse_width", "benker/units.py:convert_value", "benker/builders/cals.py:CalsBuilder.build_table", "benker/parsers/cals/__init__.py:CalsParser.parse_cals_table"])

p("The presence of a nested table does not move cells",
  "Replacing a table nested in a cell of a CALS table by another element does not change the positions and spans of the cells of the enclosing table.",
  "every table with nested tables", "depends on what has been parsed when the inner table is closed",
  ["benker/parsers/cals/__init__.py:CalsParser.parse_table"])

p("Each cell gives one CALS entry, in the order of the columns",
  "For every table, each cell gives exactly one entry of the generated CALS table, and the entries of a row come in the order of their columns.",
  "every table and history", "depends on the order in which cells were inserted and on when the views were first read",
  ["benker/builders/cals.py:CalsBuilder.build_row", "benker/table.py:TableViewList.adopt_cell", "benker/table.py:TableView.owned_cells"])

p("Styles of the cells survive a CALS round trip",
  "A table without overlap nor hole, written in CALS and read again, has cells with the same alignment, vertical alignment (`bottom` when CALS does not know it), background and cell style, and the same line on the right and at the bottom (own style of the cell, else default of the table) except at the last column and row; cells without content are marked as empty; no other style is kept or invented.",
  "every such table, every style of the cells and of the table, both places of the default separators (table or tgroup)",
  "unbounded combinations of spans, own borders, default borders and values",
  ["benker/builders/cals.py:CalsBuilder.build_cell", "benker/parsers/cals/__init__.py:CalsParser.parse_cals_entry"])

p("Styles of the rows and columns survive a CALS round trip",
  "In the same round trip, the rows keep their vertical alignment, their row style and the line below them (their background is lost); the columns keep their alignment, the lines on the right and at the bottom, and get the width which the builder has written.",
  "every such table, every row and column",
  "unbounded combinations of styles and sizes",
  ["benker/builders/cals.py:CalsBuilder.build_row", "benker/builders/cals.py:CalsBuilder.build_colspec", "benker/parsers/cals/__init__.py:CalsParser.parse_cals_row", "benker/parsers/cals/__init__.py:CalsParser.parse_cals_colspec"])

p("Styles of the table survive a CALS round trip",
  "In the same round trip, the table keeps its nature, its frame when CALS has a value for it (no side gets a border it did not have), the default lines of its cells, its orientation, its background and its width; a number of page columns other than one becomes two.",
  "every such table, both places of the table style (table or tgroup)",
  "unbounded combinations of styles",
  ["benker/builders/cals.py:CalsBuilder.build_table", "benker/builders/cals.py:CalsBuilder.build_tgroup", "benker/parsers/cals/__init__.py:CalsParser.parse_cals_table", "benker/parsers/cals/__init__.py:CalsParser.parse_cals_tgroup"])

p("Inserted rows stand between readable revision marks",
  "Each row gives one `row` element; a row marked as inserted stands between a `change-start` and a `change-end` processing instruction whose attributes tell its identifier, author and date, and can be read back unambiguously whatever characters these hold.",
  "every table, every row, every identifier, author and date",
  "the values may hold any character, and are serialised in the text of a processing instruction",
  ["benker/builders/cals.py:CalsBuilder.build_row", "benker/builders/cals.py:revision_mark"])

p("Rows of Word tables keep their kind and revision marks",
  "A table of a Word document has one row for each `w:tr`, numbered from 1; the row is a header if and only if Word repeats it at the top of each page, otherwise it belongs to the body; its styles tell if it was inserted, and by whom, when and in which revision, and nothing else but its height.",
  "every Word table with rows of the same number of columns, with any number of rows and merged cells",
  "the views of the rows are updated at each insertion and expansion of cells; any of them may lose what was set before",
  ["benker/parsers/ooxml/__init__.py:OoxmlParser.parse_tr"])

p("Columns of Word tables keep their width",
  "A table of a Word document has as many columns as its rows, and the width of the i-th column is the value of the i-th `w:gridCol`, converted from twentieths of a point to points with two decimals.",
  "every Word table with at least one row, every width",
  "unbounded numbers; the views of the columns are updated at each insertion of cells",
  ["benker/parsers/ooxml/__init__.py:OoxmlParser.parse_grid_col"])

p("Cells of Word tables keep their looks",
  "Every `w:tc` which does not continue another one gives a cell with its paragraphs, the nature of its row, and styles which tell its background color, vertical alignment, horizontal alignment (the first of the most frequent alignments of its paragraphs), borders and whether it is empty (no text, no image), and nothing else.",
  "every Word table, every cell, any number of paragraphs and any depth of nesting of its content",
  "the alignment is a vote over an unbounded list of paragraphs, the emptiness is a search in an unbounded tree",
  ["benker/parsers/ooxml/__init__.py:OoxmlParser.parse_tc", "benker/parsers/ooxml/w_shd.py:Shd.styles"])

p("Word tables keep their style, frame and section",
  "The nature of a table of a Word document is the identifier of its style; its background is its shading; its orientation, page size and number of text columns are those of its section; each side of its frame is the border it defines itself, otherwise the border of the nearest style of the chain of its styles, and the default borders of its cells are those of the nearest style.",
  "every Word table, every section, every acyclic stylesheet",
  "the styles form chains of unbounded length",
  ["benker/parsers/ooxml/__init__.py:OoxmlParser.parse_tbl", "benker/parsers/ooxml/w_pg_sz.py:PgSz.styles"])

p("The Formex builder writes one CELL per cell",
  "A table is written as a `TBL` with its number (four digits at least), its number of columns and the size of its page; its `CORPUS` has one `ROW` per row of the table, in order, with the type of its nature, and each row has one `CELL` per cell starting in it, with its column, `COLSPAN`/`ROWSPAN` exactly when it spans several columns/rows (also in the CALS way, with one numbered `colspec` per column, when CALS is asked for), its type when it is not that of the row, and its content (`IE` when it is empty).",
  "every table reachable by any history of operations, every configuration of the builder, every content",
  "unbounded tables, spans, contents and histories",
  ["benker/builders/formex.py:FormexBuilder.build_tbl", "benker/builders/formex.py:FormexBuilder.build_corpus", "benker/builders/formex.py:FormexBuilder.build_row", "benker/builders/formex.py:FormexBuilder.build_cell"])

p("No text is lost in a generated Formex table, even in a title",
  "The text of the generated `TBL` is the text of the cells of the table, row after row, whether the first row is detected as a title or not.",
  "every table, every content of cells, with and without detection of titles",
  "contents are unbounded trees, and the title takes the paragraphs of its cell apart",
  ["benker/builders/formex.py:FormexBuilder.build_title", "benker/builders/formex.py:FormexBuilder.build_corpus"])

p("CALS tables are read as they are drawn",
  "A CALS table whose entries, once laid out row after row from left to right, fill a rectangle without overlapping, is read as the table with exactly these cells: same places and spans (by `namest`/`nameend` numbers and `morerows`), same contents, kinds given by `thead`, `tbody` and `tfoot`; and the styles of the table, its columns, rows and cells are those told by the attributes of `table`, `tgroup`, `colspec`, rows and entries - each attribute in its documented vocabulary, nearest first.",
  "every CALS document of any size, with any elements of other vocabularies, comments and instructions between the elements of the table",
  "unbounded numbers of rows, columns and spans; the position of an entry depends on all the spans of the rows above",
  ["benker/parsers/cals/__init__.py:CalsParser.parse_table", "benker/parsers/cals/__init__.py:CalsParser.parse_cals_entry", "benker/parsers/cals/__init__.py:CalsParser.parse_cals_colspec", "benker/parsers/cals/__init__.py:CalsParser.parse_cals_row"])

p("CALS tables which break the rules are refused",
  "When the CALS parser accepts a table, its frame is one of those of CALS, its `colspec` are in the table or a group and have integer numbers, its rows are in a `thead`, `tbody` or `tfoot`, the names of the columns of its entries contain numbers, in increasing order, and the number of additional rows is an integer which is not negative, at any depth outside of the nested tables. So any other table raises an exception.",
  "every XML tree, well formed for CALS or not, every state of the parser",
  "the trees are unbounded and the offending element can be at any depth, after any number of others",
  ["benker/parsers/cals/__init__.py:CalsParser.parse_table", "benker/parsers/cals/__init__.py:CalsParser.parse_cals_entry", "benker/parsers/cals/__init__.py:CalsParser.parse_cals_colspec", "benker/parsers/cals/__init__.py:CalsParser.parse_cals_row"])

p("Spaces and shadows of Word borders are kept",
  "The distance and the shadow which Word gives to the borders of a table, a style or a cell are told by the styles: `border-collapse` is `collapse` when all the given distances are null and `separate` otherwise, `border-spacing` gives the distance of each side in order, `box-shadow` the size of each side in order, as CSS lengths; a table without its own values has those of the nearest style.",
  "every Word table, style and cell, every combination of sides, every chain of styles",
  "the combinations of sides and attributes multiply, and the chains of styles are unbounded",
  ["benker/parsers/ooxml/__init__.py:_get_border_properties", "benker/parsers/ooxml/__init__.py:_border_properties_to_styles", "benker/parsers/ooxml/__init__.py:_get_style_borders"])

p("Formex tables are read as they are drawn",
  "A Formex table whose cells, titles of blocks and notes, once laid out line after line from left to right, fill a rectangle without overlapping (rows may stop before the last column when the number of columns is known), is read as the table with exactly these cells: same places and spans (`COLSPAN`/`ROWSPAN`, or the CALS way; `COL.START`/`COL.END` for the titles; the whole width for the notes), same contents (nothing for `IE`), empty cells where nothing is drawn; the kinds are those of `TYPE`, each row or title keeps its type and the number of blocks around it, and the styles of the table, columns, rows and cells are those told by the attributes.",
  "every Formex document of any size, with blocks nested at any depth, and any elements of other vocabularies, comments and instructions between the elements of the table",
  "unbounded numbers of rows, columns, blocks and spans; the position of a cell depends on all the spans of the rows above",
  ["benker/parsers/formex.py:FormexParser.parse_table", "benker/parsers/formex.py:FormexParser.parse_fmx_corpus", "benker/parsers/formex.py:FormexParser.parse_fmx_row", "benker/parsers/formex.py:FormexParser.parse_fmx_cell", "benker/parsers/formex.py:FormexParser.parse_fmx_ti_blk", "benker/parsers/formex.py:FormexParser.parse_gr_notes"])

p("The looks of a table are told in Formex",
  "When the CALS attributes are asked for, the Formex document tells the looks of the table: the `CORPUS` has its frame, the default separators, its nature, the orientation and the number of columns of the page, its colour, and its width in the unit of the configuration; each `colspec` the separators, the width and the alignment of its column; each `ROW` the vertical alignment, the separator, the style and the colour of its row; each `CELL` its separators (none in the last column and the last row), its alignments and its colour. A separator is written only where it differs from that of the table. When they are not asked for, none of these attributes is written.",
  "every table, every style, every configuration of the Formex builder",
  "the styles are arbitrary dictionaries, and the last row and column depend on all the cells",
  ["benker/builders/formex.py:FormexBuilder.build_corpus", "benker/builders/formex.py:FormexBuilder.build_colspec", "benker/builders/formex.py:FormexBuilder.build_row", "benker/builders/formex.py:FormexBuilder.build_cell"])

p("Finalising a Formex document loses no text",
  "The finalisation of a Formex document - numbering, opening of the tables directly inside tables, extraction of the notes, grouping in blocks, cleaning of the attributes - keeps its text in order, except that the text of the footer rows of a table comes just before its first `CORPUS`.",
  "every Formex document, every configuration of the Formex builder",
  "the documents are unbounded trees, and the tables can be nested at any depth",
  ["benker/builders/formex.py:FormexBuilder.finalize_tree", "benker/builders/formex.py:FormexBuilder.extract_gr_notes", "benker/builders/formex.py:FormexBuilder.insert_blk", "benker/builders/formex.py:FormexBuilder.cleanup_tbl_in_tbl"])

p("Finalising a Formex document changes only the attributes it must",
  "After the finalisation of a Formex document, no row, cell, title or note inside a table has a `namest`, `nameend`, `morerows` or `rowstyle` attribute; the step which drops them changes nothing else in the document. The footer rows of a table become notes just before its first `CORPUS`, in the order of the rows; each note has the attributes of its row, except its type, where it has not its own.",
  "every Formex document, every configuration of the Formex builder",
  "the documents are unbounded trees, tables can be nested, and the rows, titles and notes can be at any depth in blocks",
  ["benker/builders/formex.py:FormexBuilder.drop_superfluous_attrs", "benker/builders/formex.py:FormexBuilder.extract_gr_notes", "benker/builders/formex.py:FormexBuilder.finalize_tree"])

p("Tables read from documents list their cells in reading order",
  "The rows of a table read by any of the three parsers list each cell once, row after row and from left to right; and there is no hole at the left of a cell in its row. So the builders write the cells of such a table in reading order.",
  "every CALS, Formex or Word table, of any size and with tables nested in it, every configuration",
  "the order of a row depends on all the insertions, fills and extensions of cells made while the document is read, and on the tables nested in it",
  ["benker/parsers/cals/__init__.py:CalsParser.parse_table", "benker/parsers/formex.py:FormexParser.parse_table", "benker/parsers/ooxml/__init__.py:OoxmlParser.parse_table", "benker/table.py:TableView.adopt_cell", "benker/table.py:RowView.insert_cell", "benker/table.py:Table.fill_missing"])

p("Tables read from documents have no hole",
  "Each place of the rectangle of a table read from a document is covered by a cell, and the rectangle begins at the first column.",
  "every Formex or Word table (see C46 for CALS), every configuration",
  "unbounded numbers of rows, columns and spans",
  ["benker/parsers/formex.py:FormexParser.parse_fmx_corpus", "benker/parsers/ooxml/__init__.py:OoxmlParser.parse_tr", "benker/table.py:Table.fill_missing", "benker/table.py:TableViewList"])

p("Tables read from documents have no overlapping cells",
  "No two cells of a table read from a document cover the same place.",
  "every CALS, Formex or Word table, every configuration",
  "overlaps depend on the spans of all the cells above",
  ["benker/parsers/cals/__init__.py:CalsParser.parse_cals_entry", "benker/parsers/formex.py:FormexParser.parse_fmx_cell", "benker/parsers/ooxml/__init__.py:OoxmlParser.parse_tc", "benker/grid.py:Grid.__setitem__", "benker/box.py:Box.intersect"])

p("Converting a Formex document changes nothing outside of its tables",
  "In the document made from a Formex document, each table body (`CORPUS`) is replaced, where it was, by a CALS table followed by the same text; the notes which precede a `CORPUS` among its siblings are moved into its table; all other elements, attributes, texts, comments and instructions keep their places, and no `CORPUS` is left. A document without table is unchanged.",
  "every Formex document, with tables, notes and blocks nested at any depth, every configuration",
  "unbounded trees, with several tables per parent and tables nested in cells and notes; the replacement changes the tree which is being visited",
  ["benker/parsers/formex.py:FormexParser.transform_tables", "benker/parsers/formex.py:FormexParser.parse_table", "benker/converters/formex2cals.py:Formex2CalsConverter"])

p("The presence of a nested Formex table does not change the enclosing table",
  "Replacing a table nested in a cell of a Formex table by another element does not change the rows of the enclosing table, nor the positions and spans of its cells.",
  "every Formex table with nested tables, with or without notes", "depends on what has been parsed when the inner table is closed",
  ["benker/parsers/formex.py:FormexParser.parse_table", "benker/parsers/formex.py:FormexParser.parse_gr_notes"])

p("Conversions to CALS keep what a table shows",
  "Converting a Formex or a Word table to CALS gives a CALS table of the same width and height, whose entries fill the same grid without overlapping: the same rows of the same kinds, with the same contents in the same columns and over the same numbers of rows. The rows are sorted by kind as the `tgroup_sorting` option asks for, and otherwise keep their order; when they are already sorted nothing moves.",
  "every Formex or Word table drawn on a grid, of any size, with any spans, blocks, notes and merged cells, where no cell spans rows of different kinds and the contents hold no CALS table; every configuration for which the conversion succeeds",
  "depends on all the spans and kinds of unboundedly many rows, through the parser, the table and the builder",
  ["benker/converters/formex2cals.py:Formex2CalsConverter", "benker/converters/ooxml2cals.py:Ooxml2CalsConverter", "benker/parsers/formex.py:FormexParser.parse_table", "benker/parsers/ooxml/__init__.py:OoxmlParser.parse_table", "benker/builders/cals.py:CalsBuilder.generate_table_tree", "benker/builders/cals.py:CalsBuilder.build_tgroup"])

p("Which tables can be written",
  "Writing a table in CALS or in Formex succeeds exactly when the values of its styles can be told in this format - known alignments and orientations, lengths with a number and a known unit, texts - and its cells contain texts, numbers and nodes; in Formex the natures of the cells must also be known ones or those of their rows and, when titles are looked for, the first row must be one which can be written as a title. Otherwise an exception is raised.",
  "every table, whatever its history, every configuration",
  "unbounded numbers of rows, columns, cells and styles; every style of every row, column and cell may prevent the writing",
  ["benker/builders/cals.py:CalsBuilder.generate_table_tree", "benker/builders/cals.py:CalsBuilder.build_cell", "benker/builders/formex.py:FormexBuilder.generate_table_tree", "benker/builders/formex.py:FormexBuilder.build_cell", "benker/units.py:convert_value", "benker/units.py:parse_width"])

p("Tables accepted by a parser are converted",
  "When a parser accepts a table, the converter makes a table of the other format from it: no exception is raised by the builder.",
  "every CALS, Formex or Word table, every configuration with a known unit",
  "the builder may refuse any style, nature or content of any cell, row or column; those given by the parser depend on all the attributes of unboundedly many elements",
  ["benker/converters/base_converter.py:BaseConverter.convert_file", "benker/parsers/cals/__init__.py:CalsParser.parse_table", "benker/parsers/formex.py:FormexParser.parse_fmx_cell", "benker/parsers/ooxml/__init__.py:OoxmlParser.parse_table", "benker/builders/cals.py:CalsBuilder.generate_table_tree", "benker/builders/formex.py:FormexBuilder.generate_table_tree"])

p("Conversions to Formex keep what a table shows",
  "Converting a CALS or a Word table to Formex gives a `TBL` element whose `CORPUS` has the same width and height and whose cells fill the same grid without overlapping: the same rows in the same order, of the same kinds (the rows of the footer are marked in order to become notes), with the same contents in the same columns and over the same rows. Only the contents of Word cells which have neither text nor image are replaced by an empty cell.",
  "every CALS or Word table drawn on a grid, of any size, with any spans, kinds of rows and merged cells, whose first row does not look like a title (when titles are looked for), and whose contents hold no Formex table; every configuration for which the conversion succeeds",
  "depends on all the spans and kinds of unboundedly many rows, through the parser, the table and the builder",
  ["benker/converters/cals2formex.py:Cals2FormexConverter", "benker/converters/ooxml2formex.py:Ooxml2FormexConverter", "benker/parsers/cals/__init__.py:CalsParser.parse_table", "benker/parsers/ooxml/__init__.py:OoxmlParser.parse_table", "benker/builders/formex.py:FormexBuilder.generate_table_tree", "benker/builders/formex.py:FormexBuilder.build_row", "benker/builders/formex.py:FormexBuilder.build_cell"])

p("The final Formex document keeps what the tables show",
  "Finalising a document (numbering, cleaning, notes, blocks, attributes) keeps its tables, in order. Each table written by the builder keeps its width, its height and its cells, which fill the same grid without overlapping, with the same contents at the same places; the rows of the footer are notes before the `CORPUS`, which are shown at the bottom of the table. The finalisation succeeds. So a CALS or a Word table shows the same in the final Formex document as in the source.",
  "every document whose tables are all in `TBL` elements, with any number of tables; every CALS or Word table drawn on a grid, of any size, whose footers are full-width rows at the bottom of the table, whose rows have no style of their own when CALS attributes are written, whose first row does not look like a title (when titles are looked for), and whose contents hold no Formex table",
  "five passes over a tree of unbounded size, which move rows and drop attributes, and depend on all the rows of each table",
  ["benker/builders/formex.py:FormexBuilder.finalize_tree", "benker/builders/formex.py:FormexBuilder.extract_gr_notes", "benker/builders/formex.py:FormexBuilder.insert_blk", "benker/builders/formex.py:FormexBuilder.drop_superfluous_attrs", "benker/converters/cals2formex.py:Cals2FormexConverter", "benker/converters/ooxml2formex.py:Ooxml2FormexConverter"])

p("Two conversions in a row keep what a table shows",
  "A table which is converted from one format to a second one, and then to a third one (or back to the first one), shows the same at the end: the same width and height, and cells with the same contents over the same columns and rows. CALS to Formex and back to CALS loses only the kind `header` of the rows; Word to Formex to CALS loses only what is in the cells which have neither text nor image; Formex to CALS and back, and Word to CALS to Formex, keep all the contents. When the CALS builder sorts the rows by kind, they are moved as its option tells.",
  "every CALS, Formex or Word table drawn on a grid, of any size, with any spans; every document with any number of tables; the conditions are those of each conversion (C85, C89)",
  "the result of a conversion must meet all that the next one relies on, for tables of unbounded size",
  ["benker/converters/cals2formex.py:Cals2FormexConverter", "benker/converters/formex2cals.py:Formex2CalsConverter", "benker/converters/ooxml2cals.py:Ooxml2CalsConverter", "benker/converters/ooxml2formex.py:Ooxml2FormexConverter", "benker/builders/formex.py:FormexBuilder.finalize_tree"])

p("A converted document is the same around its tables, which show the same",
  "Converting a document gives the same document - the same elements, attributes, texts, comments and processing instructions, in the same order - where each table which is in no other table is replaced by one element of the target format, followed by the same text. In CALS and in final Formex documents, this element shows what the table showed: the same width and height, and cells with the same contents over the same columns and rows. The conversion to Formex succeeds when all the tables can be written.",
  "every document which is not itself a table, with any number of tables at any depth, and where there are no Formex elements out of the tables (to Formex); each of its tables which meets the conditions of C85 (Word to CALS) or C89 (to Formex) and holds no other table to convert, whatever the other tables are",
  "the documents, the tables and the places of the tables are unbounded; the conversion of each table and the five passes of the finalisation go through the whole document",
  ["benker/converters/base_converter.py:BaseConverter.convert_file", "benker/parsers/base_parser.py:BaseParser.transform_tables", "benker/builders/formex.py:FormexBuilder.finalize_tree", "benker/converters/cals2formex.py:Cals2FormexConverter", "benker/converters/ooxml2cals.py:Ooxml2CalsConverter", "benker/converters/ooxml2formex.py:Ooxml2FormexConverter"])

p("CALS documents tell the looks of tables",
  "The attributes of the CALS document tell the looks of the table: the `table` element tells its frame, the orientation and the width of its page, its colour and its width in the unit of the configuration; the `table` element - or the `tgroup`, if the option asks for it - tells its default separators and its style; each `colspec` tells the separators, the width and the alignment of a column; each `row` tells the vertical alignment, the separator and the style of a row, in the order of the sorting option; each `entry` tells the separators (except those on the frame), the alignments, the colour and the style of a cell. No other attributes are written, but those which place columns and cells.",
  "every table which can be built with the API and written, with any styles on the table, its rows, its columns and its cells; every configuration of the builder",
  "the styles are unbounded dictionaries on unboundedly many rows, columns and cells, and the separators of the parts depend on those of the whole table",
  ["benker/builders/cals.py:CalsBuilder.build_table", "benker/builders/cals.py:CalsBuilder.build_tgroup", "benker/builders/cals.py:CalsBuilder.build_colspec", "benker/builders/cals.py:CalsBuilder.build_row", "benker/builders/cals.py:CalsBuilder.build_cell"])

p("Converting a CALS table to Formex keeps its looks",
  "When a CALS table is converted to Formex with CALS attributes, the `CORPUS` has the frame, the separators, the style, the orientation, the page width, the colour and the width of the CALS table (the width being written in the unit of the configuration); each column has the separators, the width and the alignment of the `colspec` of the source; each row and each cell has the separators, the alignments, the styles and the colours which the source tells, those of the last row and column being drawn by the frame.",
  "every CALS table drawn on a grid, of any size, with any attributes for which the conversion succeeds; every configuration which writes CALS attributes",
  "the attributes of unboundedly many elements go through the parser, the styles of the table and the builder, and the defaults of the groups, of the columns and of the table interact",
  ["benker/converters/cals2formex.py:Cals2FormexConverter", "benker/parsers/cals/__init__.py:CalsParser.parse_table", "benker/builders/formex.py:FormexBuilder.build_corpus", "benker/builders/formex.py:FormexBuilder.build_colspec", "benker/builders/formex.py:FormexBuilder.build_row", "benker/builders/formex.py:FormexBuilder.build_cell"])

p("Converting a Formex table to CALS keeps its looks",
  "When a Formex table is converted to CALS, the CALS document tells the frame, the separators, the style, the orientation, the page width, the colour and the width of the table; the separators, the width and the alignment of each described column; the vertical alignment, the separator, the colour and the style - or the type and the level - of each row and title, in the order of the sorting option; the separators, the alignments, the colour and the type of each cell and note.",
  "every Formex table drawn on a grid, of any size, with blocks, titles and notes, with any CALS attributes for which the conversion succeeds; every configuration of the converter",
  "the attributes of unboundedly many elements go through the parser, the styles of the table and the builder, which sorts the rows; the defaults of the rows and of the table interact",
  ["benker/converters/formex2cals.py:Formex2CalsConverter", "benker/parsers/formex.py:FormexParser.parse_fmx_cell", "benker/parsers/formex.py:FormexParser.parse_fmx_row", "benker/parsers/formex.py:FormexParser.parse_fmx_corpus", "benker/builders/cals.py:CalsBuilder.build_table", "benker/builders/cals.py:CalsBuilder.build_cell"])

p("Converting a Word table keeps its looks",
  "When a Word table is converted to CALS, or to Formex with CALS attributes, the result tells the frame of the table (the sides which the table draws or, failing that, those of the nearest of its styles), the lines between its cells, its style, the orientation and the columns of its page, and its colour; the width of each column, within a hundredth of a point, in the unit of the configuration; and, for each cell, its right and bottom lines (except those of the frame), its vertical alignment, the most frequent alignment of its paragraphs and its colour. Merged cells tell the looks of their first cell. The rows come in the order of the source (Formex) or of the sorting option (CALS).",
  "every Word table of any size, with any merged cells, chain of styles, borders, colours and alignments for which the conversion succeeds; every configuration of the converter (which writes CALS attributes, to Formex)",
  "the attributes of unboundedly many elements go through the parser, the chain of styles, the styles of the table and the builder; merged cells, defaults of the table and sorting interact",
  ["benker/converters/ooxml2cals.py:Ooxml2CalsConverter", "benker/converters/ooxml2formex.py:Ooxml2FormexConverter", "benker/parsers/ooxml/__init__.py:OoxmlParser.parse_tbl", "benker/parsers/ooxml/__init__.py:OoxmlParser.parse_tc", "benker/parsers/ooxml/__init__.py:OoxmlParser.parse_grid_col", "benker/builders/cals.py:CalsBuilder.build_cell", "benker/builders/formex.py:FormexBuilder.build_cell"])

p("A conversion changes no file but its destination, and only if it succeeds",
  "Whatever happens during a conversion, and whenever it is interrupted, no file changes but the destination. A conversion which raises an exception has changed nothing. If it is interrupted, the destination is as it was, or it holds a beginning of the result. If it succeeds, the destination holds the conversion of the document which the source held - even when the destination is the source, or the stylesheet. The result depends on the source, on the stylesheet and on the options only, and converting again changes nothing. (Converting in place is not atomic: there is an instant when the document is lost.)",
  "the four conversions, every set of options, every state of the files, every source and destination (the same or not), every instant of the call, every XML library which reads what it has written",
  "the states of the files, the documents and the instants of an interruption are unbounded",
  ["benker/converters/base_converter.py:BaseConverter.convert_file", "benker/parsers/base_parser.py:BaseParser.parse_file", "benker/parsers/ooxml/__init__.py:OoxmlParser.transform_tables", "benker/converters/cals2formex.py:convert_cals2formex", "benker/converters/formex2cals.py:convert_formex2cals", "benker/converters/ooxml2cals.py:convert_ooxml2cals", "benker/converters/ooxml2formex.py:convert_ooxml2formex"])

p("The options of the conversions have the documented defaults and conditions",
  "Giving an option its documented default is the same as not giving it; an option which a conversion does not know is ignored; an empty namespace or prefix is the same as None. A prefix for the CALS elements is refused without a namespace, and a sorting of the rows is refused if it lacks the header, the footer or the body: no file is touched. From CALS to Formex, the option `cals_ns` is both the namespace of the tables which are read and that of the attributes which are written, each with its own default. Without `use_cals`, the namespace and the unit of the Formex builder have no effect on the tables.",
  "the four conversions, every set of options, every document and every state of the files",
  "the sets of options and the documents are unbounded, and one dictionary of options is given to the parser and to the builder",
  ["benker/converters/base_converter.py:BaseConverter.convert_file", "benker/builders/cals.py:CalsBuilder.__init__", "benker/builders/formex.py:FormexBuilder.__init__", "benker/parsers/cals/__init__.py:CalsParser.__init__", "benker/parsers/formex.py:FormexParser.__init__", "benker/parsers/ooxml/__init__.py:OoxmlParser.__init__", "benker/parsers/base_parser.py:BaseParser.__init__"])

p("A document converted to CALS is the same document, where the tables are CALS tables which look the same",
  "When a Formex document is converted to CALS, the result is the same document - elements, attributes, texts, comments and processing instructions in the same order - where the notes of the tables are removed and each table is replaced by a CALS table followed by the same text. If a Formex table is drawn on a grid, then its CALS table tells its looks (see C94 for what these are); if moreover the cells of each of its rows are of one kind and contain no CALS elements, then the CALS table is drawn on the same grid and shows the same texts and elements. A document whose tables are all drawn on grids, with known types, frames and widths, is converted. The same holds of Word documents (see C91 for the contents, C95 for the looks), where tables may be inside the cells of other ones, at any depth: they are all replaced, each one before those inside it.",
  "every Formex or Word document which is not itself a table, of any size and depth, with any number of tables anywhere; every configuration of the converters",
  "the number and the places of the tables, and the sizes of the tables and of the document, are unbounded; replacing a table and removing its notes moves the other ones",
  ["benker/parsers/formex.py:FormexParser.transform_tables", "benker/parsers/ooxml/__init__.py:OoxmlParser.transform_tables", "benker/converters/formex2cals.py:Formex2CalsConverter", "benker/converters/ooxml2cals.py:Ooxml2CalsConverter", "benker/builders/cals.py:CalsBuilder.generate_table_tree"])

p("Converting a file makes the same document with its tables in the other format, as the options ask",
  "Calling one of the four conversions with a source, a destination and options, if it raises no exception, leaves at the destination a document which is the one of the source where each table is replaced by a table of the other format, which shows the same contents on the same grid (C85, C88) and, to CALS, has the same looks (C94, C95). The namespace, the unit, the order of the rows, the detection of titles, the embedding of notes and the stylesheet are those which the options give, or else their documented defaults; the default stylesheet is the first one in the document. Conversely, a file whose tables are all well formed, with options of the documented types, is converted without an exception if the stack is deep enough for the document.",
  "the four conversions, every set of options, every state of the files, every document of any size and depth with any number of tables",
  "the documents, their tables and the sets of options are unbounded; one dictionary of options goes through three constructors, and the result through the parser, the builder and, to Formex, two passes over the document",
  ["benker/converters/base_converter.py:BaseConverter.convert_file", "benker/converters/cals2formex.py:convert_cals2formex", "benker/converters/formex2cals.py:convert_formex2cals", "benker/converters/ooxml2cals.py:convert_ooxml2cals", "benker/converters/ooxml2formex.py:convert_ooxml2formex", "benker/parsers/base_parser.py:BaseParser.parse_file"])

p("A document which is converted twice is the same document, with the tables it had",
  "When the conversion of a document is converted in turn - CALS to Formex to CALS, Word to Formex to CALS, Word to CALS to Formex, Formex to CALS to Formex - the result is the original document (elements, attributes, texts, comments and processing instructions in the same order) where each table is replaced by one which is drawn on the same grid and shows the same contents. Through Formex, headers have become parts of the body, and the CALS table is the only child of the TBL which the first conversion has made. From Formex to Formex, the table and its notes are again a TBL with its notes and CORPUS, not a TBL in a TBL.",
  "every document which is not itself a table, of any size and depth, with any number of tables anywhere, all the options of both conversions",
  "the documents and their tables are unbounded, and the second conversion meets what the first one has made, with the numbers and the cleaning of the finalisation",
  ["benker/converters/base_converter.py:BaseConverter.convert_file", "benker/parsers/formex.py:FormexParser.transform_tables", "benker/parsers/cals/__init__.py:CalsParser.transform_tables", "benker/parsers/ooxml/__init__.py:OoxmlParser.transform_tables", "benker/builders/formex.py:FormexBuilder.finalize_tree", "benker/builders/cals.py:CalsBuilder.generate_table_tree"])

p("Converting again a document which was converted changes nothing",
  "A document which a conversion has made is left exactly as it is - elements, attributes, texts - by the same conversion, with the same namespaces. To CALS this holds of every document, whatever the other options. To Formex the document is numbered and cleaned again: the numbers, the blocks, the notes and the attributes are those which it has.",
  "every document which a conversion has made, of any size and depth, all the options",
  "the documents are unbounded, and the finalisation goes over the whole document, where each of its steps meets what the others have made the first time",
  ["benker/builders/formex.py:FormexBuilder.finalize_tree", "benker/builders/formex.py:FormexBuilder.update_no_seq", "benker/builders/formex.py:FormexBuilder.cleanup_tbl_in_tbl", "benker/builders/formex.py:FormexBuilder.extract_gr_notes", "benker/builders/formex.py:FormexBuilder.insert_blk", "benker/builders/formex.py:FormexBuilder.drop_superfluous_attrs", "benker/parsers/formex.py:FormexParser.transform_tables", "benker/parsers/cals/__init__.py:CalsParser.transform_tables", "benker/parsers/ooxml/__init__.py:OoxmlParser.transform_tables"])

p("A conversion invents nothing",
  "Every character, comment, processing instruction and element of a converted document is in the document which was converted, except the elements of the tables of the new format - to CALS: table, tgroup, colspec, thead, tfoot, tbody, row and entry, in the namespace which the options give; to Formex: TBL, TITLE, TI, STI, CORPUS, ROW, CELL, IE, GR.NOTES, BLK, TI.BLK, STI.BLK, a colspec if CALS attributes are asked for, a bare P if titles are looked for - and the marks of revision, which are made only if the Word document has marks of insertion. In particular no text comes from elsewhere: neither from the stylesheet, nor from the options. This holds of every conversion which raises no exception, however malformed the tables are.",
  "every document, well formed or not, all the options, the four conversions, all files",
  "the documents are unbounded, and so are the malformed tables which a parser accepts; the contents go through the cells, the filling, the rows, the titles, the notes and the cleaning",
  ["benker/converters/base_converter.py:BaseConverter.convert_file", "benker/builders/cals.py:CalsBuilder.generate_table_tree", "benker/builders/formex.py:FormexBuilder.generate_table_tree", "benker/builders/formex.py:FormexBuilder.finalize_tree", "benker/parsers/cals/__init__.py:CalsParser.parse_table", "benker/parsers/formex.py:FormexParser.parse_table", "benker/parsers/ooxml/__init__.py:OoxmlParser.parse_table"])

p("The elements of a converted document are read from the file in the namespaces which they had",
  "When the file which a conversion has written is read, each element is in the namespace which it had in the source document, or which the options give to the elements of tables; in particular the tables can be found by their names, and the contents of the cells are the elements which they were. Whatever the namespaces which are declared, the elements are in the same places, with the same local names, attributes, texts, comments and processing instructions, and the elements which had a namespace have the same one.",
  "every document, all the options, the four conversions, all the declarations of default namespaces",
  "the documents and the declarations in them are unbounded; what is read depends on all the elements around, and tests compare the trees before they are written or documents without namespaces",
  ["benker/builders/cals.py:CalsBuilder.ns_map", "benker/builders/cals.py:CalsBuilder._register_namespace", "benker/builders/formex.py:FormexBuilder.ns_map", "benker/parsers/base_parser.py:BaseParser.parse_file", "benker/converters/base_converter.py:BaseConverter.convert_file"])

p("A row or column which the caller keeps goes on being the row or column of its table",
  "Let view = table.rows[pos] (or table.cols[pos]). Whatever is done afterwards - cells stored, deleted, merged, expanded, inserted by this view or by other ones, the table filled, operations which fail - view is table.rows[pos]: it lists the cells of the table which start in this line and those which cross it, and inserting a cell by it, or assigning its styles or its nature, is doing so by table.rows[pos].",
  "every table, every history of operations on the table and on views which were kept, all positions",
  "a view is an object which is shared by the caller and the table; whether it is still the one of the table depends on all the operations which were done since it was obtained",
  ["benker/table.py:TableViewList.refresh_all", "benker/table.py:TableViewList._fit_to_size", "benker/table.py:TableViewList.adopt_cell", "benker/table.py:TableViewList.__getitem__", "benker/table.py:RowView.insert_cell", "benker/table.py:ColView.insert_cell", "benker/table.py:Table._refresh_views"])

p("No row of notes is left in a document converted to Formex",
  "In a document which has been converted to Formex, no ROW has the provisional type __GR.NOTES__ which the builder gives to the rows of the footers: all of them have been moved to the notes of their tables, whatever the other tables of the document.",
  "every CALS or Word document, all the options, any number of tables, with or without footers, inside one another or not",
  "what becomes of a row depends on the rows which precede it in the whole document, since rows are removed while they are enumerated; the documents are unbounded, and tests convert one table at a time",
  ["benker/builders/formex.py:FormexBuilder.extract_gr_notes", "benker/builders/formex.py:FormexBuilder.finalize_tree", "benker/builders/formex.py:FormexBuilder.build_row"])

p("Which texts are numbers, and what a cell spans",
  "The attributes which are numbers (morerows, colnum, COLSPAN, ROWSPAN, w:gridSpan...) are read as integers exactly if they are made of decimal digits of any script, with single underscores between them, a sign if any and spaces around; otherwise the parser raises ValueError. namest and nameend are read as the first digits which are in them; without digits the parser raises IndexError. The columns and rows of a cell are the ones which these numbers tell, the default ones if the attributes are missing; in Formex non-empty CALS attributes prevail over COLSPAN and ROWSPAN.",
  "every text of an attribute, every entry, CELL or w:tc element",
  "texts are unbounded and any Unicode character can be in them; tests try a few ASCII ones",
  ["benker/parsers/cals/__init__.py:CalsParser.parse_cals_entry", "benker/parsers/cals/__init__.py:CalsParser.parse_cals_colspec", "benker/parsers/formex.py:FormexParser.parse_fmx_cell", "benker/parsers/ooxml/__init__.py:OoxmlParser.parse_tc"])

p("What does not matter in a document does not change the table",
  "Two CALS (or Formex, or Word) tables which differ only by the texts, comments, processing instructions and elements of other vocabularies which are between the elements of the table and outside of its cells, by attributes and Word elements which tell nothing about tables, by the order of the attributes, or by the way the numbers are written, are parsed to the same table with the same state, or refused with the same exception, and are converted to the same table.",
  "every pair of documents which differ by any number of such differences anywhere, all options",
  "differences can be anywhere in trees of any size, and pairs of documents are compared; tests parse single documents, mostly with the same layout",
  ["benker/parsers/cals/__init__.py:CalsParser.parse_table", "benker/parsers/formex.py:FormexParser.parse_table", "benker/parsers/formex.py:FormexParser.parse_fmx_corpus", "benker/parsers/cals/__init__.py:CalsParser.parse_cals_entry"])

p("The CALS tables which are written are valid for the schema of benker",
  "The CALS tables written by the builder are valid for the XML schema which benker ships: the elements are those of the schema, in the order which it asks for, and the attributes are those of the schema (or the documented extensions), once each, with values which the schema allows.",
  "every table that any history of calls can build, every table of a Formex or Word document, all options",
  "validity is about every combination of styles, natures and spans; tests compare a few outputs with expected files, and no test validates an output",
  ["benker/builders/cals.py:CalsBuilder.build_table", "benker/builders/cals.py:CalsBuilder.build_tgroup", "benker/builders/cals.py:CalsBuilder.build_row", "benker/schemas/calstblx.xsd"])

p("A CALS table whose rows have not the same length is read, and completed with empty cells",
  "Put the entries of a CALS table one after the other, each one at the first place of its row which is free. If no entry covers another one, the table is read: there is one cell for each entry, at this place, with its content, its kind and its looks; the places which are left, up to the last column of an entry or of a colspec and to the last row, are empty cells of one column and one row, of the kind of their row if their column is known when the row ends; no two cells share a place; the looks of the rows, of the columns and of the table are those of their attributes. No entry covers another one as soon as no entry of several columns is in a row down to which an entry of a row above goes. The places are the only ones which follow this rule. The conversion to Formex succeeds, and writes the table completed in this way: every row covers all the columns, with the same entries at the same places.",
  "every CALS table, any number of rows and of entries in each row, all spans, colspecs for more or fewer columns than there are, whatever the number of columns told, a parser used before or not",
  "the place of an entry depends on all the entries before it, and the rows may be of any lengths; tests parse a few tables, most of which are rectangular",
  ["benker/parsers/cals/__init__.py:CalsParser.parse_table", "benker/parsers/cals/__init__.py:CalsParser.parse_cals_entry", "benker/parsers/cals/__init__.py:CalsParser.parse_cals_row", "benker/table.py:Table.fill_missing", "benker/table.py:RowView.insert_cell"])

p("A Formex table whose rows have not the same length is read, and completed with empty cells",
  "Put the cells of the rows of a Formex table one after the other, each one at the first place of its row which is free; put each title after as many free places as the column where it starts tells; put each note on a line below, over all the columns. If nothing is drawn over something else, the table is read: there is one cell for each of them, at this place, with its content, its kind and its looks; the places which are left, up to the last column of a cell, a title or a colspec and to the last row, are empty cells of one column and one row, of the kind of their line if their column is known when the line ends; no two cells share a place; the looks of the lines, of the columns and of the table are those of their attributes. Nothing is drawn over something else as soon as no cell or title of several columns is in a line down to which a cell of a line above goes, and no cell goes down to the notes. The places are the only ones which follow this rule. The conversion to CALS succeeds, and writes the table completed in this way: every row covers all the columns, with the same cells, titles and notes at the same places.",
  "every Formex table, any number of rows, of titles, of notes and of cells in each row, all spans, colspecs for more or fewer columns than there are, a parser used before or not",
  "the place of a cell depends on all that precedes it, and the rows may be of any lengths; tests parse a few tables, most of which are rectangular",
  ["benker/parsers/formex.py:FormexParser.parse_table", "benker/parsers/formex.py:FormexParser.parse_fmx_cell", "benker/parsers/formex.py:FormexParser.parse_fmx_row", "benker/parsers/formex.py:FormexParser.parse_fmx_ti_blk", "benker/parsers/formex.py:FormexParser.parse_gr_notes", "benker/table.py:Table.fill_missing", "benker/table.py:RowView.insert_cell"])

p("A Word table whose rows are shorter than the table is completed with empty cells",
  "When the number of columns of a Word table is told by w:tblGrid, or by its first row, and no row has more columns, the table is read: there is one cell for each w:tc which does not continue another one, with its content and its vertical merge; in a row which is too short, each of the places on its right is an empty cell of one column and one row, without styles, of the nature of the row; the cells cover exactly all the columns of all the rows, and no two of them share a place; the rows keep their kinds and their revision marks. The conversions to CALS and to Formex succeed, and write the table completed in this way.",
  "every Word table, any number of rows, of cells in each row and of columns, all horizontal and vertical merges, w:tblGrid elements for fewer columns than there are if the first row is complete, a parser used before or not",
  "which places miss depends on the spans of all the cells of the row, and whether they are filled depends on the rows before it; tests parse a few documents, whose rows are complete",
  ["benker/parsers/ooxml/__init__.py:OoxmlParser.parse_table", "benker/parsers/ooxml/__init__.py:OoxmlParser.parse_tr", "benker/parsers/ooxml/__init__.py:OoxmlParser.parse_tc", "benker/table.py:Table.fill_missing"])

p("Printing a row or a column lists the texts of the cells which start in it",
  "Printing the rows (or the columns) of a table never fails and changes nothing. Each line is printed as the texts of the cells which start in it, each one once, with a comma and a space between them, in square brackets; after a deletion, a merge or an expansion they are in reading order. The texts can be told from each other if there is at least one and none has a comma. Printing the table itself draws each text once, in the middle of its cell, in a drawing whose lines have the same length.",
  "every table made by any history of operations, every content of cells (strings, numbers, nested lists, XML nodes), every row and column",
  "what is printed depends on the whole history of the table, which may have cells of any spans; tests print a few tables",
  ["benker/table.py:TableView.__str__", "benker/table.py:Table.__str__", "benker/grid.py:Grid.__str__", "benker/cell.py:Cell.__str__", "benker/cell.py:get_content_text"])
