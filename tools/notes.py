NOTES.update({
 "C09": ("partial", "The full property is false of the code (C09_intersect_incomplete, C09_disjoint_but_intersection); the _partial theorems give the exact set of pairs for which intersect answers True, soundness and symmetry, and completeness outside the missed configuration."),
 "C13": ("partial", "The full property is false of the code (C13_operators_disagree): >, <= and >= are those of tuples. The _partial theorems say exactly what they compute and when they agree with <."),
 "C14": ("proved", "Holds for cells whose boxes differ; C14_equal_boxes describes what happens for equal boxes."),
 "C18": ("partial", "False of the code (C18_not_disjoint): overlapping cells can be inserted, or obtained by merging. The _partial theorems bound exactly which overlaps are possible for every history, and prove disjointness for histories of single-row cells."),
 "C25": ("partial", "Growing and zero expansion are proved; shrinking, which the documentation announces, never works (C25_shrink_always_fails, C25_no_shrink)."),
 "C27": ("partial", "False of the code (C27_not_a_mapping): items, values, popitem, clear and update(grid) raise TypeError on every non-empty grid. get, pop, setdefault, update with pairs and the empty grid are proved."),
})
NOTES.update({
 "C31": ("partial", "False of the code (C31_counterexample): a cell stored in a table whose views were never read is listed twice. The _partial theorems prove exactness up to repetition for every history, and full exactness for histories which read rows and cols first."),
 "C36": ("proved", "One-step statement for every reachable table and operation, with the looks of the views compared index by index."),
})

NOTES.update({
 "C56": ("proved", "Also C56_percentage_misread: percentages, which the CALS builder documents, are read as lengths."),
 "C57": ("proved", "For every rounding function with relative error at most 2^-53 (standard model of floating point); overflow, underflow, NaN and signed zero are outside the model."),
 "C60": ("proved", "Same floating point model as C57."),
})

NOTES.update({
 "C47": ("proved", "The name, attributes and tail of the inner table elements are kept; the table elements themselves do matter, see C61."),
 "C61": ("partial", "False of the code (C61_counterexample): the end of the inner table fills the holes of the bounding box of the enclosing table, so that the next entries of the row are put too far on the right. C61_no_hole_partial: nothing happens if there is no hole at that time."),
})

NOTES.update({
 "C45": ("proved", "The hypotheses (filled from left to right, no CALS element in the contents, rows in the order of the groups) are needed: see C62, C61 and C40."),
 "C62": ("partial", "False of the code: C62_order_counterexample (a table filled from right to left is written, and read back, with its cells exchanged) and C62_repetition_counterexample (a cell written twice). C62_entries_in_order_partial: true right after any successful deletion, merge or expansion."),
})

NOTES.update({
 "C50": ("proved", "For a CORPUS whose children are not BLK elements. A processing instruction takes the level of the preceding row; a title row becomes the content of its first filled cell."),
 "C51": ("partial", "False of the finalised document (C51_counterexample): the tables are numbered before tables which are children of tables are opened. The _partial theorems prove the hierarchy and the order for the numbering step; C51_cleanup_neutral says when the next step changes nothing; uniqueness (C51_unique) is proved for the finalised document."),
 "C53": ("partial", "False of the code (C53_counterexample): the finalisation removes TYPE from every row. C53_styled_rows_partial: rows which have a row style ROW-HEADER get the type back."),
})

NOTES.update({
 "C54": ("partial", "False of stylesheets where a style is based on itself through a chain: the resolution never stops (C54_cyclic_fails, C54_cyclic_counterexample). C54_nearest_partial proves the nearest-definition rule for every chain which ends, C54_finite_or_cyclic that there is no third case, C54_own_borders what one definition contributes."),
})

NOTES.update({
 "C55": ("proved", "For tables whose rows have all the same number of columns and whose continuation cells are below a cell of the same columns. C55_narrow_counterexample and C55_first_row_counterexample: what happens otherwise."),
})

NOTES.update({
 "C58": ("proved", "For the CALS and OOXML parsers, with any builder. The root of the document must not be a table (C58_root_counterexample: the conversion then fails). See C83 for the Formex parser."),
})

NOTES.update({
 "C63": ("proved", "Same hypotheses as C45 (structure Exchange)."),
 "C64": ("proved", "Same hypotheses as C45. The background of a row is read by the parser but never written by the builder."),
 "C65": ("proved", "Same hypotheses as C45. A frame which CALS cannot tell (for instance three sides) is read as no frame."),
 "C66": ("proved", "The characters which XML forbids (for which lxml raises ValueError) are not modelled."),
})

NOTES.update({
 "C67": ("proved", "Same hypotheses as C55 (structure GoodTable). The heights of the rows are lost (C67_height_counterexample: the parser reads them in w:tblHeader); w:tblHeader with the values 1, 0, on, off is refused (C67_header_counterexample)."),
 "C68": ("proved", "Same hypotheses as C55. Floating point arithmetic is any rounding with relative error 2^-53 (FloatModel)."),
 "C69": ("proved", "Same hypotheses as C55. Cells without direct paragraph and alignments such as mediumKashida are refused (C69_paragraph_counterexample, C69_alignment_counterexample)."),
 "C70": ("proved", "Same hypotheses as C55. The dimensions of the page are rounded up to integers in the model. The borders of the inside of the table are only taken from its style, never from the table itself: this is what the code does."),
})

NOTES.update({
 "C71": ("proved", "The attributes for lines, alignment and colors are not described, only where the cells are, what they contain and their types."),
 "C72": ("partial", "False of the code (C72_title_counterexample): a title made of a single element loses its own text, and a title which begins with a text - what the CALS parser makes of a plain entry - raises TypeError. C72_text_kept_partial: when titles are detected, the cells of the first row contain a text, a list of elements or nothing."),
})

NOTES.update({
 "C52": ("proved", "About the TBL element as it is built, before the finalisation of the document (see C53 for what it does to the types). The hypotheses on titles and on the order of the cells are needed: C52_title_counterexample and C52_order_counterexample. The attribute COL written by the builder is not read by the parser."),
})

NOTES.update({
 "C73": ("proved", "One tgroup per table. A colspec without colnum is at its rank among the colspecs: this is what the code does, where CALS says one more than the previous one."),
 "C74": ("proved", "One direction only: every accepted table is regular. C73 gives regular tables which are accepted."),
})

NOTES.update({
 "C75": ("partial", "False of the code for shadows (C75_shadow_counterexample): the sides without shadow are told by `0ptpt`, which is no CSS length, and shadows without size, or told by 1 or on, raise KeyError. Everything else is proved, with `0ptpt` as it is; same hypotheses as C55."),
})

NOTES.update({
 "C76": ("proved", "COL is not read: a cell is at the first free place of its row. A cell without TYPE in a row of another type than NORMAL gets a cellstyle which is None (spec `CellShown.lost`): this is what the code does."),
})

NOTES.update({
 "C78": ("partial", "False of the code (C78_counterexample): a title row keeps one cell only, which is the wrong one when the builder has written <IE/> in an empty cell before it; a footer row keeps its first cell only; the text after a table directly inside another one is lost. C78_text_kept_partial: no table is the child of a table, and the text of title rows and footer rows is in the cell which is kept. C78_tables_in_tables_partial: the tables which are children of tables have no text around their children. The rows of notes have no rows inside, except in their first cell (`NotesApart`: always so from Word, and from CALS without tables in tables or without footers, see C105)."),
})

NOTES.update({
 "C81": ("partial", "False of the code for Word tables (C81_counterexample): a row is completed up to the number of columns known when it ends, so that a first row shorter than the next ones keeps a hole when there is no w:tblGrid. C81_formex_partial proves it for every Formex table, C81_word_partial proves that there is no hole before the last cell of a row of a Word table. C111 proves that there is none at all when the number of columns is told by w:tblGrid or by the first row."),
 "C82": ("partial", "False of the code (C82_counterexample): cells which cross each other are accepted (see C18). C82_crosswise_partial: overlapping cells of tables read from documents always cross each other; none overlap when all have one row, or all one column. C55, C73 and C76 give tables without overlap for documents which are drawn without overlap."),
})

NOTES.update({
 "C83": ("proved", "The root of the document must not be a CORPUS (C83_root_counterexample: the conversion then fails). The text which follows the notes is removed with them. What is made of one table is in C76 and C41. Tables whose content is dropped (a cell with an IE element) are forgotten by the model, while the code converts them outside of the document."),
})

NOTES.update({
 "C84": ("partial", "False of the code: as for CALS (C61), the end of the inner table fills the holes of the bounding box of the enclosing table, so that the next cells of the row are put too far on the right (C84_counterexample); moreover the notes of the inner table become a row of the enclosing table, which gets the next cells (C84_notes_counterexample). C84_no_hole_partial: nothing happens if the inner table has no notes and there is no hole at that time."),
})

NOTES.update({
 "C85": ("proved", "The conversion is assumed to succeed. With the default options the rows of notes (tfoot) are written before the body. Rows of Word tables must all fill the same columns (see C81), and w:vMerge cells be below cells of the same columns (see C55)."),
})

NOTES.update({
 "C87": ("partial", "Proved without restriction for Word to CALS (C87_word_to_cals, with a known orientation of the pages), and for Word to Formex up to titles (C87_word_to_formex). False of the code for a CALS column of width `*` (C87_width_counterexample), for a Formex cell without TYPE in a HEADER row (C87_type_counterexample), and, when titles are looked for, for a first row which is a centered text (C87_title_counterexample). The theorems _partial show that nothing else prevents the conversion."),
})
NOTES.update({
 "C88": ("proved", "About the element which replaces the table, before the finalisation of the document (see C50, C51, C53, C78 and C79 for the latter). The conversion is assumed to succeed. Titles are the subject of C72. Rows of Word tables must all fill the same columns (see C81), and w:vMerge cells be below cells of the same columns."),
})
NOTES.update({
 "C89": ("proved", "For tables without other tables in their cells (their numbers and their texts are the subject of C51 and C78). A footer row with several cells loses all but the first (C78_counterexample), and a styled row is put in blocks (C50): both are left out. In the final document the headers are rows as the others: their TYPE is dropped (C53). The rows of notes have no rows inside, except in their first cell (`NotesApart`: always so from Word, and from CALS without tables in tables or without footers, see C105)."),
})
NOTES.update({
 "C90": ("proved", "All the conversions are assumed to succeed. When the second conversion starts from CALS (C90_word_cals_formex, C90_formex_cals_formex), the rows are assumed to be sorted by kind as the CALS builder does, and CALS attributes not to be written in Formex (the default of the converter). The conditions of C85 and C89 apply. The rows of notes have no rows inside, except in their first cell (`NotesApart`: always so from Word, and from CALS without tables in tables or without footers, see C105)."),
})
NOTES.update({
 "C91": ("proved", "Documents which are themselves a table are left as they are (C58), hence the condition on the root. Formex to CALS is the subject of C83 and C85. Tables with other tables in their cells are replaced, but nothing is told of what they show (see C47, C84 and C51). The rows of notes have no rows inside, except in their first cell (`NotesApart`: always so from Word, and from CALS without tables in tables or without footers, see C105)."),
})
NOTES.update({
 "C92": ("proved", "The attributes for which the builder raises an exception (unknown words, unknown units) are the subject of C86. The background of a row is not written in CALS: there is no such attribute in RowTold (see C64)."),
})
NOTES.update({
 "C93": ("proved", "About the element which replaces the table, before the finalisation of the document, which drops TYPE attributes only (C53) but moves the styled rows in blocks (C50). The statement compares attributes of the source with attributes of the result: no intermediate table appears in it."),
 "C94": ("partial", "All the looks are kept (C94_formex_to_cals_partial) but three: the separators of the cells are stored under styles which no builder reads on cells, so they are never written (C94_separators_counterexample: a line between two cells is lost); the colours of the rows and the width of the CORPUS are not written (C94_colour_counterexample)."),
})
NOTES.update({
 "C95": ("partial", "To CALS (C95_word_to_cals_partial) and to Formex (C95_word_to_formex_partial), for tables whose borders have kinds and colours which are words, as the standard asks. What is missing: the lines between the cells are those of the styles only; the ones which the table asks for itself (w:tblPr/w:tblBorders/w:insideH and w:insideV) are never read, so they are lost (C95_inside_counterexample)."),
})
NOTES.update({
 "C96": ("proved", "The XML library is a pair of arbitrary functions (reading bytes; writing any number of chunks), of which the theorems about results assume that it reads what it has written. tree.write raises an exception before it opens the file, or not at all; failures while writing are interruptions."),
 "C97": ("proved", "Values of other types than the documented ones are not in the statement. That the namespace and the unit need use_cals is proved for tables (C97_requires_cals), not for Formex tables which were already in the source, which the finalisation visits (C79)."),
})
NOTES.update({
 "C98": ("proved", "The notes of the Formex tables contain no tables (C84 tells what becomes of the inner ones). For Word, `inner` are the theorems about tables inside tables. The looks are those which C94 and C95 keep."),
})
NOTES.update({
 "C99": ("proved", "The XML library reads what it has written (first four theorems) or can write every document (the four `succeeds`). To Formex, the document has no Formex element TBL, CORPUS or ROW outside its tables, the source tables contain no others, and the looks are those of C93 and C95 before the finalisation. The rows of notes have no rows inside, except in their first cell (`NotesApart`: always so from Word, and from CALS without tables in tables or without footers, see C105)."),
})
NOTES.update({
 "C100": ("proved", "For trees, and for files (`Files.C100_file_…`). The hypotheses on each table are those of C91 and C98 (`ForFormex`: no title to be detected, footers last and as wide as the table); if a CALS table has its rows in another order than the options ask, they are regrouped (C62). To Formex and without use_cals in the last conversion of the two which end with Formex. From Formex to Formex, the TBL has no children but its notes and the CORPUS. The rows of notes have no rows inside, except in their first cell (`NotesApart`: always so from Word, and from CALS without tables in tables or without footers, see C105)."),
})
NOTES.update({
 "C101": ("partial", "Proved as it stands to CALS. To Formex the full claim is false of the code: the type which a CALS style gives to a row is dropped by the second conversion (`C101_typed_counterexample`), and the numbers of tables in a table which was the child of a table change (`C101_nested_counterexample`). Proved for the documents which are settled: numbers according to the places (always so when no table is in another one), no TBL child of a TBL, no type on the rows, no CALS style in a CORPUS. For trees, and for files (`Files.C101_file_…`, byte for byte)."),
})
NOTES.update({
 "C102": ("proved", "The attributes of the elements which are made are not constrained by it (see C66, C94, C95). In a Formex table an element of the document which is in a CORPUS and has a CALS rowstyle is also given its TYPE, whatever its name (fourth case of `InFormex`). Nothing is said of how often something is written: the text of an entry which is in an entry is written twice (`C102_repeated_counterexample`); for well-formed tables the contents are exactly those of the source (C85)."),
})
NOTES.update({
 "C103": ("partial", "The full claim is false of the code: a namespace which is given without a prefix is declared as the default one on the elements which the builder makes, so that the contents of the CALS entries (`C103_contents_counterexample`, `C103_file_counterexample`) and the Formex tables themselves (`C103_table_counterexample`) are read in it; and the Formex tables are put without declaration in a source which declares a default namespace (`C103_source_counterexample`). Proved: Word to CALS with a namespace for CALS; any conversion, if a prefix or no namespace is given and the source declares no default namespace; and, without any hypothesis, that nothing else changes (`C103_same`, `C103_file`)."),
})
NOTES.update({
 "C104": ("partial", "The full claim is false of the code: if a deletion, a merge or an expansion makes the line go away, its view is dropped from the list as it is, so that it lists cells which are no longer there and inserts at wrong places, or fails, even if the line exists again (`C104_counterexample`). Proved: as long as the line remains, whatever the operations (`C104_kept_partial`, `C104_use`); it remains if nothing is deleted, merged or expanded (`C104_never_dropped`); what becomes of dropped views (`C104_dropped`); the rest of the table does not depend on kept views (`C104_same_table`)."),
})
NOTES.update({
 "C105": ("partial", "The full claim is false of the code: if a table is in a cell of a footer other than the first, the enumeration of the rows ends with those of this table, and the rows of notes of the tables which follow are left (`C105_counterexample`). Proved: if no row of notes has rows inside, except in its first cell (`C105_none_left_partial`); always from Word (`C105_word`), and from CALS if there are no footers (`C105_cals_without_footers`) or no tables in tables (`C105_cals_not_nested`), for documents which have no such Formex rows themselves."),
})
NOTES.update({
 "C106": ("proved", "Digits and spaces are those of Unicode 14.0 (Python 3.11). The limit of 4300 digits of Python 3.11 and the absence of underscores before Python 3.6 are not modelled."),
})
NOTES.update({
 "C107": ("proved", "Proved of the three parsers, and of the conversions of their tables, including the exceptions. In Word documents the content of a w:tc, its properties included, is the same; the stylesheet is the same. What follows a table, and the elements around the tables, are kept as they are by the conversions (C58, C83)."),
})
NOTES.update({
 "C108": ("partial", "The full claim is false of the code: a row where no cell starts is written without entry (`C108_row_counterexample`), a table with header rows only is written without tbody (`C108_header_counterexample`), and rows of the same nature which do not follow each other make several groups (`C108_order_counterexample`). Proved: the vocabulary (elements, attributes and their values) is always that of the schema and of the documented extensions (`C108_vocabulary_partial`, and for any Formex or Word table); and with the sortings of the documentation, the exact condition for the whole table to be valid, for tables (`C108_valid_partial`) and for documents (`C108_formex_to_cals_partial`, `C108_word_to_cals_partial`). The contents of the entries are free."),
})
NOTES.update({
 "C109": ("proved", "The first row must not be empty (`C109_first_row_counterexample`). Limits of the parser: an entry of several columns which meets an entry going down from a row above is refused (`C109_collision_counterexample`), and so are names of columns without digits (`C109_names_counterexample`), although such tables are valid for the schema. An entry which crosses an entry going down is not refused, and the table read has overlapping cells (`C109_crossing_counterexample`). The conversion succeeds (`C109_converted`) and writes the completed table (`C109_cals_to_formex`) for tables whose entries do not go below the last row; if titles are looked for, for a first row which does not look like one, and, if CALS attributes are asked for, for widths which have numbers (see C87)."),
})

NOTES.update({"C110": ("proved", "The first line must not be empty. Limits of the parser, which the statement allows for: a title below a cell which goes down is not in the column which it tells (`C110_title_counterexample`), and a note below a cell which goes down is put beside it, which makes the table wider (`C110_note_counterexample`: then the note does not cover the columns, and the theorem does not apply). The conversion succeeds (`C110_converted`) under the conditions of C87 on widths and types, and writes the completed table (`C110_formex_to_cals`) when no cell goes below the last line.")})
NOTES.update({"C111": ("proved", "The conversions succeed if the unit of the widths and the orientation of the page are known ones; if titles are looked for, there must be a row, and a paragraph or a table in each cell, as Word requires. What they write is proved for contents without elements of the vocabulary of the result. The statement asks for the number of columns to be told when the first row ends; without it the parser leaves holes, because it only completes a row up to the columns which it knows when the row ends, and never goes back (`C111_hole_counterexample`).")})
NOTES.update({"C112": ("partial", "False of the code (C112_counterexample): a row with the only cell a is printed [a, a] when the cell was stored before the rows were read, because of C31. Proved for every history up to order and repetition, exactly for histories which read rows and cols first, and in reading order after a deletion, a merge or an expansion. C112_table_drawn supposes cells which do not overlap (C18) and texts of one line, as C29 and C30 do.")})
