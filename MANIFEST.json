{
 "claims": [
  {
   "property": "C01",
   "status": "proved",
   "theorems": [
    "Benker.C01_label_error",
    "Benker.C01_label_roundtrip"
   ],
   "note": ""
  },
  {
   "property": "C02",
   "status": "proved",
   "theorems": [
    "Benker.C02_default",
    "Benker.C02_word_error",
    "Benker.C02_word_roundtrip"
   ],
   "note": ""
  },
  {
   "property": "C03",
   "status": "proved",
   "theorems": [
    "Benker.C03_label_injective",
    "Benker.C03_label_order"
   ],
   "note": ""
  },
  {
   "property": "C04",
   "status": "proved",
   "theorems": [
    "Benker.C04_box_name_injective",
    "Benker.C04_coord_name_injective"
   ],
   "note": ""
  },
  {
   "property": "C05",
   "status": "proved",
   "theorems": [
    "Benker.C05_coord_add_sub",
    "Benker.C05_coord_add_sub_cancel",
    "Benker.C05_size_add_sub",
    "Benker.C05_size_group",
    "Benker.C05_type_errors"
   ],
   "note": ""
  },
  {
   "property": "C06",
   "status": "proved",
   "theorems": [
    "Benker.C06_box_new",
    "Benker.C06_box_new_other",
    "Benker.C06_box_valid"
   ],
   "note": ""
  },
  {
   "property": "C07",
   "status": "proved",
   "theorems": [
    "Benker.C07_area",
    "Benker.C07_move_to",
    "Benker.C07_resize",
    "Benker.C07_transform"
   ],
   "note": ""
  },
  {
   "property": "C08",
   "status": "proved",
   "theorems": [
    "Benker.C08_cell",
    "Benker.C08_contains",
    "Benker.C08_order",
    "Benker.C08_singleton"
   ],
   "note": ""
  },
  {
   "property": "C09",
   "status": "partial",
   "theorems": [
    "Benker.C09_disjoint_but_intersection",
    "Benker.C09_intersect_complete_partial",
    "Benker.C09_intersect_exact_partial",
    "Benker.C09_intersect_flat_partial",
    "Benker.C09_intersect_incomplete",
    "Benker.C09_intersect_sound_partial"
   ],
   "note": "The full property is false of the code (C09_intersect_incomplete, C09_disjoint_but_intersection); the _partial theorems give the exact set of pairs for which intersect answers True, soundness and symmetry, and completeness outside the missed configuration."
  },
  {
   "property": "C10",
   "status": "proved",
   "theorems": [
    "Benker.C10_union_assoc",
    "Benker.C10_union_least",
    "Benker.C10_union_set"
   ],
   "note": ""
  },
  {
   "property": "C11",
   "status": "proved",
   "theorems": [
    "Benker.C11_intersection"
   ],
   "note": ""
  },
  {
   "property": "C12",
   "status": "proved",
   "theorems": [
    "Benker.C12_lt_strict_total"
   ],
   "note": ""
  },
  {
   "property": "C13",
   "status": "partial",
   "theorems": [
    "Benker.C13_gt_le_exact_partial",
    "Benker.C13_operators_disagree",
    "Benker.C13_same_line_partial",
    "Benker.C13_tuple_operators_partial"
   ],
   "note": "The full property is false of the code (C13_operators_disagree): >, <= and >= are those of tuples. The _partial theorems say exactly what they compute and when they agree with <."
  },
  {
   "property": "C14",
   "status": "proved",
   "theorems": [
    "Benker.C14_cell_box_order",
    "Benker.C14_cell_order",
    "Benker.C14_equal_boxes",
    "Benker.C14_same_cell"
   ],
   "note": "Holds for cells whose boxes differ; C14_equal_boxes describes what happens for equal boxes."
  },
  {
   "property": "C15",
   "status": "proved",
   "theorems": [
    "Benker.C15_cell_new",
    "Benker.C15_move_resize",
    "Benker.C15_transform"
   ],
   "note": ""
  },
  {
   "property": "C16",
   "status": "proved",
   "theorems": [
    "Benker.Heap.C16_caller_dict",
    "Benker.Heap.C16_copy_content",
    "Benker.Heap.C16_edit_isolated",
    "Benker.Heap.C16_merge_content",
    "Benker.Heap.C16_others_unchanged"
   ],
   "note": ""
  },
  {
   "property": "C17",
   "status": "proved",
   "theorems": [
    "Benker.C17_reading_order",
    "Benker.C17_sorted_lt",
    "Benker.C17_valid"
   ],
   "note": ""
  },
  {
   "property": "C18",
   "status": "partial",
   "theorems": [
    "Benker.C18_disjoint_rows_partial",
    "Benker.C18_not_disjoint",
    "Benker.C18_overlap_by_insertion",
    "Benker.C18_overlap_by_merging",
    "Benker.C18_overlap_only_crosswise_partial"
   ],
   "note": "False of the code (C18_not_disjoint): overlapping cells can be inserted, or obtained by merging. The _partial theorems bound exactly which overlaps are possible for every history, and prove disjointness for histories of single-row cells."
  },
  {
   "property": "C19",
   "status": "proved",
   "theorems": [
    "Benker.C19_lookup",
    "Benker.C19_set_errors",
    "Benker.C19_set_get"
   ],
   "note": ""
  },
  {
   "property": "C20",
   "status": "proved",
   "theorems": [
    "Benker.C20_delete",
    "Benker.C20_delete_frame"
   ],
   "note": ""
  },
  {
   "property": "C21",
   "status": "proved",
   "theorems": [
    "Benker.C21_failure_atomic"
   ],
   "note": ""
  },
  {
   "property": "C22",
   "status": "proved",
   "theorems": [
    "Benker.C22_bounding_box"
   ],
   "note": ""
  },
  {
   "property": "C23",
   "status": "proved",
   "theorems": [
    "Benker.C23_merge_effect",
    "Benker.C23_styles_wf"
   ],
   "note": ""
  },
  {
   "property": "C24",
   "status": "proved",
   "theorems": [
    "Benker.C24_merge_outcome"
   ],
   "note": ""
  },
  {
   "property": "C25",
   "status": "partial",
   "theorems": [
    "Benker.C25_expand_grows_partial",
    "Benker.C25_expand_is_merge_partial",
    "Benker.C25_expand_zero_partial",
    "Benker.C25_no_shrink",
    "Benker.C25_shrink_always_fails"
   ],
   "note": "Growing and zero expansion are proved; shrinking, which the documentation announces, never works (C25_shrink_always_fails, C25_no_shrink)."
  },
  {
   "property": "C26",
   "status": "proved",
   "theorems": [
    "Benker.C26_iter_rows"
   ],
   "note": ""
  },
  {
   "property": "C27",
   "status": "partial",
   "theorems": [
    "Benker.C27_get_pop_partial",
    "Benker.C27_mixins_empty_partial",
    "Benker.C27_mixins_fail",
    "Benker.C27_not_a_mapping",
    "Benker.C27_update_pairs_partial"
   ],
   "note": "False of the code (C27_not_a_mapping): items, values, popitem, clear and update(grid) raise TypeError on every non-empty grid. get, pop, setdefault, update with pairs and the empty grid are proved."
  },
  {
   "property": "C28",
   "status": "proved",
   "theorems": [
    "Benker.C28_insertion_order"
   ],
   "note": ""
  },
  {
   "property": "C29",
   "status": "proved",
   "theorems": [
    "Benker.C29_line_break",
    "Benker.C29_rectangular"
   ],
   "note": ""
  },
  {
   "property": "C30",
   "status": "proved",
   "theorems": [
    "Benker.C30_text_drawn_once"
   ],
   "note": ""
  },
  {
   "property": "C31",
   "status": "partial",
   "theorems": [
    "Benker.C31_counterexample",
    "Benker.C31_views_cells_partial",
    "Benker.C31_views_exact_partial"
   ],
   "note": "False of the code (C31_counterexample): a cell stored in a table whose views were never read is listed twice. The _partial theorems prove exactness up to repetition for every history, and full exactness for histories which read rows and cols first."
  },
  {
   "property": "C32",
   "status": "proved",
   "theorems": [
    "Benker.C32_refresh"
   ],
   "note": ""
  },
  {
   "property": "C33",
   "status": "proved",
   "theorems": [
    "Benker.C33_insert_first_free"
   ],
   "note": ""
  },
  {
   "property": "C34",
   "status": "proved",
   "theorems": [
    "Benker.C34_insert_single"
   ],
   "note": ""
  },
  {
   "property": "C35",
   "status": "proved",
   "theorems": [
    "Benker.C35_fill_missing"
   ],
   "note": ""
  },
  {
   "property": "C36",
   "status": "proved",
   "theorems": [
    "Benker.C36_assign",
    "Benker.C36_looks_survive"
   ],
   "note": "One-step statement for every reachable table and operation, with the looks of the views compared index by index."
  },
  {
   "property": "C37",
   "status": "proved",
   "theorems": [
    "Benker.C37_answers",
    "Benker.C37_history",
    "Benker.C37_insert",
    "Benker.C37_step",
    "Benker.C37_views_only"
   ],
   "note": ""
  },
  {
   "property": "C38",
   "status": "proved",
   "theorems": [
    "Benker.C38_frame_attr",
    "Benker.C38_frame_error",
    "Benker.C38_frame_round_trip",
    "Benker.C38_unknown_frame"
   ],
   "note": ""
  },
  {
   "property": "C39",
   "status": "proved",
   "theorems": [
    "Benker.C39_round_trip",
    "Benker.C39_separator"
   ],
   "note": ""
  },
  {
   "property": "C40",
   "status": "proved",
   "theorems": [
    "Benker.C40_rows_sorted",
    "Benker.C40_sorting_option"
   ],
   "note": ""
  },
  {
   "property": "C41",
   "status": "proved",
   "theorems": [
    "Benker.C41_entries"
   ],
   "note": ""
  },
  {
   "property": "C42",
   "status": "proved",
   "theorems": [
    "Benker.C42_mixed_content",
    "Benker.C42_refused",
    "Benker.C42_round_trip"
   ],
   "note": ""
  },
  {
   "property": "C43",
   "status": "proved",
   "theorems": [
    "Benker.C43_content_text",
    "Benker.C43_node_text"
   ],
   "note": ""
  },
  {
   "property": "C44",
   "status": "proved",
   "theorems": [
    "Benker.C44_walk"
   ],
   "note": ""
  },
  {
   "property": "C45",
   "status": "proved",
   "theorems": [
    "Benker.C45_round_trip"
   ],
   "note": "The hypotheses (filled from left to right, no CALS element in the contents, rows in the order of the groups) are needed: see C62, C61 and C40."
  },
  {
   "property": "C46",
   "status": "proved",
   "theorems": [
    "Benker.C46_no_hole"
   ],
   "note": ""
  },
  {
   "property": "C47",
   "status": "proved",
   "theorems": [
    "Benker.C47_formex_inner_tables",
    "Benker.C47_inner_tables"
   ],
   "note": "The name, attributes and tail of the inner table elements are kept; the table elements themselves do matter, see C61."
  },
  {
   "property": "C48",
   "status": "proved",
   "theorems": [
    "Benker.C48_no_history"
   ],
   "note": ""
  },
  {
   "property": "C49",
   "status": "proved",
   "theorems": [
    "Benker.C49_grammar",
    "Benker.C49_outside",
    "Benker.C49_row_round_trip",
    "Benker.C49_title_round_trip"
   ],
   "note": ""
  },
  {
   "property": "C50",
   "status": "proved",
   "theorems": [
    "Benker.C50_blocks",
    "Benker.C50_elsewhere",
    "Benker.C50_no_empty_block"
   ],
   "note": "For a CORPUS whose children are not BLK elements. A processing instruction takes the level of the preceding row; a title row becomes the content of its first filled cell."
  },
  {
   "property": "C51",
   "status": "partial",
   "theorems": [
    "Benker.C51_cleanup_neutral",
    "Benker.C51_counterexample",
    "Benker.C51_document_order_partial",
    "Benker.C51_final_top_level_partial",
    "Benker.C51_nested_partial",
    "Benker.C51_rest_unchanged",
    "Benker.C51_top_level_partial",
    "Benker.C51_unique"
   ],
   "note": "False of the finalised document (C51_counterexample): the tables are numbered before tables which are children of tables are opened. The _partial theorems prove the hierarchy and the order for the numbering step; C51_cleanup_neutral says when the next step changes nothing; uniqueness (C51_unique) is proved for the finalised document."
  },
  {
   "property": "C52",
   "status": "proved",
   "theorems": [
    "Benker.C52_order_counterexample",
    "Benker.C52_round_trip",
    "Benker.C52_title_counterexample"
   ],
   "note": "About the TBL element as it is built, before the finalisation of the document (see C53 for what it does to the types). The hypotheses on titles and on the order of the cells are needed: C52_title_counterexample and C52_order_counterexample. The attribute COL written by the builder is not read by the parser."
  },
  {
   "property": "C53",
   "status": "partial",
   "theorems": [
    "Benker.C53_counterexample",
    "Benker.C53_styled_rows_partial"
   ],
   "note": "False of the code (C53_counterexample): the finalisation removes TYPE from every row. C53_styled_rows_partial: rows which have a row style ROW-HEADER get the type back."
  },
  {
   "property": "C54",
   "status": "partial",
   "theorems": [
    "Benker.C54_cyclic_counterexample",
    "Benker.C54_cyclic_fails",
    "Benker.C54_finite_or_cyclic",
    "Benker.C54_nearest_partial",
    "Benker.C54_own_borders",
    "Benker.Ooxml.C54_line_kinds"
   ],
   "note": "False of stylesheets where a style is based on itself through a chain: the resolution never stops (C54_cyclic_fails, C54_cyclic_counterexample). C54_nearest_partial proves the nearest-definition rule for every chain which ends, C54_finite_or_cyclic that there is no third case, C54_own_borders what one definition contributes."
  },
  {
   "property": "C55",
   "status": "proved",
   "theorems": [
    "Benker.Ooxml.C55_first_row_counterexample",
    "Benker.Ooxml.C55_height",
    "Benker.Ooxml.C55_merged_cells",
    "Benker.Ooxml.C55_narrow_counterexample"
   ],
   "note": "For tables whose rows have all the same number of columns and whose continuation cells are below a cell of the same columns. C55_narrow_counterexample and C55_first_row_counterexample: what happens otherwise."
  },
  {
   "property": "C56",
   "status": "proved",
   "theorems": [
    "Benker.Units.C56_no_number",
    "Benker.Units.C56_parse_width",
    "Benker.Units.C56_percentage_misread"
   ],
   "note": "Also C56_percentage_misread: percentages, which the CALS builder documents, are read as lengths."
  },
  {
   "property": "C57",
   "status": "proved",
   "theorems": [
    "Benker.Units.C57_convert_value",
    "Benker.Units.C57_exact",
    "Benker.Units.C57_unknown_unit"
   ],
   "note": "For every rounding function with relative error at most 2^-53 (standard model of floating point); overflow, underflow, NaN and signed zero are outside the model."
  },
  {
   "property": "C58",
   "status": "proved",
   "theorems": [
    "Benker.Convert.C58_none_left",
    "Benker.Convert.C58_places",
    "Benker.Convert.C58_replacement",
    "Benker.Convert.C58_root_counterexample",
    "Benker.Convert.C58_section",
    "Benker.Convert.C58_untouched"
   ],
   "note": "For the CALS and OOXML parsers, with any builder. The root of the document must not be a table (C58_root_counterexample: the conversion then fails). See C83 for the Formex parser."
  },
  {
   "property": "C59",
   "status": "proved",
   "theorems": [
    "Benker.C59_borders"
   ],
   "note": ""
  },
  {
   "property": "C60",
   "status": "proved",
   "theorems": [
    "Benker.Units.C60_width_stable"
   ],
   "note": "Same floating point model as C57."
  },
  {
   "property": "C61",
   "status": "partial",
   "theorems": [
    "Benker.C61_counterexample",
    "Benker.C61_no_hole_partial"
   ],
   "note": "False of the code (C61_counterexample): the end of the inner table fills the holes of the bounding box of the enclosing table, so that the next entries of the row are put too far on the right. C61_no_hole_partial: nothing happens if there is no hole at that time."
  },
  {
   "property": "C62",
   "status": "partial",
   "theorems": [
    "Benker.C62_entries_in_order_partial",
    "Benker.C62_order_counterexample",
    "Benker.C62_repetition_counterexample"
   ],
   "note": "False of the code: C62_order_counterexample (a table filled from right to left is written, and read back, with its cells exchanged) and C62_repetition_counterexample (a cell written twice). C62_entries_in_order_partial: true right after any successful deletion, merge or expansion."
  },
  {
   "property": "C63",
   "status": "proved",
   "theorems": [
    "Benker.C63_cell_styles"
   ],
   "note": "Same hypotheses as C45 (structure Exchange)."
  },
  {
   "property": "C64",
   "status": "proved",
   "theorems": [
    "Benker.C64_row_column_styles"
   ],
   "note": "Same hypotheses as C45. The background of a row is read by the parser but never written by the builder."
  },
  {
   "property": "C65",
   "status": "proved",
   "theorems": [
    "Benker.C65_table_styles"
   ],
   "note": "Same hypotheses as C45. A frame which CALS cannot tell (for instance three sides) is read as no frame."
  },
  {
   "property": "C66",
   "status": "proved",
   "theorems": [
    "Benker.C66_marks_unique",
    "Benker.C66_quoted_unique",
    "Benker.C66_revision_marks"
   ],
   "note": "The characters which XML forbids (for which lxml raises ValueError) are not modelled."
  },
  {
   "property": "C67",
   "status": "proved",
   "theorems": [
    "Benker.Ooxml.C67_header_counterexample",
    "Benker.Ooxml.C67_height_counterexample",
    "Benker.Ooxml.C67_rows"
   ],
   "note": "Same hypotheses as C55 (structure GoodTable). The heights of the rows are lost (C67_height_counterexample: the parser reads them in w:tblHeader); w:tblHeader with the values 1, 0, on, off is refused (C67_header_counterexample)."
  },
  {
   "property": "C68",
   "status": "proved",
   "theorems": [
    "Benker.Ooxml.C68_columns"
   ],
   "note": "Same hypotheses as C55. Floating point arithmetic is any rounding with relative error 2^-53 (FloatModel)."
  },
  {
   "property": "C69",
   "status": "proved",
   "theorems": [
    "Benker.Ooxml.C69_alignment_counterexample",
    "Benker.Ooxml.C69_cells",
    "Benker.Ooxml.C69_paragraph_counterexample"
   ],
   "note": "Same hypotheses as C55. Cells without direct paragraph and alignments such as mediumKashida are refused (C69_paragraph_counterexample, C69_alignment_counterexample)."
  },
  {
   "property": "C70",
   "status": "proved",
   "theorems": [
    "Benker.Ooxml.C70_table"
   ],
   "note": "Same hypotheses as C55. The dimensions of the page are rounded up to integers in the model. The borders of the inside of the table are only taken from its style, never from the table itself: this is what the code does."
  },
  {
   "property": "C71",
   "status": "proved",
   "theorems": [
    "Benker.C71_formex_tree"
   ],
   "note": "The attributes for lines, alignment and colors are not described, only where the cells are, what they contain and their types."
  },
  {
   "property": "C72",
   "status": "partial",
   "theorems": [
    "Benker.C72_text_kept_partial",
    "Benker.C72_title_counterexample"
   ],
   "note": "False of the code (C72_title_counterexample): a title made of a single element loses its own text, and a title which begins with a text - what the CALS parser makes of a plain entry - raises TypeError. C72_text_kept_partial: when titles are detected, the cells of the first row contain a text, a list of elements or nothing."
  },
  {
   "property": "C73",
   "status": "proved",
   "theorems": [
    "Benker.C73_reading"
   ],
   "note": "One tgroup per table. A colspec without colnum is at its rank among the colspecs: this is what the code does, where CALS says one more than the previous one."
  },
  {
   "property": "C74",
   "status": "proved",
   "theorems": [
    "Benker.C74_accepted_is_regular"
   ],
   "note": "One direction only: every accepted table is regular. C73 gives regular tables which are accepted."
  },
  {
   "property": "C75",
   "status": "partial",
   "theorems": [
    "Benker.Ooxml.C75_cells_partial",
    "Benker.Ooxml.C75_shadow_counterexample",
    "Benker.Ooxml.C75_styles_partial",
    "Benker.Ooxml.C75_table_partial"
   ],
   "note": "False of the code for shadows (C75_shadow_counterexample): the sides without shadow are told by `0ptpt`, which is no CSS length, and shadows without size, or told by 1 or on, raise KeyError. Everything else is proved, with `0ptpt` as it is; same hypotheses as C55."
  },
  {
   "property": "C76",
   "status": "proved",
   "theorems": [
    "Benker.C76_reading"
   ],
   "note": "COL is not read: a cell is at the first free place of its row. A cell without TYPE in a row of another type than NORMAL gets a cellstyle which is None (spec `CellShown.lost`): this is what the code does."
  },
  {
   "property": "C77",
   "status": "proved",
   "theorems": [
    "Benker.C77_formex_looks"
   ],
   "note": ""
  },
  {
   "property": "C78",
   "status": "partial",
   "theorems": [
    "Benker.C78_counterexample",
    "Benker.C78_tables_in_tables_partial",
    "Benker.C78_text_kept_partial"
   ],
   "note": "False of the code (C78_counterexample): a title row keeps one cell only, which is the wrong one when the builder has written <IE/> in an empty cell before it; a footer row keeps its first cell only; the text after a table directly inside another one is lost. C78_text_kept_partial: no table is the child of a table, and the text of title rows and footer rows is in the cell which is kept. C78_tables_in_tables_partial: the tables which are children of tables have no text around their children. The rows of notes have no rows inside, except in their first cell (`NotesApart`: always so from Word, and from CALS without tables in tables or without footers, see C105)."
  },
  {
   "property": "C79",
   "status": "proved",
   "theorems": [
    "Benker.C79_none_left",
    "Benker.C79_notes",
    "Benker.C79_only_those"
   ],
   "note": ""
  },
  {
   "property": "C80",
   "status": "proved",
   "theorems": [
    "Benker.C80_cals_entries",
    "Benker.C80_formex_cells",
    "Benker.C80_rows"
   ],
   "note": ""
  },
  {
   "property": "C81",
   "status": "partial",
   "theorems": [
    "Benker.C81_counterexample",
    "Benker.C81_formex_partial",
    "Benker.C81_word_partial"
   ],
   "note": "False of the code for Word tables (C81_counterexample): a row is completed up to the number of columns known when it ends, so that a first row shorter than the next ones keeps a hole when there is no w:tblGrid. C81_formex_partial proves it for every Formex table, C81_word_partial proves that there is no hole before the last cell of a row of a Word table. C111 proves that there is none at all when the number of columns is told by w:tblGrid or by the first row."
  },
  {
   "property": "C82",
   "status": "partial",
   "theorems": [
    "Benker.C82_counterexample",
    "Benker.C82_crosswise_partial"
   ],
   "note": "False of the code (C82_counterexample): cells which cross each other are accepted (see C18). C82_crosswise_partial: overlapping cells of tables read from documents always cross each other; none overlap when all have one row, or all one column. C55, C73 and C76 give tables without overlap for documents which are drawn without overlap."
  },
  {
   "property": "C83",
   "status": "proved",
   "theorems": [
    "Benker.Fmx2Cals.C83_kept",
    "Benker.Fmx2Cals.C83_none_left",
    "Benker.Fmx2Cals.C83_replacement",
    "Benker.Fmx2Cals.C83_root_counterexample",
    "Benker.Fmx2Cals.C83_untouched"
   ],
   "note": "The root of the document must not be a CORPUS (C83_root_counterexample: the conversion then fails). The text which follows the notes is removed with them. What is made of one table is in C76 and C41. Tables whose content is dropped (a cell with an IE element) are forgotten by the model, while the code converts them outside of the document."
  },
  {
   "property": "C84",
   "status": "partial",
   "theorems": [
    "Benker.C84_counterexample",
    "Benker.C84_no_hole_partial",
    "Benker.C84_notes_counterexample"
   ],
   "note": "False of the code: as for CALS (C61), the end of the inner table fills the holes of the bounding box of the enclosing table, so that the next cells of the row are put too far on the right (C84_counterexample); moreover the notes of the inner table become a row of the enclosing table, which gets the next cells (C84_notes_counterexample). C84_no_hole_partial: nothing happens if the inner table has no notes and there is no hole at that time."
  },
  {
   "property": "C85",
   "status": "proved",
   "theorems": [
    "Benker.C85_formex_to_cals",
    "Benker.C85_word_to_cals"
   ],
   "note": "The conversion is assumed to succeed. With the default options the rows of notes (tfoot) are written before the body. Rows of Word tables must all fill the same columns (see C81), and w:vMerge cells be below cells of the same columns (see C55)."
  },
  {
   "property": "C86",
   "status": "proved",
   "theorems": [
    "Benker.C86_cals_written",
    "Benker.C86_formex_written"
   ],
   "note": ""
  },
  {
   "property": "C87",
   "status": "partial",
   "theorems": [
    "Benker.C87_cals_accepted_partial",
    "Benker.C87_cals_to_formex_partial",
    "Benker.C87_formex_to_cals_partial",
    "Benker.C87_row_counterexample",
    "Benker.C87_title_counterexample",
    "Benker.C87_type_counterexample",
    "Benker.C87_width_counterexample",
    "Benker.C87_word_to_cals",
    "Benker.C87_word_to_formex"
   ],
   "note": "Proved without restriction for Word to CALS (C87_word_to_cals, with a known orientation of the pages), and for Word to Formex up to titles (C87_word_to_formex). False of the code for a CALS column of width `*` (C87_width_counterexample), for a Formex cell without TYPE in a HEADER row (C87_type_counterexample), and, when titles are looked for, for a first row which is a centered text (C87_title_counterexample). The theorems _partial show that nothing else prevents the conversion."
  },
  {
   "property": "C88",
   "status": "proved",
   "theorems": [
    "Benker.C88_cals_to_formex",
    "Benker.C88_word_to_formex"
   ],
   "note": "About the element which replaces the table, before the finalisation of the document (see C50, C51, C53, C78 and C79 for the latter). The conversion is assumed to succeed. Titles are the subject of C72. Rows of Word tables must all fill the same columns (see C81), and w:vMerge cells be below cells of the same columns."
  },
  {
   "property": "C89",
   "status": "proved",
   "theorems": [
    "Benker.C89_cals_to_formex",
    "Benker.C89_finalised",
    "Benker.C89_succeeds",
    "Benker.C89_word_to_formex"
   ],
   "note": "For tables without other tables in their cells (their numbers and their texts are the subject of C51 and C78). A footer row with several cells loses all but the first (C78_counterexample), and a styled row is put in blocks (C50): both are left out. In the final document the headers are rows as the others: their TYPE is dropped (C53). The rows of notes have no rows inside, except in their first cell (`NotesApart`: always so from Word, and from CALS without tables in tables or without footers, see C105)."
  },
  {
   "property": "C90",
   "status": "proved",
   "theorems": [
    "Benker.C90_cals_formex_cals",
    "Benker.C90_formex_cals_formex",
    "Benker.C90_word_cals_formex",
    "Benker.C90_word_formex_cals"
   ],
   "note": "All the conversions are assumed to succeed. When the second conversion starts from CALS (C90_word_cals_formex, C90_formex_cals_formex), the rows are assumed to be sorted by kind as the CALS builder does, and CALS attributes not to be written in Formex (the default of the converter). The conditions of C85 and C89 apply. The rows of notes have no rows inside, except in their first cell (`NotesApart`: always so from Word, and from CALS without tables in tables or without footers, see C105)."
  },
  {
   "property": "C91",
   "status": "proved",
   "theorems": [
    "Benker.C91_cals_to_formex",
    "Benker.C91_cals_to_formex_succeeds",
    "Benker.C91_word_to_cals",
    "Benker.C91_word_to_formex",
    "Benker.C91_word_to_formex_succeeds"
   ],
   "note": "Documents which are themselves a table are left as they are (C58), hence the condition on the root. Formex to CALS is the subject of C83 and C85. Tables with other tables in their cells are replaced, but nothing is told of what they show (see C47, C84 and C51). The rows of notes have no rows inside, except in their first cell (`NotesApart`: always so from Word, and from CALS without tables in tables or without footers, see C105)."
  },
  {
   "property": "C92",
   "status": "proved",
   "theorems": [
    "Benker.C92_cals_looks"
   ],
   "note": "The attributes for which the builder raises an exception (unknown words, unknown units) are the subject of C86. The background of a row is not written in CALS: there is no such attribute in RowTold (see C64)."
  },
  {
   "property": "C93",
   "status": "proved",
   "theorems": [
    "Benker.C93_cals_to_formex"
   ],
   "note": "About the element which replaces the table, before the finalisation of the document, which drops TYPE attributes only (C53) but moves the styled rows in blocks (C50). The statement compares attributes of the source with attributes of the result: no intermediate table appears in it."
  },
  {
   "property": "C94",
   "status": "partial",
   "theorems": [
    "Benker.C94_colour_counterexample",
    "Benker.C94_formex_to_cals_partial",
    "Benker.C94_separators_counterexample"
   ],
   "note": "All the looks are kept (C94_formex_to_cals_partial) but three: the separators of the cells are stored under styles which no builder reads on cells, so they are never written (C94_separators_counterexample: a line between two cells is lost); the colours of the rows and the width of the CORPUS are not written (C94_colour_counterexample)."
  },
  {
   "property": "C95",
   "status": "partial",
   "theorems": [
    "Benker.C95_inside_counterexample",
    "Benker.C95_word_to_cals_partial",
    "Benker.C95_word_to_formex_partial"
   ],
   "note": "To CALS (C95_word_to_cals_partial) and to Formex (C95_word_to_formex_partial), for tables whose borders have kinds and colours which are words, as the standard asks. What is missing: the lines between the cells are those of the styles only; the ones which the table asks for itself (w:tblPr/w:tblBorders/w:insideH and w:insideV) are never read, so they are lost (C95_inside_counterexample)."
  },
  {
   "property": "C96",
   "status": "proved",
   "theorems": [
    "Benker.C96_again",
    "Benker.C96_cals_to_formex",
    "Benker.C96_failure",
    "Benker.C96_formex_to_cals",
    "Benker.C96_in_place_not_atomic",
    "Benker.C96_inputs",
    "Benker.C96_interrupted",
    "Benker.C96_other_files",
    "Benker.C96_word_to_cals",
    "Benker.C96_word_to_formex"
   ],
   "note": "The XML library is a pair of arbitrary functions (reading bytes; writing any number of chunks), of which the theorems about results assume that it reads what it has written. tree.write raises an exception before it opens the file, or not at all; failures while writing are interruptions."
  },
  {
   "property": "C97",
   "status": "proved",
   "theorems": [
    "Benker.C97_cals_namespace",
    "Benker.C97_defaults",
    "Benker.C97_empty_namespace",
    "Benker.C97_prefix_refused",
    "Benker.C97_requires_cals",
    "Benker.C97_sorting_refused",
    "Benker.C97_unknown"
   ],
   "note": "Values of other types than the documented ones are not in the statement. That the namespace and the unit need use_cals is proved for tables (C97_requires_cals), not for Formex tables which were already in the source, which the finalisation visits (C79)."
  },
  {
   "property": "C98",
   "status": "proved",
   "theorems": [
    "Benker.C98_formex_to_cals",
    "Benker.C98_formex_to_cals_succeeds",
    "Benker.C98_word_to_cals_inner",
    "Benker.C98_word_to_cals_inner_succeeds",
    "Benker.C98_word_to_cals_looks",
    "Benker.C98_word_to_cals_succeeds"
   ],
   "note": "The notes of the Formex tables contain no tables (C84 tells what becomes of the inner ones). For Word, `inner` are the theorems about tables inside tables. The looks are those which C94 and C95 keep."
  },
  {
   "property": "C99",
   "status": "proved",
   "theorems": [
    "Benker.Files.C99_cals_to_formex",
    "Benker.Files.C99_cals_to_formex_succeeds",
    "Benker.Files.C99_formex_to_cals",
    "Benker.Files.C99_formex_to_cals_succeeds",
    "Benker.Files.C99_word_to_cals",
    "Benker.Files.C99_word_to_cals_succeeds",
    "Benker.Files.C99_word_to_formex",
    "Benker.Files.C99_word_to_formex_succeeds"
   ],
   "note": "The XML library reads what it has written (first four theorems) or can write every document (the four `succeeds`). To Formex, the document has no Formex element TBL, CORPUS or ROW outside its tables, the source tables contain no others, and the looks are those of C93 and C95 before the finalisation. The rows of notes have no rows inside, except in their first cell (`NotesApart`: always so from Word, and from CALS without tables in tables or without footers, see C105)."
  },
  {
   "property": "C100",
   "status": "proved",
   "theorems": [
    "Benker.C100_cals_formex_cals",
    "Benker.C100_formex_cals_formex",
    "Benker.C100_word_cals_formex",
    "Benker.C100_word_formex_cals",
    "Benker.Files.C100_file_cals_formex_cals",
    "Benker.Files.C100_file_formex_cals_formex",
    "Benker.Files.C100_file_word_cals_formex",
    "Benker.Files.C100_file_word_formex_cals"
   ],
   "note": "For trees, and for files (`Files.C100_file_…`). The hypotheses on each table are those of C91 and C98 (`ForFormex`: no title to be detected, footers last and as wide as the table); if a CALS table has its rows in another order than the options ask, they are regrouped (C62). To Formex and without use_cals in the last conversion of the two which end with Formex. From Formex to Formex, the TBL has no children but its notes and the CORPUS. The rows of notes have no rows inside, except in their first cell (`NotesApart`: always so from Word, and from CALS without tables in tables or without footers, see C105)."
  },
  {
   "property": "C101",
   "status": "partial",
   "theorems": [
    "Benker.C101_cals_to_formex_partial",
    "Benker.C101_finalised_again_partial",
    "Benker.C101_formex_to_cals",
    "Benker.C101_nested_counterexample",
    "Benker.C101_settled",
    "Benker.C101_typed_counterexample",
    "Benker.C101_word_to_cals",
    "Benker.C101_word_to_formex_partial",
    "Benker.Files.C101_file_cals_to_formex_partial",
    "Benker.Files.C101_file_formex_to_cals",
    "Benker.Files.C101_file_word_to_cals",
    "Benker.Files.C101_file_word_to_formex_partial"
   ],
   "note": "Proved as it stands to CALS. To Formex the full claim is false of the code: the type which a CALS style gives to a row is dropped by the second conversion (`C101_typed_counterexample`), and the numbers of tables in a table which was the child of a table change (`C101_nested_counterexample`). Proved for the documents which are settled: numbers according to the places (always so when no table is in another one), no TBL child of a TBL, no type on the rows, no CALS style in a CORPUS. For trees, and for files (`Files.C101_file_…`, byte for byte)."
  },
  {
   "property": "C102",
   "status": "proved",
   "theorems": [
    "Benker.Origin.C102_cals_to_formex",
    "Benker.Origin.C102_file",
    "Benker.Origin.C102_formex_to_cals",
    "Benker.Origin.C102_repeated_counterexample",
    "Benker.Origin.C102_word_to_cals",
    "Benker.Origin.C102_word_to_formex"
   ],
   "note": "The attributes of the elements which are made are not constrained by it (see C66, C94, C95). In a Formex table an element of the document which is in a CORPUS and has a CALS rowstyle is also given its TYPE, whatever its name (fourth case of `InFormex`). Nothing is said of how often something is written: the text of an entry which is in an entry is written twice (`C102_repeated_counterexample`); for well-formed tables the contents are exactly those of the source (C85)."
  },
  {
   "property": "C103",
   "status": "partial",
   "theorems": [
    "Benker.Namespaces.C103_contents_counterexample",
    "Benker.Namespaces.C103_file",
    "Benker.Namespaces.C103_file_counterexample",
    "Benker.Namespaces.C103_file_word_to_cals_partial",
    "Benker.Namespaces.C103_named",
    "Benker.Namespaces.C103_named_list",
    "Benker.Namespaces.C103_same",
    "Benker.Namespaces.C103_same_list",
    "Benker.Namespaces.C103_source_counterexample",
    "Benker.Namespaces.C103_table_counterexample",
    "Benker.Namespaces.C103_to_cals_prefixed_partial",
    "Benker.Namespaces.C103_to_formex_prefixed_partial",
    "Benker.Namespaces.C103_undeclared",
    "Benker.Namespaces.C103_undeclared_list",
    "Benker.Namespaces.C103_word_to_cals_partial"
   ],
   "note": "The full claim is false of the code: a namespace which is given without a prefix is declared as the default one on the elements which the builder makes, so that the contents of the CALS entries (`C103_contents_counterexample`, `C103_file_counterexample`) and the Formex tables themselves (`C103_table_counterexample`) are read in it; and the Formex tables are put without declaration in a source which declares a default namespace (`C103_source_counterexample`). Proved: Word to CALS with a namespace for CALS; any conversion, if a prefix or no namespace is given and the source declares no default namespace; and, without any hypothesis, that nothing else changes (`C103_same`, `C103_file`)."
  },
  {
   "property": "C104",
   "status": "partial",
   "theorems": [
    "Benker.Kept.C104_counterexample",
    "Benker.Kept.C104_dropped",
    "Benker.Kept.C104_kept_partial",
    "Benker.Kept.C104_never_dropped",
    "Benker.Kept.C104_new",
    "Benker.Kept.C104_same_table",
    "Benker.Kept.C104_use"
   ],
   "note": "The full claim is false of the code: if a deletion, a merge or an expansion makes the line go away, its view is dropped from the list as it is, so that it lists cells which are no longer there and inserts at wrong places, or fails, even if the line exists again (`C104_counterexample`). Proved: as long as the line remains, whatever the operations (`C104_kept_partial`, `C104_use`); it remains if nothing is deleted, merged or expanded (`C104_never_dropped`); what becomes of dropped views (`C104_dropped`); the rest of the table does not depend on kept views (`C104_same_table`)."
  },
  {
   "property": "C105",
   "status": "partial",
   "theorems": [
    "Benker.NotesRows.C105_cals_not_nested",
    "Benker.NotesRows.C105_cals_without_footers",
    "Benker.NotesRows.C105_counterexample",
    "Benker.NotesRows.C105_none_left_partial",
    "Benker.NotesRows.C105_word"
   ],
   "note": "The full claim is false of the code: if a table is in a cell of a footer other than the first, the enumeration of the rows ends with those of this table, and the rows of notes of the tables which follow are left (`C105_counterexample`). Proved: if no row of notes has rows inside, except in its first cell (`C105_none_left_partial`); always from Word (`C105_word`), and from CALS if there are no footers (`C105_cals_without_footers`) or no tables in tables (`C105_cals_not_nested`), for documents which have no such Formex rows themselves."
  },
  {
   "property": "C106",
   "status": "proved",
   "theorems": [
    "Benker.C106_cals_entry",
    "Benker.C106_first",
    "Benker.C106_formex_cell",
    "Benker.C106_integers",
    "Benker.C106_one",
    "Benker.C106_word_cell"
   ],
   "note": "Digits and spaces are those of Unicode 14.0 (Python 3.11). The limit of 4300 digits of Python 3.11 and the absence of underscores before Python 3.6 are not modelled."
  },
  {
   "property": "C107",
   "status": "proved",
   "theorems": [
    "Benker.C107_cals",
    "Benker.C107_cals_to_formex",
    "Benker.C107_formex",
    "Benker.C107_formex_to_cals",
    "Benker.C107_word",
    "Benker.C107_word_to_cals",
    "Benker.C107_word_to_formex"
   ],
   "note": "Proved of the three parsers, and of the conversions of their tables, including the exceptions. In Word documents the content of a w:tc, its properties included, is the same; the stylesheet is the same. What follows a table, and the elements around the tables, are kept as they are by the conversions (C58, C83)."
  },
  {
   "property": "C108",
   "status": "partial",
   "theorems": [
    "Benker.CalsSchema.C108_formex_to_cals_partial",
    "Benker.CalsSchema.C108_formex_vocabulary_partial",
    "Benker.CalsSchema.C108_header_counterexample",
    "Benker.CalsSchema.C108_order_counterexample",
    "Benker.CalsSchema.C108_row_counterexample",
    "Benker.CalsSchema.C108_valid_partial",
    "Benker.CalsSchema.C108_vocabulary_partial",
    "Benker.CalsSchema.C108_word_to_cals_partial",
    "Benker.CalsSchema.C108_word_vocabulary_partial"
   ],
   "note": "The full claim is false of the code: a row where no cell starts is written without entry (`C108_row_counterexample`), a table with header rows only is written without tbody (`C108_header_counterexample`), and rows of the same nature which do not follow each other make several groups (`C108_order_counterexample`). Proved: the vocabulary (elements, attributes and their values) is always that of the schema and of the documented extensions (`C108_vocabulary_partial`, and for any Formex or Word table); and with the sortings of the documentation, the exact condition for the whole table to be valid, for tables (`C108_valid_partial`) and for documents (`C108_formex_to_cals_partial`, `C108_word_to_cals_partial`). The contents of the entries are free."
  },
  {
   "property": "C109",
   "status": "proved",
   "theorems": [
    "Benker.C109_always_read",
    "Benker.C109_cals_to_formex",
    "Benker.C109_collision_counterexample",
    "Benker.C109_completed",
    "Benker.C109_converted",
    "Benker.C109_crossing_counterexample",
    "Benker.C109_first_row_counterexample",
    "Benker.C109_names_counterexample",
    "Benker.C109_one_placement",
    "Benker.C109_places",
    "Benker.C109_unequal_rows"
   ],
   "note": "The first row must not be empty (`C109_first_row_counterexample`). Limits of the parser: an entry of several columns which meets an entry going down from a row above is refused (`C109_collision_counterexample`), and so are names of columns without digits (`C109_names_counterexample`), although such tables are valid for the schema. An entry which crosses an entry going down is not refused, and the table read has overlapping cells (`C109_crossing_counterexample`). The conversion succeeds (`C109_converted`) and writes the completed table (`C109_cals_to_formex`) for tables whose entries do not go below the last row; if titles are looked for, for a first row which does not look like one, and, if CALS attributes are asked for, for widths which have numbers (see C87)."
  },
  {
   "property": "C110",
   "status": "proved",
   "theorems": [
    "Benker.C110_always_read",
    "Benker.C110_completed",
    "Benker.C110_converted",
    "Benker.C110_formex_to_cals",
    "Benker.C110_formex_unequal_rows",
    "Benker.C110_note_counterexample",
    "Benker.C110_one_placement",
    "Benker.C110_places",
    "Benker.C110_title_counterexample"
   ],
   "note": "The first line must not be empty. Limits of the parser, which the statement allows for: a title below a cell which goes down is not in the column which it tells (`C110_title_counterexample`), and a note below a cell which goes down is put beside it, which makes the table wider (`C110_note_counterexample`: then the note does not cover the columns, and the theorem does not apply). The conversion succeeds (`C110_converted`) under the conditions of C87 on widths and types, and writes the completed table (`C110_formex_to_cals`) when no cell goes below the last line."
  },
  {
   "property": "C111",
   "status": "proved",
   "theorems": [
    "Benker.C111_converted_to_cals",
    "Benker.C111_converted_to_formex",
    "Benker.C111_word_to_cals",
    "Benker.C111_word_to_formex",
    "Benker.Ooxml.C111_hole_counterexample",
    "Benker.Ooxml.C111_missing",
    "Benker.Ooxml.C111_rectangle",
    "Benker.Ooxml.C111_rows",
    "Benker.Ooxml.C111_short_rows"
   ],
   "note": "The conversions succeed if the unit of the widths and the orientation of the page are known ones; if titles are looked for, there must be a row, and a paragraph or a table in each cell, as Word requires. What they write is proved for contents without elements of the vocabulary of the result. The statement asks for the number of columns to be told when the first row ends; without it the parser leaves holes, because it only completes a row up to the columns which it knows when the row ends, and never goes back (`C111_hole_counterexample`)."
  },
  {
   "property": "C112",
   "status": "partial",
   "theorems": [
    "Benker.C112_counterexample",
    "Benker.C112_lines_exact_partial",
    "Benker.C112_lines_partial",
    "Benker.C112_lines_refreshed_partial",
    "Benker.C112_table_drawn",
    "Benker.C112_texts_confused",
    "Benker.C112_texts_told"
   ],
   "note": "False of the code (C112_counterexample): a row with the only cell a is printed [a, a] when the cell was stored before the rows were read, because of C31. Proved for every history up to order and repetition, exactly for histories which read rows and cols first, and in reading order after a deletion, a merge or an expansion. C112_table_drawn supposes cells which do not overlap (C18) and texts of one line, as C29 and C30 do."
  }
 ]
}