# Formal model of benker in Lean 4 — design

`/verif/lean` is a Lake project; `lake build` checks everything.  The model follows the
Python source of `/repo/benker` function by function; every definition cites the lines it models.

## Layout

| directory | role |
|---|---|
| `Verif/Py.lean` | dynamic values, exceptions, the state-and-exception monad of Python statements, insertion-ordered dictionaries |
| `Verif/Model/*.lean` | the model: one file per Python module |
| `Verif/Spec/*.lean` | small specifications written without the model's helpers (points of a rectangle, overlap, coverage, reading order, ...) |
| `Verif/Lemmas/*.lean` | helper lemmas |
| `Verif/Props/*.lean` | the property theorems, named `Cnn_...`, each followed by `example`s showing that its hypotheses are met by a concrete non-trivial case |

## Modelling conventions

* Python exceptions are values: `PyErr`.  Pure functions return `Except PyErr α`.  Statements which
  mutate an object run in `PyM σ α := σ → Except PyErr α × σ`; there is **no rollback** when an
  exception is raised, so "a failed operation leaves the object unchanged" is a theorem, not a
  consequence of the monad.
* Python 3 semantics.  Integers are unbounded (`Int`).  Arguments whose dynamic type matters are
  `PyVal` (int, bool, tuple, Size, Coord, Box, other).  `type(x) is int` is exact, so `bool` is rejected.
* Cell contents are an arbitrary type `γ` (`Option γ`, `none` = Python `None`); the content appender is an
  arbitrary function `γ → γ → Except PyErr γ`.  It is assumed not to mutate the grid it is called from.
* Cells are values.  The library never mutates a cell once it is in a grid, so sharing between grid and
  views is not observable inside the library; aliasing of style dictionaries is studied in a separate heap
  model (C16).
* Histories are lists of operations executed from the empty object; an operation which raises is caught by the
  caller and the history goes on with whatever state is left.
* Strings are `String` where only equality matters and `List Char` where characters matter.

## Properties: what is modelled and how each is proved

* C01–C03 (labels): `alphabet.py` as is, on lists of letters.  Induction on the quotient / on the word from the right;
  bijective base-k numeration; shortlex order by induction on length.
* C04: adds decimal printing of integers; letters and digits are separated because no digit is an ASCII capital letter.
* C05–C08, C10–C14: `size.py`, `coord.py`, `box.py`, `cell.py` ordering; linear integer arithmetic, induction on the list of boxes.
* C09: false as stated.  Proved: soundness, symmetry, the exact condition under which `intersect` is
  true, completeness under side conditions (`_partial`), and a concrete counterexample as a theorem.
* C13: false as stated; the operators inherited from `tuple` are modelled, the disagreement is characterised.
* C15: cell constructor and transforms.
* C16: heap model (addresses of dictionaries), invariant "no two objects hold the same address" by induction on histories; what copies and merged cells show.
* C17–C28: `grid.py` with Python's `bisect_left` binary search.  Invariants by induction on histories.
  C18 is false in general (because of C09): the negation is proved by a concrete history, and the property
  is proved for histories satisfying a side condition (`_partial`).  C25's shrink part and C27's mixins are false, proved so.
* C29–C30: `drawing.py` as is, including the tile tables.
* C31–C37: `table.py` including lazy creation of views.  C31 is false for the first insertion; negation plus the
  strongest true statement.
* C38–C42: `builders/cals.py`, `builders/base_builder.py`, `parsers/cals/frame_styles.py`, over an XML tree model.
* C43–C44: `cell.get_content_text`, `common/lxml_iterwalk.py` over the XML tree model.
* C45–C48: `parsers/cals`, composed with the builder model.
* C49–C53: `builders/formex.py`, `parsers/formex.py`.
* C54–C55: `parsers/ooxml`.
* C56: regular expression of `parse_width` as a function on characters.
* C57, C60: `convert_value` and the rewriting of widths, with rationals and an arbitrary rounding function of relative
  error at most 2^-53 (see *Floating point* below).
* C58: list surgery of `transform_tables`, for an arbitrary conversion of one table, then for the three concrete converters.
* C59: views which are never read do not matter (commutation of histories and view accesses).
* C61: nested tables in the CALS parser: false of the code; counterexample and the part which holds.
* C62: order of the entries written by the CALS builder: false of the code; counterexamples and the part which holds.
* C63–C65: looks (styles, revision marks) through the CALS round trip.  The round trip of C45 is proved once, with the looks
  expressed as functions of the elements written (`cals_round_trip`); C63–C65 then specify these functions.
* C66: what is written for a cell is its content, character by character.
* C67–C70: looks of the tables of Word (rows, columns, cells, table), on top of the merge theorem of C55.
* C71–C72: the tree written by the Formex builder, and the text it keeps.
* C73–C74: what the CALS parser makes of any document which is drawn as a table (the cells, the looks), and what it refuses.
* C76: what the Formex parser makes of any document which is drawn as a table; blocks by induction on their nesting, short rows with the
  invariant of C73 and the completion of rows (`Lemmas/LineFill.lean`).
* C77: the attributes which tell the looks in the document of the Formex builder (`Spec/FormexLooks`), from the tree decomposition of C71; last row
  and last column are stated on the cells, not on the bounding box.
* C78: the text of the finalised document, against a reading of the document before (`Spec/FormexText`: the footer rows of a table are read before its
  first `CORPUS`), by induction on the tree for each step of the finalisation.
* C79: the attributes which the finalisation drops and adds (`Spec/FormexAttrs`: a relation between the document before and after), by induction on the tree.
* C80–C82: the order of the cells, the holes and the overlaps of any table read from any document; invariant of the table (`Lemmas/Order.lean`: rows sorted,
  no hole at the left of a cell) kept by each step of the three parsers, nested tables included (`Lemmas/ParsedOrder.lean`, success triples).
* C83: list surgery of `transform_tables` of the Formex parser against a relation between the document before and after (`Spec/Formex2Cals`), both ways.
* C84: nested Formex tables: false of the code; counterexamples and the part which holds.  C47 is proved for Formex as for CALS, by a relation between two runs
  of the parser which differ by contents only (`Lemmas/FormexTwin`).
* C85: the *picture* of a table (`Spec/Conversion.lean`): lines of some kind, with rectangles and their tokens, read off a CALS document, a Formex document or a Word
  table. `Lemmas/CalsWritten.lean`: the CALS builder writes a document which is drawn, in the order of the groups; composed with C76 (Formex) and C55/C67 (Word).
* C86: `Spec/Writable.lean` says, style by style, which values can be written; for each function of the builders, a lemma says exactly when it succeeds
  (`ok_…_iff`), and the theorems put them together: `∃ tree, … = .ok tree ↔ InCals …`, and the same for Formex.
* C87: an invariant of the parsers (`Lemmas/Demands.lean`, for any demands on the styles, the natures and the contents of tables; `Lemmas/Accepted.lean`
  for those of the builders) says that what the parsers put in tables can be written by the builders, as told by C86. `Spec/Accepted.lean` says which
  documents are excluded (columns whose width has no number, untyped Formex cells in typed rows, unknown page orientations, titles).
* C75: spaces and shadows of the borders of Word tables, from the attributes of each side to the three styles which tell them.
* C52: simulation of the Formex parser on the tree of the Formex builder: induction on rows, cells and columns with the
  invariant `Refill` ("the table being rebuilt is the part of the original table which has been read").
* C88: same pictures as for C85: the Formex element which is written for a table without holes nor overlaps is a Formex document drawn on a grid
  (`Lemmas/FormexWritten.lean`), whose lines are the rows of the table; the readings of C73 and C55 say what the rows of the table are.
* C89: the five passes of the finalisation are followed on each table of the document (the tables of the final document are those of the document, by induction on the tree); for a table written by the builder (Spec/FormexFinalised: `Provisional`), they give a document drawn on the same grid (`Finalised`); with C88, the final table shows the picture of the source.
* C90: composition of C85 and C89: the document which the first conversion is shown to write meets what the second one relies on (that it is accepted follows from its success); the picture of the final Formex table, as the Formex parser reads it, is that of the source up to the kinds (Spec/ThereAndBack).
* C91: the relation `Around` (Spec/Document) tells which documents are the same up to their tables. It is proved of the replacement of tables (C58) and of each pass of the finalisation, and is transitive; what each table shows comes from C85 and C89, once it is shown that the builders write no table but those in the contents of the cells.
* C92: as C77 for the CALS builder: specifications `TableTold`, `ColTold`, `RowTold`, `CellTold` (Spec/CalsLooks) relate the attributes of the document to the styles of the table; proved from the lemmas on each attribute, the order of the rows being that of C40.
* C93: `TableKept`, `ColKept`, `RowKept`, `CellKept` (Spec/LooksKept) relate the attributes of the source to those of the result. Proved by composing what the parser reads (C73) with what the builder writes (C77).
* C94: `CorpusKept`, `LineKept`, `PlaceKept`, `PlaceLines` (Spec/FormexKept) relate the attributes of the Formex source to those of the CALS result; the rows are compared in the sorted order. Proved by composing what the parser reads (C76) with what the builder writes (C92), the stable sort of the views being carried over to the lines of the source. Three kinds of looks are lost (counterexamples).
* C95: `WordTableKept`, `WordColKept`, `WordCellKept`, `slots` (Spec/WordKept) relate the elements of the Word table and of its chain of styles to the attributes of the result; the texts of the borders are analysed once (`Draws`, Lemmas/WordKept). Proved by composing C54, C67-C70 (what is read) with C77 and C92 (what is written). The lines between cells asked for by the table itself are lost (counterexample).
* C96: `convertFile` gives a result and the successive states of the files (`Run`); the theorems speak of every state (`Reached`), of the last one (`atEnd`) and of what a file holds (`Holds`, `Faithful`, Spec/Files). Proved by cases on the outcome and induction on the chunks.
* C97: the table of documented defaults is in Spec/Files (`documented`); the conversions look at the options through six constructors only (`output_options`).
* C98: `AroundFormex` (Spec/FormexDocument) is the document where the tables are replaced and their notes removed; it gives each table its parent and the blocks around it. Proved from C83 by induction on the document; then C76, C85, C87, C94 and C95 for each table. Word tables inside Word tables: `Deep` (Spec/Inner) replaces a table, then the tables inside the result; proved by induction on the derivation given by C58, and success by induction on the number of elements of the table.
* C99: C96 gives the documents and the constructors; the options are specified apart from the model (`GivenName`, `FormexOptions`, ... in Spec/EndToEnd) and proved equivalent to what the constructors do; then C91 and C98 for the documents. Success: C91 and C98 give a depth, and a conversion which succeeds at a depth succeeds at any larger one.
* C100: composition of C91 and C98. The first conversion is a relation between documents (`Around`), which is composed with that of the second one by induction
  on the document; what holds of a table after the first conversion (`InFormex`, `InCals`) is the hypothesis of the second one. From Formex to CALS to Formex, the
  new `TBL` is inside the old one: the finalisation is proved to remove the inner one and to number and clean the outer one as a table of its own.
  For files (`C100_file_…`, Props/TwiceFiles): two calls of which the second one reads what the first one wrote, with their options in words (Spec/EndToEnd).
* C101: `Settled` (Spec/Again) says what a finalised document must be for each step of the finalisation to be the identity; each step is proved so by induction on
  the tree. The conversion itself finds no table: C58 and C83, and the finalisation creates no element but notes, blocks and titles (`finalize_names`).
  For files (`C101_file_…`): the last file holds the same document as the one before, and the same bytes if the encoding is the same.
* C102: `NothingElse` (Spec/Origin) is stated on the tokens of the two documents. A predicate on tokens which holds of those of the source, and of those which may be
  made, is carried along: the contents of the cells of a parsed table satisfy it, whatever the table (an invariant of the parsers, with no hypothesis on the source);
  so do the trees of the builders; so does each step of the finalisation, by induction on the tree; `C58_replacement` and `C83_replacement` give it of the document.
* C103: `Reread` (Spec/Namespaces) relates a document to those which may be read where it was written: an element without a namespace is read in the default one which
  is in force, whichever elements declare it. Induction on the document; C102 tells which elements there are. `Library` is what is supposed of the XML library,
  instead of `Faithful`. The model of what is read (`readBack`, Model/Namespaces) satisfies `Reread`, and gives the counterexamples.
* C104: views are objects at addresses (Model/Views), with the same functions. A simulation relates them to the views of Model/Table, which are values (`Sim`, `Rel`:
  lists of distinct addresses which show the same views); each operation keeps the list of addresses as a prefix, or extends it with new addresses, and
  leaves the cells of the views which are not in it; induction over histories. C104 is false of the views of lines which went away: negation plus the rest.
* C105: `moveNode` follows the enumeration of the rows by lxml: it tells if the enumeration has stopped (`Spec/FormexNotes`: `NotesApart` tells that it does not).
  Then every row is treated (`Lemmas/FormexNotes`), and no row of notes is left, by induction on the tree. For what the converters write: the tokens of the contents and
  the natures of the rows are invariants of the parsers (`Lemmas/NotesRows`). C105 is false of tables in footers: negation plus the rest.
* C106: `Model/Digits` has the tables of digits and spaces of Unicode; `Spec/Digits` tells by inductive predicates which texts are integers (spaces, sign, digits of any
  script, underscores); the readers are proved equivalent to it (`Lemmas/Digits`), then the spans which the three parsers read (`Props/Integers`).
* C107: `Spec/Alike` defines when two documents tell the same table, by mutual induction on the trees and without the parsers; the events which two such documents give to the parsers
  are paired (`walk_alike`), and each event has the same effect (`Lemmas/Alike`, `Lemmas/WordAlike`).
* C108: `Spec/CalsSchema` transcribes `benker/schemas/calstblx.xsd` (elements, order, attributes, values); the attributes are followed through each function of the builder, the order of the groups
  is that of a list of three tags sorted by rank; the exact condition of validity is proved, and counterexamples show that it is not always met.
* C109: `Spec/CalsRagged` tells where the entries are: the first place which the entries before leave (`Placed`). The invariant of C73 (a tiling) is replaced by one where the cells
  are those of the entries read so far, plus empty cells of one place in the rows which are finished (`Ragged`); the last filling covers the rectangle. A greedy placement
  exists whenever no wide entry meets an entry which goes down (`placed_next`), by induction over entries and rows. `Spec/RaggedPicture` tells what such a table shows once completed
  (`Completed`: exactly one picture, `C109_completed`); `Props/RaggedToFormex` proves that this is what the conversion to Formex writes, through the lemma of C88 on what the builder shows.
* C110: `Spec/FormexRagged`, the same for Formex, with titles (and the empty places at their left) and notes. The invariant of C109 is stated for any kind of things to place (`Lemmas/Ragged`), and used for both
  formats; the lines are followed by induction (`Lemmas/FormexRagged`), the notes come last, when the number of columns is known. The conversion to CALS (`Props/RaggedToCals`) is stated with `CompletedFormex`, the picture with the empty places, and goes through the lemma `cals_shown` of C85.
* C111: `Spec/WordShort` describes the Word tables whose rows may be short (`ShortTable`) and the cells which they should have (`completed`); `Spec/WordShortPicture` what they show. The rows are seen as if they ended with empty `w:tc`
  elements (`pad`, in the proofs only), so that the invariant of C55 is reused; the end of a row fills the places one by one (`Lemmas/RowEnd`). The theorems of C55 about complete tables are now consequences of it.
* C109, C110, the places: `Props/OnePlacement` proves that the specifications of the places leave no choice (by induction, two lists of boxes of the same sizes, each one at the first free place, are equal),
* C112: `Model/Printing` models `str` of cells, of row and column views, of grids and of tables. From C31 and C32 for the lines, and from C29 and C30 for the drawing; `Spec/Printing` tells what is printed (`bracketed`). The negation has a witness, as for C31.
  and `Props/FormexPlaces` that the cells, titles and notes of a Formex table have places (by the greedy construction of C109, for sizes instead of entries).

The statements of all properties are in `properties.jsonl`; the theorems of each are in `MANIFEST.json`.

## Trusted base

* Lean 4.33.0's kernel (and, for a reader, its elaborator: the statements are what is elaborated from the source).
* Axioms.  No axiom is declared; `sorry`, `admit`, `native_decide` and `bv_decide` are not used.  Computations inside proofs
  use `decide +kernel`, that is evaluation by the kernel.  Only the three usual axioms of Lean appear:

<!-- axioms -->
* no axiom: `C09_intersect_incomplete`, `C13_operators_disagree`.
* `propext`: `C05_type_errors`, `C09_disjoint_but_intersection`, `C37_answers`, `C38_unknown_frame`, `C44_walk`, `C51_counterexample`, `C58_root_counterexample`, `C67_header_counterexample`, `C103_to_cals_prefixed_partial`, `C103_to_formex_prefixed_partial`, `C103_undeclared`, `C103_undeclared_list`.
* `Quot.sound`, `propext`: `C01_label_error`, `C05_coord_add_sub`, `C05_coord_add_sub_cancel`, `C05_size_add_sub`, `C06_box_new_other`, `C16_copy_content`, `C16_others_unchanged`, `C18_not_disjoint`, `C18_overlap_by_insertion`, `C18_overlap_by_merging`, `C25_expand_is_merge_partial`, `C27_mixins_empty_partial`, `C27_mixins_fail`, `C27_not_a_mapping`, `C27_update_pairs_partial`, `C31_counterexample`, `C40_sorting_option`, `C42_round_trip`, `C43_content_text`, `C79_notes`, `C104_counterexample`, `C104_new`, `C104_use`, `C112_texts_told`.
* `Classical.choice`, `Quot.sound`, `propext`: `C01_label_roundtrip`, `C02_default`, `C02_word_error`, `C02_word_roundtrip`, `C03_label_injective`, `C03_label_order`, `C04_box_name_injective`, `C04_coord_name_injective`, `C05_size_group`, `C06_box_new`, `C06_box_valid`, `C07_area`, `C07_move_to`, `C07_resize`, `C07_transform`, `C08_cell`, `C08_contains`, `C08_order`, `C08_singleton`, `C09_intersect_complete_partial`, `C09_intersect_exact_partial`, `C09_intersect_flat_partial`, `C09_intersect_sound_partial`, `C10_union_assoc`, `C10_union_least`, `C10_union_set`, `C11_intersection`, `C12_lt_strict_total`, `C13_gt_le_exact_partial`, `C13_same_line_partial`, `C13_tuple_operators_partial`, `C14_cell_box_order`, `C14_cell_order`, `C14_equal_boxes`, `C14_same_cell`, `C15_cell_new`, `C15_move_resize`, `C15_transform`, `C16_caller_dict`, `C16_edit_isolated`, `C16_merge_content`, `C17_reading_order`, `C17_sorted_lt`, `C17_valid`, `C18_disjoint_rows_partial`, `C18_overlap_only_crosswise_partial`, `C19_lookup`, `C19_set_errors`, `C19_set_get`, `C20_delete`, `C20_delete_frame`, `C21_failure_atomic`, `C22_bounding_box`, `C23_merge_effect`, `C23_styles_wf`, `C24_merge_outcome`, `C25_expand_grows_partial`, `C25_expand_zero_partial`, `C25_no_shrink`, `C25_shrink_always_fails`, `C26_iter_rows`, `C27_get_pop_partial`, `C28_insertion_order`, `C29_line_break`, `C29_rectangular`, `C30_text_drawn_once`, `C31_views_cells_partial`, `C31_views_exact_partial`, `C32_refresh`, `C33_insert_first_free`, `C34_insert_single`, `C35_fill_missing`, `C36_assign`, `C36_looks_survive`, `C37_history`, `C37_insert`, `C37_step`, `C37_views_only`, `C38_frame_attr`, `C38_frame_error`, `C38_frame_round_trip`, `C39_round_trip`, `C39_separator`, `C40_rows_sorted`, `C41_entries`, `C42_mixed_content`, `C42_refused`, `C43_node_text`, `C45_round_trip`, `C46_no_hole`, `C47_formex_inner_tables`, `C47_inner_tables`, `C48_no_history`, `C49_grammar`, `C49_outside`, `C49_row_round_trip`, `C49_title_round_trip`, `C50_blocks`, `C50_elsewhere`, `C50_no_empty_block`, `C51_cleanup_neutral`, `C51_document_order_partial`, `C51_final_top_level_partial`, `C51_nested_partial`, `C51_rest_unchanged`, `C51_top_level_partial`, `C51_unique`, `C52_order_counterexample`, `C52_round_trip`, `C52_title_counterexample`, `C53_counterexample`, `C53_styled_rows_partial`, `C54_cyclic_counterexample`, `C54_cyclic_fails`, `C54_finite_or_cyclic`, `C54_nearest_partial`, `C54_own_borders`, `C54_line_kinds`, `C55_first_row_counterexample`, `C55_height`, `C55_merged_cells`, `C55_narrow_counterexample`, `C56_no_number`, `C56_parse_width`, `C56_percentage_misread`, `C57_convert_value`, `C57_exact`, `C57_unknown_unit`, `C58_none_left`, `C58_places`, `C58_replacement`, `C58_section`, `C58_untouched`, `C59_borders`, `C60_width_stable`, `C61_counterexample`, `C61_no_hole_partial`, `C62_entries_in_order_partial`, `C62_order_counterexample`, `C62_repetition_counterexample`, `C63_cell_styles`, `C64_row_column_styles`, `C65_table_styles`, `C66_marks_unique`, `C66_quoted_unique`, `C66_revision_marks`, `C67_height_counterexample`, `C67_rows`, `C68_columns`, `C69_alignment_counterexample`, `C69_cells`, `C69_paragraph_counterexample`, `C70_table`, `C71_formex_tree`, `C72_text_kept_partial`, `C72_title_counterexample`, `C73_reading`, `C74_accepted_is_regular`, `C75_cells_partial`, `C75_shadow_counterexample`, `C75_styles_partial`, `C75_table_partial`, `C76_reading`, `C77_formex_looks`, `C78_counterexample`, `C78_tables_in_tables_partial`, `C78_text_kept_partial`, `C79_none_left`, `C79_only_those`, `C80_cals_entries`, `C80_formex_cells`, `C80_rows`, `C81_counterexample`, `C81_formex_partial`, `C81_word_partial`, `C82_counterexample`, `C82_crosswise_partial`, `C83_kept`, `C83_none_left`, `C83_replacement`, `C83_root_counterexample`, `C83_untouched`, `C84_counterexample`, `C84_no_hole_partial`, `C84_notes_counterexample`, `C85_formex_to_cals`, `C85_word_to_cals`, `C86_cals_written`, `C86_formex_written`, `C87_cals_accepted_partial`, `C87_cals_to_formex_partial`, `C87_formex_to_cals_partial`, `C87_row_counterexample`, `C87_title_counterexample`, `C87_type_counterexample`, `C87_width_counterexample`, `C87_word_to_cals`, `C87_word_to_formex`, `C88_cals_to_formex`, `C88_word_to_formex`, `C89_cals_to_formex`, `C89_finalised`, `C89_succeeds`, `C89_word_to_formex`, `C90_cals_formex_cals`, `C90_formex_cals_formex`, `C90_word_cals_formex`, `C90_word_formex_cals`, `C91_cals_to_formex`, `C91_cals_to_formex_succeeds`, `C91_word_to_cals`, `C91_word_to_formex`, `C91_word_to_formex_succeeds`, `C92_cals_looks`, `C93_cals_to_formex`, `C94_colour_counterexample`, `C94_formex_to_cals_partial`, `C94_separators_counterexample`, `C95_inside_counterexample`, `C95_word_to_cals_partial`, `C95_word_to_formex_partial`, `C96_again`, `C96_cals_to_formex`, `C96_failure`, `C96_formex_to_cals`, `C96_in_place_not_atomic`, `C96_inputs`, `C96_interrupted`, `C96_other_files`, `C96_word_to_cals`, `C96_word_to_formex`, `C97_cals_namespace`, `C97_defaults`, `C97_empty_namespace`, `C97_prefix_refused`, `C97_requires_cals`, `C97_sorting_refused`, `C97_unknown`, `C98_formex_to_cals`, `C98_formex_to_cals_succeeds`, `C98_word_to_cals_inner`, `C98_word_to_cals_inner_succeeds`, `C98_word_to_cals_looks`, `C98_word_to_cals_succeeds`, `C99_cals_to_formex`, `C99_cals_to_formex_succeeds`, `C99_formex_to_cals`, `C99_formex_to_cals_succeeds`, `C99_word_to_cals`, `C99_word_to_cals_succeeds`, `C99_word_to_formex`, `C99_word_to_formex_succeeds`, `C100_cals_formex_cals`, `C100_formex_cals_formex`, `C100_word_cals_formex`, `C100_word_formex_cals`, `C100_file_cals_formex_cals`, `C100_file_formex_cals_formex`, `C100_file_word_cals_formex`, `C100_file_word_formex_cals`, `C101_cals_to_formex_partial`, `C101_finalised_again_partial`, `C101_formex_to_cals`, `C101_nested_counterexample`, `C101_settled`, `C101_typed_counterexample`, `C101_word_to_cals`, `C101_word_to_formex_partial`, `C101_file_cals_to_formex_partial`, `C101_file_formex_to_cals`, `C101_file_word_to_cals`, `C101_file_word_to_formex_partial`, `C102_cals_to_formex`, `C102_file`, `C102_formex_to_cals`, `C102_repeated_counterexample`, `C102_word_to_cals`, `C102_word_to_formex`, `C103_contents_counterexample`, `C103_file`, `C103_file_counterexample`, `C103_file_word_to_cals_partial`, `C103_named`, `C103_named_list`, `C103_same`, `C103_same_list`, `C103_source_counterexample`, `C103_table_counterexample`, `C103_word_to_cals_partial`, `C104_dropped`, `C104_kept_partial`, `C104_never_dropped`, `C104_same_table`, `C105_cals_not_nested`, `C105_cals_without_footers`, `C105_counterexample`, `C105_none_left_partial`, `C105_word`, `C106_cals_entry`, `C106_first`, `C106_formex_cell`, `C106_integers`, `C106_one`, `C106_word_cell`, `C107_cals`, `C107_cals_to_formex`, `C107_formex`, `C107_formex_to_cals`, `C107_word`, `C107_word_to_cals`, `C107_word_to_formex`, `C108_formex_to_cals_partial`, `C108_formex_vocabulary_partial`, `C108_header_counterexample`, `C108_order_counterexample`, `C108_row_counterexample`, `C108_valid_partial`, `C108_vocabulary_partial`, `C108_word_to_cals_partial`, `C108_word_vocabulary_partial`, `C109_always_read`, `C109_cals_to_formex`, `C109_collision_counterexample`, `C109_completed`, `C109_converted`, `C109_crossing_counterexample`, `C109_first_row_counterexample`, `C109_names_counterexample`, `C109_one_placement`, `C109_places`, `C109_unequal_rows`, `C110_always_read`, `C110_completed`, `C110_converted`, `C110_formex_to_cals`, `C110_formex_unequal_rows`, `C110_note_counterexample`, `C110_one_placement`, `C110_places`, `C110_title_counterexample`, `C111_converted_to_cals`, `C111_converted_to_formex`, `C111_word_to_cals`, `C111_word_to_formex`, `C111_hole_counterexample`, `C111_missing`, `C111_rectangle`, `C111_rows`, `C111_short_rows`, `C112_counterexample`, `C112_lines_exact_partial`, `C112_lines_partial`, `C112_lines_refreshed_partial`, `C112_table_drawn`, `C112_texts_confused`.
<!-- end of axioms -->

* The correspondence between the model and the Python code, which is by reading: every definition of `Verif/Model` cites the
  file and lines it models.  The code was not run.

### What is modelled

| Python | model |
|---|---|
| `benker/alphabet.py` | `Model/Alphabet.lean` |
| `benker/size.py`, `coord.py`, `box.py` | `Model/Geometry.lean` |
| `benker/cell.py`, `styled.py` | `Model/Cell.lean`; aliasing of dictionaries: `Model/Heap.lean` |
| `benker/grid.py` | `Model/Grid.lean` |
| `benker/table.py` | `Model/Table.lean` |
| `benker/drawing.py` | `Model/Drawing.lean` |
| `benker/units.py`, widths of `builders/base_builder.py` and `parsers/base_parser.py` | `Model/Units.lean`, `Model/Regex.lean` |
| `benker/common/lxml_iterwalk.py`, element trees | `Model/Xml.lean` |
| `benker/builders/base_builder.py`, `cals.py` | `Model/CalsBuilder.lean` |
| `benker/builders/formex.py` | `Model/FormexBuilder.lean` (one table), `Model/FormexFinal.lean` (finalisation of the document) |
| `benker/parsers/base_parser.py` | `Model/Parser.lean` |
| Python: `int(text)`, `\d`, `str.isspace` | `Model/Digits.lean`, `Model/Parser.lean` |
| `benker/parsers/cals/` | `Model/CalsParser.lean` |
| `benker/parsers/formex.py` | `Model/FormexParser.lean` |
| `benker/parsers/ooxml/` | `Model/Ooxml.lean`, `Model/OoxmlBorders.lean` |
| `benker/converters/{cals2formex,ooxml2cals,ooxml2formex}.py`, `transform_tables` | `Model/Converter.lean` |
| `benker/converters/formex2cals.py`, `transform_tables` of the Formex parser | `Model/Formex2Cals.lean` |
| `benker/converters/*.py` (`convert_file`, options), `parse_file`, constructors of the parsers and builders | `Model/ConvertFile.lean` |
| `ns_map` of the builders, default namespaces in written files | `Model/Namespaces.lean` |
| views as objects which the caller may keep | `Model/Views.lean` |

### What is not modelled

* Encodings, XML serialisation and parsing (`lxml`): reading and writing are arbitrary functions (C96). ZIP archives, validation against XML schemas (`calstblx.xsd` is transcribed in `Spec/CalsSchema`, C108).
* Namespace prefixes: their registration is checked (C97), but only qualified names are kept.  What default namespaces do to elements without a namespace, once
  they are written, is modelled apart (C103).  The other statements about files (C96, C99, C100, C101) suppose that the XML library reads what it has written
  (`Faithful`), which excludes this: they hold of the files whose elements are all in a namespace, or which declare no default namespace.
* What is around the root element of a document: declarations, comments and processing instructions.
* Style identifiers of Word documents which contain a double quote: the code puts them in an XPath expression as they are.
* Identity of `lxml` nodes: nodes are values.  `append` of a node which already has a parent moves it in `lxml`; the source tree
  is not looked at again by the code, except by `transform_tables`, whose model follows the moved nodes.
* The characters which XML forbids (for which `lxml` raises `ValueError`), and Python 2 (bytes).
* Messages and subclasses of exceptions: an exception is its class.
* `__repr__` of objects other than coordinates, sizes and boxes, and `__str__` of style dictionaries.
* `\d` of regular expressions and `int(text)` accept the digits and the spaces of Unicode 14.0 (Python 3.11); other versions of Python know more or fewer scripts. `int(text)` refuses
  texts of more than 4300 digits since Python 3.11, and underscores before Python 3.6: not modelled. The regular expression of widths (`units.py`) is about ASCII digits only, in the code too.
* Recursion limits, memory and time, except the recursion of `_get_style_borders`, which is bounded by a limit (C54).
* Tables in a content which is dropped (Formex: a cell with an `IE` element; Word: a cell which continues another one, or a `w:sdt`; contents replaced by `IE`):
  the code still converts them, outside of the document, and may raise; the model forgets them.  The theorems which tell that a document is converted
  (C91, C98, C99) suppose that there is no such table, or that the tables inside are good wherever they are, so that this makes no difference to them.
* Which of two exceptions is raised, when one input deserves both.
* In `extract_gr_notes`, a footer row which precedes the `CORPUS` of its table (the builder writes none): the model treats it as if it was in this `CORPUS`.

### Floating point

`float` operations are `fl (a op b)`, where `a op b` is the exact rational result and `fl` is any function such that
`|fl x - x| ≤ 2^-53 |x|` (standard model without overflow, underflow, NaN and signed zeros).  The theorems about lengths hold for
every such `fl`, hence for round-to-nearest-even.  `float(text)` and `repr(float)` in the OOXML parser are arbitrary functions.

## Disagreements between the properties and the code

Each is a theorem about the model, with a concrete witness, and the property keeps a `_partial` theorem.

* `Box.intersect` answers False for boxes which cross each other (C09), so overlapping cells can be stored in a grid (C18).
* `>`, `<=`, `>=` on boxes are those of tuples, not the reading order of `<` (C13).  Two cells with the same box are each `>` the other (C14).
* `expand` with a negative size always raises `ValueError` (C25).
* The mixin methods of `MutableMapping` fail on `Grid` (C27).
* A cell stored in a table whose views were never read is listed twice by its row and column (C31), and printed twice (C112); the CALS builder then writes it twice (C62).
* The CALS parser refuses tables which are valid for the schema: names of columns without digits, wide entries which meet an entry going down from a row above (C109).
  A wide entry which crosses a tall one is not refused: the corners of neither are in the other, which is all `Box.intersect` (box.py 220-223) looks at, so the table read has overlapping cells.
* C110: the Formex parser counts the columns of a title (`COL.START`) from the first free place of its line, not from the first column (formex.py 372-424): below a cell which goes down the title is not where it tells.
  A note below a cell which goes down is as wide as the whole table and starts beside this cell, so that the table becomes wider (formex.py 426-471).
* C111: the Word parser completes each row up to the columns which are known when the row ends (parsers/ooxml/__init__.py 858-862), and never goes back: without `w:tblGrid`, a first row shorter than the second one leaves a hole, where the table has no cell. The CALS and Formex parsers fill such holes at the end.
* The CALS builder may write tables which are not valid for the schema `calstblx.xsd`: rows without entry, no `tbody`, several `thead`, `tbody` or `tfoot` (C108).
* The CALS builder writes the cells of a row in the order of insertion (C62); so does the Formex builder (C52_order_counterexample):
  the parsers ignore the columns which are written.
* Limits proved as part of properties which hold: rows of the same nature which are not adjacent give several `thead`/`tbody` elements (C40); `frame` cannot tell some combinations of borders, which are read as none (C38, C65).
* Percentages are read as lengths in the default unit (C56).
* The end of a nested table fills the holes of the outer table in the middle of a row (C61, C84); the notes of a nested Formex table become a row of the outer table (C84).
* Formex: the finalisation removes `TYPE` from every row (C53); tables are numbered before tables directly inside tables are opened (C51);
  a title made of one element loses its text, a title which begins with text raises `TypeError` (C72);
  a first row taken for a title disappears from the corpus (C52_title_counterexample); the finalisation keeps one cell of a title row - an empty one if
  the builder wrote `<IE/>` in it - and the first cell of a footer row, and loses the text after a table directly inside another one (C78).
* OOXML: `_get_style_borders` does not terminate on cyclic `basedOn` (C54); a narrow continuation cell extends the whole cell above, a
  continuation in the first row raises `KeyError` (C55); row heights are read from the wrong element (C67); legal values of
  `w:tblHeader` and of `w:jc`, and cells without direct paragraph, are refused (C67, C69);
  `box-shadow` contains `0ptpt`, and shadows without size are refused (C75).
* CALS: a `colspec` without `colnum` is at its rank among the `colspec` elements, not one column after the previous one, and a `colspec` inside a
  `thead` is refused (C73, C74).
* Word tables without `w:tblGrid` whose first row is shorter than the next ones keep a hole (C81); cells which cross each other are accepted by the
  three parsers (C82).
* Tables which are accepted by a parser and refused by the builder (C87): a CALS column of width `*` (IndexError), a Formex cell without `TYPE` in a row of
  type `HEADER` (its style `cellstyle` is `None`, TypeError), a CALS table whose first row is a centered text when titles are looked for (TypeError).
* Formex to CALS (C94): the separators of a cell are stored under `x-cell-border-right` and `x-cell-border-bottom` (parsers/formex.py), which the builders read on
  tables only, so that the lines between cells are lost; the colour of a row is read and not written; `width` of the `CORPUS` is not read.
* Word looks (C95): `parse_tbl` reads `w:insideH` and `w:insideV` in the styles only (parsers/ooxml/__init__.py 886-892): those of the table itself are ignored,
  so that the lines which the table draws between its cells are lost.
* Converters: a document whose root is a table is refused after the conversion (C58, C83).
* Converting again to Formex (C101): the types which CALS styles gave to rows are removed by the second conversion, and the numbers of the tables which were in a
  `TBL` directly inside a `TBL` change.
* Namespaces given without a prefix (C103): the builders declare them as default namespaces around elements which have no namespace, which are then read in them.
  Formex tables in a document which declares a default namespace are read in it too.
* Kept views (C104): `refresh_all` (table.py 105-128) drops the views of the lines which a deletion, a merge or an expansion makes go away, without emptying them; a caller
  who keeps such a view sees cells which are no longer in the table, and inserts at wrong places by it, even if the line exists again.
* Rows of notes (C105): `extract_gr_notes` (formex.py 698-749) removes rows while it enumerates them. lxml looks for the next row before the current one is treated;
  if this next row is in a removed cell, the enumeration ends with the removed part, and the later rows of the document are left with their provisional types.

## Tests of the theorems

`seeded/LOG.jsonl` lists the wrong programs against which the theorems were tested: one edit of one definition of the model each, the claim which it breaks,
the theorems which failed and those which were added or tightened when nothing failed.
