{"claims": [
 {"property": "C01", "status": "proved", "theorems": ["Verif.Props.roman_written_is_standard", "Verif.Props.roman_roundtrip", "Verif.Props.roman_injective", "Verif.Props.roman_nonpositive", "Verif.Props.roman_reading_accepts", "Verif.Props.roman_reading_refuses", "Verif.Props.roman_value_read"], "note": "all integers"},
 {"property": "C02", "status": "proved", "theorems": ["Verif.Props.roman_postfix_read", "Verif.Props.roman_postfix_refused", "Verif.Props.arabic_to_roman_form", "Verif.Props.structural_number_roundtrip", "Verif.Props.roman_number_roundtrip", "Verif.Props.structural_number_roundtrip_fails", "Verif.Props.roman_reading_accepts_nonstandard"], "note": "postfix must not begin with a Roman letter or digit nor hold a line feed; counterexamples beyond that are proved"},
 {"property": "C03", "status": "proved", "theorems": ["Verif.Props.ordinal_text_exists_iff", "Verif.Props.ordinal_out_of_range", "Verif.Props.ordinal_read_iff", "Verif.Props.ordinal_named", "Verif.Props.ordinal_reading_refuses", "Verif.Props.ordinal_roundtrip", "Verif.Props.ordinal_written"], "note": ""},
 {"property": "C04", "status": "proved", "theorems": ["Verif.Props.identifierLess_answers", "Verif.Props.identifierLess_irrefl", "Verif.Props.identifierLess_asymm", "Verif.Props.identifierLess_trans", "Verif.Props.identifierLess_neg_trans"], "note": ""},
 {"property": "C05", "status": "proved", "theorems": ["Verif.Props.numbers_compare_by_value", "Verif.Props.canonical_total", "Verif.Props.leading_zero_incomparable"], "note": ""},
 {"property": "C06", "status": "partial", "theorems": ["Verif.Props.next_article_greater", "Verif.Props.next_numeric_greater_without_slash", "Verif.Props.next_numeric_greater_partial", "Verif.Props.next_numeric_not_greater", "Verif.Props.next_paragraph_greater", "Verif.Props.next_letter_greater", "Verif.Props.next_subpoint_greater", "Verif.Props.consecutive_increasing_nodup", "Verif.Props.articles_never_repeat", "Verif.Props.paragraphs_never_repeat", "Verif.Props.numeric_points_never_repeat", "Verif.Props.alphabetic_points_never_repeat", "Verif.Props.alphabetic_subpoints_never_repeat"], "note": "the code violates it in one case, proved as next_numeric_not_greater: 2a is followed by 2/b, which is less; everything else is proved, and repetition is excluded in every case"},
 {"property": "C07", "status": "proved", "theorems": ["Verif.Props.cut_selects", "Verif.Props.cut_succeeds", "Verif.Props.cut_is_contiguous"], "note": "sortedness is needed only for contiguity"},
 {"property": "C08", "status": "proved", "theorems": ["Verif.Props.date_constructed_iff", "Verif.Props.addDays_valid", "Verif.Props.addDays_one", "Verif.Props.addDays_zero", "Verif.Props.addDays_add", "Verif.Props.addDays_back", "Verif.Props.addDays_later_iff", "Verif.Props.addDays_reaches", "Verif.Props.fromHungarianText_real", "Verif.Props.fromSimpleString_real", "Verif.Props.fromSimpleString_refuses", "Verif.Props.fromHungarianText_refuses", "Verif.Props.fromSimpleString_reads", "Verif.Props.fromHungarianText_reads"], "note": ""},
 {"property": "C09", "status": "partial", "theorems": ["Verif.Props.slice_text_partial", "Verif.Props.slice_loses_last_part", "Verif.Props.slice_inside_last_part", "Verif.Props.slice_succeeds_iff"], "note": "the code violates it: a start inside the last part gives an empty line (slice_loses_last_part); proved for every other start"},
 {"property": "C10", "status": "proved", "theorems": ["Verif.Props.slice_keeps_places"], "note": ""},
 {"property": "C11", "status": "partial", "theorems": ["Verif.Props.joined_text", "Verif.Props.joined_places", "Verif.Props.joined_weight_partial", "Verif.Props.joined_loses_weight", "Verif.Props.joined_margin"], "note": "the code violates it: the first part of every line loses its weight (joined_loses_weight); text and place are proved in general"},
 {"property": "C12", "status": "proved", "theorems": ["Verif.Props.quote_levels", "Verif.Props.quote_levels_before_failure", "Verif.Props.quote_levels_fail_iff", "Verif.Props.quote_levels_without_exceptions"], "note": ""},
 {"property": "C13", "status": "partial", "theorems": ["Verif.Props.join_loses_nothing", "Verif.Props.join_single_spaces_partial", "Verif.Props.join_blank_line"], "note": "the code violates the clause on blank lines (join_blank_line); the rest is proved in general"},
 {"property": "C14", "status": "proved", "theorems": ["Verif.Props.relativeTo_assoc", "Verif.Props.relativeTo_unit", "Verif.Props.relativeTo_absolute", "Verif.Props.relativeTo_components"], "note": ""},
 {"property": "C15", "status": "proved", "theorems": ["Verif.Props.gt_converse", "Verif.Props.lt_irrefl", "Verif.Props.lt_asymm", "Verif.Props.lt_trans", "Verif.Props.le_ge_mean", "Verif.Props.le_ge_raise", "Verif.Props.lt_total", "Verif.Props.lt_refused_iff"], "note": "all references; totality for canonical identifiers"},
 {"property": "C16", "status": "proved", "theorems": ["Verif.Props.contains_iff_covers", "Verif.Props.contains_answers", "Verif.Props.contains_self", "Verif.Props.single_contains_iff", "Verif.Props.range_contains_iff", "Verif.Props.contains_trans", "Verif.Props.contains_not_transitive"], "note": "references into one act without gaps, range only in the last component; the code is not transitive otherwise (contains_not_transitive)"},
 {"property": "C17", "status": "proved", "theorems": ["Verif.Props.parent_is_parent", "Verif.Props.parents_end", "Verif.Props.ancestor_iff_chain", "Verif.Props.ancestor_claims", "Verif.Props.claims_iff_ancestor", "Verif.Props.claims_too_much"], "note": "the converse needs a parent without gaps and of the same act, see claims_too_much"},
 {"property": "C18", "status": "proved", "theorems": ["Verif.Props.idString_roundtrip", "Verif.Props.idString_unique", "Verif.Props.idString_collision"], "note": "the condition on identifiers is the one of the property; needed, see idString_collision"},
 {"property": "C19", "status": "proved", "theorems": ["Verif.Props.makeRange_ends", "Verif.Props.makeRange_act", "Verif.Props.makeRange_valid", "Verif.Props.makeRange_last", "Verif.Props.ends_not_range", "Verif.Props.own_ends", "Verif.Props.isRange_iff", "Verif.Props.range_contains_ends"], "note": ""},
 {"property": "C20", "status": "proved", "theorems": ["Verif.Props.built_wellFormed", "Verif.Props.construct_iff", "Verif.Props.construct_article_iff", "Verif.Props.empty_element"], "note": "everything reachable through the constructors; the type annotation of the children of articles is taken as given, as the code does not check it"},
 {"property": "C21", "status": "proved", "theorems": ["Verif.Props.find_own", "Verif.Props.find_relative", "Verif.Props.element_listed"], "note": "every act whose siblings have different identifiers; points below an unnumbered paragraph included"},
 {"property": "C22", "status": "proved", "theorems": ["Verif.Props.range_of_articles", "Verif.Props.range_of_paragraphs", "Verif.Props.range_of_points", "Verif.Props.range_of_subpoints"], "note": "identifiers without leading zeros; an element without children gives KeyError instead of nothing, as proved"},
 {"property": "C23", "status": "partial", "theorems": ["Verif.Props.map_visits_parents_first_partial", "Verif.Props.map_visits_children_first_partial", "Verif.Props.orders_agree", "Verif.Props.range_above_hides"], "note": "the code violates it for filters with a range above the last component (range_above_hides); proved for every other filter. Parents first: for modifiers that do not change the children of what they are given"},
 {"property": "C24", "status": "proved", "theorems": ["Verif.Props.map_identity", "Verif.Props.readable_answered", "Verif.Props.unfiltered_answered", "Verif.Props.map_keeps", "Verif.Props.kept_outside", "Verif.Props.map_outside", "Verif.Props.map_applies", "Verif.Props.map_articles_keeps"], "note": "every modifier; the recursion limit is a parameter and 3 is enough"},
 {"property": "C25", "status": "partial", "theorems": ["Verif.Props.act_keeps_text_partial", "Verif.Props.articles_keep_text_partial", "Verif.Props.coarse_points_lost", "Verif.Props.third_title_line_lost", "Verif.Props.below_special_part_lost"], "note": "the code loses text in three cases, each proved (coarse_points_lost, third_title_line_lost, below_special_part_lost); proved for all lines whose last part is one character, as PDF lines are, and titles on at most two lines"},
 {"property": "C26", "status": "proved", "theorems": ["Verif.Props.act_numbered"], "note": "every list of lines that parses; 'next' is specified by the alphabet and number values, not by the code"},
 {"property": "C27", "status": "partial", "theorems": ["Verif.Props.act_divided_partial", "Verif.Props.article_in_open_quote", "Verif.Props.subpoints_in_coarse_quote"], "note": "the code violates it for a quote left open in the preamble (article_in_open_quote) and for lines with one part (subpoints_in_coarse_quote); proved for all other lines"},
 {"property": "C28", "status": "partial", "theorems": ["Verif.Props.first_headers_differ", "Verif.Props.first_header_place", "Verif.Props.kinds_never_tie", "Verif.Props.kind_chosen_partial", "Verif.Props.kind_refused", "Verif.Props.later_kind_chosen"], "note": "ties are excluded in general; the choice of the first header is violated when that kind has a single header (later_kind_chosen), proved otherwise"},
 {"property": "C29", "status": "partial", "theorems": ["Verif.Props.act_or_error", "Verif.Props.act_parts_parsed", "Verif.Props.failure_not_hidden", "Verif.Props.every_letter_read", "Verif.Props.every_subletter_read_partial", "Verif.Props.two_letters_fail", "Verif.Props.digraphs_not_read"], "note": "errors are proved for all inputs; the clause on letters is violated for ny, sz, gy, ty (two_letters_fail, digraphs_not_read)"},
 {"property": "C30", "status": "partial", "theorems": ["Verif.Props.failed_amendment_fails_act", "Verif.Props.failed_amendment_witness", "Verif.Props.amendments_parse_partial", "Verif.Props.rest_left_partial"], "note": "the code violates it: every act with an announced amendment that cannot be parsed fails as a whole (failed_amendment_fails_act, for all such acts); proved that nothing else changes and that acts whose announced amendments can be parsed do parse; which acts go through exactly is stated in C88 (amendments_made_exactly)"},
 {"property": "C31", "status": "partial", "theorems": ["Verif.Props.amended_intro", "Verif.Props.amendment_keeps_lines_partial", "Verif.Props.wrap_up_lost", "Verif.Props.wrap_up_ends_lost", "Verif.Props.brackets_lost", "Verif.Props.lines_before_header_lost", "Verif.Props.none_lost"], "note": "the code loses wrap-ups, brackets, lines before the first header and the word None (wrap_up_lost, wrap_up_ends_lost, brackets_lost, lines_before_header_lost, none_lost); proved that all other quoted lines and the introduction are kept"},
 {"property": "C32", "status": "proved", "theorems": ["Verif.Props.semantics_keep_act", "Verif.Props.semantics_keep_elements"], "note": ""},
 {"property": "C33", "status": "proved", "theorems": ["Verif.Props.semantics_complete", "Verif.Props.semantics_complete_all", "Verif.Props.semantics_parsed", "Verif.Props.semantics_idempotent"], "note": ""},
 {"property": "C34", "status": "partial", "theorems": ["Verif.Props.analyzed_references_in_text_partial", "Verif.Props.produced_references_in_text_partial", "Verif.Props.program_reference_beyond_text", "Verif.Props.references_in_text_partial", "Verif.Props.references_cut", "Verif.Props.reference_beyond_text", "Verif.Props.program_references_in_text_partial"], "note": "the code violates it: a full stop is added to the end of an element, and a reference may include it, one character beyond the text (reference_beyond_text); proved for all elements that get no full stop, and with this one character otherwise"},
 {"property": "C35", "status": "partial", "theorems": ["Verif.Props.program_later_text_influences", "Verif.Props.program_later_definition_hidden", "Verif.Props.latest_definition_partial", "Verif.Props.resolved_unique", "Verif.Props.later_articles_no_influence", "Verif.Props.later_text_influences", "Verif.Props.later_definition_hidden"], "note": "the code violates it inside one list: a wrap-up influences the points before it (later_text_influences), and the definition of an intro hides a later one in a point (later_definition_hidden); proved in terms of the definitions recorded on the elements in document order, and that later articles have no influence"},
 {"property": "C36", "status": "partial", "theorems": ["Verif.Props.program_stale_definition", "Verif.Props.incremental_partial", "Verif.Props.stale_definition"], "note": "the code violates it: when a definition is removed, kept articles go on using it (stale_definition); proved whenever the replaced articles up to each removed definition define something"},
 {"property": "C37", "status": "partial", "theorems": ["Verif.Props.references_in_order_partial", "Verif.Props.items_covered_partial", "Verif.Props.references_listed_partial", "Verif.Props.neighbours_numbered", "Verif.Props.subpoints_apart", "Verif.Props.listed_in_order", "Verif.Props.collecting_succeeds", "Verif.Props.short_subpoint_fails", "Verif.Props.references_overlap", "Verif.Props.sentence_references_overlap"], "note": "the code violates it when a range is written between two consecutive single items: the single items are added first and merged, and the references overlap (references_overlap); proved for lists in which nothing is between items that are merged, in particular for those whose items are added in text order (listed_in_order). Collecting raises IndexError only for a subpoint of two letters followed by one that is its first letter (collecting_succeeds, short_subpoint_fails)"},
 {"property": "C38", "status": "partial", "theorems": ["Verif.Props.round_trip_partial", "Verif.Props.round_trip_same_partial", "Verif.Props.equal_values", "Verif.Props.same_data_same_value", "Verif.Props.round_trip_kinds_partial", "Verif.Props.enum_comes_back_as_name", "Verif.Props.class_comes_back_as_other", "Verif.Props.underscores_do_not_come_back", "Verif.Props.bool_is_no_int_in_union", "Verif.Props.false_comes_back_as_zero"], "note": "the code violates it for unions with enums or tuples that others can be taken for (enum_comes_back_as_name), for classes of the same name in Type[...] (class_comes_back_as_other) and for attributes with two leading underscores; proved for all accepted types whose unions have members that can be told apart, which holds for all classes of the project (C55)"},
 {"property": "C39", "status": "partial", "theorems": ["Verif.Props.ambiguous_refused_partial", "Verif.Props.accepted_iff", "Verif.Props.enum_str_order", "Verif.Props.two_enums_accepted", "Verif.Props.tuples_accepted"], "note": "the code violates it for unions with enums and tuples (enum_str_order, two_enums_accepted, tuples_accepted); proved for simple types, lists and classes with attributes, and accepted_iff says exactly when a union is accepted"},
 {"property": "C40", "status": "partial", "theorems": ["Verif.Props.replaced_line", "Verif.Props.replacement_exact_partial", "Verif.Props.replacement_succeeds", "Verif.Props.replacement_loses_text", "Verif.Props.empty_replacement"], "note": "the code violates it: a common ending that begins inside the last part of the line is lost (replacement_loses_text), and an empty replacement removes the line (empty_replacement); replaced_line says exactly what happens in all cases, and replacement_exact_partial is the property for lines whose last part is not longer than one character"},
 {"property": "C41", "status": "proved", "theorems": ["Verif.Props.deletion", "Verif.Props.insertion"], "note": ""},
 {"property": "C42", "status": "proved", "theorems": ["Verif.Props.fixups_in_order", "Verif.Props.fixups_fail", "Verif.Props.no_fixups", "Verif.Props.other_fixups"], "note": ""},
 {"property": "C43", "status": "proved", "theorems": ["Verif.Props.parallel_results", "Verif.Props.parallel_ends", "Verif.Props.sequential_results", "Verif.Props.parallel_exception"], "note": ""},
 {"property": "C44", "status": "partial", "theorems": ["Verif.Props.first_page_twice", "Verif.Props.pages_once_partial", "Verif.Props.gazette_read"], "note": "the code violates it for every gazette: the first page is there twice (first_page_twice); the other results are exactly the pages, in order"},
 {"property": "C45", "status": "partial", "theorems": ["Verif.Props.acts_cut_partial", "Verif.Props.acts_consecutive_partial", "Verif.Props.act_resets", "Verif.Props.act_found", "Verif.Props.footnoted_act_found", "Verif.Props.footnote_removed", "Verif.Props.second_blank_line"], "note": "order, disjointness and independence are proved for all lines; the body is consecutive lines except for one footnote, which the code removes on purpose (footnote_removed); consecutive if no line begins with an asterisk"},
 {"property": "C46", "status": "partial", "theorems": ["Verif.Props.boxes_kept_partial", "Verif.Props.pages_in_order", "Verif.Props.boxes_in_one_line", "Verif.Props.boxes_order_partial", "Verif.Props.lines_end_fine", "Verif.Props.same_place_fails", "Verif.Props.empty_page_fails", "Verif.Props.merged_box_lost", "Verif.Props.first_box_kept"], "note": "Proved for pages on which no two boxes have the same place, before and after rows are merged. Otherwise it is false: merged_box_lost, first_box_kept, same_place_fails, empty_page_fails."},
 {"property": "C47", "status": "partial", "theorems": ["Verif.Props.cache_transparent_partial", "Verif.Props.cache_never_wrong_partial", "Verif.Props.process_ends", "Verif.Props.killed_while_writing", "Verif.Props.killed_while_downloading"], "note": "Proved for histories in which no process is killed while it writes a file; and if it is not killed while it writes the downloaded file, later ones give the same lines or fail. The full property is false: killed_while_writing, killed_while_downloading. Processes that run at the same time are the subject of C95."},
 {"property": "C48", "status": "proved", "theorems": ["Verif.Props.links_keep_text", "Verif.Props.links_are_references", "Verif.Props.links_made_iff"], "note": "if references overlap or are empty the code raises AssertionError instead of a page; links_made_iff says exactly when"},
 {"property": "C49", "status": "partial", "theorems": ["Verif.Props.page_ids", "Verif.Props.class_and_id_unique", "Verif.Props.ids_unique_partial", "Verif.Props.unnumbered_paragraph_same_id", "Verif.Props.amended_same_id"], "note": "the code violates it: an unnumbered paragraph has the id of its article (unnumbered_paragraph_same_id), and all elements in amendments have the empty id (amended_same_id). Proved: class and id together are unique if points are numbered; ids that are not empty are unique if all elements are numbered"},
 {"property": "C50", "status": "partial", "theorems": ["Verif.Props.txt_to_file_partial", "Verif.Props.width_zero_to_stdout"], "note": "the code violates it for width 0, which prints to the standard output (width_zero_to_stdout); proved for every other width, in particular for the default"},
 {"property": "C51", "status": "proved", "theorems": ["Verif.Props.sections_of_pages", "Verif.Props.sections_fail"], "note": "added with the model of the section extractor"},
 {"property": "C52", "status": "proved", "theorems": ["Verif.Props.links_lead"], "note": "added with the model of HTML output"},
 {"property": "C53", "status": "proved", "theorems": ["Verif.Props.page_shows_texts", "Verif.Props.indented_page_shows"], "note": "added with the model of HTML output"},
 {"property": "C54", "status": "proved", "theorems": ["Verif.Props.txt_shows_texts", "Verif.Props.blank_text_loses_number", "Verif.Props.number_repeated"], "note": "added with the model of text output; textwrap.wrap is any function that keeps everything but spaces"},
 {"property": "C55", "status": "proved", "theorems": ["Verif.Props.act_round_trip", "Verif.Props.raw_act_round_trip", "Verif.Props.pdf_round_trip", "Verif.Props.margin_comes_back_as_int"], "note": "added with the model of the classes of the project; what __init__ computes is any function that respects equality"},
 {"property": "C56", "status": "proved", "theorems": ["Verif.Props.article_header_read", "Verif.Props.struct_header_read", "Verif.Props.next_number", "Verif.Props.next_struct_number", "Verif.Props.next_article", "Verif.Props.act_headers", "Verif.Props.amended_struct_headers", "Verif.Props.sibling_headers", "Verif.Props.sibling_first", "Verif.Props.amended_headers", "Verif.Props.announced_not_checked", "Verif.Props.digraph_ends_subpoints"], "note": "added to make C25-C27 complete: which lines begin an element. The forms of headers are those the code reads, without gy) and ty) (C29); amendments may announce another first identifier (announced_not_checked), and ny is followed by nothing below numbered points (digraph_ends_subpoints)"},
 {"property": "C57", "status": "proved", "theorems": ["Verif.Props.analyzed_in_sentence"], "note": "added with the model of the grammatical analyser, first for any parser that gives places inside the sentence and in order (NodePlaced); the parser of the grammar does (C69)"},
 {"property": "C58", "status": "partial", "theorems": ["Verif.Props.amended_or_inserted", "Verif.Props.amended_and_inserted_partial", "Verif.Props.inserted_within_partial", "Verif.Props.inserted_not_covered", "Verif.Props.amended_not_covered", "Verif.Props.amended_list_forgotten", "Verif.Props.amended_list_with_subtitle_fails", "Verif.Props.sentence_amendments_fail"], "note": "the code violates it if an insertion begins within or before what is amended and is not inside it (inserted_not_covered, amended_not_covered), and for lists of several amended references, which are forgotten (amended_list_forgotten) or make the analysis fail (amended_list_with_subtitle_fails); proved for insertions after and inside what is amended; sentences for the last two are in sentence_amendments_fail"},
 {"property": "C59", "status": "proved", "theorems": ["Verif.Props.analysis_tells", "Verif.Props.semantic_positions_referenced", "Verif.Props.analysis_failure"], "note": "added with the model of the grammatical analyser; Spec/Grammar.lean says what each kind of node tells"},
 {"property": "C60", "status": "proved", "theorems": ["Verif.Props.ptke_titles_moved", "Verif.Props.ptke_succeeds"], "note": "added with the model of ptke_article_header_fixer"},
 {"property": "C61", "status": "partial", "theorems": ["Verif.Props.shown_ordinal_reads_back", "Verif.Props.shown_named_reads_back", "Verif.Props.shown_roman_reads_back_partial", "Verif.Props.shown_roman_reads_back_fails"], "note": "added to state what headers are shown; the code violates it for postfixes in small letters and those that begin with a Roman letter (shown_roman_reads_back_fails); proved for books and parts and for titles and chapters with other postfixes"},
 {"property": "C62", "status": "proved", "theorems": ["Verif.Props.bold_iff", "Verif.Props.splitList_parts"], "note": "added because wrong versions of these two were not noticed by other theorems"},
 {"property": "C63", "status": "proved", "theorems": ["Verif.Props.pipeline_results", "Verif.Props.pipeline_in_order", "Verif.Props.pipeline_succeeds", "Verif.Props.pipeline_ends", "Verif.Props.texts_of_issue", "Verif.Props.texts_in_order"], "note": "reading and cutting an issue up is described by the functions of C44, C45 and C51"},
 {"property": "C64", "status": "proved", "theorems": ["Verif.Props.produced_well_made", "Verif.Props.produced_unanalysed", "Verif.Props.produced_analysed"], "note": "discharges the hypothesis Built of C20-C24, C32-C36, C48-C50 and C52-C54 for acts made by the program"},
 {"property": "C65", "status": "partial", "theorems": ["Verif.Props.one_replacement_per_change", "Verif.Props.context_taken", "Verif.Props.extraction_fails", "Verif.Props.replacements_give_edited_partial", "Verif.Props.replacements_apply_partial", "Verif.Props.wrong_line_replaced", "Verif.Props.emptied_line_removed", "Verif.Props.swapped_lines_fail", "Verif.Props.like_last_line_fails", "Verif.Props.first_line_fails", "Verif.Props.like_line_above_fails", "Verif.Props.other_acts_kept", "Verif.Props.saved_after_earlier", "Verif.Props.round_gives_edited_partial"], "note": "exactly which replacements are extracted, with the shortest context that tells a line apart, is proved in full; that they give the edited texts needs lines that can be cut, no emptied line and nothing changed like the last line; that they can be made needs fresh new texts; six counterexamples are proved, in one of them the wrong line is replaced without complaint"},
 {"property": "C66", "status": "partial", "theorems": ["Verif.Props.edited_texts_read", "Verif.Props.unedited_texts_partial", "Verif.Props.spaces_refused", "Verif.Props.opened_at", "Verif.Props.many_quotes_break"], "note": "texts without line ends, less than a hundred thousand open quotes (counterexample proved); reading back and the line to open at are proved in full"},
 {"property": "C67", "status": "partial", "theorems": ["Verif.Props.run_succeeds_iff", "Verif.Props.run_ends", "Verif.Props.files_written", "Verif.Props.own_file", "Verif.Props.all_printed", "Verif.Props.one_file_broken", "Verif.Props.raw_page_empties", "Verif.Props.single_act_ignored", "Verif.Props.path_in_directory_partial", "Verif.Props.path_leads_out", "Verif.Props.issue_read", "Verif.Props.issue_refused", "Verif.Props.page_written", "Verif.Props.links_lead_to_file", "Verif.Props.raw_lines_written", "Verif.Props.same_name_lost"], "note": "a file of its own for every act needs distinct names, and a file in the directory a name without slashes; acts of the same name and a name that leads elsewhere are proved to be possible; argparse, directories and failures to open files are not modelled, printing of json and xml are parameters"},
 {"property": "C68", "status": "partial", "theorems": ["Verif.Props.txt_says_exactly", "Verif.Props.produced_txt_exact", "Verif.Props.txt_tells_lines_partial", "Verif.Props.txt_tells_all_partial", "Verif.Props.articles_told_whole", "Verif.Props.header_told", "Verif.Props.wrap_up_not_printed"], "note": "texts and titles that are only spaces, amendments whose end is not between brackets or has no context, and titles of articles on three lines are left out, for which text is lost (proved); headers of titles and chapters are shown in usual Roman numerals; wrapping is assumed to keep everything but spaces"},
 {"property": "C69", "status": "proved", "theorems": ["Verif.Props.references_written", "Verif.Props.semantic_data_written", "Verif.Props.abbreviations_defined"], "note": "added with the model of grammar.ebnf; what TatSu does with the constructs of the grammar is trusted from its documentation"},
 {"property": "C70", "status": "proved", "theorems": ["Verif.Props.sentences_analysed", "Verif.Props.blank_not_analysed", "Verif.Props.sentences_not_analysed"], "note": "added with the model of grammar.ebnf; the exceptions in the statement are needed, witnesses in sentences_not_analysed and sentence_amendments_fail; an exception in one sentence fails the whole act, see DESIGN.md"},
 {"property": "C71", "status": "proved", "theorems": ["Verif.Props.mentions_reported", "Verif.Props.ordinary_analysed", "Verif.Props.single_mentions_reported", "Verif.Props.mentions_in_order", "Verif.Props.items_reported", "Verif.Props.capitalised_word_is_act"], "note": "added with the model of grammar.ebnf; what counts as ordinary is Spec.Ordinary; a capitalised word before a full stop is left out because the grammar takes it for an act, witness capitalised_word_is_act"},
 {"property": "C72", "status": "proved", "theorems": ["Verif.Props.data_read_as", "Verif.Props.data_read_iff", "Verif.Props.attributes_read", "Verif.Props.named_class_read", "Verif.Props.enum_name_read", "Verif.Props.act_data_read", "Verif.Props.unknown_names_refused", "Verif.Props.simple_data_unchecked", "Verif.Props.tuple_length_unchecked", "Verif.Props.other_data_read_as_list"], "note": "added; what data says is Spec.ReadAs; data for simple types is not looked at, the length of tuples is not checked and strings are read as lists of characters, so the result need not be of the type: witnesses simple_data_unchecked, tuple_length_unchecked, other_data_read_as_list"},
 {"property": "C73", "status": "proved", "theorems": ["Verif.Props.change_reported", "Verif.Props.change_pointed", "Verif.Props.change_analysed"], "note": "added with the model of grammar.ebnf; the ways to state changes are those of Spec.States; amendments with subtitles or structural units are not among them (C77); for several parts replaced by one block the program reports no change (Spec.Reports.amendSeveral, witness sentence_amendments_fail)"},
 {"property": "C74", "status": "partial", "theorems": ["Verif.Props.generated_current_partial", "Verif.Props.current_kept", "Verif.Props.outdated_generated", "Verif.Props.killed_generating", "Verif.Props.killed_twice"], "note": "added; proved if no process is killed while a file has its first line but is not whole; without this it fails (killed_generating, killed_twice); assumes that hashes do not collide and that a parser can be generated if a model can"},
 {"property": "C75", "status": "partial", "theorems": ["Verif.Props.acts_listed", "Verif.Props.all_listed", "Verif.Props.row_read_back_partial", "Verif.Props.row_not_read_back"], "note": "added; HTMLParser is not modelled, a page is the sequence of its events; reading back fails if the number of an act has a comma or a text has quotes (row_not_read_back)"},
 {"property": "C76", "status": "partial", "theorems": ["Verif.Props.own_sentence", "Verif.Props.sentence_unique", "Verif.Props.sentences_recorded", "Verif.Props.changes_recorded_partial", "Verif.Props.mentions_recorded_partial", "Verif.Props.nothing_recorded", "Verif.Props.divisions_recorded_partial", "Verif.Props.produced_changes_recorded_partial", "Verif.Props.produced_divisions_recorded_partial", "Verif.Props.produced_mentions_recorded_partial", "Verif.Props.silent_partial", "Verif.Props.sentences_lost"], "note": "added; the code violates it: sentences without one of six telling words, or longer than 10000 characters, are not looked at, and what they say is lost (sentences_lost, nothing_recorded); proved for the sentences that are looked at, which all sentences of Spec.States not longer than this are; silent_partial says what can be lost for want of a telling word; the same for sentences of Spec.StatesStructural, of which those that only add divisions may have no telling word"},
 {"property": "C77", "status": "proved", "theorems": ["Verif.Props.division_reported", "Verif.Props.division_analysed", "Verif.Props.new_part_missed", "Verif.Props.subtitle_before_articles_missed"], "note": "added with the model of grammar.ebnf; the ways to state changes are those of Spec.StatesStructural; sentences that could be read as naming a subtitle by its title are left out (Spec.NoTitle) unless this is what they do; a new part with the usual ending (Résszel, which is not Rész with something added) is not reported, witness new_part_missed"},
 {"property": "C78", "status": "proved", "theorems": ["Verif.Props.saved_acts", "Verif.Props.saved_replacements_change", "Verif.Props.fixups_usable", "Verif.Props.fixed_once", "Verif.Props.fixed_again"], "note": ""},
 {"property": "C79", "status": "proved", "theorems": ["Verif.Props.produced_numbers", "Verif.Props.produced_found", "Verif.Props.produced_page", "Verif.Props.articles_same_number"], "note": ""},
 {"property": "C80", "status": "proved", "theorems": ["Verif.Props.page_made_iff", "Verif.Props.text_made_iff", "Verif.Props.produced_headed", "Verif.Props.produced_text_iff", "Verif.Props.produced_page_iff", "Verif.Props.produced_page_early", "Verif.Props.produced_page_late", "Verif.Props.empty_text_not_shown", "Verif.Props.empty_quotation_not_shown", "Verif.Props.overlapping_not_shown"], "note": ""},
 {"property": "C81", "status": "proved", "theorems": ["Verif.Props.act_as_written", "Verif.Props.article_as_written", "Verif.Props.written_once"], "note": "added; the usual way is Spec.BodyWritten (Spec/Usual.lean), a grammar of acts stated over lines; sample_written is an act with a chapter, a title, a list with a closing text and a quotation; lines have one part for each character, as those made from a PDF do (C46)"},
 {"property": "C82", "status": "proved", "theorems": ["Verif.Props.announced_position", "Verif.Props.amendment_as_written", "Verif.Props.announced_as_written", "Verif.Props.amended_act_as_written", "Verif.Props.amended_written_once"], "note": "added; Spec/WrittenAmendments.lean; sample_amended is an act with a quotation of an amended and a new article; empty quoted lines and several quotations in a paragraph are left out"},
 {"property": "C83", "status": "proved", "theorems": ["Verif.Props.text_laid_out", "Verif.Props.produced_laid_out", "Verif.Props.lines_fit", "Verif.Props.quotations_not_broken"], "note": "added; textwrap.wrap is a parameter; acts with a number directly before an amendment (number_repeated, C54) or with blank texts are left out, the first are never made"},
 {"property": "C84", "status": "proved", "theorems": ["Verif.Props.page_laid_out", "Verif.Props.indented_page", "Verif.Props.document_laid_out"], "note": "added; Spec/Page.lean; printing of elements to HTML text is that of ElementTree and left out"},
 {"property": "C85", "status": "proved", "theorems": ["Verif.Props.classes_have_rules", "Verif.Props.placed_in_grids", "Verif.Props.containers_are_grids", "Verif.Props.produced_styled", "Verif.Props.columns_nested"], "note": "added; Spec/Style.lean; style.css is read as a list of rules, BeginsIn asks it of all rules for the class, so that their order does not matter"},
 {"property": "C86", "status": "proved", "theorems": ["Verif.Props.semantics_added", "Verif.Props.semantics_need", "Verif.Props.produced_whole", "Verif.Props.produced_act", "Verif.Props.usual_act_made", "Verif.Props.analysed_understood", "Verif.Props.sentences_understood", "Verif.Props.act_made_exactly", "Verif.Props.nothing_said"], "note": "added; Spec/Understood.lean; exact for the analyser of the program; texts with several list endings are left out"},
 {"property": "C87", "status": "proved", "theorems": ["Verif.Props.references_end_apart", "Verif.Props.references_sorted", "Verif.Props.same_place_incomparable"], "note": "added; for the analyser of the program; induction over the rules of the grammar and over the levels of a reference"},
 {"property": "C88", "status": "proved", "theorems": ["Verif.Props.amendments_stopped", "Verif.Props.amendments_made_exactly", "Verif.Props.semantics_stopped", "Verif.Props.first_step_exceptions", "Verif.Props.later_step_exceptions", "Verif.Props.quotations_introduced", "Verif.Props.exceptions_happen"], "note": "added; each step is stopped exactly at the first of its paragraphs or elements where there is a reason (semantics_stopped: for texts that end as texts in lists do); all exceptions that are left happen (exceptions_happen)"},
 {"property": "C89", "status": "proved", "theorems": ["Verif.Props.article_parsed_iff", "Verif.Props.act_always_divided", "Verif.Props.act_parsed_iff", "Verif.Props.act_quotations_closed", "Verif.Props.raised_digit_fails", "Verif.Props.quotation_in_list_fails"], "note": "added; Spec/Parsable.lean; the assumption on digits is needed (raised_digit_fails), and so are the ones on ny) (two_letters_fail of C29) and on quotations of several lines after a list in the same paragraph (quotation_in_list_fails); what is written in quotations, and lists in other paragraphs, do not matter; act_quotations_closed needs neither"},
 {"property": "C90", "status": "proved", "theorems": ["Verif.Props.act_data", "Verif.Props.produced_data", "Verif.Props.raw_text_data", "Verif.Props.pdf_data", "Verif.Props.act_data_returns", "Verif.Props.raw_text_data_returns", "Verif.Props.pdf_data_returns", "Verif.Props.act_data_tells", "Verif.Props.produced_data_tells", "Verif.Props.raw_text_data_tells", "Verif.Props.pdf_data_tells", "Verif.Props.missing_read"], "note": "added; Model/Objects.lean gives the objects of the classes, Spec/Data.lean the dictionaries; what the constructors compute for attributes with init=False is a parameter; different data needs that only parts are special, as the other classes do not have the attribute, which is proved for every act that is made (produced_data_tells)"},
 {"property": "C91", "status": "proved", "theorems": ["Verif.Props.pages_drawn", "Verif.Props.drawn_once", "Verif.Props.drawing_stops", "Verif.Props.width_returned", "Verif.Props.drawn_texts", "Verif.Props.latin2_codes", "Verif.Props.drawn_lines"], "note": "added; Model/Device.lean; pdfminer is any sequence of calls of the device, and str.upper and unicodedata.category are parameters"},
 {"property": "C92", "status": "partial", "theorems": ["Verif.Props.right_margin_partial", "Verif.Props.right_margin_too_great"], "note": "added; the code violates it on every page: it subtracts the width instead of adding it, so the margin is too great by twice the width of the last box (right_margin_partial gives the exact value, right_margin_too_great an instance)"},
 {"property": "C93", "status": "proved", "theorems": ["Verif.Props.session_not_needed", "Verif.Props.session_asks", "Verif.Props.session_fixups_fail", "Verif.Props.session_tells", "Verif.Props.session_adds", "Verif.Props.session_answers", "Verif.Props.issue_edited", "Verif.Props.others_as_before"], "note": "added; Model/Session.lean; what is printed is left out, and the editor and the user are parameters; that the acts of one issue have different identifiers is assumed for the last statements"},
 {"property": "C94", "status": "proved", "theorems": ["Verif.Props.lowest_component", "Verif.Props.lowest_refused", "Verif.Props.structural_lowest", "Verif.Props.structural_refused", "Verif.Props.element_lowest"], "note": "added; the structural version is called nowhere in the program"},
 {"property": "C95", "status": "partial", "theorems": ["Verif.Props.workers_transparent_partial", "Verif.Props.workers_never_wrong_partial", "Verif.Props.workers_end", "Verif.Props.same_issue_fails", "Verif.Props.same_issue_wrong"], "note": "Proved if a process is only started for an issue that no other process reads at this time, or whose lines are in the cache and not being written, and none is killed while it writes; if killed only while writing lines, others give the same or fail. The full property is false when one issue is read twice at the same time (it may be named twice on the command line): same_issue_fails, same_issue_wrong. Looking for a file and opening it is one step of the model."},
 {"property": "C96", "status": "proved", "theorems": ["Verif.Props.stored_lines", "Verif.Props.cached_lines", "Verif.Props.cached_lines_or_failure", "Verif.Props.cached_results", "Verif.Props.texts_printed", "Verif.Props.texts_printed_in_order", "Verif.Props.elements_printed", "Verif.Props.act_printed"], "note": "That gzip and json read what they have written is a hypothesis, about the data of lines only; it is met in the example, which goes from the characters of a file with two acts to the acts. 0 and 0.0 as a margin are not told apart. What pdfminer draws of a file is an arbitrary function of its contents."},
 {"property": "C97", "status": "proved", "theorems": ["Verif.Props.printed_acts_made", "Verif.Props.printed_steps_made", "Verif.Props.printed_files_written", "Verif.Props.printed_texts_written", "Verif.Props.printed_pages_written"], "note": "Composition of C46, C63, C81, C82, C86 and C96. The hypotheses are met in the example by an issue with two acts, from its characters to its acts, with the analyser of sentences. That gzip and json read what they have written is a hypothesis, about the data of lines only."}
]}
