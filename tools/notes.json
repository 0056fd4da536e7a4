{
 "C01": {
  "note": "all integers"
 },
 "C02": {
  "note": "postfix must not begin with a Roman letter or digit nor hold a line feed; counterexamples beyond that are proved"
 },
 "C06": {
  "status": "partial",
  "note": "the code violates it in one case, proved as next_numeric_not_greater: 2a is followed by 2/b, which is less; everything else is proved, and repetition is excluded in every case"
 },
 "C07": {
  "note": "sortedness is needed only for contiguity"
 },
 "C09": {
  "status": "partial",
  "note": "the code violates it: a start inside the last part gives an empty line (slice_loses_last_part); proved for every other start"
 },
 "C11": {
  "status": "partial",
  "note": "the code violates it: the first part of every line loses its weight (joined_loses_weight); text and place are proved in general"
 },
 "C13": {
  "status": "partial",
  "note": "the code violates the clause on blank lines (join_blank_line); the rest is proved in general"
 },
 "C15": {
  "note": "all references; totality for canonical identifiers"
 },
 "C16": {
  "note": "references into one act without gaps, range only in the last component; the code is not transitive otherwise (contains_not_transitive)"
 },
 "C17": {
  "note": "the converse needs a parent without gaps and of the same act, see claims_too_much"
 },
 "C18": {
  "note": "the condition on identifiers is the one of the property; needed, see idString_collision"
 },
 "C20": {
  "note": "everything reachable through the constructors; the type annotation of the children of articles is taken as given, as the code does not check it"
 },
 "C21": {
  "note": "every act whose siblings have different identifiers; points below an unnumbered paragraph included"
 },
 "C22": {
  "note": "identifiers without leading zeros; an element without children gives KeyError instead of nothing, as proved"
 },
 "C23": {
  "status": "partial",
  "note": "the code violates it for filters with a range above the last component (range_above_hides); proved for every other filter. Parents first: for modifiers that do not change the children of what they are given"
 },
 "C24": {
  "note": "every modifier; the recursion limit is a parameter and 3 is enough"
 },
 "C25": {
  "status": "partial",
  "note": "the code loses text in three cases, each proved (coarse_points_lost, third_title_line_lost, below_special_part_lost); proved for all lines whose last part is one character, as PDF lines are, and titles on at most two lines"
 },
 "C26": {
  "note": "every list of lines that parses; 'next' is specified by the alphabet and number values, not by the code"
 },
 "C27": {
  "status": "partial",
  "note": "the code violates it for a quote left open in the preamble (article_in_open_quote) and for lines with one part (subpoints_in_coarse_quote); proved for all other lines"
 },
 "C28": {
  "status": "partial",
  "note": "ties are excluded in general; the choice of the first header is violated when that kind has a single header (later_kind_chosen), proved otherwise"
 },
 "C29": {
  "status": "partial",
  "note": "errors are proved for all inputs; the clause on letters is violated for ny, sz, gy, ty (two_letters_fail, digraphs_not_read)"
 },
 "C30": {
  "status": "partial",
  "note": "the code violates it: every act with an announced amendment that cannot be parsed fails as a whole (failed_amendment_fails_act, for all such acts); proved that nothing else changes and that acts whose announced amendments can be parsed do parse; which acts go through exactly is stated in C88 (amendments_made_exactly)"
 },
 "C31": {
  "status": "partial",
  "note": "the code loses wrap-ups, brackets, lines before the first header and the word None (wrap_up_lost, wrap_up_ends_lost, brackets_lost, lines_before_header_lost, none_lost); proved that all other quoted lines and the introduction are kept"
 },
 "C34": {
  "status": "partial",
  "note": "the code violates it: a full stop is added to the end of an element, and a reference may include it, one character beyond the text (reference_beyond_text); proved for all elements that get no full stop, and with this one character otherwise"
 },
 "C35": {
  "status": "partial",
  "note": "the code violates it inside one list: a wrap-up influences the points before it (later_text_influences), and the definition of an intro hides a later one in a point (later_definition_hidden); proved in terms of the definitions recorded on the elements in document order, and that later articles have no influence"
 },
 "C36": {
  "status": "partial",
  "note": "the code violates it: when a definition is removed, kept articles go on using it (stale_definition); proved whenever the replaced articles up to each removed definition define something"
 },
 "C37": {
  "status": "partial",
  "note": "the code violates it when a range is written between two consecutive single items: the single items are added first and merged, and the references overlap (references_overlap); proved for lists in which nothing is between items that are merged, in particular for those whose items are added in text order (listed_in_order). Collecting raises IndexError only for a subpoint of two letters followed by one that is its first letter (collecting_succeeds, short_subpoint_fails)"
 },
 "C40": {
  "status": "partial",
  "note": "the code violates it: a common ending that begins inside the last part of the line is lost (replacement_loses_text), and an empty replacement removes the line (empty_replacement); replaced_line says exactly what happens in all cases, and replacement_exact_partial is the property for lines whose last part is not longer than one character"
 },
 "C44": {
  "status": "partial",
  "note": "the code violates it for every gazette: the first page is there twice (first_page_twice); the other results are exactly the pages, in order"
 },
 "C45": {
  "status": "partial",
  "note": "order, disjointness and independence are proved for all lines; the body is consecutive lines except for one footnote, which the code removes on purpose (footnote_removed); consecutive if no line begins with an asterisk"
 },
 "C51": {
  "note": "added with the model of the section extractor"
 },
 "C46": {
  "status": "partial",
  "note": "Proved for pages on which no two boxes have the same place, before and after rows are merged. Otherwise it is false: merged_box_lost, first_box_kept, same_place_fails, empty_page_fails."
 },
 "C47": {
  "status": "partial",
  "note": "Proved for histories in which no process is killed while it writes a file; and if it is not killed while it writes the downloaded file, later ones give the same lines or fail. The full property is false: killed_while_writing, killed_while_downloading. Processes that run at the same time are the subject of C95."
 },
 "C48": {
  "status": "proved",
  "note": "if references overlap or are empty the code raises AssertionError instead of a page; links_made_iff says exactly when"
 },
 "C49": {
  "status": "partial",
  "note": "the code violates it: an unnumbered paragraph has the id of its article (unnumbered_paragraph_same_id), and all elements in amendments have the empty id (amended_same_id). Proved: class and id together are unique if points are numbered; ids that are not empty are unique if all elements are numbered"
 },
 "C52": {
  "note": "added with the model of HTML output"
 },
 "C53": {
  "note": "added with the model of HTML output"
 },
 "C50": {
  "status": "partial",
  "note": "the code violates it for width 0, which prints to the standard output (width_zero_to_stdout); proved for every other width, in particular for the default"
 },
 "C54": {
  "note": "added with the model of text output; textwrap.wrap is any function that keeps everything but spaces"
 },
 "C38": {
  "status": "partial",
  "note": "the code violates it for unions with enums or tuples that others can be taken for (enum_comes_back_as_name), for classes of the same name in Type[...] (class_comes_back_as_other) and for attributes with two leading underscores; proved for all accepted types whose unions have members that can be told apart, which holds for all classes of the project (C55)"
 },
 "C39": {
  "status": "partial",
  "note": "the code violates it for unions with enums and tuples (enum_str_order, two_enums_accepted, tuples_accepted); proved for simple types, lists and classes with attributes, and accepted_iff says exactly when a union is accepted"
 },
 "C55": {
  "note": "added with the model of the classes of the project; what __init__ computes is any function that respects equality"
 },
 "C56": {
  "note": "added to make C25-C27 complete: which lines begin an element. The forms of headers are those the code reads, without gy) and ty) (C29); amendments may announce another first identifier (announced_not_checked), and ny is followed by nothing below numbered points (digraph_ends_subpoints)"
 },
 "C57": {
  "note": "added with the model of the grammatical analyser, first for any parser that gives places inside the sentence and in order (NodePlaced); the parser of the grammar does (C69)"
 },
 "C58": {
  "status": "partial",
  "note": "the code violates it if an insertion begins within or before what is amended and is not inside it (inserted_not_covered, amended_not_covered), and for lists of several amended references, which are forgotten (amended_list_forgotten) or make the analysis fail (amended_list_with_subtitle_fails); proved for insertions after and inside what is amended; sentences for the last two are in sentence_amendments_fail"
 },
 "C59": {
  "note": "added with the model of the grammatical analyser; Spec/Grammar.lean says what each kind of node tells"
 },
 "C60": {
  "note": "added with the model of ptke_article_header_fixer"
 },
 "C61": {
  "status": "partial",
  "note": "added to state what headers are shown; the code violates it for postfixes in small letters and those that begin with a Roman letter (shown_roman_reads_back_fails); proved for books and parts and for titles and chapters with other postfixes"
 },
 "C62": {
  "note": "added because wrong versions of these two were not noticed by other theorems"
 },
 "C63": {
  "note": "reading and cutting an issue up is described by the functions of C44, C45 and C51"
 },
 "C64": {
  "note": "discharges the hypothesis Built of C20-C24, C32-C36, C48-C50 and C52-C54 for acts made by the program"
 },
 "C65": {
  "status": "partial",
  "note": "exactly which replacements are extracted, with the shortest context that tells a line apart, is proved in full; that they give the edited texts needs lines that can be cut, no emptied line and nothing changed like the last line; that they can be made needs fresh new texts; six counterexamples are proved, in one of them the wrong line is replaced without complaint"
 },
 "C66": {
  "status": "partial",
  "note": "texts without line ends, less than a hundred thousand open quotes (counterexample proved); reading back and the line to open at are proved in full"
 },
 "C67": {
  "status": "partial",
  "note": "a file of its own for every act needs distinct names, and a file in the directory a name without slashes; acts of the same name and a name that leads elsewhere are proved to be possible; argparse, directories and failures to open files are not modelled, printing of json and xml are parameters"
 },
 "C68": {
  "status": "partial",
  "note": "texts and titles that are only spaces, amendments whose end is not between brackets or has no context, and titles of articles on three lines are left out, for which text is lost (proved); headers of titles and chapters are shown in usual Roman numerals; wrapping is assumed to keep everything but spaces"
 },
 "C69": {
  "note": "added with the model of grammar.ebnf; what TatSu does with the constructs of the grammar is trusted from its documentation"
 },
 "C70": {
  "note": "added with the model of grammar.ebnf; the exceptions in the statement are needed, witnesses in sentences_not_analysed and sentence_amendments_fail; an exception in one sentence fails the whole act, see DESIGN.md"
 },
 "C71": {
  "note": "added with the model of grammar.ebnf; what counts as ordinary is Spec.Ordinary; a capitalised word before a full stop is left out because the grammar takes it for an act, witness capitalised_word_is_act"
 },
 "C72": {
  "note": "added; what data says is Spec.ReadAs; data for simple types is not looked at, the length of tuples is not checked and strings are read as lists of characters, so the result need not be of the type: witnesses simple_data_unchecked, tuple_length_unchecked, other_data_read_as_list"
 },
 "C73": {
  "note": "added with the model of grammar.ebnf; the ways to state changes are those of Spec.States; amendments with subtitles or structural units are not among them (C77); for several parts replaced by one block the program reports no change (Spec.Reports.amendSeveral, witness sentence_amendments_fail)"
 },
 "C74": {
  "status": "partial",
  "note": "added; proved if no process is killed while a file has its first line but is not whole; without this it fails (killed_generating, killed_twice); assumes that hashes do not collide and that a parser can be generated if a model can"
 },
 "C75": {
  "status": "partial",
  "note": "added; HTMLParser is not modelled, a page is the sequence of its events; reading back fails if the number of an act has a comma or a text has quotes (row_not_read_back)"
 },
 "C76": {
  "status": "partial",
  "note": "added; the code violates it: sentences without one of six telling words, or longer than 10000 characters, are not looked at, and what they say is lost (sentences_lost, nothing_recorded); proved for the sentences that are looked at, which all sentences of Spec.States not longer than this are; silent_partial says what can be lost for want of a telling word; the same for sentences of Spec.StatesStructural, of which those that only add divisions may have no telling word"
 },
 "C77": {
  "note": "added with the model of grammar.ebnf; the ways to state changes are those of Spec.StatesStructural; sentences that could be read as naming a subtitle by its title are left out (Spec.NoTitle) unless this is what they do; a new part with the usual ending (Résszel, which is not Rész with something added) is not reported, witness new_part_missed"
 },
 "C81": {
  "note": "added; the usual way is Spec.BodyWritten (Spec/Usual.lean), a grammar of acts stated over lines; sample_written is an act with a chapter, a title, a list with a closing text and a quotation; lines have one part for each character, as those made from a PDF do (C46)"
 },
 "C82": {
  "note": "added; Spec/WrittenAmendments.lean; sample_amended is an act with a quotation of an amended and a new article; empty quoted lines and several quotations in a paragraph are left out"
 },
 "C83": {
  "note": "added; textwrap.wrap is a parameter; acts with a number directly before an amendment (number_repeated, C54) or with blank texts are left out, the first are never made"
 },
 "C84": {
  "note": "added; Spec/Page.lean; printing of elements to HTML text is that of ElementTree and left out"
 },
 "C85": {
  "note": "added; Spec/Style.lean; style.css is read as a list of rules, BeginsIn asks it of all rules for the class, so that their order does not matter"
 },
 "C86": {
  "note": "added; Spec/Understood.lean; exact for the analyser of the program; texts with several list endings are left out"
 },
 "C87": {
  "note": "added; for the analyser of the program; induction over the rules of the grammar and over the levels of a reference"
 },
 "C88": {
  "note": "added; each step is stopped exactly at the first of its paragraphs or elements where there is a reason (semantics_stopped: for texts that end as texts in lists do); all exceptions that are left happen (exceptions_happen)"
 },
 "C89": {
  "note": "added; Spec/Parsable.lean; the assumption on digits is needed (raised_digit_fails), and so are the ones on ny) (two_letters_fail of C29) and on quotations of several lines after a list in the same paragraph (quotation_in_list_fails); what is written in quotations, and lists in other paragraphs, do not matter; act_quotations_closed needs neither"
 },
 "C90": {
  "note": "added; Model/Objects.lean gives the objects of the classes, Spec/Data.lean the dictionaries; what the constructors compute for attributes with init=False is a parameter; different data needs that only parts are special, as the other classes do not have the attribute, which is proved for every act that is made (produced_data_tells)"
 },
 "C91": {
  "note": "added; Model/Device.lean; pdfminer is any sequence of calls of the device, and str.upper and unicodedata.category are parameters"
 },
 "C92": {
  "status": "partial",
  "note": "added; the code violates it on every page: it subtracts the width instead of adding it, so the margin is too great by twice the width of the last box (right_margin_partial gives the exact value, right_margin_too_great an instance)"
 },
 "C93": {
  "note": "added; Model/Session.lean; what is printed is left out, and the editor and the user are parameters; that the acts of one issue have different identifiers is assumed for the last statements"
 },
 "C94": {
  "note": "added; the structural version is called nowhere in the program"
 },
 "C95": {
  "status": "partial",
  "note": "Proved if a process is only started for an issue that no other process reads at this time, or whose lines are in the cache and not being written, and none is killed while it writes; if killed only while writing lines, others give the same or fail. The full property is false when one issue is read twice at the same time (it may be named twice on the command line): same_issue_fails, same_issue_wrong. Looking for a file and opening it is one step of the model."
 },
 "C96": {
  "note": "That gzip and json read what they have written is a hypothesis, about the data of lines only; it is met in the example, which goes from the characters of a file with two acts to the acts. 0 and 0.0 as a margin are not told apart. What pdfminer draws of a file is an arbitrary function of its contents."
 },
 "C97": {
  "note": "Composition of C46, C63, C81, C82, C86 and C96. The hypotheses are met in the example by an issue with two acts, from its characters to its acts, with the analyser of sentences. That gzip and json read what they have written is a hypothesis, about the data of lines only."
 }
}