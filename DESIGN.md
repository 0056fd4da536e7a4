# A machine-checked model of hun_law

The code under /repo (badicsalex/hun_law, Python) is modelled in Lean 4 as computable
functions, one Lean definition per Python function, each with a comment giving file and
lines. The properties of `properties.jsonl` are theorems about that model.

## Layout

| path | contents |
|---|---|
| `lean/Verif/Py/*` | the Python notions the code rests on: texts, exceptions, `int()`, digits, letter case |
| `lean/Verif/Model/*` | the model, function by function |
| `lean/Verif/Spec/*` | small specifications that do not use the model's helpers |
| `lean/Verif/Proofs/*` | helper lemmas |
| `lean/Verif/Props/*` | the property theorems named in `MANIFEST.json`, each followed by an `example` meeting its hypotheses |

## Conventions of the model

* A Python `str` is a `List Char` (`Str`). Lone surrogates cannot be written; nothing in the code looks at them.
* Exceptions are values: `Except Err α`, one constructor of `Err` per exception class the code raises or catches.
  `except` clauses are modelled by matching on the class.
* A generator is modelled by the list of what it yields and the exception it ends with, if any, because
  consumers such as `next()` may stop before the exception.
* `float` coordinates are exact rationals (`Rat`); rounding of floating point sums is not modelled.
* Objects are values: `is` is equality. Where the code compares with `is not` only to avoid copying, this
  gives the same value.
* A regular expression is modelled by a hand-written matcher; the comment beside it quotes the expression.

## Trusted base

* Lean's kernel (the gate replays every declaration through it), and the axioms `propext`,
  `Classical.choice` and `Quot.sound`. No other axiom, no `sorry`, no compiled evaluation.
* The reading of the Python code: that each definition says what the cited lines do.
* TatSu 4.3.0 is not in /repo. What the parser it generates does with the constructs used in `grammar.ebnf` (order of
  choices, greedy repetition, whitespace before tokens and rules but not before patterns, `nameguard`, `parseinfo`) is
  modelled in `Model/Peg.lean` from its documentation, and trusted; every rule of the grammar is in `Model/ActGrammar.lean`.
  `isalpha` and `isalnum`, which decide where a word ends, are simplified beyond U+024F.
* As a check of that reading (not a proof of anything) `tools/conformance/run.py` takes the expected values of the tests of
  the project, read as text, and runs the model on them: the 190 sentences of tests/cheap/grammar, the 19 acts of
  tests/cheap/structure/data, the 36 elements of test_semantic_parser.py and 363 asserts of test_structure_classes.py and
  test_utils.py all come out as expected; so do the texts of test_block_amendment_parsing.py, compared by eye.
* Not modelled, taken as arbitrary parameters or left out: pdfminer (C91 is about any sequence of calls of the
  device; C32-C36 are about an arbitrary analyser, C57-C59 about the converters of `grammatical_analyzer.py` behind an arbitrary
  parser, C69 about the parser of the grammar), `str.upper` and `unicodedata.category` in C91, `attrs` itself, gzip/json/OS calls
  (an abstract file store), `textwrap`, `xml.etree` printing, `argparse`, the file system
  of the command line beyond the texts of files by their paths.
* `style.css` is copied into `Model/Style.lean` as a list of rules with their selectors as text; rules of browsers and which of two
  rules wins are left out.
* The table of `replacement_fixups.py` is copied into `Model/SavedFixups.lean` by `tools/fixups.py`, which reads it as text; that
  the copy is right is trusted.
* About an arbitrary parser C57 assumes `NodePlaced`: what it recognises has its place in the text, the parts of a reference
  are inside the whole, deeper levels come after the ones above, and the single items of a level are in order. The parser of
  the grammar is proved to be such a parser (`parse_placed`).
* In `dict2object.py`: what `__init__` computes is an arbitrary function; NaN, classes with a metaclass in unions with
  `Type[…]`, and objects of classes below a simple type (such as bools where an int is declared) are not values of types.

## Disagreements between the code and the properties

Each is a theorem with a concrete witness; the property itself is then proved with the hypothesis that excludes it.

| property | what the code does | theorem |
|---|---|---|
| C05 | `01` and `1` are different but neither is before the other | `leading_zero_incomparable` |
| C06 | point `2/b` is accepted after `2a`, but is less than it | `next_numeric_not_greater` |
| C09 | a slice that starts inside the last part of a line is empty: text is lost | `slice_loses_last_part` |
| C11 | the first part of every line loses its weight when lines are joined | `joined_loses_weight` |
| C13 | a blank line between joined lines adds a second space | `join_blank_line` |
| C16 | containment is not transitive for a range above the last component | `contains_not_transitive` |
| C17 | a relative reference claims to be the parent of every absolute one, and one with a gap of references it is not an ancestor of | `claims_too_much` |
| C18 | identifiers that hold the word `slash` collide with the slash | `idString_collision` |
| C20 | an element with neither text nor children can be built | `empty_element` |
| C22 | a range of points of a paragraph without children is a KeyError, not the empty result | `range_of_points` |
| C23 | a filter with a range above its last component hides elements that it contains | `range_above_hides` |
| C25 | the text of points is lost if a line has one part for all of its text (the last part is not cut, C09) | `coarse_points_lost` |
| C25 | of a title on three lines the second line is taken twice and the third is lost | `third_title_line_lost` |
| C25 | lines between the name of a general or special part and the next header are lost | `below_special_part_lost` |
| C27 | quotes are not counted in the preamble: an article may begin inside one | `article_in_open_quote` |
| C27 | an opening quote on a line with one part is lost, so subpoints may begin inside it | `subpoints_in_coarse_quote` |
| C28 | a kind of points with a single header is passed over for a kind whose header comes later | `later_kind_chosen` |
| C29 | points `ny)` and `sz)` with subpoints fail with a ValueError inside; `gy)` and `ty)` are not recognised | `two_letters_fail`, `digraphs_not_read` |
| C30 | an announced amendment that cannot be parsed makes the whole act fail: `except SubArticleParsingError` never catches what `BlockAmendmentStructureParser.parse` raises | `failed_amendment_fails_act`, `failed_amendment_witness` |
| C31 | the wrap-up of an amended paragraph is lost, or loses its first and last character; brackets around the context are lost | `wrap_up_lost`, `wrap_up_ends_lost`, `brackets_lost` |
| C31 | lines before the first header of an amended structural element are lost; a first line `None. …` is taken for an unnumbered point | `lines_before_header_lost`, `none_lost` |
| C34 | a full stop is added at the end of an element, and a reference that includes it is one character longer than the text | `reference_beyond_text` |
| C35 | a point is read together with the intro and the wrap-up of its paragraph: definitions in the wrap-up have an influence on earlier points, and the definition of an intro hides a later one in a point | `later_text_influences`, `later_definition_hidden` |
| C36 | only new definitions cause the rest to be read again: if a definition is removed, other articles keep the act it meant | `stale_definition` |
| C37 | of one level, single items are added before ranges: in `1., 1/A–1/C. és 2. §` the items 1 and 2 are merged over the range between them | `references_overlap`, `sentence_references_overlap` |
| C38 | in a union of an enum and `str` the enum comes back as its name; of classes of the same name in `Type[…]` another one comes back; an attribute with two leading underscores does not come back | `enum_comes_back_as_name`, `class_comes_back_as_other`, `underscores_do_not_come_back` |
| C39 | what a member becomes is compared with what the values of earlier ones are, not with what they become: unions of enums, of tuples, of an enum and then `str`, of a tuple and then a list are accepted | `enum_str_order`, `two_enums_accepted`, `tuples_accepted` |
| C40 | the ending common to the old and the new text is lost if it begins inside the last part of the line; an empty replacement removes the line | `replacement_loses_text`, `empty_replacement` |
| C65 | `count_sublists` does not look at the end of the lines: of three equal lines of which the last is changed the second one is replaced without complaint; a line like the last one cannot be replaced | `wrong_line_replaced`, `like_last_line_fails` |
| C65 | other replacements that are saved and then fail for ever: two lines swapped, a first line that occurs again (a negative index gives an empty context), a line changed to the text of the line above it; a line that is emptied is removed | `swapped_lines_fail`, `first_line_fails`, `like_line_above_fails`, `emptied_line_removed` |
| C66 | the number of open quotes is cut after five characters | `many_quotes_break` |
| C67 | `html` with `raw_act` is accepted; it empties the file of an act, then raises a TypeError | `raw_page_empties` |
| C67 | of two acts of the same name only one has a file | `same_name_lost` |
| C67 | the name of an act is a whole line of the issue and may have slashes: its file is then not in the output directory | `path_leads_out` |
| C68 | what follows the quoted text of an amendment is not printed if nothing in brackets comes before it | `wrap_up_not_printed` |
| C44 | the first page of the gazette is there twice, cut after its fifth and after its second line | `first_page_twice` |
| C45 | a footnote is removed from the body of an act; a second blank line above the title makes the act disappear | `footnote_removed`, `second_blank_line` |
| C46 | a box that merging of rows brings to the place of another one is lost; of boxes at one place the first in the order is kept; different texts at one place or a page without lines fail. | `merged_box_lost`, `first_box_kept`, `same_place_fails`, `empty_page_fails` |
| C47 | a process killed while it writes a file leaves part of it, which later processes take for the whole: they fail for ever, or give other lines for ever | `killed_while_writing`, `killed_while_downloading` |
| C49 | an unnumbered paragraph has the id of its article; all elements in amendments have the empty id | `unnumbered_paragraph_same_id`, `amended_same_id` |
| C50 | width 0 prints to the standard output instead of the file | `width_zero_to_stdout` |
| C58 | an insertion that begins within what is amended and goes on after it is not covered by the position; if it begins before it, part of what is amended is not covered either | `inserted_not_covered`, `amended_not_covered` |
| C58 | if several references are amended they are forgotten, and with an insertion this is called a pure insertion; together with a subtitle they raise AttributeError, which fails the whole act | `amended_list_forgotten`, `amended_list_with_subtitle_fails`, `sentence_amendments_fail` |
| C70 | a list with a subpoint of two letters and after it one of the first letter alone (`aa) és a)`) raises IndexError in `AlphabeticSubpoint.is_next_identifier`, and a date like February 30 ValueError; either fails the whole act | `sentences_not_analysed` |
| C71 | a word with a capital letter directly before a full stop is taken for the abbreviation of an act, so `… dönt a Kormány.` is reported to refer to an act `Kormány.` | `capitalised_word_is_act` |
| C73 | (not a violation of the statement) if several parts are replaced by one block of text (`5. és 7. §-a helyébe …`) nothing is reported of the change | `Reports.amendSeveral`, `sentence_amendments_fail` |
| C77 | (not a violation of the statement) a new part named in the usual way, `… Első Résszel egészül ki`, is not reported, because `Résszel` is not `Rész` with an ending added (grammar.ebnf:135); `A Ptk. alcíme és 5. §-a helyébe …` is not reported either, because `alcíme` is taken for a subtitle with an empty title; several articles with a subtitle that are not one, a range or two with consecutive numbers fail the whole act | `new_part_missed`, `subtitle_before_articles_missed`, `division_analysed` |
| C79 | (a condition of the statement) nothing checks that the articles of an act have different numbers; of two with the same number only the last one is found at its reference | `articles_same_number` |
| C80 | (conditions of the statement) an act with a paragraph that has only a number, or that quotes nothing, can be made but not shown; an act that mentions "1., 1/A–1/C. és 2. §" gets references that overlap, so no page can be made of it | `empty_text_not_shown`, `empty_quotation_not_shown`, `overlapping_not_shown` |
| C72 | what is read need not be of the type: data for `int`, `str` and the like is not looked at, missing elements of a tuple are not noticed, a string is read as the list of its characters and a dictionary as the list of its keys | `simple_data_unchecked`, `tuple_length_unchecked`, `other_data_read_as_list` |
| C74 | a process killed while it writes `parser.py` (or, after another one was killed, `model.py`) leaves part of it with the right first line, which is then taken for the whole | `killed_generating`, `killed_twice` |
| C75 | quotes in texts are not doubled and numbers of acts are never quoted, so such lines are read back as something else | `row_not_read_back` |
| C76 | sentences without any of `)`, `§`, `törvén`, `hely`, `hatály`, `Hatály` are not analysed: `A Ptk. szerint jár el.`, `Az 5. pont szerint jár el.`, `A 2013. évi V. tv. szerint jár el.`, and even `A Ptk. a következő II. Fejezettel egészül ki:`; neither are sentences longer than 10000 characters | `sentences_lost`, `nothing_recorded` |
| C34, C35, C36 | the violations above happen with the grammar of the program too, not only with some analyser | `program_reference_beyond_text`, `program_later_text_influences`, `program_later_definition_hidden`, `program_stale_definition` |
| C61 | postfixes of titles and chapters in small letters are shown in capitals, and a postfix beginning with a Roman letter is shown as if it belonged to the number | `shown_roman_reads_back_fails` |
| C56 | (not a violation of the statement) amendments do not check the first announced identifier; below numbered points `ny)` is not followed by `o)` | `announced_not_checked`, `digraph_ends_subpoints` |
| C54 | the number of an element whose text is only spaces is lost; the lines of an amendment directly below a number all repeat it | `blank_text_loses_number`, `number_repeated` |
| C92 | the right end of a box is computed as x − width, so that every right margin is too great by twice the width of the last box | `right_margin_partial`, `right_margin_too_great` |
| C95 | two processes that read one issue at the same time: the second fails on the file the first has just created, or both give the lines of a part of the downloaded file, for ever | `same_issue_fails`, `same_issue_wrong` |

## Plan per property

| id | what is modelled | how it is proved |
|---|---|---|
| C01 | `int_to_text_roman`, `text_to_int_roman*` | greedy writing, greedy reading; induction over the table and the number |
| C02 | `arabic_to_roman_with_postfix` and back | from C01, with the border condition as hypothesis and counterexamples beyond it |
| C03 | ordinal tables, `lower()` | the table is finite: checked entirely, lifted to all integers and all texts |
| C04 | `split_identifier_to_parts`, `identifier_less` | parts alternate text/number; tuple order is lexicographic |
| C05 | same | canonical identifiers are determined by their parts |
| C06 | the `is_next_*` functions | case analysis per numbering style; chain lemma by induction |
| C07 | `cut_by_identifier` | induction over the list |
| C08 | `Date`, proleptic Gregorian ordinals of `datetime` | inverse functions between dates and day numbers |
| C09, C10 | `IndentedLine.slice` | loop invariant over the parts; negation by witness for the lost last part |
| C11 | `from_multiple` | induction; negation by witness for boldness |
| C12 | `iterate_with_quote_level` | induction over lines |
| C13 | `join_line_strs` | induction |
| C14-C19 | `Reference` | algebra over five components; id strings by an encode/decode argument |
| C20-C24 | `SubArticleElement`, `Article`, `Act` | constructor invariants; induction over trees |
| C25-C29 | `structure_parser.py` | partition lemmas per parser, composed up to the whole act; negations by witness where text is lost |
| C56 | the same | an inductive description of which lines begin an element, with the forms of headers as texts; induction over lines |
| C30, C31 | `BlockAmendmentStructureParser`, `ActBlockAmendmentParser` | exception classes followed branch by branch |
| C32-C36 | `semantic_parser.py` with an arbitrary analyser | induction over the tree with the parser state |
| C37 | `ReferenceCollector` | invariant over insertions; it fails only where the identifiers of two subpoints cannot be compared |
| C57-C59 | the converters of `grammatical_analyzer.py`, behind an arbitrary parser | each converter refines an inductive description of what a node tells; places follow from the collector's neighbours |
| C69 | every rule of `grammar.ebnf` over a model of the runtime | each rule is sound for how its result is written, a relation between the value and the text read; rules compose along sequence, choice and repetition |
| C70 | the same, with all converters | the rule for any token reads whatever is there, so the loop of the last alternative ends only at the end of the text; every converter succeeds on what is written as the grammar has it (from C69) |
| C71 | the same | a small grammar of ordinary sentences is stated apart from the model (`Spec/Ordinary.lean`); each of its pieces is read by the rule that should read it and by no earlier alternative, by induction on the sentence; special sentences are excluded by their wording (C69) |
| C73 | the same | the usual forms of sentences that change the law are stated as texts (`Spec/Changes.lean`, `States`), and apart from this what should be reported of them (`Reports`); for each form the tree that the grammar builds is computed for all its parts: earlier alternatives stop at a word that they cannot read, and the right one reads each piece (C71's lemmas); what the converters tell of the tree is from C57-C59 |
| C77 | the same | as for C73, with the forms of `Spec/Structural.lean` (`StatesStructural`) and what should be reported of them (`ReportsStructural`); `references` comes before the structural forms in each alternative, so for each name of a division it is shown that no reference can be read there |
| C76 | `semantic_parser.py` with the concrete grammar | the sentence of an element is stated apart from the model (`Spec/Recorded.lean`, `SentenceOf`); C35 says what is recorded of what the analyser says, C71 and C73 what the analyser says; all sentences of C73 have a telling word |
| C38, C39 | `dict2object.py` over a universe of types | induction over values |
| C55 | all classes in an act, a raw text or a PDF, as a table | the conditions of C38 are computed once from the table |
| C72 | `to_object` on any data | which member the data is taken for is stated apart from the dictionaries of the converters (`Spec/FromData.lean`); induction over the data, and over the type for strings |
| C74 | `grammar/__init__.py` with TatSu and SHA-256 as parameters | a transition system with kills between any two pieces of a file, as for the cache; invariant of what each file may hold |
| C75 | `generate_act_to_mk_issue.py` behind the events of `HTMLParser` | induction over the texts; a reader of comma separated values is the specification |
| C40-C42, C60 | `fixups/common.py` | loop invariants; an inductive description of which lines are moved (C60) |
| C65, C66 | `fixup_editor.py` with the editor as a parameter, the registrations of `text_fixups.py` | the lines before a changed line are as edited, so its context is found there; induction over the lines |
| C78 | the table of `replacement_fixups.py`, copied by `tools/fixups.py` | a fix-up that needs a text and removes it, which no other one brings back, cannot be made twice; that each act has such a one, and the other facts about the finite table, are computed by the kernel |
| C79 | acts that are made (C64), lookup (C21), pages (C49), id strings (C18) | the header expressions give each number its form and `is_next_identifier` makes siblings different (C26); block amendments replace quotations only and semantic data changes no number, so this is kept by both steps (`Fit`); a number of such a form can be written into an id string |
| C80 | pages (C48, C49), texts (C46), acts that are made (C64) | induction over elements for each writer: it succeeds on an element exactly if the conditions hold for it and all elements in it (`htmlNode_iff`, `writeNode_iff`); the header of a structural element that was parsed can be written again (`struct_headed`); recorded references are those of an analysis, cut to the element (C69), which keeps them apart (`apart_cut`) |
| C81 | `structure_parser.py` | a grammar of acts over lines is stated apart from the model (`Spec/Usual.lean`, `BodyWritten`); each parser is shown to succeed on what is written for it and to give the node that is written, from subpoints up to acts; that parsers tried earlier find nothing follows from C56's equivalences for headers |
| C82 | `semantic_parser.py`, `structure_parser.py` | the grammar of C81 is stated for amendments too (`AmendmentWritten`), where text after lists is told by the right margin; the parser for the kind that is named last is shown to read it; what the sentence announces comes from C73–C75 (`WrittenAsAnnounced`), what is split off in brackets from C34; acts are put together from their paragraphs |
| C83 | `txt.py` | boxes are stated as a relation apart from the prefixes that the writers pass on (`Spec/Layout.lean`, `Box`); by induction over trees what is printed after a prefix is the box beside this prefix |
| C84 | `html.py`, the document in `cli.py` | cells are stated apart from elements (`Spec/Page.lean`, `cells`), and which element shows which cell (`ShownBy`); induction over trees; indenting by induction over elements (`SameElem`) |
| C85 | `style.css`, `html.py` | which classes there are in cells, by induction over trees (`cells_styled`); the table of their columns is checked against the rules |
| C86 | `semantic_parser.py`, the pipeline | that an act is made from its parts again follows from its being made before (`mkSae_again`); references can be sorted if they end at different places; induction over trees; with C81, C82 and C76 this gives all steps for acts that are written in the usual way |
| C87 | `grammatical_analyzer.py`, `semantic_parser.py` | every rule of the grammar puts its references one after the other (`parse_spread`), and the merged items of a level end at the ends of different items (`iterLevels_ends`), so all ends are different |
| C88 | `semantic_parser.py`, the pipeline | each step is a walk over paragraphs or elements that stops at the first one that raises (`StopsAt`); the reasons are stated apart from the walks (`Spec/Stopped.lean`); that `BlockAmendmentStructureParsingError` gets through is C30's disagreement |
| C89 | `structure_parser.py` | the division of an act into elements is stated as a relation (`Spec/Parsable.lean`, `Pieces`) that exists for all lines and decides what the loop does; below it every parser is shown to succeed or to find nothing on all lines, from subpoints up to articles, so that only titles and empty headings of articles can fail; the paragraphs of an article are a relation as well (`ParagraphDivision`); paragraphs with `ny)` or `sz)` outside quotations, or with a list before a quotation of several lines, are left out, and the code does fail on such ones (`quotation_in_list_fails`: the text after a list is looked for by the indent even inside of a quotation, and both halves are then refused for their quotation marks) |
| C90 | `dict2object.py`, the classes | the objects that the acts, raw texts and lines of the model are (`Model/Objects.lean`) are written as exactly the dictionaries of `Spec/Data.lean`, by induction over how elements are made; reading back is C55; the values of attributes with `init=False` are a parameter, and the validators are not run again when data is read, as the same attributes have passed them |
| C91, C92 | the device of `pdf.py` and what comes after it (C46) | induction over the calls of the device (`run_page`, `run_pages`, `run_ok`); what a call draws is a relation that determines the box |
| C93 | `fixup_editor.py`, the pipeline (C63, C65) | induction over the rounds of a session (`session_induction`); the fix-ups of an act depend on what is saved for it only |
| C94 | `structure.py` | cases of what is there; for elements of acts the form of their numbers (C79) |
| C61 | `formatted_identifier` of structural elements | round trips of C02 and C03, and the forms of headers of C56 |
| C62 | `IndentedLine.bold`, `split_list` of `utils.py` | induction over parts and lists |
| C43 | `extractors/all.py` | permutation argument over schedules |
| C63 | the extractors registered by `act.py`, `magyar_kozlony.py`, `pdf.py` and the downloader, with reading an issue as a parameter | the work list refines a composition of the steps; each step lowers the rank of a class, so it ends; that the lines of acts keep the order of the issue is an induction over pages (`sectionLoop_order`) and over acts that are cut out |
| C64 | the same | each constructor call keeps `Built`; induction over the parsers and the two later passes |
| C67 | `cli.py`, the head of the page in `html.py` | what the loop has written when it ends, by induction over what is extracted |
| C44-C46 | `magyar_kozlony.py`, `pdf.py` | state machine invariants, sorting lemmas |
| C51 | the section extractor of `magyar_kozlony.py` | induction over pages |
| C47 | `cache.py`, cached parser, crash points | transition system; negation for a crash inside a write |
| C95 | the workers of `all.py` with one cache | transition system of any number of processes; invariant for each issue; negation for one issue read twice at once |
| C96 | the whole of reading: drawing (C91), lines (C46), the cache (C95), `dict2object` (C90), extraction (C63) | the world of C95 with its functions filled in; what is read back stands for the lines that were stored (`pdfOf_read`), by computing `to_object` on their data; the order of rows comes from C46 and C63; the rest is composition |
| C97 | the whole program, for issues whose acts are written in the usual way (the grammar of C81 and C82): no exception, and exactly the acts that are written | `printed_fine`: a line of a printed text has one character in each part, by C46 and C96, so what is written is read (C81, C82, C86); `pipeline_succeeds` (C63) for all schedules; the files by `files_written` (C67), the text files also because semantic data is not printed in them (`writeAct_strip`), the pages by C80 (`produced_page_late`), whose conditions do not depend on semantic data (`content_strip`, `stripAct_said`) |
| C48-C50, C52-C54 | `html.py`, `txt.py` | induction over references and trees |
| C68 | `txt.py` behind the extraction of C63 | what is printed of a tree, by induction; composed with C25, C31 and C32 |
