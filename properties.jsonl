{"id": "C01", "title": "Roman numerals round-trip", "statement": "Writing any positive integer as a Roman numeral and reading it back gives the same integer; writing never fails or loops, different numbers get different numerals, and non-positive numbers give the empty text, which reading rejects.", "quantifier": "every integer", "why_tests_cant": "unbounded domain: a table of sample numbers says nothing about the other integers", "anchors": ["hun_law/utils.py:int_to_text_roman", "hun_law/utils.py:text_to_int_roman", "hun_law/utils.py:text_to_int_roman_with_postfix"]}
{"id": "C02", "title": "Structural numbers with postfix round-trip", "statement": "Converting an identifier made of a positive number and a postfix (such as 12/A) to its Roman form and back gives the same identifier, whenever the postfix cannot be mistaken for more numeral.", "quantifier": "every positive number and every postfix", "why_tests_cant": "the number and the postfix are unbounded and interact at their border", "anchors": ["hun_law/utils.py:arabic_to_roman_with_postfix", "hun_law/utils.py:roman_to_arabic_with_postfix", "hun_law/structure.py:Title.formatted_identifier", "hun_law/structure.py:Title"]}
{"id": "C03", "title": "Hungarian ordinals are a bijection", "statement": "Exactly the integers 1 to 100 have a Hungarian ordinal text; reading that text back in any letter case gives the number, and every text that is accepted is, up to letter case, the text of the number it is read as.", "quantifier": "every integer and every text", "why_tests_cant": "the claim covers every text that could be accepted, not only the hundred in the table", "anchors": ["hun_law/utils.py:text_to_int_hun", "hun_law/utils.py:int_to_text_hun"]}
{"id": "C04", "title": "Identifier comparison is a strict order that never hits incomparable values", "statement": "Comparing two identifiers never compares a number with a text (no type error); it fails only if a digit character has no integer value; it is irreflexive, asymmetric and transitive, and incomparability is transitive.", "quantifier": "every pair and triple of texts", "why_tests_cant": "an order law quantifies over all triples of texts", "anchors": ["hun_law/utils.py:split_identifier_to_parts", "hun_law/utils.py:identifier_less"]}
{"id": "C05", "title": "Numbers inside identifiers compare as numbers and canonical identifiers are totally ordered", "statement": "Two identifiers with a common start that go on with different numbers compare by the value of those numbers; of two different identifiers without leading zeros exactly one is less than the other.", "quantifier": "every pair of identifiers", "why_tests_cant": "unbounded digit runs and unbounded number of alternations", "anchors": ["hun_law/utils.py:identifier_less", "hun_law/utils.py:split_identifier_to_parts"]}
{"id": "C06", "title": "Numbering always increases", "statement": "Whenever an identifier is accepted as the next one after another (article, paragraph, point, subpoint numbering), it is strictly greater in identifier order, so no list of accepted consecutive identifiers repeats one.", "quantifier": "every pair and every list of identifiers of the accepted shapes", "why_tests_cant": "lists of consecutive identifiers have unbounded length and unbounded numbers", "anchors": ["hun_law/utils.py:is_next_letter_hun", "hun_law/utils.py:is_next_numeric_identifier", "hun_law/structure.py:Article.is_next_identifier", "hun_law/structure.py:AlphabeticPoint.is_next_identifier", "hun_law/structure.py:AlphabeticSubpoint.is_next_identifier", "hun_law/structure.py:NumericPoint.is_next_identifier"]}
{"id": "C07", "title": "Range selection by identifiers", "statement": "Cutting a list by a first and last identifier returns exactly the elements whose identifier is neither before the first nor after the last, in their original order, provided the list is sorted.", "quantifier": "every list of elements and every pair of bounds", "why_tests_cant": "the list length, the identifiers and the bounds are unbounded", "anchors": ["hun_law/utils.py:cut_by_identifier"]}
{"id": "C08", "title": "Dates stay valid and day arithmetic is exact", "statement": "Adding days to a valid date gives a valid date or an out-of-range error; adding a then b days equals adding a+b days when the middle stays in range; adding n then -n returns the same date; adding a positive number gives a later date; a date read from a text is a real calendar date.", "quantifier": "every date and every number of days", "why_tests_cant": "all dates of 9999 years and all offsets, across leap years and century rules", "anchors": ["hun_law/utils.py:Date.add_days", "hun_law/utils.py:Date.from_simple_string", "hun_law/utils.py:Date.from_hungarian_text"]}
{"id": "C09", "title": "Slicing a line is slicing its text", "statement": "The text of a slice of a line is the same slice of the text of the line; the slice is refused when a border is not between two parts of the line. No text disappears silently.", "quantifier": "every line and every pair of slice bounds, negative ones included", "why_tests_cant": "lines have any number of parts of any length, and bounds are any integers", "anchors": ["hun_law/utils.py:IndentedLine.slice", "hun_law/utils.py:IndentedLine.content"]}
{"id": "C10", "title": "Slicing keeps every remaining character at its place on the page", "statement": "In every successful slice, each remaining part has the same horizontal position, text and weight as in the original line, and the right margin is kept when the tail is kept.", "quantifier": "every line and every pair of slice bounds", "why_tests_cant": "positions are sums over an arbitrary prefix of the parts", "anchors": ["hun_law/utils.py:IndentedLine.slice", "hun_law/utils.py:IndentedLine.indent"]}
{"id": "C11", "title": "Joining lines keeps text, place and weight", "statement": "Joining several lines into one gives a line whose text is the concatenation of their texts and in which every part keeps its horizontal position and its boldness.", "quantifier": "every list of lines", "why_tests_cant": "any number of lines with any number of parts", "anchors": ["hun_law/utils.py:IndentedLine.from_multiple"]}
{"id": "C12", "title": "Quote level tracking", "statement": "Iterating lines with quote level yields every line in order with the number of unclosed quotes before it, and fails exactly if some prefix of lines closes more quotes than it opened or if quotes stay open at the end.", "quantifier": "every list of lines and every starting level", "why_tests_cant": "quote nesting and text length are unbounded", "anchors": ["hun_law/utils.py:iterate_with_quote_level", "hun_law/utils.py:quote_level_diff"]}
{"id": "C13", "title": "Joining line texts loses no character", "statement": "Joining the texts of lines only adds single spaces between lines: without spaces the result is the concatenation of the inputs in order; blank lines add nothing.", "quantifier": "every list of texts", "why_tests_cant": "any number of lines of any content", "anchors": ["hun_law/utils.py:join_line_strs"]}
{"id": "C14", "title": "Resolving relative references is associative", "statement": "Resolving a reference relative to a context is an associative operation with the empty reference as unit on both sides; absolute references are unaffected; the result is the same whether contexts are combined first or applied one by one.", "quantifier": "every triple of references", "why_tests_cant": "all combinations of missing, single and range components", "anchors": ["hun_law/structure.py:Reference.relative_to"]}
{"id": "C15", "title": "Reference order", "statement": "On references without ranges, < and > are each other's converse, < is a strict order, <= and >= are < or >, or equal, and references with canonical identifiers are totally ordered; a comparison is refused exactly if it meets a range before it is decided.", "quantifier": "every pair and triple of references", "why_tests_cant": "an order law over all references", "anchors": ["hun_law/structure.py:Reference.__lt__", "hun_law/structure.py:Reference.__gt__", "hun_law/structure.py:Reference.__le__", "hun_law/structure.py:Reference.__ge__"]}
{"id": "C16", "title": "Containment of references", "statement": "A reference contains itself; a single reference contains exactly itself and what is below it; a range contains exactly what lies below or between its ends; containment is transitive for references whose range is their last component.", "quantifier": "every pair and triple of references", "why_tests_cant": "all combinations of ranges and depths", "anchors": ["hun_law/structure.py:Reference.contains", "hun_law/structure.py:Reference.is_parent_of"]}
{"id": "C17", "title": "Parent chain", "statement": "Every non-empty reference is below its parent; going to parents reaches the empty reference; the ancestors of a reference are exactly the references that claim to be its parent when no middle component is skipped.", "quantifier": "every reference and every pair", "why_tests_cant": "all shapes of references", "anchors": ["hun_law/structure.py:Reference.parent", "hun_law/structure.py:Reference.is_parent_of"]}
{"id": "C18", "title": "Reference id strings are unique and reversible", "statement": "Reading back the relative id string of a reference gives the reference without its act, for every reference whose identifiers are non-empty and do not contain the separators or their spelled-out forms; so different references get different ids.", "quantifier": "every reference", "why_tests_cant": "identifiers are arbitrary texts and the encoding replaces substrings", "anchors": ["hun_law/structure.py:Reference.relative_id_string", "hun_law/structure.py:Reference.from_relative_id_string"]}
{"id": "C19", "title": "Ranges and their ends", "statement": "The range made from two references that differ only in their last component has them as its first and last; the first and last of any reference are not ranges; a reference that is not a range is its own first and last; everything a valid range's end contains is contained in the range.", "quantifier": "every pair of references", "why_tests_cant": "all depths and identifiers", "anchors": ["hun_law/structure.py:Reference.make_range", "hun_law/structure.py:Reference.first_in_range", "hun_law/structure.py:Reference.last_in_range", "hun_law/structure.py:Reference.is_range"]}
{"id": "C20", "title": "Constructed elements are well formed", "statement": "No element that can be constructed has text together with an intro, a wrap-up or children; its children all have an allowed type, and except in a block amendment one and the same type; an article has an unnumbered paragraph only as its only paragraph.", "quantifier": "every tree that can be built through the constructors", "why_tests_cant": "trees have unbounded width and arbitrary contents", "anchors": ["hun_law/structure.py:SubArticleElement", "hun_law/structure.py:Article", "hun_law/structure.py:Paragraph"]}
{"id": "C21", "title": "Every element is found at its own reference", "statement": "In an act in which siblings have different identifiers, looking up the full reference of any numbered article, paragraph, point or subpoint returns exactly that element.", "quantifier": "every act and every element in it", "why_tests_cant": "acts have unbounded size; lookup goes through maps and three kinds of fall-back", "anchors": ["hun_law/structure.py:Act.at_reference", "hun_law/structure.py:Article.at_reference", "hun_law/structure.py:SubArticleElement.at_reference", "hun_law/structure.py:Act.map_saes"]}
{"id": "C22", "title": "Range lookup agrees with containment", "statement": "Looking up a range returns, in order, exactly the sibling elements whose own reference is contained in the range.", "quantifier": "every act and every range reference", "why_tests_cant": "all acts, all ranges", "anchors": ["hun_law/structure.py:Act.at_reference", "hun_law/structure.py:SubArticleElement.at_reference", "hun_law/utils.py:cut_by_identifier", "hun_law/structure.py:Reference.contains"]}
{"id": "C23", "title": "Mapping visits exactly the selected elements", "statement": "Mapping a modifier over an act with a filter reference calls the modifier exactly on the elements whose reference is contained in the filter, once each, in document order, children first or parents first as asked.", "quantifier": "every act, every modifier and every filter reference", "why_tests_cant": "all trees and all filters; pruning must never hide a selected element", "anchors": ["hun_law/structure.py:Act.map_saes", "hun_law/structure.py:SubArticleElement.map_recursive", "hun_law/structure.py:Article.map_recursive"]}
{"id": "C24", "title": "Mapping changes nothing else", "statement": "Mapping with the do-nothing modifier returns the act unchanged, and elements outside the filter stay unchanged under every modifier.", "quantifier": "every act, every modifier and every filter", "why_tests_cant": "all trees and all modifiers", "anchors": ["hun_law/structure.py:Act.map_saes", "hun_law/structure.py:Act.map_articles", "hun_law/structure.py:SubArticleElement.map_recursive"]}
{"id": "C25", "title": "Parsing an act loses no text", "statement": "When the body of an act is parsed, every non-space character of the input is found in the result, once, in order: in the preamble, in headers and titles, in text, intro, wrap-up or quoted lines, or in an identifier.", "quantifier": "every list of lines that parses", "why_tests_cant": "acts are unbounded, and a lost line is invisible in examples that do not contain its shape", "anchors": ["hun_law/parsers/structure_parser.py:ActStructureParser.parse", "hun_law/parsers/structure_parser.py:ActBodyParser", "hun_law/parsers/structure_parser.py:ArticleParser", "hun_law/parsers/structure_parser.py:SubArticleElementParser"]}
{"id": "C26", "title": "Parsed siblings are consecutively numbered", "statement": "In every parsed element, the points and subpoints are numbered consecutively starting with the first identifier of their kind, and so are pairwise different.", "quantifier": "every list of lines that parses", "why_tests_cant": "any number of siblings", "anchors": ["hun_law/parsers/structure_parser.py:SubArticleElementParser.find_header_lines", "hun_law/parsers/structure_parser.py:SubArticleElementParser.extract_multiple_from_text"]}
{"id": "C27", "title": "Quoted text is never taken for structure", "statement": "A line that begins inside an open quote never starts an article, structural element, paragraph, point or subpoint.", "quantifier": "every list of lines that parses", "why_tests_cant": "nesting depth and quote placement are unbounded", "anchors": ["hun_law/parsers/structure_parser.py:SubArticleElementParser.find_header_lines", "hun_law/parsers/structure_parser.py:ActBodyParser.parse_elements", "hun_law/utils.py:iterate_with_quote_level"]}
{"id": "C28", "title": "The kind of children is never ambiguous", "statement": "No line is the first header of two kinds of children at once, so choosing the kind of children never fails on a tie, and the kind chosen is the one whose header comes first.", "quantifier": "every list of lines and every kind of parent", "why_tests_cant": "all texts", "anchors": ["hun_law/parsers/structure_parser.py:SubArticleElementParser.parse_children_and_wrapup"]}
{"id": "C29", "title": "Only documented errors leave the act parser", "statement": "For every input the act parser either returns an act or raises its own parsing error, and a failing sub-parser is never reported as success; points and subpoints of every letter can be parsed.", "quantifier": "every list of lines", "why_tests_cant": "all malformed inputs", "anchors": ["hun_law/parsers/structure_parser.py:ActStructureParser.parse", "hun_law/parsers/structure_parser.py:SubArticleElementParser.parse"]}
{"id": "C30", "title": "An amendment that cannot be parsed is left as quoted text", "statement": "If the quoted text of a block amendment cannot be parsed as what its introduction announces, the paragraph is left as it was and the rest of the act is still parsed.", "quantifier": "every act and every quoted text", "why_tests_cant": "all malformed amendments", "anchors": ["hun_law/parsers/semantic_parser.py:ActBlockAmendmentParser.parse_paragraph", "hun_law/parsers/structure_parser.py:BlockAmendmentStructureParser.parse"]}
{"id": "C31", "title": "Parsing an amendment loses no text", "statement": "Turning a quoted block into a parsed block amendment keeps every non-space character of the quoted lines and of the paragraph's own texts.", "quantifier": "every paragraph with a quoted block", "why_tests_cant": "all quoted texts", "anchors": ["hun_law/parsers/semantic_parser.py:ActBlockAmendmentParser.parse_paragraph", "hun_law/parsers/structure_parser.py:BlockAmendmentStructureParser", "hun_law/parsers/structure_parser.py:ActBodyParser.parse_elements"]}
{"id": "C32", "title": "Adding semantics keeps the act", "statement": "Adding semantic data changes no text, identifier, order or kind of any element: without semantic data the result equals the input.", "quantifier": "every act and every behaviour of the grammar", "why_tests_cant": "all acts, and the grammar's answers are arbitrary", "anchors": ["hun_law/parsers/semantic_parser.py:ActSemanticsParser.add_semantics_to_act"]}
{"id": "C33", "title": "Adding semantics is complete and idempotent", "statement": "After semantic parsing, every element that can have semantic data has it, and parsing again returns the same act.", "quantifier": "every act and every behaviour of the grammar", "why_tests_cant": "all acts, arbitrary grammar answers", "anchors": ["hun_law/parsers/semantic_parser.py:ActSemanticsParser.add_semantics_to_act", "hun_law/structure.py:SubArticleElement.is_semantic_parsed"]}
{"id": "C34", "title": "Outgoing references point into the text", "statement": "Every outgoing reference recorded on an element is a non-empty interval inside the element's own text or intro, and they are listed in order of position.", "quantifier": "every text, prefix, postfix and every list of references the grammar can report", "why_tests_cant": "all interval positions relative to three concatenated texts", "anchors": ["hun_law/parsers/semantic_parser.py:ActSemanticsParser.convert_parsed_references", "hun_law/parsers/semantic_parser.py:ActSemanticsParser.fix_list_element_end", "hun_law/parsers/semantic_parser.py:ActSemanticsParser.parse_text"]}
{"id": "C35", "title": "Abbreviations resolve to their latest definition before use", "statement": "An abbreviated act name in a reference is replaced by the act of its latest definition in the same or an earlier text of the act in document order, and is left alone if there is none; texts after it have no influence.", "quantifier": "every act and every sequence of definitions", "why_tests_cant": "histories of definitions of any length", "anchors": ["hun_law/parsers/semantic_parser.py:ActSemanticsParser.parse_text", "hun_law/structure.py:Reference.resolve_abbreviations"]}
{"id": "C36", "title": "Incremental semantic parsing equals parsing from scratch", "statement": "Re-running semantic parsing on an act in which some articles were replaced by unparsed ones gives the same result as parsing the whole act from scratch.", "quantifier": "every act, every set of replaced articles", "why_tests_cant": "all histories of edits", "anchors": ["hun_law/parsers/semantic_parser.py:ActSemanticsParser.add_semantics_to_article", "hun_law/parsers/semantic_parser.py:ActSemanticsParser.add_existing_abbreviations_to_state"]}
{"id": "C37", "title": "Reference lists are collected completely and without overlap", "statement": "Collecting a compound reference such as '1., 3–5. § (2) és (4) bekezdése' yields references that cover each listed item at its level, in text order, in intervals that do not overlap.", "quantifier": "every list of items at every level", "why_tests_cant": "lists of any length and all runs of consecutive items", "anchors": ["hun_law/parsers/grammatical_analyzer.py:ReferenceCollector"]}
{"id": "C38", "title": "Serialisation round-trips", "statement": "Converting an object to plain data and back gives an equal object, for every value of every type the converter accepts.", "quantifier": "every supported type and every value of it", "why_tests_cant": "types nest and values are unbounded", "anchors": ["hun_law/dict2object.py:ConverterFactory", "hun_law/dict2object.py:AttrsClassConverter", "hun_law/dict2object.py:DictDisambiguator", "hun_law/dict2object.py:UnionConverter"]}
{"id": "C39", "title": "Ambiguous types are refused", "statement": "A union whose members could not be told apart in plain data is refused when the converter is built, whatever the order of its members.", "quantifier": "every union type", "why_tests_cant": "all orders of all member types", "anchors": ["hun_law/dict2object.py:UnionConverter.add_typed_subconverter"]}
{"id": "C40", "title": "A line fix-up changes exactly one line", "statement": "A content replacement either fails or changes exactly one line, the only one with the given text, whose text becomes exactly the replacement; all other lines are unchanged.", "quantifier": "every body, every pair of texts", "why_tests_cant": "all lines, all common prefixes and suffixes", "anchors": ["hun_law/fixups/common.py:replace_line_content"]}
{"id": "C41", "title": "Deletion and insertion fix-ups change exactly one place", "statement": "Deleting a line or adding an empty line after a line succeeds only if the text occurs exactly once, and removes exactly that line or adds exactly one empty line after it.", "quantifier": "every body and text", "why_tests_cant": "all bodies", "anchors": ["hun_law/fixups/common.py:delete_line", "hun_law/fixups/common.py:add_empty_line_after"]}
{"id": "C42", "title": "Fix-ups run in order, and only for their act", "statement": "Running all fix-ups applies those registered for the act, in order of registration, to the body; acts without fix-ups are unchanged; fix-ups of other acts have no effect.", "quantifier": "every history of registrations and every body", "why_tests_cant": "all histories", "anchors": ["hun_law/fixups/common.py:add_fixup", "hun_law/fixups/common.py:do_all_fixups"]}
{"id": "C43", "title": "Parallel extraction equals sequential extraction", "statement": "Extracting with several workers gives the same results as with one worker, in some order, for every order in which workers finish.", "quantifier": "every set of inputs, every extractor graph and every schedule", "why_tests_cant": "schedules cannot be enumerated", "anchors": ["hun_law/extractors/all.py:do_extraction", "hun_law/extractors/all.py:do_work"]}
{"id": "C44", "title": "Every page of the gazette is used once", "statement": "After removing page headers every page of the gazette appears exactly once, in order.", "quantifier": "every gazette", "why_tests_cant": "any number of pages", "anchors": ["hun_law/extractors/magyar_kozlony.py:MagyarKozlonyHeaderExtractor"]}
{"id": "C45", "title": "Laws are cut out of the gazette without mixing", "statement": "Each extracted act consists of consecutive lines of the section, acts come out in order and share no line, and the state is reset between acts so that one act never influences the next.", "quantifier": "every list of lines", "why_tests_cant": "all line sequences and all positions of headers and footers", "anchors": ["hun_law/extractors/magyar_kozlony.py:LawExtractorStateMachine"]}
{"id": "C46", "title": "PDF text boxes are all kept and ordered", "statement": "Every text box of a page ends up in exactly one line, lines go from top to bottom and the text in a line from left to right, whatever the order of the boxes in the file.", "quantifier": "every set of text boxes, every order", "why_tests_cant": "all permutations and positions", "anchors": ["hun_law/extractors/pdf.py:sort_textboxes_into_dicts", "hun_law/extractors/pdf.py:convert_textbox_dict_to_line", "hun_law/extractors/pdf.py:extract_single_page"]}
{"id": "C47", "title": "The cache is transparent and survives crashes", "statement": "Running the extraction any number of times, with the process killed at any point, never makes a later run return something else than an uncached run.", "quantifier": "every history of runs and every crash point", "why_tests_cant": "crash points and histories", "anchors": ["hun_law/cache.py:CacheObject", "hun_law/extractors/pdf.py:CachedPdfParser"]}
{"id": "C48", "title": "HTML output keeps the text", "statement": "Inserting links for outgoing references into a text keeps every character in order; references are the link texts at their positions.", "quantifier": "every text and every list of references", "why_tests_cant": "all texts, all interval lists", "anchors": ["hun_law/output/html.py:generate_text_with_ref_links"]}
{"id": "C49", "title": "HTML ids are unique", "statement": "No two elements of the generated page of an act with distinct sibling identifiers have the same id.", "quantifier": "every act", "why_tests_cant": "all acts", "anchors": ["hun_law/output/html.py:generate_html_node_for_article", "hun_law/structure.py:Reference.relative_id_string"]}
{"id": "C50", "title": "Text output goes to the requested file", "statement": "Everything the text writer prints goes to the given output, for every width.", "quantifier": "every act and every width", "why_tests_cant": "all widths, in particular the special value", "anchors": ["hun_law/utils.py:indented_line_wrapped_print", "hun_law/output/txt.py:write_txt"]}
{"id": "C51", "title": "Every page belongs to one section", "statement": "The pages of the gazette that have lines are divided into sections at their titles; a laws section consists of all lines of its consecutive pages except the titles, with a blank line after each page, and no page is in two sections.", "quantifier": "every list of pages", "why_tests_cant": "any number of pages and sections", "anchors": ["hun_law/extractors/magyar_kozlony.py:MagyarKozlonySectionExtractor"]}
{"id": "C52", "title": "Links lead to the elements", "statement": "The address of a link to an article, paragraph, point or subpoint of an act is the file of the act and an id that its page has, at the element that shows the number of that element.", "quantifier": "every act and every element", "why_tests_cant": "all acts, all elements", "anchors": ["hun_law/output/html.py:get_href_for_ref", "hun_law/output/html.py:generate_html_body_for_act"]}
{"id": "C53", "title": "HTML output shows all texts in order", "statement": "The page of an act shows its identifier, subject and preamble, and the numbers, titles, texts, introductions, quoted lines and wrap-ups of all its elements, in document order; indentation changes spaces only.", "quantifier": "every act", "why_tests_cant": "all acts", "anchors": ["hun_law/output/html.py:generate_html_body_for_act", "hun_law/output/html.py:indent_etree_element_in_place"]}
{"id": "C54", "title": "Text output shows all texts in order", "statement": "The text written for an act whose texts are more than spaces contains its identifier, subject and preamble, and the numbers, titles, texts, introductions, quoted lines and wrap-ups of all its elements, in document order, apart from spaces.", "quantifier": "every act, every width, every way of wrapping", "why_tests_cant": "all acts and widths", "anchors": ["hun_law/output/txt.py:write_txt", "hun_law/utils.py:indented_line_wrapped_print"]}
{"id": "C55", "title": "Acts survive the conversion to JSON data", "statement": "Every act, every raw text of an act and every set of lines of a PDF is converted to data that JSON can represent, and an equal object comes back from it.", "quantifier": "every act, raw text and PDF with values of the declared types", "why_tests_cant": "acts nest and are unbounded", "anchors": ["hun_law/dict2object.py:get_converter", "hun_law/structure.py:Act", "hun_law/extractors/magyar_kozlony.py:MagyarKozlonyLawRawText", "hun_law/extractors/pdf.py:PdfOfLines"]}
{"id": "C56", "title": "Headers are recognised", "statement": "In every act that parses, articles and structural elements begin exactly on the lines after the preamble that are outside quotes and have the form of a header that may come there, and no line of the preamble has that form. Paragraphs, points and subpoints begin exactly on the lines outside quotes, not indented further, that have the header of the first or of the next element. In amendments the elements after the first begin exactly on the lines outside quotes that have the next header.", "quantifier": "every list of lines that parses", "why_tests_cant": "any line of any act could look like a header", "anchors": ["hun_law/parsers/structure_parser.py:ActStructureParser", "hun_law/parsers/structure_parser.py:SubArticleElementParser", "hun_law/parsers/structure_parser.py:ArticleParser", "hun_law/parsers/structure_parser.py:BlockAmendmentStructureParser"]}
{"id": "C57", "title": "References found in a sentence are intervals of it", "statement": "If every part that the parser recognises has a place in the sentence, the parts of a reference inside the whole, deeper levels after the ones above and single items in order, then every reference that the grammatical analyser reports has 0 <= start < end <= length of the sentence.", "quantifier": "every parser, sentence and parse tree", "why_tests_cant": "any combination of list items and of nested constructs may occur", "anchors": ["hun_law/parsers/grammatical_analyzer.py:GrammaticalAnalyzer", "hun_law/parsers/grammatical_analyzer.py:ReferenceCollector", "hun_law/parsers/grammatical_analyzer.py:ModelConverter"]}
{"id": "C58", "title": "Block amendments have the right position", "statement": "A block amendment that amends one reference has that reference as its position; one that inserts one reference has that one and is a pure insertion; one that does both has the smallest reference that covers both as its position. What is amended is never forgotten.", "quantifier": "every amended and inserted reference", "why_tests_cant": "all pairs of references and ranges at all levels", "anchors": ["hun_law/parsers/grammatical_analyzer.py:BlockAmendmentToBlockAmendment", "hun_law/parsers/grammatical_analyzer.py:BlockAmendmentWithSubtitleToBlockAmendment"]}
{"id": "C59", "title": "The analysis is what the nodes of the parse tree say", "statement": "The references, abbreviations and semantic data of a sentence are those that the nodes of its parse tree tell, in order and with nothing added or lost; every text amendment, title amendment, repeal and enforcement date is about a place that is among the references of the same sentence; if the analysis fails, it fails with the one exception class for that.", "quantifier": "every parser, sentence and parse tree", "why_tests_cant": "trees nest and lists of references and texts are unbounded", "anchors": ["hun_law/parsers/grammatical_analyzer.py:GrammaticalAnalyzer", "hun_law/parsers/grammatical_analyzer.py:GrammarResultContainer", "hun_law/parsers/grammatical_analyzer.py:ModelConverter"]}
{"id": "C60", "title": "Titles of articles written before them end up behind their numbers", "statement": "The fix-up for acts that write the title of an article in brackets on the line before it moves each such title, now in square brackets, behind the number of the article on the next line, puts the rest of the article on a line of its own, and leaves every other line as it is, in order. It succeeds whenever the lines can be cut anywhere.", "quantifier": "every list of lines", "why_tests_cant": "any number of titles and texts, anywhere in the act", "anchors": ["hun_law/fixups/common.py:ptke_article_header_fixer"]}
{"id": "C61", "title": "Headers are shown as they would be read", "statement": "The header that is shown for a book, part, title or chapter is one from which the parser reads the same kind of element with the same number; there is one for every number that the parser can give, and none for numbers that have no Hungarian ordinal.", "quantifier": "every number and postfix", "why_tests_cant": "unbounded numbers and postfixes, and the letter case changes on the way", "anchors": ["hun_law/structure.py:Book.formatted_identifier", "hun_law/structure.py:Part.formatted_identifier", "hun_law/structure.py:Title.formatted_identifier", "hun_law/structure.py:Chapter.formatted_identifier"]}
{"id": "C62", "title": "Bold lines and parts of lists", "statement": "A line is bold exactly if more than half of its characters are. Splitting a list at an element gives non-empty parts that follow each other without loss; each but the first begins with the element, which occurs nowhere else in a part.", "quantifier": "every line and every list", "why_tests_cant": "any number of parts of any length", "anchors": ["hun_law/utils.py:IndentedLine", "hun_law/utils.py:split_list"]}
{"id": "C63", "title": "Extraction gives every act of every issue once", "statement": "Extraction over the registered extractors always ends. If it ends without exception it has given, for each act of each given issue, what the requested step makes of it, once each and nothing else, with any number of workers; with one worker in the reverse order. If every issue can be read and every act be made, it raises no exception. The identifier of each act is a line of its issue that looks like the title of an act, its date is on the first page, and its body consists of lines of the issue. The titles and bodies of the acts have these lines in the order of the issue, each at most once, where the first page is taken twice.", "quantifier": "every list of issues, every requested step, every number of workers and every schedule", "why_tests_cant": "the number of issues, acts and interleavings is unbounded", "anchors": ["hun_law/extractors/act.py", "hun_law/extractors/all.py:do_extraction", "hun_law/extractors/magyar_kozlony.py", "hun_law/extractors/kozlonyok_hu_downloader.py"]}
{"id": "C64", "title": "Acts made by the program are well made", "statement": "Every act that any step makes has the identifier, the date and the subject of its text, its children are articles and structural elements, and everything in it was made through the constructors and is well formed, so what is proved of such acts holds of it. Before the last step nothing has semantic data; after it every element that can have some has it.", "quantifier": "every text of an act, every set of fix-ups, every analyser", "why_tests_cant": "unbounded texts and trees; three passes over the tree have to keep it well formed", "anchors": ["hun_law/parsers/structure_parser.py:ActStructureParser", "hun_law/parsers/semantic_parser.py:ActBlockAmendmentParser", "hun_law/parsers/semantic_parser.py:ActSemanticsParser", "hun_law/extractors/act.py"]}
{"id": "C65", "title": "Edited lines are turned into replacements that give them back", "statement": "If the editor of fix-ups extracts replacements from edited lines, there is exactly one for each changed line, in order, from its old to its new text; otherwise it is a ValueError, and lines were added or removed or a line was changed whose text another line had. After they are saved, the fix-ups of the act give its lines with the texts as edited, and the fix-ups of other acts give what they gave before.", "quantifier": "every body, every edit of its lines, every set of saved fix-ups", "why_tests_cant": "the replacements have to find their lines in every body, whatever lines repeat and whatever was changed before them", "anchors": ["fixup_editor.py:extract_replacements", "fixup_editor.py:count_sublists", "fixup_editor.py:save_replacements_and_reload", "hun_law/fixups/text_fixups.py", "hun_law/fixups/common.py:replace_line_content"]}
{"id": "C66", "title": "The file given to the editor", "statement": "A file that is not changed in the editor gives exactly the texts of the lines; in one that is changed each line gives its text after the first five characters without the spaces around. Lines with spaces around their text are refused. The editor is opened at the first line before which more quotes are closed than opened, if there is none at the last line before which all quotes are closed.", "quantifier": "every body, every edited file", "why_tests_cant": "unbounded lines, levels and indentations", "anchors": ["fixup_editor.py:do_file_editing"]}
{"id": "C67", "title": "The command line writes what is asked for", "statement": "A command ends without exception if and only if every act of the issues can be extracted up to the step asked for and every one that is wanted can be written. Then each wanted act has the whole of its output in the file of its name in the output directory, other files are as they were and nothing is printed; without an output directory the outputs are printed one after another, each entirely, and no file is touched. After an exception at most one file has neither its earlier content nor a whole output. Pages are linked by the names of their files. The text of an act is written with all its lines in order.", "quantifier": "every issue, every set of arguments, every number of workers and order in which they finish, every earlier content of files", "why_tests_cant": "all orders of workers, all acts, all earlier contents", "anchors": ["hun_law/cli.py:GenerateCommand.run", "hun_law/cli.py:GenerateCommand.output_html", "hun_law/output/html.py:generate_html_for_act", "hun_law/output/txt.py:write_mk_raw_as_txt"]}
{"id": "C68", "title": "The text file of an act says what its lines say", "statement": "Apart from spaces, the text written for an act is its identifier and subject, its preamble and then, child by child, the number and the texts of each element in the order of printing, each exactly once and nothing else. For every act that is extracted this is what the lines of its body say, in their order: nothing is lost, repeated or moved by parsing, by looking at amendments, by semantic analysis or by printing, apart from the kind of opening quotation marks, the kind of brackets around the context of amendments and the way headers of books, parts, titles and chapters are written.", "quantifier": "every act, every indentation and width, every way of wrapping lines that keeps the text", "why_tests_cant": "all shapes of acts, all texts, all widths", "anchors": ["hun_law/output/txt.py:write_act_as_txt", "hun_law/parsers/structure_parser.py:ActStructureParser", "hun_law/parsers/structure_parser.py:BlockAmendmentStructureParser", "hun_law/parsers/semantic_parser.py:ActSemanticsParser"]}
{"id": "C69", "title": "What the analysis of a sentence reports is written in the sentence", "statement": "Whenever the analysis of a sentence with the parser of the grammar succeeds, every reference it reports has a non-empty place inside the sentence and names nothing that is not written in the sentence as such a thing is written: acts by number or abbreviation, identifiers with the marks of their level. Every amendment, repeal or enforcement date it reports comes from a sentence with the words for it, with the texts and dates that are written there, and every abbreviation is defined there.", "quantifier": "every sentence (any text)", "why_tests_cant": "all texts; the tests have 190 sentences", "anchors": ["hun_law/grammar/grammar.ebnf", "hun_law/grammar/__init__.py", "hun_law/parsers/grammatical_analyzer.py:GrammaticalAnalyzer.analyze"]}
{"id": "C70", "title": "Which sentences can be analysed", "statement": "Every sentence that is not blank is analysed without an exception, unless it is one of these: it names a subpoint by two letters and after it a subpoint by the first of these letters alone; it names a day that is not in the calendar; or it ends with the words of an amendment or insertion of a block of text. Blank text is always rejected.", "quantifier": "every sentence (any text)", "why_tests_cant": "all texts; a parser that rejects some text, or a converter that raises on what the parser accepts, is only seen if a test happens to have such a sentence", "anchors": ["hun_law/grammar/grammar.ebnf", "hun_law/parsers/grammatical_analyzer.py:GrammaticalAnalyzer.analyze", "hun_law/structure.py:AlphabeticSubpoint.is_next_identifier"]}
{"id": "C71", "title": "All that ordinary sentences mention is reported", "statement": "Take a sentence of plain text (words, numbers, signs, quotations) in which references to articles, paragraphs, points and subpoints and mentions of acts are written in the usual way, each followed by text that cannot continue it, and that is not worded as an amendment, repeal or enforcement date. Then what the analysis reports is exactly this: for each mention in order the act and all that is named of it, and the abbreviation if one is defined. If each list has one item, the sentence is analysed without an exception and exactly one reference is reported for each that is written, at its place and naming exactly the written items. If ranges come last in each list, references do not overlap, they are in order, and every item of every list is named by one.", "quantifier": "every such sentence, of any length and with any number of mentions", "why_tests_cant": "any mix of plain text and references; that nothing in any plain text is taken for a reference, and that no reference is lost after any plain text, is beyond a finite list of sentences", "anchors": ["hun_law/grammar/grammar.ebnf", "hun_law/parsers/grammatical_analyzer.py:GrammaticalAnalyzer.analyze", "hun_law/parsers/grammatical_analyzer.py:ReferenceCollector"]}
{"id": "C72", "title": "What is read from data is what the data says", "statement": "When plain data, for example from a JSON file, is read as a value of a type, the result is what the data says: data for a class or union is taken for the class that it names, or else for the member that becomes that kind of data; the attributes of an object have the values that the data has for them, read as their types, or else their defaults; each attribute without a default is in the data; an attribute, a class or a member of an enum that does not exist is refused. If the members of all unions can be told apart, all data that says a value in this way is read, and all else is refused.", "quantifier": "every type, every data, every set of classes", "why_tests_cant": "data of any shape and depth, of which tests only have a few that were written by the code itself", "anchors": ["hun_law/dict2object.py:AttrsClassConverter.to_object", "hun_law/dict2object.py:UnionConverter.to_object", "hun_law/dict2object.py:DictDisambiguator.to_object", "hun_law/dict2object.py:ListConverter.to_object"]}
{"id": "C73", "title": "Changes of the law stated in the usual way are reported", "statement": "Take a sentence that states a change of the law in one of the usual ways: texts are replaced in parts of an act or in the title of an article, parts or texts are repealed, a part is replaced by a block of text, a part is added, or both; or that this act or parts of it come into force at some time, with exceptions and a day of repeal. If it is analysed, then exactly this change is reported, with the act, the parts, the texts and the times that are written, and no other change. If each list has one item then each reference names exactly what is written. The sentence is analysed without an exception unless it names subpoints in a wrong order, says when something comes into force and names a day that is not in the calendar, or adds something before what it replaces.", "quantifier": "every such sentence, with any act, parts, texts and times", "why_tests_cant": "any titles of acts, numbers, lists and texts; an alternative of the grammar that is tried earlier may take such a sentence only for some of them", "anchors": ["hun_law/grammar/grammar.ebnf", "hun_law/parsers/grammatical_analyzer.py:GrammaticalAnalyzer.analyze", "hun_law/parsers/grammatical_analyzer.py:BlockAmendmentToBlockAmendment", "hun_law/parsers/grammatical_analyzer.py:EnforcementDateToEnforcementDate"]}
{"id": "C74", "title": "The generated parser is that of the grammar", "statement": "Whatever grammars and versions of TatSu the module was loaded with before, whether generation failed or the process was killed: if the module is loaded without an exception then model.py and parser.py are what is generated of the grammar that is there now. If they already are, they are not written again.", "quantifier": "every history of loading, with any grammars, versions and kills at any time", "why_tests_cant": "histories of any length, with processes killed at any point", "anchors": ["hun_law/grammar/__init__.py"]}
{"id": "C75", "title": "The list of acts has every act of each page", "statement": "For each page, exactly one line is printed for each text that begins with the number of an act and is followed by a text that does not, in order, with the year, the issue and these two texts. Read back as comma separated values, the line gives these again.", "quantifier": "every page and every issue", "why_tests_cant": "pages with any texts in any order", "anchors": ["generate_act_to_mk_issue.py:parse_single_issue", "generate_act_to_mk_issue.py:parse_all", "generate_act_to_mk_issue.py:MkParser.handle_data"]}
{"id": "C76", "title": "What the sentences of an act say is recorded on its elements", "statement": "On each element of an act exactly that is recorded what is said in its sentence: the text of the element between the intros and wrap-ups around it. If the sentence states a change of the law in one of the usual ways, this change is recorded, and if it is an ordinary sentence, what it mentions and nothing else, with abbreviations replaced by what they mean at this place.", "quantifier": "every act, every element and every sentence", "why_tests_cant": "acts of any size with any sentences; the texts around an element are in its sentence too", "anchors": ["hun_law/parsers/semantic_parser.py:ActSemanticsParser.add_semantics_to_act", "hun_law/parsers/semantic_parser.py:ActSemanticsParser.parse_text", "hun_law/parsers/grammatical_analyzer.py:GrammaticalAnalyzer.analyze"]}
{"id": "C77", "title": "Changes of the divisions of an act stated in the usual way are reported", "statement": "Take a sentence that states a change of the divisions of an act in one of the usual ways: a chapter, a part, a title or a subtitle is replaced, is new or is repealed; a subtitle before or after an article is replaced, is new or is repealed; or articles are replaced or new together with the subtitle before them. Divisions are named by their number or title, and the word for them as it is or with an ending added. If the sentence is analysed, then exactly this change is reported, with the act and the division or the place that is written, and no other change. It is analysed without an exception if and only if the articles that are changed with a subtitle, if there are any, are one article, one range or two articles with consecutive numbers.", "quantifier": "every such sentence, with any act, numbers, titles and endings", "why_tests_cant": "any titles of acts and subtitles, numbers and lists; an alternative of the grammar that is tried earlier may take such a sentence only for some of them", "anchors": ["hun_law/grammar/grammar.ebnf", "hun_law/parsers/grammatical_analyzer.py:GrammaticalAnalyzer.analyze", "hun_law/parsers/grammatical_analyzer.py:BlockAmendmentStructuralToBlockAmendment", "hun_law/parsers/grammatical_analyzer.py:BlockAmendmentWithSubtitleToBlockAmendment", "hun_law/parsers/grammatical_analyzer.py:StructuralRepealToRepeal"]}
{"id": "C78", "title": "The fix-ups that come with the program can all be made, and only once", "statement": "The table of saved replacements names every act by its full name, in order and each once, and has replacements for each of them. Every replacement of the table, whenever it succeeds, changes the texts of the body. The fix-ups of no act, saved or written by hand, exclude each other: there is a body on which all of them succeed. On a body that the fix-ups of an act have been made on, whatever it was, making them again is a ValueError; this holds for every act with fix-ups except 2013. évi V. and 2013. évi CLXXVII., whose only fix-ups, by hand, can be made again.", "quantifier": "every act, every replacement of the table, and every body", "why_tests_cant": "a fix-up is tried only on the one body of its act that the gazette gives; a body that is fixed twice (a cached one, an issue corrected by the publisher) is never among the tests, and the claim is about any body", "anchors": ["hun_law/fixups/replacement_fixups.py:replacement_fixups", "hun_law/fixups/text_fixups.py", "hun_law/fixups/common.py:replace_line_content", "hun_law/fixups/common.py:do_all_fixups"]}
{"id": "C79", "title": "What is made can be referred to", "statement": "In every act that is made, after any of the steps, the articles and the elements below them, amendments aside, have numbers of the form that belongs to their kind, and no two siblings in an article have the same; only paragraphs may have none. If also no two articles have the same number, which is not checked, then every element that has a number is found at its own reference and nothing else is, no two elements of the page of the act have the same class and id, and the id of each element can be read back to its reference.", "quantifier": "every text of an act, every behaviour of the grammar and every step", "why_tests_cant": "all texts; the numbers pass through three parsers, the references and the pages", "anchors": ["hun_law/parsers/structure_parser.py:ActStructureParser.parse", "hun_law/structure.py:Act.at_reference", "hun_law/output/html.py:generate_html_body_for_act", "hun_law/structure.py:Reference.relative_id_string"]}
{"id": "C80", "title": "Which acts can be shown", "statement": "A page can be made of an act exactly if every element without children has a text, every amendment has children, every quoted block has a line that is not empty, no two references recorded on an element have a character in common, and the number of every book, part, title and chapter can be written. The text of an act can be written exactly under the same conditions, references aside, if lines are wide enough for the numbers and wrapping does not fail. In acts that are made the numbers can always be written, and references are no obstacle before the last step; after it they are none if no two references that the analysis of one sentence of the act reports have a character in common. Each of the conditions on what there is to show, and the one on references, is needed for acts that are really made.", "quantifier": "every act that the classes allow; every text of an act, every behaviour of the grammar and every step", "why_tests_cant": "all trees of elements; equivalences, so both that nothing else makes the writers fail and that each of these does", "anchors": ["hun_law/output/html.py:generate_html_body_for_act", "hun_law/output/html.py:generate_text_with_ref_links", "hun_law/output/txt.py:write_txt", "hun_law/structure.py:Book.formatted_identifier"]}
{"id": "C81", "title": "Acts written in the usual way are parsed as they are written", "statement": "If the body of an act is written in the usual way, then it is parsed, and the result has exactly the preamble and the elements that are written there: structural elements with their numbers and titles, articles with their numbers and titles, paragraphs, points and subpoints with their numbers, texts, introductions and closing texts, and quotations without their quotation marks. The usual way: every element begins with its number on a line of its own and no other line outside quotations could be taken for the beginning of one; numbers follow each other; lists have two or more elements, and their other lines are indented further than their numbers if a text may follow the list; quotations are closed. Lines written in this way cannot be read in two ways.", "quantifier": "every text of an act that is written in this way, of any length and with elements of any number", "why_tests_cant": "all texts and nestings; that nothing goes wrong in any combination of elements", "anchors": ["hun_law/parsers/structure_parser.py:ActStructureParser.parse", "hun_law/parsers/structure_parser.py:ArticleParser.parse", "hun_law/parsers/structure_parser.py:SubArticleElementParser.extract_multiple_from_text", "hun_law/parsers/structure_parser.py:QuotedBlockParser.extract_multiple_from_text"]}
{"id": "C82", "title": "Amendments written in the usual way are made as they are written", "statement": "If an act is written in the usual way, and so are the texts that it quotes as amendments, then it is parsed first to the elements that are written there, with quotations, and then to the same elements in which each quotation that is announced as an amendment is this amendment: the elements that are written in the quotation, with the introduction and closing text that stand in brackets around it. The usual way for a quoted text: elements of the kind that the announcement names last, beginning with the number that is announced and each with the number after that of the one before, or structural elements and articles if these are announced. Sentences with one of the usual wordings for replacing and inserting parts or divisions of an act are announcements of what they say. Lines cannot be read in two ways, with their amendments.", "quantifier": "every text of an act that is written in this way; every sentence with one of the wordings", "why_tests_cant": "all texts, nestings and sentences; the sentence, the position it names and the parser chosen for the quoted lines have to fit together in every combination", "anchors": ["hun_law/parsers/semantic_parser.py:ActBlockAmendmentParser.parse", "hun_law/parsers/structure_parser.py:BlockAmendmentStructureParser.parse", "hun_law/parsers/semantic_parser.py:ActBlockAmendmentParser.parse_paragraph", "hun_law/parsers/structure_parser.py:SubArticleElementParser.extract_multiple_from_text"]}
{"id": "C83", "title": "How the text of an act is laid out", "statement": "The text of an act is its title line, its preamble, and the boxes of its children with an empty line after each of them. In the box of an article its number stands in a cell of ten columns to the left of its title and its paragraphs, and in the box of a paragraph or a part of one its number in a cell of five columns to the left of what is in it: cells are wider if numbers are longer, and blank on all lines but the first. Boxes of siblings are below each other, those in an amendment five columns to the right of its quotation marks, and quoted lines keep their indentation, a column for each five units. Every text is broken into lines of the width that is left. This holds for all acts that are made if texts are more than spaces. No line of a box is longer than the width, except for those of quotations.", "quantifier": "every act, every width but 0, and every way of breaking texts that keeps all but spaces", "why_tests_cant": "all trees, texts and widths; the code passes a prefix on and blanks it after its first use, the claim is about where everything stands", "anchors": ["hun_law/output/txt.py:write_sub_article_element_as_txt", "hun_law/output/txt.py:write_article_as_txt", "hun_law/output/txt.py:write_block_amendment_as_txt", "hun_law/output/txt.py:write_quoted_block_as_txt", "hun_law/utils.py:indented_line_wrapped_print"]}
{"id": "C84", "title": "How the page of an act is laid out", "statement": "The page of an act is a box with the identifier and subject, the preamble, and the cells of the children one after the other: the number and title of each article and structural element, and the number, text, introduction, parts and wrap-up of each paragraph and part of one, in this order and each with the class of its kind and role. Texts have links where references are recorded. The content of an amendment is in a box between quotation marks, quoted lines are between quotation marks too and keep their indentation. The indented page differs only by spaces where there is no text, and the document around the page has the identifier for its title and names the style sheet.", "quantifier": "every act for which a page is made", "why_tests_cant": "all trees, texts and references; a part that is left out, doubled or in the wrong order may happen only in one nesting", "anchors": ["hun_law/output/html.py:generate_html_body_for_act", "hun_law/output/html.py:generate_html_nodes_for_sub_article_element", "hun_law/output/html.py:indent_etree_element_in_place", "hun_law/output/html.py:generate_html_for_act"]}
{"id": "C85", "title": "The style sheet places every part of a page", "statement": "For every act that is made, the style sheet has a rule for every class in its page. The page and the boxes of amendments are grids, and everything directly in them begins in one of their five columns. Numbers of articles begin in the first column, their titles and numbers of paragraphs in the second, and for every kind of element in an article its text and the numbers of its parts begin in the column after its own number, as do the quoted text and the amendment in it.", "quantifier": "every act that is made at any step, every element of its page", "why_tests_cant": "classes are put together from names of types and of roles in the code, and the style sheet is a separate file; every kind in every place has to be met", "anchors": ["style.css", "hun_law/output/html.py:generate_html_nodes_for_sub_article_element", "hun_law/output/html.py:generate_html_node_for_article"]}
{"id": "C86", "title": "Which acts get semantic data", "statement": "An act gets its semantic data if every element has a text or parts, no text is only the end of a list, and every sentence that is looked at can be analysed without two references that end at the same place. Conversely, in an act that gets semantic data no text that ends its sentence is only the end of a list, and every sentence that is looked at can be analysed. Every element of an act that is parsed has a text or parts. So an act that is written in the usual way (C81, C82) and whose sentences can be understood goes through all steps, and what comes out has the elements that are written there, with the semantic data that their sentences say (C76). With the analyser of the program this is exact: an act whose texts end as texts in lists do goes through the last step exactly if no text that ends its sentence is only the end of a list, and every sentence that is looked at can be analysed. Sentences that are not blank, have no clash of subpoints and no day that is not in the calendar, and do not end as amendments do can be analysed (C70).", "quantifier": "every act, every analyser; every text written in the usual way", "why_tests_cant": "all trees, texts and sentences; whether the last step fails depends on every sentence put together from texts, introductions and wrap-ups", "anchors": ["hun_law/parsers/semantic_parser.py:ActSemanticsParser.add_semantics_to_act", "hun_law/parsers/semantic_parser.py:ActSemanticsParser.parse_text", "hun_law/parsers/semantic_parser.py:ActSemanticsParser.fix_list_element_end", "hun_law/parsers/semantic_parser.py:ActSemanticsParser.convert_parsed_references"]}
{"id": "C87", "title": "References of a sentence can always be put in order", "statement": "No two of the references that the analyser finds in a sentence end at the same place, and they all end in the sentence. So the references of an element, cut from those of its sentence, can always be sorted, although comparing two references at the same place may raise an error (if one is a range), and afterwards no two are at the same place.", "quantifier": "every sentence that is analysed, every way to cut it", "why_tests_cant": "every shape of a list of references in every rule of the grammar; merged ranges, shared prefixes and references that are collected twice could meet at one place only in one of them", "anchors": ["hun_law/parsers/semantic_parser.py:ActSemanticsParser.convert_parsed_references", "hun_law/parsers/grammatical_analyzer.py:ReferenceCollector.iter", "hun_law/structure.py:Reference.__lt__"]}
{"id": "C88", "title": "What stops the making of an act", "statement": "An act is not made for these reasons only, and then with these exceptions, of the first place where there is such a reason: a fix-up that cannot be done (ValueError); a text without articles or with one that cannot be read (ActParsingError); a sentence that announces an amendment and is followed by several quotations (AssertionError), by a quotation that cannot be read as what is announced (BlockAmendmentStructureParsingError), or that introduces a quotation and cannot be analysed (GrammaticalParsingError); a text that is only the end of a list (IndexError); and a sentence that is looked at and cannot be analysed (GrammaticalParsingError).", "quantifier": "every act that was parsed, every element", "why_tests_cant": "which exceptions never happen, and that the first reason in the order of the text decides, holds only if every step on every act is looked at", "anchors": ["hun_law/parsers/semantic_parser.py:ActBlockAmendmentParser.parse_paragraph", "hun_law/parsers/semantic_parser.py:ActSemanticsParser.add_semantics_to_sae", "hun_law/parsers/structure_parser.py:BlockAmendmentStructureParser.parse", "hun_law/fixups/common.py:do_all_fixups"]}
{"id": "C89", "title": "Which texts are parsed", "statement": "The lines of an act are a preamble, in which no line could begin an element, and elements; an element begins on a line outside all quotations that could begin it, and goes on to the next such line. If no line has digits that are not decimal, and in no paragraph a list comes before a quotation of several lines or a line outside quotations begins with ny) or sz), the act is parsed exactly if all quotations are closed after the preamble, there is an element, and in every article there is text after the number in the first line and, if this text begins with a bracket, the title in brackets ends within three lines, outside quotations, and is followed by more than an empty line. What is written in paragraphs, points and the headers of books, parts, titles and chapters does not matter.", "quantifier": "every list of lines with one character in each part, and every way to write them under the stated conditions", "why_tests_cant": "that nothing else makes the parser fail can only be said of all texts: wrong numbers, interrupted lists, unusual indents, empty lines and nested quotations at every place", "anchors": ["hun_law/parsers/structure_parser.py:ActStructureParser.parse", "hun_law/parsers/structure_parser.py:ActBodyParser.parse_elements", "hun_law/parsers/structure_parser.py:ArticleParser.parse", "hun_law/parsers/structure_parser.py:SubArticleElementParser.parse_children_and_wrapup", "hun_law/parsers/structure_parser.py:SubArticleElementParser.find_header_lines"]}
{"id": "C90", "title": "What the JSON data of an act says", "statement": "The data that is written for an act, the text of an act or the lines of a PDF is a dictionary with exactly these entries, in the order of the attributes: what the element has under the name of the attribute, tuples as lists, members of enums by name; an attribute is left out if there is nothing, if it is false, if the right margin is zero and if one day or one month is meant; the name of the class is added last where elements of different classes can stand (children of acts and of parts of articles, semantic data, positions that may be structural, times of coming into force) and nowhere else. From this data an equal object is made again, and different acts, texts and lines have different data.", "quantifier": "every act whose elements were made through the constructors, with any identifiers, texts, references, abbreviations and semantic data at any depth, every raw text, all lines of PDFs, whatever the constructors compute for the other attributes", "why_tests_cant": "that nothing is lost or confused for any combination of missing attributes, nested block amendments and kinds of semantic data can only be said of all acts at once", "anchors": ["hun_law/dict2object.py:AttrsClassConverter.to_dict", "hun_law/dict2object.py:UnionConverter.to_dict", "hun_law/dict2object.py:DictDisambiguator.to_dict", "hun_law/structure.py:Act", "hun_law/structure.py:SubArticleElement", "hun_law/structure.py:SemanticData", "hun_law/utils.py:IndentedLine", "hun_law/extractors/magyar_kozlony.py:MagyarKozlonyLawRawText", "hun_law/extractors/pdf.py:PdfOfLines"]}
{"id": "C91", "title": "Every visible character that is drawn becomes one box", "statement": "The pages of a PDF consist of the visible characters that are drawn after the beginning of the page, one text box for each, in the order of drawing, at the place given by the transformation with the height rounded to thousandths, as wide as the font, its size and the transformation say, bold if the font is. A character is not visible if it is white space or begins with a private or formatting character. Its text is what the font says, or [X]; with the case of its code if it only differs in case from the character of that code in Latin-2; and without the letters that Hungarian does not have. Drawing fails exactly at the first character with a negative code or an empty text. If no two boxes of a page are at one place and no page is empty, the lines of the file hold exactly these characters.", "quantifier": "every sequence of drawing operations with any fonts and transformations, whatever Unicode says about cases and categories", "why_tests_cant": "PDF files have arbitrary fonts and encodings; the workarounds act on combinations of codes, names and cases that no sample of gazettes covers", "anchors": ["hun_law/extractors/pdf.py:PDFMinerAdapter.cid_to_string", "hun_law/extractors/pdf.py:PDFMinerAdapter.render_char", "hun_law/extractors/pdf.py:PDFMinerAdapter.begin_page", "hun_law/extractors/pdf.py:PDFMinerAdapter.is_font_bold", "hun_law/extractors/pdf.py:extract_textboxes", "hun_law/extractors/pdf.py:CachedPdfParser", "hun_law/utils.py:chr_latin2"]}
{"id": "C92", "title": "The right margin of a line", "statement": "The right margin of a line that is read from a page is the distance between the right end of its last text box and the right end of the text on the page.", "quantifier": "every set of text boxes of a page", "why_tests_cant": "whether a wrap-up is found depends on this number; tests of the structure parser invent it", "anchors": ["hun_law/extractors/pdf.py:convert_textbox_dict_to_line", "hun_law/extractors/pdf.py:extract_single_page"]}
{"id": "C93", "title": "A session of the fix-up editor ends well exactly if the act can be made", "statement": "For an act that the program makes, the fix-up editor asks nothing and changes nothing. Otherwise it asks; after any answer other than the empty one, y, Y, yes, YES and Yes it stops and changes nothing, and after one of these there is a round of editing whose replacements are saved, and the act is tried again. When it stops, it says that the act is parsed exactly if the extraction of the same text with the fix-ups as they are saved makes an act. It adds replacements for its own act after the saved ones, and changes none of other acts. After all acts of an issue, the same holds of each of them with what is saved at the end, and acts of other issues are made as before.", "quantifier": "every act, every saved table of replacements, every history of answers and edits, every analyser", "why_tests_cant": "the sessions are interactive and depend on each other through the saved table; the editor has no tests", "anchors": ["fixup_editor.py:detect_errors_and_try_fix", "fixup_editor.py:save_replacements_and_reload", "hun_law/extractors/act.py:MagyarKozlonyToStructureOnlyAct", "hun_law/extractors/act.py:EnrichActWithBlockAmendments", "hun_law/extractors/act.py:EnrichActWithOtherSemanticData"]}
{"id": "C94", "title": "The lowest component of a reference", "statement": "The lowest component of a reference is the subpoint, else the point, else the paragraph, else the article, else the act, whichever is there first; points and subpoints that begin with a digit are numeric, others alphabetic; only the reference to nothing has none, and only points and subpoints without characters are refused. Likewise for references to parts of the structure, of which exactly those to a subtitle with an article are refused. In every act that is made, the lowest component of the reference of an element is the number of this element, with its kind; of a paragraph without a number it is the number of its article.", "quantifier": "every reference; every raw text, extractor and element of the act", "why_tests_cant": "tests look at a few references; which parser is chosen for an amendment depends on it for all of them", "anchors": ["hun_law/structure.py:Reference.last_component_with_type", "hun_law/structure.py:StructuralReference.last_component_with_type"]}
{"id": "C95", "title": "Several processes can share the cache", "statement": "When several processes read issues at the same time with the same cache directory, as the workers of an extraction do, each of them gives what it would give alone and without a cache, however their steps are mixed; none waits for another; and nothing they leave in the cache changes what later processes give.", "quantifier": "every number of processes, every choice of issues and every interleaving of their steps", "why_tests_cant": "interleavings cannot be enumerated and no test runs two workers", "anchors": ["hun_law/extractors/all.py:_do_extraction_multithreaded", "hun_law/extractors/pdf.py:CachedPdfParser", "hun_law/extractors/kozlonyok_hu_downloader.py:MagyarKozlonyHeaderExtractor", "hun_law/cache.py:CacheObject"]}
{"id": "C96", "title": "What is extracted from an issue is printed in it, whatever was cached", "statement": "Whatever processes have read issues with the same cache directory before or at the same time, as long as none reads an issue whose lines another one is only about to store and none is killed while it writes a file, each of them gives the lines that are drawn by the file of its issue, whether it computes them or reads back what was stored. So the acts that are extracted are those of the drawn files, with any number of workers; and the title and every non-empty line of the text of each act is one row of one page of the file of its issue, with all the characters of the row in their order and nothing else but spaces. The titles and lines of the acts of an issue are rows in the order in which they are printed, each row at most once, where the first page is taken twice. If no line of an act was changed by hand and no title of an article goes on to a third line, then apart from spaces the preamble and each element of the act say what is printed in their rows, all of it and nothing else, in this order; of a general, special or closing part only the name is kept.", "quantifier": "every history and interleaving of processes, every set of issues, every file and every sequence of characters that it draws, without two characters at one place", "why_tests_cant": "the tests read stored lines or single pages; none goes from drawn characters through the cache to the text of an act, and histories of processes cannot be enumerated", "anchors": ["hun_law/extractors/pdf.py:CachedPdfParser", "hun_law/extractors/pdf.py:extract_lines", "hun_law/extractors/pdf.py:PDFMinerAdapter.render_char", "hun_law/extractors/kozlonyok_hu_downloader.py:MagyarKozlonyHeaderExtractor", "hun_law/dict2object.py:Converter", "hun_law/extractors/all.py:do_extraction"]}
{"id": "C97", "title": "From printed acts to acts with semantic data, without exceptions", "statement": "If every box of text that the files of some issues draw is a single character and no two of them are at one place, and the text of every act in these issues is written in the usual way, with its amendments, is not changed by hand, and has sentences that can be understood, then extraction from these issues raises no exception, whatever was cached before and with any number of workers, and it gives exactly one act for each of these texts: with its identifier, its subject and the day of its publication, with the preamble and the elements that are written in its lines, and with the semantic data that its sentences say, where the abbreviations defined up to there are known. With at most one worker the acts come from the last one to the first one. Extraction up to the structure only, or up to the amendments, gives exactly what is written too. A command that is to write them into a directory, or one of them, ends without exception if acts like these can be written in the format, and for each wanted text the file with its name has the whole output of the act that is written there, or in another text with the same name; as text, these are the lines that are printed of the elements written there. As pages they can be written if there is something to show everywhere in what is written and no two references in a sentence of it have a character in common.", "quantifier": "every history and interleaving of processes that fill the cache, every set of issues, every number of workers, every file with texts written in the usual way", "why_tests_cant": "the tests parse a few stored issues and compare parts of the results; that no exception is raised and nothing is lost or added between the characters and the semantic data of all acts of this form is about unbounded texts and all schedules", "anchors": ["hun_law/extractors/all.py:do_extraction", "hun_law/extractors/pdf.py:CachedPdfParser", "hun_law/extractors/kozlonyok_hu_downloader.py:MagyarKozlonyHeaderExtractor", "hun_law/extractors/magyar_kozlony.py:MagyarKozlonyLawExtractor", "hun_law/parsers/structure_parser.py:ActStructureParser.parse", "hun_law/parsers/semantic_parser.py:ActSemanticsParser.parse", "hun_law/output/txt.py:write_txt", "hun_law/output/html.py:generate_html_for_act"]}
