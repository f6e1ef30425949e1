{"id": "C01", "title": "Selector matching agrees with CSS", "statement": "For an element of a parsed document and a selector built from type, universal, class, id, :not, attribute presence, :first-child, :last-child and the four combinators (descendant, child, general sibling, adjacent sibling), the renderer lookup treats the selector as matching exactly when the CSS definition of the selector holds of that element in the document tree.", "quantifier": "every document an HTML event stream can produce, every element in it, every selector of the listed forms, of any nesting depth", "why_tests_cant": "Tests try a few dozen selector/document pairs; combinators nest without bound and documents are unbounded.", "anchors": ["gopher_render/_selectors.py:_selector_matches", "gopher_render/_selectors.py:_any_ancestor_matches", "gopher_render/_selectors.py:_general_sibling_matches", "gopher_render/_selectors.py:_adjacent_sibling_matches", "gopher_render/_selectors.py:_negation_matches"]}
{"id": "C02", "title": "Text and the document root never match", "statement": "No CSS selector ever matches a text node or the implicit document root, so renderer rules only ever apply to elements.", "quantifier": "every document, every text node and the root, every selector", "why_tests_cant": "Needs induction over selector structure; :not(...) is the classic way to break it.", "anchors": ["gopher_render/_selectors.py:_selector_matches", "gopher_render/_selectors.py:_negation_matches", "gopher_render/_selectors.py:_element_matches"]}
{"id": "C03", "title": "Positional pseudo-classes", "statement": ":nth-child(n) / :nth-last-child(n) match exactly the n-th element child counted from the start / end (text does not count), :first-child and :last-child are the n = 1 cases, and for n <= 0 nothing matches.", "quantifier": "every document, element, integer n and inner selector", "why_tests_cant": "n and the number of siblings are unbounded; negative and zero n hit Python's negative indexing.", "anchors": ["gopher_render/_selectors.py:_nth_child_matches", "gopher_render/_selectors.py:_nth_last_child_matches", "gopher_render/_selectors.py:_first_child_matches", "gopher_render/_selectors.py:_last_child_matches"]}
{"id": "C04", "title": "Attribute operators", "statement": "[a], [a=v], [a~=v], [a|=v], [a^=v], [a$=v], [a*=v] hold exactly when attribute a is present and its value, respectively, exists, equals v, has v as a whitespace separated word, equals v or begins with v-, begins with v, ends with v, contains v; a valueless attribute never aborts rendering.", "quantifier": "every element, attribute name and value strings", "why_tests_cant": "String relations over unbounded strings.", "anchors": ["gopher_render/_selectors.py:_attribute_matches"]}
{"id": "C05", "title": "Specificity is ordered lexicographically", "statement": "Comparing two selector specificities is the lexicographic comparison of their (id, class, type) counts: a total order, on which ==, <, <=, >, >= agree.", "quantifier": "all triples of counts", "why_tests_cant": "Order laws (transitivity, totality) range over all triples.", "anchors": ["gopher_render/_selectors.py:_compare_specificity", "gopher_render/_selectors.py:Specificity", "gopher_render/_selectors.py:_compare"]}
{"id": "C06", "title": "Selector groups report the best match", "statement": "A comma separated selector matches an element exactly when one of its alternatives does, and the specificity reported is the greatest among the alternatives that match.", "quantifier": "every element and every list of alternatives, in any order", "why_tests_cant": "Lists are unbounded and the result must not depend on order.", "anchors": ["gopher_render/_selectors.py:tag_matches"]}
{"id": "C07", "title": "Cascade picks the most specific renderer", "statement": "The renderer used for an element is the one named by the matching rule of greatest specificity among matching rules that name a renderer; among equals, the rule that appears last in the table. If no matching rule names a renderer the default renderer is used.", "quantifier": "every rule table and every element", "why_tests_cant": "Rule tables and ties are unbounded.", "anchors": ["gopher_render/_parser.py:RendererMap.get_for_tag", "gopher_render/_parser.py:GopherHTMLParser._get_renderer"]}
{"id": "C08", "title": "Cascade merges settings key by key", "statement": "Each setting handed to the renderer has the value given by the most specific matching rule that mentions it (last in the table among equals), independent of what other keys the rules mention; a key no matching rule mentions is absent.", "quantifier": "every rule table, element and setting key", "why_tests_cant": "Interaction of arbitrarily many partial overrides.", "anchors": ["gopher_render/_parser.py:RendererMap.get_for_tag"]}
{"id": "C09", "title": "Settings-only rules take effect", "statement": "A matching rule that only supplies settings changes the settings of whatever renderer is used for the element, also when that is the default renderer.", "quantifier": "every rule table whose matching rules for the element name no renderer", "why_tests_cant": "Only a quantification over tables shows settings are never lost.", "anchors": ["gopher_render/_parser.py:RendererMap.get_for_tag", "gopher_render/_parser.py:GopherHTMLParser._get_renderer"]}
{"id": "C10", "title": "User rules override the defaults", "statement": "Rules passed to the constructor replace a default rule with the same selector text and are otherwise added after the defaults; every default rule that is not overridden stays in force unchanged, in its place.", "quantifier": "every user rule table", "why_tests_cant": "All possible overlaps between the user's keys and the defaults.", "anchors": ["gopher_render/_parser.py:GopherHTMLParser.__init__"]}
{"id": "C11", "title": "Settings are inherited along the class hierarchy", "statement": "A renderer instance's value for a setting is the one declared by the most derived class in its hierarchy that declares it, unless overridden by rule settings, which always win.", "quantifier": "every single-inheritance hierarchy of renderer classes with any settings, every key", "why_tests_cant": "Class hierarchies are unbounded; tests only instantiate built-in classes.", "anchors": ["gopher_render/rendering.py:Renderer.__new__", "gopher_render/rendering.py:Renderer._adjust_settings", "gopher_render/rendering.py:_RendererMeta"]}
{"id": "C12", "title": "Settings can be used as attributes", "statement": "In a settings map, reading, writing and deleting d.name is the same as d['name'] for every name that is not an attribute of dict, with AttributeError instead of KeyError when absent.", "quantifier": "every history of reads, writes and deletes by attribute or key", "why_tests_cant": "Histories are unbounded.", "anchors": ["gopher_render/_namedict.py:namedict"]}
{"id": "C13", "title": "Box totals add up along the nesting chain", "statement": "The left/right margin, padding and border totals of a box are the sums over the box and all its ancestors, its width is the outermost box's width, the text, inner and bordered widths are that less all these sums, less all but line templates, and less margins only, and its line template total is the sum over the box and all its ancestors but the outermost.", "quantifier": "every chain of nested boxes of any depth", "why_tests_cant": "Nesting depth is unbounded.", "anchors": ["gopher_render/rendering.py:Box.__init__"]}
{"id": "C14", "title": "Nesting never widens the text area", "statement": "With non-negative sides and templates at least as long as their placeholder, the text width of a nested box is at most that of its parent, and the four widths of one box are ordered: text <= inner <= bordered <= width.", "quantifier": "every box chain with non-negative sides", "why_tests_cant": "Universal over chains and integers.", "anchors": ["gopher_render/rendering.py:Box.inner_width", "gopher_render/rendering.py:Box.inner_width_excluding_line_template", "gopher_render/rendering.py:Box.padded_width", "gopher_render/rendering.py:Box.bordered_width"]}
{"id": "C15", "title": "A block is rendered as a rectangle", "statement": "If every content line fits, all lines of a block with padding and borders have exactly the same length (box width less margins and ancestors' borders and templates), each content line appears unchanged in its row between the left and right border, rows stay in order, and the number of rows is content lines + vertical padding + vertical borders.", "quantifier": "every content string, every border, padding and box", "why_tests_cant": "Universal over content and box sizes.", "anchors": ["gopher_render/rendering.py:BlockRenderer._border_render"]}
{"id": "C16", "title": "Margins only add blank lines and indentation", "statement": "Applying a block's margins puts exactly top/bottom many newlines before/after and left many spaces at the start of every line, and changes nothing else.", "quantifier": "every content and margin", "why_tests_cant": "Universal over content, including unusual line separators.", "anchors": ["gopher_render/rendering.py:BlockRenderer._outer_render"]}
{"id": "C17", "title": "Wrapped lines fit the width", "statement": "With long word breaking on and indents shorter than the width, no line produced by wrapping has more visible characters (ANSI colour sequences not counted) than the width.", "quantifier": "every text, width, indent and combination of other wrapping options", "why_tests_cant": "Unbounded texts; the subtle inputs are escape sequences inside broken words.", "anchors": ["gopher_render/_textwrap.py:AnsiAwareTextWrapper._wrap_chunks", "gopher_render/_textwrap.py:_len"]}
{"id": "C18", "title": "Wrapping loses no text", "statement": "The non-whitespace characters of the wrapped lines (indents aside), in order, are exactly those of the input text.", "quantifier": "every text, width, indent and combination of wrapping options (without a line limit)", "why_tests_cant": "Unbounded texts and all chunk boundary alignments.", "anchors": ["gopher_render/_textwrap.py:AnsiAwareTextWrapper._wrap_chunks", "gopher_render/_textwrap.py:wrap"]}
{"id": "C19", "title": "Wrapping terminates", "statement": "Wrapping always finishes.", "quantifier": "every text, positive width, indents and options", "why_tests_cant": "Non-termination cannot be observed by a test.", "anchors": ["gopher_render/_textwrap.py:AnsiAwareTextWrapper._wrap_chunks"]}
{"id": "C20", "title": "Only a non-positive width is rejected", "statement": "Without a line limit, wrapping raises exactly when the width is zero or negative, whatever the text.", "quantifier": "every text, width and options", "why_tests_cant": "Universal.", "anchors": ["gopher_render/_textwrap.py:AnsiAwareTextWrapper._wrap_chunks"]}
{"id": "C21", "title": "Wrapping is greedy", "statement": "A line is ended only when the next word (or whitespace run) did not fit on it: for consecutive lines, the visible length of a line before trailing whitespace is dropped plus that of the next chunk exceeds the width.", "quantifier": "every text and width where no chunk is longer than a line", "why_tests_cant": "All alignments of words against the width.", "anchors": ["gopher_render/_textwrap.py:AnsiAwareTextWrapper._wrap_chunks"]}
{"id": "C22", "title": "Lines carry no stray edge whitespace", "statement": "With whitespace dropping on, no line after the first starts (after its indent) with a whitespace chunk, and no line ends with whitespace.", "quantifier": "every text and width", "why_tests_cant": "Alignment dependent.", "anchors": ["gopher_render/_textwrap.py:AnsiAwareTextWrapper._wrap_chunks"]}
{"id": "C23", "title": "Colour codes do not influence line breaks", "statement": "If no word is longer than a line, wrapping text with ANSI colour sequences attached to its words breaks at exactly the places where the same text without them breaks.", "quantifier": "every chunk list in which escape sequences are contained in words, every width", "why_tests_cant": "Universal over placements of the sequences.", "anchors": ["gopher_render/_textwrap.py:_len", "gopher_render/_textwrap.py:AnsiAwareTextWrapper._wrap_chunks"]}
{"id": "C24", "title": "A line limit is respected", "statement": "With max_lines = n >= 1 the result has at most n lines.", "quantifier": "every text, width, placeholder and n", "why_tests_cant": "Universal.", "anchors": ["gopher_render/_textwrap.py:AnsiAwareTextWrapper._wrap_chunks"]}
{"id": "C25", "title": "Full justification fills the width and keeps the words", "statement": "Every line but the last that has at least one gap comes out exactly as wide as requested, the words and their order are unchanged, no gap disappears and gaps on a line differ by at most one space from an even distribution.", "quantifier": "every text and width, with or without ANSI sequences", "why_tests_cant": "Universal over lines, gap counts and remainders.", "anchors": ["gopher_render/rendering.py:full_justify"]}
{"id": "C26", "title": "Right and centre justification", "statement": "Every line comes out exactly as wide as requested (if it fitted), consisting of the wrapped line and spaces; right justified lines end at the right edge; centred lines have left and right padding differing by at most one.", "quantifier": "every text and width", "why_tests_cant": "Universal.", "anchors": ["gopher_render/rendering.py:right_justify", "gopher_render/rendering.py:center_justify", "gopher_render/rendering.py:center", "gopher_render/rendering.py:right"]}
{"id": "C27", "title": "Text whitespace is normalised without joining or losing words", "statement": "Outside pre, the text kept for a text node has the same whitespace separated words as the source text, contains no newline, tab or two consecutive spaces, and normalising twice changes nothing; inside pre the text is kept verbatim.", "quantifier": "every text", "why_tests_cant": "Universal over strings.", "anchors": ["gopher_render/_parser.py:DataParser.__init__"]}
{"id": "C28", "title": "Every tag and text lands in the tree exactly once, in order", "statement": "After any sequence of start tags, end tags and text, walking the document tree in order visits each start tag and each text exactly once, in the order they were fed.", "quantifier": "every event sequence, including mismatched, missing and stray end tags", "why_tests_cant": "All malformed inputs.", "anchors": ["gopher_render/_parser.py:GopherHTMLParser.handle_starttag", "gopher_render/_parser.py:GopherHTMLParser.handle_endtag", "gopher_render/_parser.py:GopherHTMLParser.handle_data"]}
{"id": "C29", "title": "Parent and child links agree", "statement": "In every tree the parser builds, each element or text occurs exactly once among the children of its parent, the parent was created earlier and is an element or the root; void elements (br, img) never have children.", "quantifier": "every event sequence", "why_tests_cant": "Invariant over all histories.", "anchors": ["gopher_render/_parser.py:GopherHTMLParser.handle_starttag", "gopher_render/_parser.py:TagParser"]}
{"id": "C30", "title": "End tags close only the innermost open element", "statement": "An end tag closes the innermost open element if the names agree and otherwise leaves the tree and the set of open elements unchanged.", "quantifier": "every parser state and end tag", "why_tests_cant": "All histories.", "anchors": ["gopher_render/_parser.py:GopherHTMLParser.handle_endtag", "gopher_render/_parser.py:GopherHTMLParser._get_top"]}
{"id": "C31", "title": "Well-formed HTML is parsed to the tree it denotes", "statement": "Feeding the tags and text of any tree of elements (void elements childless) in document order builds exactly that tree.", "quantifier": "every finite element tree", "why_tests_cant": "Trees of unbounded depth and width.", "anchors": ["gopher_render/_parser.py:GopherHTMLParser.handle_starttag", "gopher_render/_parser.py:GopherHTMLParser.handle_endtag", "gopher_render/_parser.py:GopherHTMLParser.handle_data"]}
{"id": "C32", "title": "Link numbers are unique and consecutive", "statement": "Links that are not inlined are numbered 1, 2, 3, ... in document order, with no number used twice or skipped.", "quantifier": "every event sequence and placement configuration", "why_tests_cant": "All documents.", "anchors": ["gopher_render/_parser.py:GopherHTMLParser.handle_starttag"]}
{"id": "C33", "title": "The footer lists every footer-placed link once, in order", "statement": "Every link or image whose placement is 'footer' is listed in the footer exactly once, in order of its number.", "quantifier": "every document and configuration", "why_tests_cant": "All documents and configurations; the tests have none with links.", "anchors": ["gopher_render/_parser.py:GopherHTMLParser.close", "gopher_render/_parser.py:GopherHTMLParser.handle_starttag"]}
{"id": "C34", "title": "After-block links follow their enclosing element", "statement": "With placement 'after_block' each link is listed exactly once, right after the content of the element that encloses it.", "quantifier": "every document", "why_tests_cant": "All documents, including links with no enclosing element.", "anchors": ["gopher_render/_parser.py:TagParser.render", "gopher_render/_parser.py:TagParser.add_pending_link", "gopher_render/_parser.py:GopherHTMLParser.handle_starttag"]}
{"id": "C35", "title": "reset() gives a fresh parser", "statement": "After reset() the parser produces, for any further input, what a newly constructed parser with the same arguments produces.", "quantifier": "every history before the reset and every input after it", "why_tests_cant": "All histories.", "anchors": ["gopher_render/_parser.py:GopherHTMLParser.reset"]}
{"id": "C36", "title": "close() is idempotent", "statement": "Calling close() again without feeding more input leaves the rendered text unchanged.", "quantifier": "every history", "why_tests_cant": "All documents.", "anchors": ["gopher_render/_parser.py:GopherHTMLParser.close"]}
{"id": "C37", "title": "Optimising only removes trailing whitespace", "statement": "With optimise on, the output is the unoptimised output with trailing whitespace removed from each line: the number of lines is the same, no line ends in whitespace, and optimising again changes nothing.", "quantifier": "every rendered text", "why_tests_cant": "Universal.", "anchors": ["gopher_render/_parser.py:GopherHTMLParser._optimise_parsed"]}
{"id": "C38", "title": "Impossible gophermap configurations are rejected", "statement": "A parser for gophermap output can be constructed exactly when links are not inlined and a gopher host is given; text output accepts everything.", "quantifier": "every configuration", "why_tests_cant": "Combination of options.", "anchors": ["gopher_render/_parser.py:GopherHTMLParser.__init__"]}
{"id": "C39", "title": "The page box frames the whole output", "statement": "The output is the rendered content with the page's left margin before each line, the top margin's newlines before and the bottom margin's after.", "quantifier": "every document and page box", "why_tests_cant": "Universal.", "anchors": ["gopher_render/_parser.py:GopherHTMLParser.close", "gopher_render/_parser.py:GopherHTMLParser._indent_body"]}
{"id": "C40", "title": "Item type follows the file extension", "statement": "The gopher item type is chosen by the text after the last dot: h for html/htm, g for gif, I for jpg/jpeg/png/bmp/tiff, 0 for txt/csv/tsv/md, 9 for any other, and 1 when there is no dot or nothing before it.", "quantifier": "every path", "why_tests_cant": "Universal over strings.", "anchors": ["gopher_render/_parser.py:LinkParser._guess_type"]}
{"id": "C41", "title": "Links point where the href says", "statement": "http(s) and unknown-scheme hrefs become type h 'URL:' items on the configured host; hrefs without a scheme become items on the configured host with the href's path as selector; gopher:// hrefs become items on the href's own host, with a numeric port.", "quantifier": "every href string", "why_tests_cant": "Universal over strings.", "anchors": ["gopher_render/_parser.py:LinkParser._parse_href"]}
{"id": "C42", "title": "Gophermap links are well-formed lines", "statement": "In gophermap output each extracted link is one line starting with its type character at column one, made of exactly four tab separated fields: type and description, selector, host, port.", "quantifier": "every link, title, text, href", "why_tests_cant": "Universal over strings; a single tab in a title breaks it.", "anchors": ["gopher_render/rendering.py:ExtractedLinkRenderer", "gopher_render/rendering.py:ExtractedImageLinkRenderer"]}
{"id": "C43", "title": "Link descriptions are truncated", "statement": "The description of an extracted text link is the stripped link text if it is at most the limit long and otherwise its first limit characters followed by '...'. A limit below zero leaves out that many characters at the end, always with dots.", "quantifier": "every text and limit", "why_tests_cant": "Universal.", "anchors": ["gopher_render/rendering.py:ExtractedLinkRenderer._inner_render"]}
{"id": "C44", "title": "Rule settings reach link renderers", "statement": "Settings given by rules for extracted link renderers (and for inlined links) are in force when those renderers run.", "quantifier": "every rule table and link", "why_tests_cant": "Universal over settings.", "anchors": ["gopher_render/_parser.py:LinkParser.link_render"]}
{"id": "C45", "title": "Inline markup wraps the content", "statement": "em/i, strong/b, u/ins, s/del and span render as the content between the fixed markers (_ _, ** **, _ _, ~~ ~~, none), whatever characters (including braces) the content holds.", "quantifier": "every content", "why_tests_cant": "Universal over strings; format strings are sensitive to braces.", "anchors": ["gopher_render/rendering.py:InlineRenderer.render", "gopher_render/rendering.py:EmRenderer", "gopher_render/rendering.py:StrongRenderer", "gopher_render/rendering.py:UnderlineRenderer", "gopher_render/rendering.py:StrikethroughRenderer"]}
{"id": "C46", "title": "Code spans, blocks and pre", "statement": "A code element directly inside pre renders as its content; otherwise content without a newline is put between backticks and content with one between fences.", "quantifier": "every content and position", "why_tests_cant": "Universal.", "anchors": ["gopher_render/rendering.py:CodeRenderer.render"]}
{"id": "C47", "title": "Markdown headers", "statement": "A header of level n renders as n hashes, space, content, space, n hashes, on one row padded to the page width (if it fits).", "quantifier": "every content and level 1..6", "why_tests_cant": "Universal.", "anchors": ["gopher_render/rendering.py:MarkdownHeaderRenderer", "gopher_render/rendering.py:HeaderRenderer._inner_render"]}
{"id": "C48", "title": "List items hang", "statement": "A list item's text is wrapped; its first line carries the bullet, every further line is indented by exactly the bullet's width, and no line is wider than the space available.", "quantifier": "every item content, bullet and box", "why_tests_cant": "Universal.", "anchors": ["gopher_render/rendering.py:ListItemRenderer._inner_render", "gopher_render/rendering.py:DefinitionListItemRenderer._inner_render"]}
{"id": "C49", "title": "Ordered lists count 1, 2, 3", "statement": "The k-th item of an ordered list is numbered start + (k-1) * step.", "quantifier": "every ordered list, whatever whitespace separates its items, every start and step setting", "why_tests_cant": "All lists.", "anchors": ["gopher_render/rendering.py:OrderedListItemRenderer"]}
{"id": "C50", "title": "Every quoted line is marked", "statement": "Every line of a block quote's content, and nothing else, is rendered prefixed with '> '.", "quantifier": "every content", "why_tests_cant": "Universal.", "anchors": ["gopher_render/rendering.py:BlockQuoteRenderer._inner_render"]}
{"id": "C51", "title": "Preformatted text is verbatim", "statement": "Each line of a pre element appears unchanged after a four space indent: nothing is wrapped, joined or dropped.", "quantifier": "every content", "why_tests_cant": "Universal.", "anchors": ["gopher_render/rendering.py:PreRenderer._inner_render", "gopher_render/_parser.py:DataParser.__init__"]}
{"id": "C52", "title": "ANSI styling is invisible and balanced", "statement": "Styled content is the content between enabling and disabling colour sequences: removing the sequences gives back the content, every enabled effect is switched off again afterwards, and any documented setting can be used.", "quantifier": "every content and combination of style settings", "why_tests_cant": "2^13 effects times colours times contents.", "anchors": ["gopher_render/rendering.py:AnsiEscapeCodeRenderer.render", "gopher_render/rendering.py:_get_sequence_for_colour"]}
{"id": "C53", "title": "HTML colours", "statement": "#rrggbb is read as its three bytes, #rgb as #rrggbb with each digit doubled, with any number of # before the digits or none, and every component is between 0 and 255.", "quantifier": "all colour strings of hex digits", "why_tests_cant": "Universal over digits.", "anchors": ["gopher_render/rendering.py:_parse_html_colour"]}
{"id": "C54", "title": "No text is lost", "statement": "All non-whitespace characters of the text fed to the parser appear in the output, in order.", "quantifier": "every document, and every rule table that uses the built-in renderers (other than the one that suppresses content) without capitalisation and with templates that contain their placeholder", "why_tests_cant": "End-to-end property over all documents.", "anchors": ["gopher_render/_parser.py:GopherHTMLParser.close", "gopher_render/rendering.py:ParagraphRenderer._inner_render"]}
{"id": "C55", "title": "Output fits the page", "statement": "No output line, trailing whitespace aside, is wider than the page box.", "quantifier": "every document built from paragraphs, block quotes, lists and definition lists", "why_tests_cant": "End-to-end property over all documents and nesting depths.", "anchors": ["gopher_render/_parser.py:GopherHTMLParser.close", "gopher_render/rendering.py:BlockRenderer._border_render", "gopher_render/rendering.py:Box"]}
{"id": "C56", "title": "Suppressed elements leave no trace", "statement": "An element rendered with the non-rendering renderer contributes nothing to the output at its place, whatever it contains.", "quantifier": "every content", "why_tests_cant": "Universal.", "anchors": ["gopher_render/rendering.py:NonRenderer"]}
{"id": "C57", "title": "Nested lists keep their structure", "statement": "In a list nested in a list item, every item starts on a new line, indented below its parent item's text.", "quantifier": "lists nested to any depth", "why_tests_cant": "Depth is unbounded.", "anchors": ["gopher_render/rendering.py:ListItemRenderer._inner_render"]}
{"id": "C58", "title": "Rendering terminates on every tree", "statement": "Assigning renderers and rendering walk each subtree once and finish for every tree the parser builds.", "quantifier": "every event sequence", "why_tests_cant": "Termination.", "anchors": ["gopher_render/_parser.py:GopherHTMLParser._assign_renderers", "gopher_render/_parser.py:TagParser.render"]}
{"id": "C59", "title": "Content is never interpreted as a template", "statement": "Formatting content into a template copies the content verbatim at the placeholder, whatever braces it contains.", "quantifier": "every template with one placeholder and every content", "why_tests_cant": "Universal over strings.", "anchors": ["gopher_render/rendering.py:InlineRenderer.render", "gopher_render/rendering.py:ParagraphRenderer._inner_render", "gopher_render/rendering.py:ListItemRenderer._inner_render"]}
{"id": "C60", "title": "Explicit line breaks survive paragraph wrapping", "statement": "In a paragraph each explicit line break starts a new output line: the paragraph is the concatenation of its separately wrapped segments.", "quantifier": "every paragraph content", "why_tests_cant": "Universal.", "anchors": ["gopher_render/rendering.py:ParagraphRenderer._inner_render", "gopher_render/rendering.py:BreakRenderer"]}
{"id": "C61", "title": "Default style sheet", "statement": "Every element that no rule of the user matches gets the renderer the default style sheet names for its tag, and its margins depend only on its position: the first and last paragraph of a block quote have no blank line before and after, the first item of a list and the first term of a definition list have none before, except that the first item of a nested list has one. Elements not in the style sheet get the default renderer.", "quantifier": "every document, every table of rules of the user, every element that none of them matches", "why_tests_cant": "The rules interact through specificity and order; which of them wins depends on tag, siblings and ancestors, of which there are unboundedly many combinations.", "anchors": ["gopher_render/_parser.py:GopherHTMLParser.__init__", "gopher_render/_parser.py:GopherHTMLParser._get_renderer", "gopher_render/_parser.py:RendererMap.get_for_tag"]}
{"id": "C62", "title": "Sentences are spaced", "statement": "When sentence endings are fixed, as paragraphs, list items and descriptions do, no wrapped line has a lower case letter, a full stop, exclamation or question mark and at most one closing quote followed by a single space and more text: there are two spaces, or the line ends there.", "quantifier": "every text with plain whitespace, every width and every blank indentation", "why_tests_cant": "The end of a sentence can fall anywhere in a line, next to a hyphenated word, an escape sequence or a break, in unboundedly many texts and widths.", "anchors": ["gopher_render/_textwrap.py:AnsiEscapedTextWrapper", "gopher_render/rendering.py:ParagraphRenderer.__init__", "gopher_render/rendering.py:ListItemRenderer.__init__"]}
{"id": "C63", "title": "Code themes colour elements and leave the rest alone", "statement": "With any of the bundled code themes, an element that a rule of the theme mentions is its usual content between escape sequences that show exactly the colours and effects the winning rules of the theme ask for and return to the plain look; an element no rule mentions is rendered as without the theme.", "quantifier": "every bundled theme, every document, every element", "why_tests_cant": "The rules are matched against class attributes of unboundedly many documents, overlap, and are combined by specificity and order with the default rules.", "anchors": ["gopher_render/code_themes/monokai.py:renderers", "gopher_render/code_themes/github.py:renderers", "gopher_render/_parser.py:RendererMap.get_for_tag", "gopher_render/rendering.py:AnsiEscapeCodeRenderer.render"]}
{"id": "C64", "title": "Colours in running text do not influence line breaks", "statement": "If no word is longer than a line, wrapping a text with ANSI colour sequences in its words gives, with the sequences removed, the lines that wrapping the text without them gives.", "quantifier": "every text of words and spaces, every placement of colour sequences in the words, all options without a line limit", "why_tests_cant": "Universal over texts and placements of sequences.", "anchors": ["gopher_render/_textwrap.py:wrap", "gopher_render/_textwrap.py:_len"]}
{"id": "C65", "title": "Rendering fails only for lack of room", "statement": "With the default rules, alone or with a bundled code theme, closing the parser after a document has been read succeeds if every paragraph, list item and description has at least one column left after the markers of the elements around it (2 for a quotation, bullet or description, the digits plus 2 for a number, 0 for elements styled by the theme), and raises ValueError otherwise. No other exception is possible.", "quantifier": "every document, every page box, all link and image placements and output formats, the default rules with no theme or any bundled theme", "why_tests_cant": "The condition is about sums of marker widths along arbitrarily deep paths of arbitrary trees, in both directions.", "anchors": ["gopher_render/_parser.py:GopherHTMLParser.close", "gopher_render/_parser.py:TagParser.render", "gopher_render/_parser.py:LinkParser.link_render", "gopher_render/rendering.py:BlockRenderer.render", "gopher_render/_textwrap.py:wrap"]}
{"id": "C66", "title": "Which documents can be read", "statement": "Feeding a document raises exactly if some start tag has a class attribute without value (AttributeError), or is a link or image whose address urllib rejects, a gopher address with a bad port included (ValueError), or is a link or image to be placed after its block while no element is open (AttributeError); the exception is that of the first such tag. End tags and text never raise.", "quantifier": "every sequence of tokenizer events, every configuration the constructor accepts", "why_tests_cant": "Universal over event sequences; whether an element is open depends on all events before.", "anchors": ["gopher_render/_parser.py:GopherHTMLParser.handle_starttag", "gopher_render/_parser.py:GopherHTMLParser.handle_endtag", "gopher_render/_parser.py:TagParser.__init__", "gopher_render/_parser.py:LinkParser._parse_href"]}
{"id": "C67", "title": "The command line program writes the page", "statement": "The program renders the document in the source file, after Markdown conversion if its name is something followed by .md, and writes the page to the destination; it prints nothing but, if asked to, the HTML. The page has all the text the tokenizer finds in the document, whitespace aside. The program ends for every document, with no exception if the tokenizer accepts the document (C70), it can be read (C66) and fits on 67 columns (C65), and with ValueError, AttributeError or AssertionError otherwise.", "quantifier": "every source path, every content and conversion of the file", "why_tests_cant": "Universal over paths and documents, and about everything the program does not do.", "anchors": ["gopher_render/cli.py:main", "gopher_render/_parser.py:GopherHTMLParser.handle_endtag", "gopher_render/code_themes/iced_gopher.py:renderers"]}
{"id": "C68", "title": "HTML source is read as it is meant", "statement": "A document written in the usual way (tags with attributes that are quoted, bare or without value, text and values with character references by name or number and with ampersands that are no references, comments, declarations, void tags with a slash, script and style with any content without </) is rendered as the page for the tags, attributes and texts it stands for, with names in lower case; nothing is dropped, reordered or misread. Text and attribute values that have been escaped are read back exactly, whatever characters they have.", "quantifier": "every document of this form, every text, every configuration", "why_tests_cant": "Universal over documents of any length and over all texts, including those that look like markup.", "anchors": ["gopher_render/_parser.py:GopherHTMLParser", "gopher_render/_parser.py:GopherHTMLParser.close"]}
{"id": "C69", "title": "Feeding in pieces", "statement": "How a document is split over several calls of feed makes no difference: the same tags and texts are read, and the page is the same.", "quantifier": "every document of the form of C68, every way to cut it in pieces, every configuration", "why_tests_cant": "Universal over all cuts, including cuts inside tags, attribute values, references and end tags of scripts.", "anchors": ["gopher_render/_parser.py:GopherHTMLParser.handle_data", "gopher_render/_parser.py:GopherHTMLParser.close", "gopher_render/_parser.py:DataParser.__init__"]}
{"id": "C70", "title": "Any text can be fed", "statement": "Reading ends for every text, fed in any pieces, without an exception of the tokenizer, and no text of the document is lost, even if markup at its end is not complete.", "quantifier": "every list of strings", "why_tests_cant": "Universal over all strings; termination and absence of exceptions.", "anchors": ["gopher_render/_parser.py:GopherHTMLParser", "gopher_render/_parser.py:GopherHTMLParser.close"]}
{"id": "C71", "title": "Selector texts mean what CSS says", "statement": "Every selector text that CSS allows (type, universal, class, id, attribute, pseudo-class, :not and pseudo-element parts, combinators, comma lists, with optional white space, comments and escapes) is read as the selector CSS says it is, and a rule with that text applies to exactly the elements CSS says; every other text either gives selectors or is refused with SelectorSyntaxError; and every selector in the built-in tables and themes is read.", "quantifier": "every text, every document, every element", "why_tests_cant": "Unboundedly many texts, and white space, comments and escapes can stand in many places.", "anchors": ["gopher_render/_parser.py:RendererMap.__init__", "gopher_render/_selectors.py:tag_matches", "gopher_render/_selectors.py:_pseudofunction_matches"]}
{"id": "C72", "title": "What the constructor accepts", "statement": "The constructor raises ValueError for exactly the two impossible combinations of gophermap options, SelectorSyntaxError for exactly the tables with a key that is not a selector (in the table of renderers for elements '' is allowed and stands for the default renderer; in the table for extracted links it is refused), and otherwise sets up the default rules with the user's replacing or following them.", "quantifier": "every combination of options and every pair of user tables", "why_tests_cant": "The tables are arbitrary dictionaries; acceptance depends on every key.", "anchors": ["gopher_render/_parser.py:GopherHTMLParser.__init__", "gopher_render/_parser.py:RendererMap.__init__"]}
{"id": "C73", "title": "The width argument", "statement": "A page made with width=w and no box is laid out for w columns: what is wrapped fits in w columns.", "quantifier": "every width and every document", "why_tests_cant": "Every width and document would have to be tried; the tests give a box or use the default.", "anchors": ["gopher_render/_parser.py:GopherHTMLParser.__init__"]}
{"id": "C74", "title": "The list of links at the end of a text page", "statement": "A text page with links in the footer (no left margin, optimised) is the rendered document, an empty line, and one line for each link or image placed there, in document order: '[number] description: address', then the title in quotes if there is one (for an image, if the description had to be cut). The program prints such a page: every link of the document has its line there, numbered from 1, and images stay where they are.", "quantifier": "every document, every limit for descriptions, every rule table for elements", "why_tests_cant": "Any number of links in any places, with any texts, addresses and titles, and padding that the trimming must remove.", "anchors": ["gopher_render/_parser.py:GopherHTMLParser.close", "gopher_render/rendering.py:ExtractedLinkRenderer._inner_render", "gopher_render/rendering.py:ExtractedImageLinkRenderer._inner_render", "gopher_render/cli.py:main"]}
{"id": "C75", "title": "Header settings", "statement": "A header (or a definition term) is its text in capitals if 'capitalized', with 'spread' copies of 'spread_char' between any two characters, inside 'template'; if 'centered', with equal blanks (up to one) on both sides that fill the width available; if 'underlined', followed by a line of 'underline_char' that is exactly below the text, or over the whole width available if 'underline_full'. What is underlined is what is seen of the text.", "quantifier": "every text, every combination of the settings, every place in a document", "why_tests_cant": "Eight settings that interact with each other, with the length of the text, and with the place of the header; no test sets any of them.", "anchors": ["gopher_render/rendering.py:HeaderRenderer._inner_render", "gopher_render/rendering.py:HeaderRenderer._spread", "gopher_render/rendering.py:BlockRenderer.__init__"]}
{"id": "C76", "title": "Templates and capitals", "statement": "Every renderer puts its content where its template has the placeholder, and named values where their names are: inline elements (with capitals if asked for), code (one template for one line, another for several, none inside pre), links and images for their placement and with or without title, the entries of extracted links and images as text and for gophermaps, and line breaks. Whatever else is in the template is printed once, doubled braces as single ones, and braces in the content stay.", "quantifier": "every template, every content, every link target", "why_tests_cant": "Templates and contents are any texts, braces included; the tests use the default templates.", "anchors": ["gopher_render/rendering.py:Renderer.render", "gopher_render/rendering.py:CodeRenderer.render", "gopher_render/rendering.py:LinkRenderer.render", "gopher_render/rendering.py:ImageRenderer.render", "gopher_render/rendering.py:BreakRenderer.render", "gopher_render/rendering.py:ExtractedLinkRenderer._inner_render", "gopher_render/rendering.py:ExtractedImageLinkRenderer._inner_render"]}
{"id": "C77", "title": "Line templates of quotations and preformatted text", "statement": "Each line of a block quote is put into the line template, each line of preformatted text into the line template and after 'indent' spaces; nothing else is added, whatever the template and the lines contain. For what is inside, the template of a block quote takes the columns it has besides its placeholder, and that of preformatted text takes none.", "quantifier": "every content, every line template, every indent", "why_tests_cant": "Any lines and any templates, braces included.", "anchors": ["gopher_render/rendering.py:PreRenderer._inner_render", "gopher_render/rendering.py:BlockQuoteRenderer._inner_render"]}
{"id": "C78", "title": "Settings of paragraphs", "statement": "A paragraph is its text, in capitals if 'capitalized', cut at its line breaks; each segment is wrapped in the columns that margin, border, padding and line template leave, with 'initial_indent' and 'subsequent_indent', the options of textwrap, and aligned as 'justification' says; each line is put into the line template. Lines fit the columns if long words may be broken, no character except whitespace is lost, and an unknown justification is a KeyError.", "quantifier": "every text, every combination of settings, every place", "why_tests_cant": "Fifteen settings that interact with each other, with the text and with the boxes around.", "anchors": ["gopher_render/rendering.py:ParagraphRenderer._inner_render", "gopher_render/rendering.py:ParagraphRenderer._generate_box", "gopher_render/rendering.py:full_justify", "gopher_render/rendering.py:right_justify", "gopher_render/rendering.py:center_justify"]}
{"id": "C79", "title": "Settings of items", "statement": "An item of a list or a definition is its text set as for paragraphs; the line template is for the first line, and the other lines start below the text of the first.", "quantifier": "every text, every combination of settings, every place", "why_tests_cant": "As for C78, with line templates of any length.", "anchors": ["gopher_render/rendering.py:ListItemRenderer._inner_render", "gopher_render/rendering.py:DefinitionListItemRenderer._inner_render"]}
{"id": "C80", "title": "Frames in documents", "statement": "A block in a document is its margins, and inside of them a rectangle: the upper edge, empty rows for the padding, the lines between the sides of the border, filled with blanks, and the same below; every row is as wide as the room that the blocks around leave.", "quantifier": "every document, every block in it, every border, margin and padding", "why_tests_cant": "The widths depend on all blocks around and on the lengths of the lines.", "anchors": ["gopher_render/rendering.py:BlockRenderer.render", "gopher_render/rendering.py:BlockRenderer._border_render", "gopher_render/rendering.py:BlockRenderer._outer_render", "gopher_render/rendering.py:Box.__init__"]}
{"id": "C81", "title": "Links and images where they stand", "statement": "In a document with the default style, a link is shown where it stands as its content in brackets, followed by its number in brackets if it is listed elsewhere, or by its address and its title in parentheses if links are placed inline. An image is shown as its alt text (or the word Image) in the same way, with an exclamation mark before it if images are placed inline. The numbers are those of the list of links.", "quantifier": "every document, every link and image in it, every placement", "why_tests_cant": "The content is arbitrary markup, and the number depends on all links and images before.", "anchors": ["gopher_render/_parser.py:LinkParser.render", "gopher_render/_parser.py:LinkParser.link_render", "gopher_render/rendering.py:LinkRenderer.render", "gopher_render/rendering.py:ImageRenderer.render"]}
{"id": "C82", "title": "The whole page", "statement": "In the default style, the page of a document is the one a short reference drawn from the tree of the document gives: what the top level nodes look like one after another, an empty line and the list of links, moved to the right by the left margin, with the margins above and below; each element is drawn from the drawing of its content and of the links listed at its end, as lines of text or as gophermap items. With a bundled colour theme, the elements the theme mentions are instead their content between the control sequences that show the colours of the theme. There is exactly one such page, and it is what the program prints, without spaces at the ends of lines.", "quantifier": "every document that renders without an error, every page box and placement of links and images, in text output and as a gophermap, without own renderers or with one of the bundled themes", "why_tests_cant": "Documents are trees of any depth, and the width of every block, the numbers of the links and the empty lines depend on what is around it.", "anchors": ["gopher_render/_parser.py:GopherHTMLParser.close", "gopher_render/_parser.py:TagParser.render", "gopher_render/_parser.py:LinkParser.render", "gopher_render/rendering.py:Renderer.render", "gopher_render/rendering.py:BlockRenderer.render"]}
{"id": "C83", "title": "The command line", "statement": "The program accepts two file names, with -d or --dump any number of times anywhere among them, and takes the names as they are, in order; after -- every word is a file name. Options can be cut short and letters put together. -h or --help shows the help. With any other command line nothing is read or rendered and the program ends with status 2.", "quantifier": "every list of words", "why_tests_cant": "Command lines have any number of words of any length, and the meaning of a word depends on those around it.", "anchors": ["gopher_render/cli.py:_parse_arguments", "gopher_render/cli.py:main"]}
{"id": "C84", "title": "Classes and other attributes make no difference", "statement": "In the default style, classes, ids and all attributes but the address and title of a link and the address and alternative text of an image make no difference: two documents that agree otherwise have the same page, or both have none.", "quantifier": "every two documents that agree in texts, tags and these attributes, in which no class attribute is without a value; every page box and placement of links and images", "why_tests_cant": "Attributes take part in the matching of rules and in every element of a tree of any depth.", "anchors": ["gopher_render/_parser.py:GopherHTMLParser.handle_starttag", "gopher_render/_parser.py:GopherHTMLParser.close", "gopher_render/_parser.py:TagParser.render"]}
{"id": "C85", "title": "Changes stay where they are made", "statement": "In the default style, the page is made of one piece for each node at the top level and of the list of links. If two documents have the same tags in the same order and differ in texts and attributes, the pieces of those nodes inside which nothing differs are the same in both pages, and so is the list of links if nothing differs in the links.", "quantifier": "every two documents with the same tags in the same order that render without an error; every page box and placement of links and images", "why_tests_cant": "Widths, numbers and empty lines of an element depend on what is around it, in documents of any size.", "anchors": ["gopher_render/_parser.py:GopherHTMLParser.close", "gopher_render/_parser.py:TagParser.render", "gopher_render/rendering.py:Renderer.render", "gopher_render/rendering.py:BlockRenderer.render"]}
{"id": "C86", "title": "What is added at the end", "statement": "In the default style, going on after a document in which all elements are closed does not change what is already on the page: the pieces of the top level nodes and the list of links of the shorter document are the beginning of those of the longer one. Without a list of links and without a bottom margin, the page of the shorter document is the beginning of the page of the longer one, and it renders if the longer one does.", "quantifier": "every document with all elements closed and everything that can follow it", "why_tests_cant": "Both parts of the document can be of any size, and the rules look at siblings before and after.", "anchors": ["gopher_render/_parser.py:GopherHTMLParser.handle_starttag", "gopher_render/_parser.py:GopherHTMLParser.handle_data", "gopher_render/_parser.py:GopherHTMLParser.close"]}
{"id": "C87", "title": "What a line limit leaves", "statement": "With a line limit, a text that needs no more lines is wrapped as without it. Of any other text the lines before the last one that is allowed stay as they are, and then the text is cut: the placeholder comes after as many words of the last line as leave room for it; if none does, it is put at the end of the line before, and if it does not fit there either, on a line of its own.", "quantifier": "every text with ASCII whitespace only, every limit, placeholder, width and indents shorter than the width, with long words broken and whitespace dropped", "why_tests_cant": "Where the text is cut depends on the lengths of all words before.", "anchors": ["gopher_render/_textwrap.py:AnsiAwareTextWrapper._wrap_chunks"]}
{"id": "C88", "title": "The base class of formatters", "statement": "A formatter is called with the words of the last class attribute, with the settings it was made with, and with a box inside the box of the parent that has the same widths and no margins, padding or borders of its own, or with no box if there is no parent. It fails exactly if this class attribute has no value. The base class prints the content as it is.", "quantifier": "every list of attributes, all settings, every content and parent box, every overriding format method", "why_tests_cant": "Universal over attribute lists and boxes; nothing in the project calls this class.", "anchors": ["gopher_render/rendering.py:Formatter.__call__", "gopher_render/rendering.py:Formatter.get_box", "gopher_render/rendering.py:Formatter.format"]}
{"id": "C89", "title": "Format specifications in templates", "statement": "A placeholder with a format specification (fill character, alignment, width, precision) shows the content in that layout: cut to the precision if one is given, filled up to the width with the fill character on the right side or sides, and never shortened otherwise; the text of the template around it stays as it is. The same holds for the number in the line template of numbered items. The short ways to write a specification mean what they mean in Python: without fill character blanks are used, without alignment texts are on the left and numbers on the right, and a zero before the width fills up with zeros, in numbers after the sign. A number shown as a text with !s is laid out like a text, and a layout may itself be given as an argument, after which the automatic numbering of the arguments goes on. Values with names can have layouts in the same way. Any other specification for a text, such as a point without a number, a sign or a number that is too large, is refused with ValueError, and no specification asks for two layouts.", "quantifier": "every fill character other than a brace, every alignment, width and precision, every content and every text around", "why_tests_cant": "Universal over contents and layouts; no test uses a format specification.", "anchors": ["gopher_render/rendering.py:InlineRenderer.render", "gopher_render/rendering.py:BlockQuoteRenderer._inner_render", "gopher_render/rendering.py:OrderedListItemRenderer.__init__", "gopher_render/rendering.py:_get_template_width"]}
{"id": "C90", "title": "The layout of the source makes no difference", "statement": "Two documents that differ only in blanks and line ends of texts outside pre (line breaks instead of spaces, indentation, several spaces instead of one, CR LF instead of LF) are rendered as the same page, or fail with the same error, for every style and configuration. This holds as long as the whitespace of those texts consists of spaces, tabs and line ends: a no-break space next to a line end is dropped with it.", "quantifier": "every configuration, every pair of documents with the same tags and attributes whose texts outside pre have the same words and whitespace at the same ends", "why_tests_cant": "Universal over pairs of documents; the tests render one layout of each source.", "anchors": ["gopher_render/_parser.py:GopherHTMLParser.handle_data", "gopher_render/_parser.py:DataParser"]}
{"id": "C91", "title": "The page of a tree", "statement": "In the default style a well-formed document is rendered if and only if each of its start tags can be read and every paragraph, list item and description has at least one column for its text; the output is then the one page that belongs to its tree of elements and texts, built element by element from the tags around it, its position among its siblings and the number of links before it, with the list of links behind it, without whitespace at the ends of lines if that is asked for. The same holds for the source text of such a document.", "quantifier": "every configuration without rules and renderers of its own, every forest of elements and texts (void elements empty, no pre in pre), every output", "why_tests_cant": "Universal over documents; says for every document what the whole output is, and when there is none.", "anchors": ["gopher_render/_parser.py:GopherHTMLParser", "gopher_render/rendering.py"]}
{"id": "C92", "title": "Whitespace between blocks", "statement": "In the default style, with whitespace at the ends of lines removed, whitespace between blocks (paragraphs, headings, lists, block quotes, preformatted text) that are at the top level, in a div or in an element without a style such as body or section makes no difference: two documents made of the same blocks are rendered as the same text, or both are not rendered. Directly inside lists and block quotes it does make a difference: the first item or paragraph is moved to the right by one column, and numbers of items change.", "quantifier": "every configuration without rules and renderers of its own that removes trailing whitespace, every two forests with the same blocks, every amount of whitespace between any of them", "why_tests_cant": "Universal over documents and over the whitespace between their blocks; the comment in handle_data leaves open whether the whitespace of pretty printed documents is a problem.", "anchors": ["gopher_render/_parser.py:GopherHTMLParser.handle_data", "gopher_render/_parser.py:DataParser"]}
{"id": "C93", "title": "Only the blocks count", "statement": "In the default style, with whitespace at the ends of lines removed, a document that consists of blocks (paragraphs, headings, lists, block quotes, preformatted text) in containers (div and the elements without a style such as html, body, section, header) with nothing but whitespace between them is rendered as its blocks alone, one after the other: containers can be added, removed, nested, split and merged without any change to the output, and the errors are the same too. Containers with text of their own do count.", "quantifier": "every configuration without rules and renderers of its own that removes trailing whitespace, every list of blocks, every two ways of putting them into containers with whitespace between", "why_tests_cant": "Universal over documents and over the arbitrary nesting of containers around their blocks.", "anchors": ["gopher_render/_parser.py:GopherHTMLParser.handle_starttag", "gopher_render/_parser.py:TagParser.render", "gopher_render/_parser.py:TagParser.get_renderer"]}
{"id": "C94", "title": "A document and its wrapper", "statement": "In the default style, if the links of a document can be rendered where they are, putting the whole document into an element without a style (such as html, body, main or article) does not change a single character of the output; for div this holds if whitespace at the ends of lines is removed. In particular whatever is rendered for the content of a page is rendered for the whole page with html and body around it. The converse needs the condition on links: a link that is to be shown after its block cannot be rendered at the top level.", "quantifier": "every configuration without rules and renderers of its own, every document (text, inline elements, blocks), every container around it", "why_tests_cant": "Universal over documents of every shape, including loose text and links at the top level.", "anchors": ["gopher_render/_parser.py:TagParser.render", "gopher_render/_parser.py:TagParser.get_renderer", "gopher_render/_parser.py:LinkParser"]}
{"id": "C95", "title": "Texts in pieces", "statement": "In the default style it makes no difference to the output whether a text comes in one piece or in several, as happens when there is a comment in its middle or when the source is fed in pieces, provided that no cut is made between two whitespace characters outside of pre and no cut is made in text directly in an ordered list. In particular a document without double whitespace outside of pre and without text directly in ordered lists is rendered the same in whatever pieces its source is fed. The conditions are needed.", "quantifier": "every configuration without rules and renderers of its own, every well-formed document, every way of cutting its texts or its source", "why_tests_cant": "Universal over documents and over all ways of cutting them.", "anchors": ["gopher_render/_parser.py:GopherHTMLParser.handle_data", "gopher_render/_parser.py:DataParser.__init__", "gopher_render/_parser.py:TagParser.render"]}
{"id": "C96", "title": "Tags that do not match", "statement": "A document whose tags do not match is rendered as if every end tag that is not that of the innermost open element were left out and every element still open at the end were closed there: the output is the same and so is every error, for every style. Every sequence of tags and texts stands for exactly one tree in this way, and a document whose tags match stands for its own tree, so the page of every document is known (with C91). The exception is an end tag of pre inside of another element in a pre: it is not accepted as the end of the pre, yet text after it is no longer kept as it is.", "quantifier": "every configuration, every sequence of start tags, end tags and texts (no end tag of pre in a pre other than its own; for the tree: no pre in pre)", "why_tests_cant": "Universal over all malformed documents and all styles.", "anchors": ["gopher_render/_parser.py:GopherHTMLParser.handle_endtag", "gopher_render/_parser.py:GopherHTMLParser.handle_starttag", "gopher_render/_parser.py:GopherHTMLParser.close"]}
{"id": "C97", "title": "One document after the other", "statement": "In the default style, two documents one after the other are rendered as the rendering of the first and below it the rendering of the second, between the margins of the page, and are accepted exactly if both are: nothing that comes before or after a block changes how it looks. The same holds for any number of documents, so a page is made of what its blocks look like on their own. The conditions are that not both have links with numbers (they are counted through the document), that the first has no links listed at the end of the page, that the second does not begin with a list item or a term, and that the first ends with a block, unless lines are neither moved nor trimmed; each of them is needed.", "quantifier": "every pair (and list) of trees with these conditions, every page, placement of links and output format, default rules", "why_tests_cant": "Universal over pairs of documents; the tests render single small documents.", "anchors": ["gopher_render/_parser.py:GopherHTMLParser.close", "gopher_render/_parser.py:GopherHTMLParser._indent_body", "gopher_render/_parser.py:TagParser.render", "gopher_render/rendering.py:BlockRenderer.render"]}
{"id": "C98", "title": "As few lines as possible", "statement": "If no piece of the text is longer than a line and the number of lines is not limited, wrapping takes as few lines as any way to put the pieces of the text on lines in their order, where one whitespace piece may be left out at a line break: in particular, for words with single blanks between them, no way to divide the words into lines that fit is shorter (colour sequences take no room). So with more room, by a wider line or smaller indents, a text without whitespace before it does not take more lines, and with a wider line a text with one blank before it does not either. A word longer than the narrower line, or more whitespace before the text, can make more lines of more room.", "quantifier": "every text, every set of wrapping options without a line limit, every arrangement of the pieces", "why_tests_cant": "Universal over texts and over all other ways to put them on lines; the tests wrap a few texts.", "anchors": ["gopher_render/_textwrap.py:AnsiAwareTextWrapper._wrap_chunks", "gopher_render/_textwrap.py:wrap"]}
{"id": "C99", "title": "Which rules count", "statement": "Rules that match nothing in a document make no difference to its page, wherever they stand among the others (if they replace no default rule that matches something, and the rule 'a' for the list of links is the same); in particular rules whose selectors ask for elements with a tag the document does not have. The order in which rules are given makes no difference either, except for rules that apply to the same element with the same specificity: of these the last counts.", "quantifier": "every document, every set of rules, every order", "why_tests_cant": "Relates the pages of one document under all possible sets of rules; the project's tests use single examples.", "anchors": ["gopher_render/_parser.py:RendererMap.get_for_tag", "gopher_render/_parser.py:GopherHTMLParser._get_renderer", "gopher_render/_parser.py:GopherHTMLParser._get_extracted_link_renderer", "gopher_render/_parser.py:GopherHTMLParser._assign_renderers"]}
{"id": "C100", "title": "Groups of selectors", "statement": "The page depends on the rules only through the strongest rule that names a renderer for each element and the strongest rule that gives a value to each of its settings; in which order settings come to a renderer makes no difference. So one rule for a group of selectors makes the same page as separate rules in its place, for the rendering and for the list of links, if none of these has the text of a default rule (which it would replace).", "quantifier": "every document, every two rule tables, every group", "why_tests_cant": "Relates pages under all pairs of rule tables with the same cascade; the project has no test with groups.", "anchors": ["gopher_render/_parser.py:RendererMap.get_for_tag", "gopher_render/_selectors.py:tag_matches", "gopher_render/rendering.py:Renderer._adjust_settings"]}
{"id": "C101", "title": "Which settings count", "statement": "A setting counts only for renderers that know it: those that declare it, themselves or in a class they are derived from, and for the arguments of text wrapping those that wrap text. Rule tables that choose the same renderers, and the same values for the settings these know, make the same page. So settings can be written in any order, settings unknown to the renderers of the elements a rule applies to can be left out, and empty settings can be left out. In the list of links the settings of rules make no difference, only their renderers do.", "quantifier": "every document, every two rule tables, every setting", "why_tests_cant": "Says what has no effect, for all renderers, settings and documents; the project has no test of it.", "anchors": ["gopher_render/rendering.py:Renderer._adjust_settings", "gopher_render/rendering.py:Renderer.__new__", "gopher_render/_parser.py:RendererMap.get_for_tag", "gopher_render/_parser.py:LinkParser.link_render"]}
{"id": "C102", "title": "A wider page is not longer", "statement": "With the default style, a document that can be rendered can be rendered on a wider page, too, and has at most as many lines there, in both output formats and for all placements of links but after blocks, if no word of a paragraph, an item or a description is longer than its line on the narrower page, lines are ended by newlines only, and paragraphs, items, descriptions, links and code have no blocks in them. The condition on words is needed: a word that is broken on the narrower page can make the wider one longer.", "quantifier": "every document (tree or source text) with these conditions, every two pages of which one has at least as much room and no larger margins above and below", "why_tests_cant": "Relates two renderings of the same document, for all documents and widths; the tests render for one width.", "anchors": ["gopher_render/rendering.py:BlockRenderer.render", "gopher_render/_textwrap.py:AnsiAwareTextWrapper._wrap_chunks", "gopher_render/_parser.py:GopherHTMLParser.close"]}
{"id": "C103", "title": "The characters of a page", "statement": "In the default style a text page has no characters but those of the texts of the document, those of the addresses, titles and alternative texts of its links and images, and those that the style adds: blanks, line breaks, the marks of elements, digits, and the letters of Image and None. So there are no control characters and escape sequences on the page that are not in the document. In a gophermap with the links at the end of the page, the lines with tabs are exactly the items of the links: one for each link, in order and numbered, with the selector, host and port its address stands for; no other line can be taken for an item. This holds if there are no tabs in the document; a tab in preformatted text is kept, and can make a line look like an item.", "quantifier": "every document (tree or source text) in the default style, every configuration without rules and renderers of its own; for items: addresses without line breaks, no left margin, images in place", "why_tests_cant": "Universal over documents and characters; the tests compare a few pages without unusual characters.", "anchors": ["gopher_render/rendering.py:Renderer.render", "gopher_render/_parser.py:LinkParser._parse_href", "gopher_render/_parser.py:GopherHTMLParser.close"]}
{"id": "C104", "title": "Where lines can be broken", "statement": "Before it is put on lines a text is divided at every place where a line can be broken, and nowhere else. These places are: where whitespace begins or ends; after a hyphen that has two letters on each side, or letter, hyphen, letter; and before and after a dash, which is two hyphens or more, between the end of one word and the beginning of the next. If words are not to be broken at hyphens, only the first kind counts. So a line never ends after the hyphen of e-mail, -b or a-1. This determines the pieces; and if none is longer than a line, they are put on lines greedily, and on as few lines as possible. If sentence endings are fixed, whitespace is added that is not in the text.", "quantifier": "every text and options; for the lines: texts with no other whitespace than blanks, no line limit", "why_tests_cant": "Universal over texts; whether a place is one depends on up to three characters on each side of a hyphen, and on runs of hyphens of any length.", "anchors": ["gopher_render/_textwrap.py:AnsiAwareTextWrapper._wrap_chunks", "gopher_render/_textwrap.py:wrap"]}
{"id": "C105", "title": "Words that are longer than a line", "statement": "The lines of a text are determined: each line takes the pieces that fit; a blank piece at its beginning (unless it is the first line) and at its end is left out if whitespace is dropped. A word is broken only if it is longer than a whole line. The part that is put on the current line is as long as there is room, or shorter if there is a hyphen in it: then it ends after the last hyphen that comes after something else than hyphens. The rest comes on the next lines. If long words are not to be broken, such a word gets a line of its own.", "quantifier": "every text and options without line limit, both indents shorter than the width", "why_tests_cant": "Where a long word is broken depends on everything that comes before it in the paragraph.", "anchors": ["gopher_render/_textwrap.py:AnsiAwareTextWrapper._wrap_chunks"]}
{"id": "C106", "title": "Which texts are numbers", "statement": "The argument of a positional pseudo-class is a number exactly if it consists, with whitespace around it left out, of an optional sign directly before decimal digits, between which single underscores may stand; its value is the one these digits have. Everything else is a ValueError. A text is accepted as a colour exactly if after any number of #, it has three characters and each of them doubled is such a number in base 16, or it has another length and its first two characters, the next two, and the one or two after these are such numbers (which may have a sign, whitespace or a prefix; what comes after them does not matter).", "quantifier": "every text; every document, element and selector", "why_tests_cant": "Signs, blanks and underscores can be combined in any way with digits of any number.", "anchors": ["gopher_render/_selectors.py:_nth_child_matches", "gopher_render/_selectors.py:_nth_last_child_matches", "gopher_render/rendering.py:_parse_html_colour"]}
{"id": "C107", "title": "How numbers of items are shown", "statement": "If the line template of numbered items has a placeholder for the number with a presentation type (d, b, o, x, X or none), the number is shown in that notation with digits of that base, upper case for X, and no zeros before it; negative numbers have a minus sign and others the sign asked for; with # the mark 0b, 0o, 0x or 0X is between the sign and the digits. With a separator there are groups of three digits in decimal numbers and of four in others, the first of which may be shorter but is not empty. Filling up to the width is after, before or around the number or between the mark and the digits; zeros there count as digits and are separated as such, as few as the width allows, and a separator is never first even if the text is then one longer than the width. Numbers shown in base 10 or 16 with blanks around them or zeros, and without commas, are read by int as the same numbers, so different numbers are shown differently. A precision, or a comma in another notation than the decimal one, is a ValueError.", "quantifier": "every number, every style that can be written in Python and every way of writing it considered here, every text around the number", "why_tests_cant": "Numbers have any size, widths and separators interact, and no test uses a presentation type.", "anchors": ["gopher_render/rendering.py:OrderedListItemRenderer"]}
{"id": "C108", "title": "Templates with several fields", "statement": "A template with any number of fields, each with a name or number of a value and possibly a format specification that suits the value, is filled from left to right: every field shows its value in the way it asks for, numbers and texts as in C89 and C107, and the text between the fields stays as it is with doubled braces as single ones. The first field that cannot be filled decides the error, whatever comes after it: KeyError for a name that is not there, IndexError for a number that is too large, TypeError for a format specification of a value that is missing (None). Links listed elsewhere and entries of gophermaps are shown with their templates in this way.", "quantifier": "every list of parts, all values, every link and target", "why_tests_cant": "Templates have any number of fields in any order with any specifications; the tests use the default templates only.", "anchors": ["gopher_render/rendering.py:LinkRenderer.render", "gopher_render/rendering.py:ExtractedLinkRenderer._inner_render"]}
