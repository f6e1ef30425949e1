{
 "claims": [
  {
   "property": "C01",
   "status": "proved",
   "theorems": [
    "Verif.C01"
   ],
   "note": ""
  },
  {
   "property": "C02",
   "status": "proved",
   "theorems": [
    "Verif.C02",
    "Verif.C02_rules"
   ],
   "note": ""
  },
  {
   "property": "C03",
   "status": "partial",
   "theorems": [
    "Verif.C03_partial",
    "Verif.C03_any",
    "Verif.C03_first",
    "Verif.C03_fails"
   ],
   "note": "false of the code for n = 0: :nth-child(0) matches the last element (C03_fails); holds for n >= 1. C03_any: what the code does with every argument"
  },
  {
   "property": "C04",
   "status": "partial",
   "theorems": [
    "Verif.C04_partial",
    "Verif.C04_nested",
    "Verif.C04_fails",
    "Verif.C04_class_fails",
    "Verif.C04_empty",
    "Verif.C04_token_fails"
   ],
   "note": "false of the code for attributes without value (exception) and for class values with irregular whitespace; holds otherwise (C04_nested: with such selectors anywhere in a larger one). C04_empty: empty values match as worded, unlike in CSS. C04_token_fails: what would happen if cssselect passed its token instead of the text of the value."
  },
  {
   "property": "C05",
   "status": "proved",
   "theorems": [
    "Verif.C05",
    "Verif.C05_total",
    "Verif.C05_counts"
   ],
   "note": ""
  },
  {
   "property": "C06",
   "status": "proved",
   "theorems": [
    "Verif.C06"
   ],
   "note": "for selectors whose evaluation does not raise"
  },
  {
   "property": "C07",
   "status": "proved",
   "theorems": [
    "Verif.C07",
    "Verif.C07_unique",
    "Verif.C08_handed"
   ],
   "note": "stated for lookups that do not raise"
  },
  {
   "property": "C08",
   "status": "proved",
   "theorems": [
    "Verif.C08",
    "Verif.C08_handed"
   ],
   "note": "settings dicts are association lists with distinct keys; C08_handed says it of the renderer and settings that every node of a document, and the entry of every link, ends up with"
  },
  {
   "property": "C09",
   "status": "partial",
   "theorems": [
    "Verif.C09_partial",
    "Verif.C09_fails"
   ],
   "note": "false of the code when no matching rule names a renderer: settings-only rules are then dropped (C09_fails); holds otherwise"
  },
  {
   "property": "C10",
   "status": "proved",
   "theorems": [
    "Verif.C10",
    "Verif.C10_links",
    "Verif.C10_stays"
   ],
   "note": ""
  },
  {
   "property": "C100",
   "status": "proved",
   "theorems": [
    "Verif.C100",
    "Verif.C100_group",
    "Verif.C100_group_links",
    "Verif.C100_group_fails"
   ],
   "note": "C100: the same winners make the same page; C100_group, C100_group_links: groups of selectors as separate rules. C100_group_fails: a separate rule for p replaces the default rule for p, a rule for p, li does not."
  },
  {
   "property": "C101",
   "status": "proved",
   "theorems": [
    "Verif.C101",
    "Verif.C101_rules",
    "Verif.C101_unknown",
    "Verif.C101_known",
    "Verif.C101_fallback_fails"
   ],
   "note": "C101: by the winners of the cascade; C101_rules: rule by rule; C101_unknown: leaving a setting out of all rules. C101_fallback_fails: in the rule for a, to which the list of links falls back, a class is not as good as a pair without settings (AttributeError)."
  },
  {
   "property": "C102",
   "status": "proved",
   "theorems": [
    "Verif.C102",
    "Verif.C102_width",
    "Verif.C102_source",
    "Verif.C102_long_fails"
   ],
   "note": "C102: for trees and any two boxes; C102_width: two widths with the same margins; C102_source: for the text of a document. C102_long_fails: with a word longer than the line the wider page can be longer."
  },
  {
   "property": "C103",
   "status": "proved",
   "theorems": [
    "Verif.C103",
    "Verif.C103_source",
    "Verif.C103_items",
    "Verif.C103_tab_fails"
   ],
   "note": "C103: text output, every placement; C103_source: for source texts; C103_items: the lines with tabs in a gophermap. C103_tab_fails: the condition on tabs is needed."
  },
  {
   "property": "C104",
   "status": "proved",
   "theorems": [
    "Verif.C104",
    "Verif.C104_unique",
    "Verif.C104_lines",
    "Verif.C104_sentence_fails"
   ],
   "note": "C104: the pieces, for every text after whitespace is replaced; C104_unique: there is one way; C104_lines: together with C21 and C98, without helpers of the model. The hyphen must be no word character, which holds of Python's tables. C104_sentence_fails: with sentence endings fixed the pieces are not those of the text."
  },
  {
   "property": "C105",
   "status": "proved",
   "theorems": [
    "Verif.C105",
    "Verif.C105_text",
    "Verif.C105_unique"
   ],
   "note": "C105: both directions, for the pieces of the text; C105_text: with the pieces of C104; C105_unique: there is one way to fill lines."
  },
  {
   "property": "C106",
   "status": "proved",
   "theorems": [
    "Verif.C106",
    "Verif.C106_unique",
    "Verif.C106_nth",
    "Verif.C106_colour",
    "Verif.C106_colour_fails"
   ],
   "note": "C106: both directions, base 10 and 16; C106_nth: what positional pseudo-classes do with every argument; C106_colour: which texts are colours; C106_colour_fails: texts that are no colours are accepted, with components below zero."
  },
  {
   "property": "C107",
   "status": "proved",
   "theorems": [
    "Verif.C107",
    "Verif.C107_read",
    "Verif.C107_differ",
    "Verif.C107_refused"
   ],
   "note": "C107: the shape of the shown number; C107_read, C107_differ: reading back; C107_refused: errors. The presentation types c, n, e, E, f, F, g, G and % are not modelled."
  },
  {
   "property": "C108",
   "status": "proved",
   "theorems": [
    "Verif.C108",
    "Verif.C108_error",
    "Verif.C108_reference",
    "Verif.C108_gophermap"
   ],
   "note": "C108: every template of text, plain fields and fields with layouts or number styles; C108_error: the error of the first field that cannot be filled; C108_reference, C108_gophermap: links. Fields with attributes, indices or conversions are not among the parts (C59_item, C89_shown)."
  },
  {
   "property": "C11",
   "status": "partial",
   "theorems": [
    "Verif.C11_partial",
    "Verif.C11_rules",
    "Verif.C11_builtin",
    "Verif.C11_unique",
    "Verif.C11_fails",
    "Verif.C11_header_fails"
   ],
   "note": "A key comes from the matching rules first, then from the most derived class declaring it; missing: false when two classes of a chain declare equal settings (the later is skipped, C11_fails) and for the template of a markdown header, which no rule can set (C11_header_fails)."
  },
  {
   "property": "C12",
   "status": "proved",
   "theorems": [
    "Verif.C12",
    "Verif.C12_map"
   ],
   "note": "Attribute access, item access and updates on a settings object agree, for every history of operations."
  },
  {
   "property": "C13",
   "status": "proved",
   "theorems": [
    "Verif.C13",
    "Verif.C13_own",
    "Verif.C13_widths"
   ],
   "note": "Sums over chains of boxes of any depth."
  },
  {
   "property": "C14",
   "status": "proved",
   "theorems": [
    "Verif.C14",
    "Verif.C14_order"
   ],
   "note": ""
  },
  {
   "property": "C15",
   "status": "partial",
   "theorems": [
    "Verif.C15_partial",
    "Verif.C15_rows",
    "Verif.C15_chars",
    "Verif.C15_short",
    "Verif.C15_fails"
   ],
   "note": "A rectangle if the block has no top/bottom border or no ancestor has a border or line template; C15_rows gives all rows in general. Missing: with a framed ancestor the horizontal edges are longer than the rows (C15_fails)."
  },
  {
   "property": "C16",
   "status": "proved",
   "theorems": [
    "Verif.C16",
    "Verif.C16_breaks",
    "Verif.C16_block",
    "Verif.C16_lines"
   ],
   "note": ""
  },
  {
   "property": "C17",
   "status": "proved",
   "theorems": [
    "Verif.C17"
   ],
   "note": "All options, also with a line limit; visible length by an independent relation on strings."
  },
  {
   "property": "C18",
   "status": "proved",
   "theorems": [
    "Verif.C18"
   ],
   "note": ""
  },
  {
   "property": "C19",
   "status": "partial",
   "theorems": [
    "Verif.C19_partial",
    "Verif.C19_limit_partial",
    "Verif.C19_exact",
    "Verif.C19_words",
    "Verif.C19_fails"
   ],
   "note": "False as stated: with an indent longer than the width and long word breaking the loop can run forever (witness). Proved for indents not longer than the width, and for break_long_words off. C19_exact says in exactly which cases it does not end (without a line limit); C19_words: it ends for every text that does not begin with whitespace, if whitespace is dropped."
  },
  {
   "property": "C20",
   "status": "proved",
   "theorems": [
    "Verif.C20"
   ],
   "note": ""
  },
  {
   "property": "C21",
   "status": "proved",
   "theorems": [
    "Verif.C21",
    "Verif.C21_chunks",
    "Verif.C21_words"
   ],
   "note": ""
  },
  {
   "property": "C22",
   "status": "partial",
   "theorems": [
    "Verif.C22_partial",
    "Verif.C22_fails"
   ],
   "note": "False as stated: a line can end in a space before a word that is broken (witness). Proved: starts of lines, and that a trailing space needs a broken word and a completely full line."
  },
  {
   "property": "C23",
   "status": "proved",
   "theorems": [
    "Verif.C23",
    "Verif.C23_strip"
   ],
   "note": ""
  },
  {
   "property": "C24",
   "status": "proved",
   "theorems": [
    "Verif.C24"
   ],
   "note": ""
  },
  {
   "property": "C25",
   "status": "partial",
   "theorems": [
    "Verif.C25_partial",
    "Verif.C25_fails",
    "Verif.C25_nbsp_fails"
   ],
   "note": "For text without escape sequences and with ASCII whitespace only. Missing: false with colour sequences (they count as columns, words get glued together: C25_fails) and with other whitespace at the end of a line (C25_nbsp_fails)."
  },
  {
   "property": "C26",
   "status": "partial",
   "theorems": [
    "Verif.C26_partial",
    "Verif.C26_right",
    "Verif.C26_center",
    "Verif.C26_fails"
   ],
   "note": "C26_right and C26_center hold for every text, counting characters. Missing: false in visible columns when there are colour sequences (C26_fails)."
  },
  {
   "property": "C27",
   "status": "proved",
   "theorems": [
    "Verif.C27",
    "Verif.C27_pre",
    "Verif.C27_scope"
   ],
   "note": ""
  },
  {
   "property": "C28",
   "status": "proved",
   "theorems": [
    "Verif.C28",
    "Verif.C28_unique",
    "Verif.C28_close"
   ],
   "note": ""
  },
  {
   "property": "C29",
   "status": "proved",
   "theorems": [
    "Verif.C29",
    "Verif.C29_roots"
   ],
   "note": ""
  },
  {
   "property": "C30",
   "status": "proved",
   "theorems": [
    "Verif.C30",
    "Verif.C30_stack"
   ],
   "note": ""
  },
  {
   "property": "C31",
   "status": "proved",
   "theorems": [
    "Verif.C31",
    "Verif.C31_nested_pre"
   ],
   "note": "for pre elements not nested in one another, which HTML forbids; C31_nested_pre shows what happens otherwise"
  },
  {
   "property": "C32",
   "status": "proved",
   "theorems": [
    "Verif.C32",
    "Verif.C32_count"
   ],
   "note": ""
  },
  {
   "property": "C33",
   "status": "partial",
   "theorems": [
    "Verif.C33_partial",
    "Verif.C33_absent",
    "Verif.C33_fails"
   ],
   "note": "False as stated: images placed in the footer are lost when links are placed elsewhere (C33_fails, C33_absent). Proved when links are placed in the footer."
  },
  {
   "property": "C34",
   "status": "partial",
   "theorems": [
    "Verif.C34_partial",
    "Verif.C34_parent",
    "Verif.C34_fails",
    "Verif.C34_fails_inline"
   ],
   "note": "False as stated: a link without enclosing element raises AttributeError, and an inlined link drops the images pending in it. Proved for every other element."
  },
  {
   "property": "C35",
   "status": "partial",
   "theorems": [
    "Verif.C35_partial",
    "Verif.C35_general",
    "Verif.C35_exact",
    "Verif.C35_source_partial",
    "Verif.C35_document",
    "Verif.C35_fails",
    "Verif.C35_source_fails"
   ],
   "note": "False as stated: reset() does not leave a pre (C35_fails, C35_source_fails). Proved when the parser is not inside a pre, for calls and for source (whatever part of a tag is still unread); C35_exact and C35_document say that it fails in exactly the other cases, C35_general what happens then."
  },
  {
   "property": "C36",
   "status": "partial",
   "theorems": [
    "Verif.C36_partial",
    "Verif.C36_fails",
    "Verif.C36_witness"
   ],
   "note": "False as stated: closing again renders everything again (C36_fails holds for every document with visible text). Proved for documents that render to nothing."
  },
  {
   "property": "C37",
   "status": "proved",
   "theorems": [
    "Verif.C37",
    "Verif.C37_unique"
   ],
   "note": ""
  },
  {
   "property": "C38",
   "status": "proved",
   "theorems": [
    "Verif.C38"
   ],
   "note": ""
  },
  {
   "property": "C39",
   "status": "proved",
   "theorems": [
    "Verif.C39"
   ],
   "note": ""
  },
  {
   "property": "C40",
   "status": "proved",
   "theorems": [
    "Verif.C40",
    "Verif.C40_total"
   ],
   "note": ""
  },
  {
   "property": "C41",
   "status": "partial",
   "theorems": [
    "Verif.C41_relative_partial",
    "Verif.C41_total",
    "Verif.C41_web",
    "Verif.C41_params",
    "Verif.C41_gopher",
    "Verif.C41_gopher_noport",
    "Verif.C41_gopher_badport",
    "Verif.C41_error",
    "Verif.C41_document",
    "Verif.C41_fails"
   ],
   "note": "False of the code in three cases (C41_fails): a gopher URL without a port gets the port None, a relative path is cut at the parameters of its last segment, and a link without href is taken for a URL named None. Proved for every other kind of href (web, relative, gopher with port), with the error cases, and for every link of every document."
  },
  {
   "property": "C42",
   "status": "partial",
   "theorems": [
    "Verif.C42_partial",
    "Verif.C42_entry",
    "Verif.C42_image",
    "Verif.C42_footer",
    "Verif.C42_fails"
   ],
   "note": "False of the code (C42_fails): tabs in a title or newlines in an href add fields or lines, after_block placement expands the tabs, a left margin indents the line, and footer images other than the first are not at the start of a line. Proved for the entries of every document (C42_entry, C42_image), for their fields when nothing contains a tab or newline (C42_partial), and for the footer of a whole document (C42_footer)."
  },
  {
   "property": "C43",
   "status": "partial",
   "theorems": [
    "Verif.C43_partial",
    "Verif.C43_padded",
    "Verif.C43_entry",
    "Verif.C43_negative",
    "Verif.C43_fails"
   ],
   "note": "False of the code when the text of a link has whitespace around it: whether dots are added depends on the unstripped length (C43_fails, C43_padded). Proved for every text without surrounding whitespace, and for the entries of every document; C43_negative: limits below zero."
  },
  {
   "property": "C44",
   "status": "partial",
   "theorems": [
    "Verif.C44_partial",
    "Verif.C44_reference",
    "Verif.C44_ignored",
    "Verif.C44_fails"
   ],
   "note": "False of the code: the settings of rules for extracted links never have an effect on any document (C44_ignored), nor do those for inlined links (C44_fails). Proved for settings given through the class of a rule (C44_partial) and for links rendered as references (C44_reference)."
  },
  {
   "property": "C45",
   "status": "proved",
   "theorems": [
    "Verif.C45",
    "Verif.C45_template"
   ],
   "note": "C45 is about every element of every document that no rule of the user matches, C45_template about renderer classes with other templates. The content may hold any characters."
  },
  {
   "property": "C46",
   "status": "proved",
   "theorems": [
    "Verif.C46",
    "Verif.C46_error"
   ],
   "note": "In every document, for elements that no rule of the user matches."
  },
  {
   "property": "C47",
   "status": "proved",
   "theorems": [
    "Verif.C47",
    "Verif.C47_row"
   ],
   "note": "In every document, for elements that no rule of the user matches, levels 1 to 6."
  },
  {
   "property": "C48",
   "status": "proved",
   "theorems": [
    "Verif.C48_bullet",
    "Verif.C48",
    "Verif.C48_dd",
    "Verif.C49_index"
   ],
   "note": "C48_bullet is about every bullet, box and content; C48, C48_dd and C49_index about every item of every document that no rule of the user matches."
  },
  {
   "property": "C49",
   "status": "partial",
   "theorems": [
    "Verif.C49_partial",
    "Verif.C49_index",
    "Verif.C49_subclass",
    "Verif.C49_fails",
    "Verif.C49_start_fails"
   ],
   "note": "False of the code: text between the items is counted (C49_fails), and start_index or step set by a rule is ignored (C49_start_fails). Proved: the number is one plus the number of preceding children of any kind; if these are items only it is the claimed number; start and step declared by a subclass count."
  },
  {
   "property": "C50",
   "status": "proved",
   "theorems": [
    "Verif.C50",
    "Verif.C50_error"
   ],
   "note": ""
  },
  {
   "property": "C51",
   "status": "proved",
   "theorems": [
    "Verif.C51",
    "Verif.C51_lines"
   ],
   "note": ""
  },
  {
   "property": "C52",
   "status": "partial",
   "theorems": [
    "Verif.C52_partial",
    "Verif.C52_content",
    "Verif.C52_fails",
    "Verif.C52_zero_fails"
   ],
   "note": "False of the code: any font setting raises NameError (C52_fails), colour number 0 is ignored (C52_zero_fails). Proved for every other combination of settings: the sequences switch on exactly the chosen look and switch it off again, and removing them gives the text. Looks are defined by the ECMA-48 codes."
  },
  {
   "property": "C53",
   "status": "proved",
   "theorems": [
    "Verif.C53",
    "Verif.C53_total",
    "Verif.C53_signs"
   ],
   "note": ""
  },
  {
   "property": "C54",
   "status": "partial",
   "theorems": [
    "Verif.C54_partial",
    "Verif.C54_default",
    "Verif.C54_theme",
    "Verif.C54_fails",
    "Verif.C54_cut_fails"
   ],
   "note": "For every document and every table of rules whose renderers show the content of elements (without capitalisation, templates that show the content whole; rules for void elements may use any renderer), the non-whitespace characters fed appear in the output in order; in particular for the default rules. C54_fails: the built-in renderers of line breaks, images and extracted links lose text when a table gives them to ordinary elements, and so does a line template of ordered lists that has its placeholder inside doubled braces, and a template whose format specification cuts the content (C54_cut_fails), so the property as worded is false of the code."
  },
  {
   "property": "C55",
   "status": "partial",
   "theorems": [
    "Verif.C55_partial",
    "Verif.C55_footer",
    "Verif.C55_fails",
    "Verif.C55_term_fails",
    "Verif.C55_quote_fails",
    "Verif.C55_mixed_fails",
    "Verif.C55_blank_fails",
    "Verif.C55_blank_list_fails",
    "Verif.C55_code_fails",
    "Verif.C55_text_fails",
    "Verif.C55_footer_fails",
    "Verif.C55_header_fails",
    "Verif.C55_page",
    "Verif.C55_theme",
    "Verif.C55_program"
   ],
   "note": "Proved for documents of paragraphs, items, descriptions (with any content), block quotes, lists, div and elements without a style nested to any depth, with nothing before a block that has no empty line above, where headers, terms, preformatted text and code-only paragraphs (with inline markup, links and images) fit; C55_footer: also with a list of links whose lines fit. The claim is false for unwrapped text (terms, raw quote text, code-only paragraphs, top-level text, lines of link lists, headers with a list of links in them) and for whitespace between a start tag and the first block: witnesses proved. C55_page: the same conditions stated on what the unwrapped parts look like, with the links placed anywhere, in text and gophermap output; C55_theme with a colour theme; C55_program for what the program prints."
  },
  {
   "property": "C56",
   "status": "proved",
   "theorems": [
    "Verif.C56"
   ],
   "note": "Every element whose assigned renderer is the non-rendering one or a subclass that only declares settings."
  },
  {
   "property": "C57",
   "status": "partial",
   "theorems": [
    "Verif.C57_partial",
    "Verif.C57_fails",
    "Verif.C57_depth_fails",
    "Verif.C57_bare_fails",
    "Verif.C57_after_fails"
   ],
   "note": "Proved for items with text and then any number of lists whose items have any content without colours: every inner item starts on its own row, below the text of the outer item, whenever an inner item of several rows has whitespace between it and the next item; the theorem can be applied again to the inner items. C57_fails: without such whitespace the next bullet is put at the end of the row before. C57_depth_fails: items of the third level are not indented below those of the second. C57_bare_fails: without text of its own, the item has its first inner item in the row of its bullet. C57_after_fails: text after the list can start in the last row of the list. Missing: text after a list where it does start a row, colours."
  },
  {
   "property": "C58",
   "status": "partial",
   "theorems": [
    "Verif.C58_partial",
    "Verif.C58_hanging",
    "Verif.C58_cause",
    "Verif.C58_depth",
    "Verif.C58_default",
    "Verif.C58_assign",
    "Verif.C58_fails",
    "Verif.C58_keeping_fails",
    "Verif.C58_repeats"
   ],
   "note": "False of the code in two ways: an indent wider than the page makes the loop that wraps text run for ever (C58_fails), and links placed after their block are rendered twice, doubling the work with every level of nesting (C58_repeats). Proved: no recursion is deeper than the number of nodes, whatever the configuration (C58_depth); rendering ends when no rule indents by more than one column, in particular with the default rules (C58_partial, C58_default), and also when no rule keeps whitespace and only classes of paragraphs indent first lines (C58_hanging); if it does not end, then because of an element rendered as an item whose first line is indented beyond the width of its text, or as an item or paragraph that keeps whitespace and whose other lines are (C58_cause, witnesses C58_fails and C58_keeping_fails); renderer assignment visits each node exactly once, in order (C58_assign). The recursion limit of Python is not modelled."
  },
  {
   "property": "C59",
   "status": "proved",
   "theorems": [
    "Verif.C59",
    "Verif.C59_uniform",
    "Verif.C59_fields",
    "Verif.C59_item",
    "Verif.C59_nested_fails"
   ],
   "note": "C59_item: fields with an index. C59 is for the placeholder {}; C59_uniform and C59_fields for all templates whose fields have no attributes, indices, conversions and format specifications. With format specifications content is cut or filled (C89), and with a field inside a specification it is read as one (C59_nested_fails)."
  },
  {
   "property": "C60",
   "status": "proved",
   "theorems": [
    "Verif.C60",
    "Verif.C60_code",
    "Verif.C60_br"
   ],
   "note": "C60_code is the exception in the code: a paragraph whose only child is a code or pre element is not wrapped at all."
  },
  {
   "property": "C61",
   "status": "proved",
   "theorems": [
    "Verif.C61_plain",
    "Verif.C61_p",
    "Verif.C61_li",
    "Verif.C61_dt",
    "Verif.C61_other"
   ],
   "note": ""
  },
  {
   "property": "C62",
   "status": "proved",
   "theorems": [
    "Verif.C62",
    "Verif.C62_paragraph",
    "Verif.C62_item",
    "Verif.C62_numbered",
    "Verif.C62_description",
    "Verif.C62_limit"
   ],
   "note": "C62_paragraph and the following: in documents rendered with the default rules, for the whole text of the element. For wrapping without a limit of lines, as all renderers wrap by default. C62_limit: the placeholder put in with a limit of lines follows one space, whatever it follows."
  },
  {
   "property": "C63",
   "status": "partial",
   "theorems": [
    "Verif.C63_partial",
    "Verif.C63_css",
    "Verif.C63_rest",
    "Verif.C63_same",
    "Verif.C63_background_fails",
    "Verif.C63_block_fails",
    "Verif.C63_link_fails"
   ],
   "note": "For every bundled theme. C63_partial: every mentioned element except links and images; C63_css: which elements are mentioned; C63_rest and C63_same: everything else is as without the theme. False as worded: the theme github misspells a background, which is never shown (C63_background_fails), a theme that mentions a block element takes its layout away (C63_block_fails), and an inline link that a theme mentions loses its address and gets no colour (C63_link_fails)."
  },
  {
   "property": "C64",
   "status": "partial",
   "theorems": [
    "Verif.C64_partial",
    "Verif.C64_sentence_fails",
    "Verif.C64_hyphen_fails",
    "Verif.C64_tab_fails",
    "Verif.C64_long_fails"
   ],
   "note": "The claim is false as it stands: a sequence after a full stop hides the end of the sentence, a sequence after a hyphen hides the break point, tabs are expanded counting the sequences, and a word that is too long is broken inside a sequence. C64_partial proves the claim where none of these happens, for text whose whitespace is that of ASCII."
  },
  {
   "property": "C65",
   "status": "proved",
   "theorems": [
    "Verif.C65",
    "Verif.C65_render",
    "Verif.C65_quotes"
   ],
   "note": "C65: both directions, after reading; C65_render: reading included, with C66, and the possible exceptions; C65_quotes: the limit for nested quotations, in closed form."
  },
  {
   "property": "C66",
   "status": "proved",
   "theorems": [
    "Verif.C66",
    "Verif.C66_only",
    "Verif.C66_address"
   ],
   "note": "C66: no problem means success, and the first problem decides the exception; C66_only: the converse; C66_address: which addresses are accepted, with urllib's check of the characters of a network location as a parameter."
  },
  {
   "property": "C67",
   "status": "partial",
   "theorems": [
    "Verif.C67_partial",
    "Verif.C67_source",
    "Verif.C67_unread",
    "Verif.C67_text",
    "Verif.C67_ends",
    "Verif.C67_written_fails",
    "Verif.C67_printed_fails"
   ],
   "note": "False as worded: the lines that write to the destination are commented out, so that nothing is ever written (C67_written_fails) and the page is printed instead, after a line for every end tag that is ignored (C67_printed_fails). C67_partial says exactly what is printed, in every case; C67_unread covers files that cannot be read or converted; C67_text and C67_ends prove the rest of the claim. Files and Markdown are parameters; the tokenizer and the command line (C83) are modelled."
  },
  {
   "property": "C68",
   "status": "proved",
   "theorems": [
    "Verif.C68",
    "Verif.C68_escape",
    "Verif.sourceExample_ok"
   ],
   "note": ""
  },
  {
   "property": "C69",
   "status": "partial",
   "theorems": [
    "Verif.C69_partial",
    "Verif.C69_text",
    "Verif.C69_fails",
    "Verif.C69_reference_fails"
   ],
   "note": "False as worded: a text that is cut in two is not joined again, so that spaces are kept twice and later list items get other numbers (C69_fails), and a numeric reference of more than 34 characters is misread if it is cut (C69_reference_fails). Proved for every cut: everything is read, and the calls are the same once texts in a row are joined; the page is the same if no text is cut (cuts inside tags, references excepted, comments and scripts are harmless), and always has all the text."
  },
  {
   "property": "C70",
   "status": "partial",
   "theorems": [
    "Verif.C70_partial",
    "Verif.C70_cut",
    "Verif.C70_unclosed",
    "Verif.C70_raises",
    "Verif.C70_fails"
   ],
   "note": "False as worded: AssertionError for some texts with <![ (C70_raises), CDATA sections are dropped (C70_fails), and what follows an unclosed quotation mark is dropped (C70_unclosed). Proved: reading always ends, and only <![ can raise; a document that ends in the middle of markup is rendered as if that were not there (C70_cut)."
  },
  {
   "property": "C71",
   "status": "partial",
   "theorems": [
    "Verif.C71_partial",
    "Verif.C71_read",
    "Verif.C71_total",
    "Verif.C71_unique",
    "Verif.C71_defaults",
    "Verif.C71_themes",
    "Verif.C71_nth_fails",
    "Verif.C71_element_fails",
    "Verif.C71_case_fails",
    "Verif.C71_pseudo_fails",
    "Verif.C71_backslash_fails",
    "Verif.C71_line_fails",
    "Verif.C71_comment_fails",
    "Verif.C71_namespace_fails"
   ],
   "note": "C71_read: every text of a grammar of CSS (with escapes and comments, without namespaces) is read as meant; C71_total: every text whatever is read or refused; C71_partial: with C01, C03 and C04, rules apply as CSS says. False as worded: only the first number of :nth-child(2n+1) is used and odd raises, pseudo-elements stand for their elements, upper case names match nothing, other pseudo-classes match nothing, escaped backslashes and numbers at the end of a line of a string are misread, comments between blanks are refused in many places, namespaces are ignored."
  },
  {
   "property": "C72",
   "status": "proved",
   "theorems": [
    "Verif.C72",
    "Verif.C72_tables",
    "Verif.C72_default"
   ],
   "note": "C72: exactly which calls are refused and with which exception; C72_tables: the tables otherwise."
  },
  {
   "property": "C73",
   "status": "partial",
   "theorems": [
    "Verif.C73_partial",
    "Verif.C73_page",
    "Verif.C73_ignored",
    "Verif.C73_fails"
   ],
   "note": "False of the code: the argument is never read (C73_ignored), so a page of width 20 has lines of 25 columns (C73_fails). Proved: the default width, and widths given with a box, for the documents of C55_partial and C55_page."
  },
  {
   "property": "C74",
   "status": "proved",
   "theorems": [
    "Verif.C74",
    "Verif.C74_program"
   ],
   "note": "C74: any configuration with text output; C74_program: what the program prints."
  },
  {
   "property": "C75",
   "status": "partial",
   "theorems": [
    "Verif.C75_partial",
    "Verif.C75_lines_fails",
    "Verif.C75_colour_fails",
    "Verif.C75_quote_fails",
    "Verif.C75_line_fails",
    "Verif.textOf_drawn"
   ],
   "note": "Proved for headers outside block quotes, with the line below made from one character, measured on the characters of the text. False of the code: for text of several lines, for coloured text, in block quotes, and for an underline_char of several characters."
  },
  {
   "property": "C76",
   "status": "partial",
   "theorems": [
    "Verif.C76_inline",
    "Verif.C76_code",
    "Verif.C76_link",
    "Verif.C76_image",
    "Verif.C76_entry",
    "Verif.C76_entry_image",
    "Verif.C76_gophermap",
    "Verif.C76_gophermap_margins",
    "Verif.C76_break",
    "Verif.C76_break_fails",
    "Verif.C76_image_fails"
   ],
   "note": "Proved for every renderer with a template, for templates with text and plain fields of the names offered (C59_fields: with other names rendering fails for every content). False of the code: the template of a line break is applied twice (C76_break says so for every template), and the title of an image with a reference is never the text of the image (C76_image_fails)."
  },
  {
   "property": "C77",
   "status": "proved",
   "theorems": [
    "Verif.C77_pre",
    "Verif.C77_quote",
    "Verif.C77_room"
   ],
   "note": "Any template with text around its placeholder, and any lines; C77_room: the columns that are left inside."
  },
  {
   "property": "C78",
   "status": "partial",
   "theorems": [
    "Verif.C78_partial",
    "Verif.C78_sentences",
    "Verif.C78_skip",
    "Verif.C78_unknown"
   ],
   "note": "Proved for every setting, with room for text beside the indents; full justification for text without colours (C25 says what is false otherwise). The columns of the template are counted as it is written, so a doubled brace takes two."
  },
  {
   "property": "C79",
   "status": "partial",
   "theorems": [
    "Verif.C79_lines",
    "Verif.C79_partial",
    "Verif.C79_fails"
   ],
   "note": "C79_lines: every line template. False of the code: text after the placeholder and doubled braces are counted in the indent of the other lines (C79_fails); proved otherwise."
  },
  {
   "property": "C80",
   "status": "partial",
   "theorems": [
    "Verif.C80_partial",
    "Verif.C80_rectangle",
    "Verif.C80_paragraph_partial",
    "Verif.C80_quote_fails",
    "Verif.C80_colour_fails"
   ],
   "note": "C80_partial: every block of every document. A rectangle (C80_rectangle) if no block around has sides or a line template. False of the code: in a block quote the edges are longer than the page, and coloured lines are not filled up."
  },
  {
   "property": "C81",
   "status": "partial",
   "theorems": [
    "Verif.C81_reference",
    "Verif.C81_inline",
    "Verif.C81_image",
    "Verif.C81_partial",
    "Verif.C81_fails"
   ],
   "note": "Proved for links, for images in place, and for images without alt text that are listed elsewhere. False of the code: such an image is shown as the word Image even if it has an alt text (C81_fails; C81_partial says so for every image)."
  },
  {
   "property": "C82",
   "status": "proved",
   "theorems": [
    "Verif.C82",
    "Verif.C82_unique",
    "Verif.C82_theme",
    "Verif.C82_program"
   ],
   "note": "For every document, as text or gophermap, in the default style (C82) or with a bundled theme (C82_theme). C82_unique: the reference allows one page only. C82_program: what the program prints for any document it can read."
  },
  {
   "property": "C83",
   "status": "partial",
   "theorems": [
    "Verif.C83_partial",
    "Verif.C83_only",
    "Verif.C83_help",
    "Verif.C83_program",
    "Verif.C83_other",
    "Verif.C83_dashes_fails",
    "Verif.C83_list_fails"
   ],
   "note": "C83_only: nothing but the lines of C83_partial is accepted; C83_help says exactly when the help is shown. False of the code (that is, of argparse): a -- with nothing behind it is refused after an option, and the file name -- can be lost. The texts of the help and of the errors are left out."
  },
  {
   "property": "C84",
   "status": "proved",
   "theorems": [
    "Verif.C84"
   ],
   "note": "Both directions, so that one document has a page exactly when the other has the same page. A class attribute without a value is an error in the code (C04_class_fails) and left out."
  },
  {
   "property": "C85",
   "status": "proved",
   "theorems": [
    "Verif.C85",
    "Verif.C85_parts"
   ],
   "note": "C85_parts: every page is made of such pieces. Inside and SameAt say what lies inside a node and what does not differ."
  },
  {
   "property": "C86",
   "status": "proved",
   "theorems": [
    "Verif.C86",
    "Verif.C86_page",
    "Verif.C86_open"
   ],
   "note": "C86_open shows that all elements must be closed: text added inside an open element can change the line breaks before it."
  },
  {
   "property": "C87",
   "status": "proved",
   "theorems": [
    "Verif.C87",
    "Verif.C87_unique",
    "Verif.C87_space_fails",
    "Verif.C87_long_fails"
   ],
   "note": "C87_unique: there is one way to cut. C87_space_fails and C87_long_fails are witnesses for the conditions on whitespace and long words."
  },
  {
   "property": "C88",
   "status": "proved",
   "theorems": [
    "Verif.C88",
    "Verif.C88_base"
   ],
   "note": "The class is not used by the project. The method format of a subclass is a parameter; overriding the other methods is left out."
  },
  {
   "property": "C89",
   "status": "proved",
   "theorems": [
    "Verif.C89",
    "Verif.C89_text",
    "Verif.C89_unique",
    "Verif.C89_number",
    "Verif.C89_zeros",
    "Verif.C89_shown",
    "Verif.C89_given",
    "Verif.C89_named",
    "Verif.C89_kept",
    "Verif.C89_room_fails"
   ],
   "note": "Layouts with fill character, alignment, width and precision, for texts and for the numbers of items; C89_shown for numbers shown as texts, C89_given for layouts that are arguments themselves, C89_named for values with names. C89_text: every specification of a text either asks for one layout (C89_unique) or is a ValueError. C89_kept: templates that do not cut keep the text, so C54 holds with them. C89_room_fails: the width of the box does not take them into account, as the comment in the code admits."
  },
  {
   "property": "C90",
   "status": "proved",
   "theorems": [
    "Verif.C90",
    "Verif.C90_source",
    "Verif.C90_nbsp_fails"
   ],
   "note": "C90_source: the same for source texts, with C68. C90_nbsp_fails: why the whitespace has to be that of source files; a no-break space at the end of a line of the source is lost, which DESIGN.md lists as a finding."
  },
  {
   "property": "C91",
   "status": "proved",
   "theorems": [
    "Verif.C91",
    "Verif.C91_unique",
    "Verif.C91_source"
   ],
   "note": "Both directions. The reference (Spec/TreePage.lean) is about trees only: it does not mention the nodes, renderers, boxes or selectors of the program. C91_unique: the tree has exactly one page. C91_source: with C68, for source texts."
  },
  {
   "property": "C92",
   "status": "proved",
   "theorems": [
    "Verif.C92",
    "Verif.C92_source",
    "Verif.C92_list_fails",
    "Verif.C92_quote_fails",
    "Verif.C92_optimise_fails"
   ],
   "note": "C92_source: the same for source texts. The theorems ending in _fails are the witnesses for lists, block quotes and output with trailing whitespace."
  },
  {
   "property": "C93",
   "status": "proved",
   "theorems": [
    "Verif.C93",
    "Verif.C93_source",
    "Verif.C93_text_fails"
   ],
   "note": "C93_source: the same for source texts. C93_text_fails: containers with text of their own do count."
  },
  {
   "property": "C94",
   "status": "proved",
   "theorems": [
    "Verif.C94",
    "Verif.C94_html",
    "Verif.C94_link_fails"
   ],
   "note": "C94_html: html and body around the document. C94_link_fails: why links have to be readable at the top level for the other direction."
  },
  {
   "property": "C95",
   "status": "proved",
   "theorems": [
    "Verif.C95",
    "Verif.C95_source",
    "Verif.C95_pieces",
    "Verif.C95_fails"
   ],
   "note": "C95_source: for sources, with comments. C95_pieces: the source fed in any pieces (strengthens C69). C95_fails: why blanks on both sides of a cut and texts directly in ordered lists are excluded."
  },
  {
   "property": "C96",
   "status": "proved",
   "theorems": [
    "Verif.C96",
    "Verif.C96_tree",
    "Verif.C96_unique",
    "Verif.C96_proper",
    "Verif.C96_page",
    "Verif.C96_source",
    "Verif.C96_fails"
   ],
   "note": "C96: equality of results, errors included, for every configuration. C96_tree, C96_unique: the tree a document stands for. C96_page: with C91, the page of any document. C96_fails: the exception for pre."
  },
  {
   "property": "C97",
   "status": "proved",
   "theorems": [
    "Verif.C97",
    "Verif.C97_all",
    "Verif.C97_source",
    "Verif.C97_fails"
   ],
   "note": "C97: equivalence, with acceptance, for two trees; C97_all for any number of trees without numbered links; C97_source for sources. C97_fails: outputs without the conditions."
  },
  {
   "property": "C98",
   "status": "proved",
   "theorems": [
    "Verif.C98",
    "Verif.C98_words",
    "Verif.C98_wider",
    "Verif.C98_wider_blank",
    "Verif.C98_long_fails",
    "Verif.C98_blank_fails"
   ],
   "note": "C98: no arrangement of the chunks takes fewer lines; C98_words: no division of the words; C98_wider: more room, no more lines; C98_wider_blank: a wider line, with one blank before the text. C98_long_fails, C98_blank_fails: C98_wider needs its conditions."
  },
  {
   "property": "C99",
   "status": "proved",
   "theorems": [
    "Verif.C99",
    "Verif.C99_tags",
    "Verif.C99_order",
    "Verif.C99_order_fails"
   ],
   "note": "C99: rules that match nothing; C99_tags: rules for tags that do not occur; C99_order: other orders of the rules. C99_order_fails: for equal specificity the order does matter."
  }
 ]
}
