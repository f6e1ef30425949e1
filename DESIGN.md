# A Lean 4 model of gopher-render

Sources modelled: `/repo/gopher_render/{_selectors,_textwrap,rendering,_parser,_namedict,cli}.py`, plus the pieces of
the Python 3.12 standard library and of cssselect 1.1.0 (the locked version) they call.

## Layout

| Directory (`lean/Verif/`) | What it holds |
|---|---|
| `Py/`     | Python strings (`List Char`) and the `str` methods the code uses, `str.format`, dicts, exceptions as values |
| `Model/`  | the model, function by function, each definition citing file and lines |
| `Spec/`   | small independent specifications the property theorems are stated against |
| `Proofs/` | helper lemmas |
| `Props/`  | the property theorems, one section per property id, each with a non-vacuity `example` |

## Modelling decisions

* **Strings** are `List Char` (Unicode scalar values; lone surrogates, which Python can hold, are not represented).
  `str.isspace` and the line boundaries of `str.splitlines` are given by their exact tables. `str.upper`, `\w` and
  `\d` (Unicode tables) are parameters (`Uni`), so every theorem holds for any such tables.
* **Exceptions** are values: `Py α = Except PyErr α`, one constructor per Python exception class the code can raise.
  Order of evaluation and short-circuiting follow the source, so *which* exception is raised is modelled too.
* **Loops that might not terminate** (`_wrap_chunks`, tree recursion) take fuel; running out is the separate error
  `diverge`/`recursion`, and termination is a theorem that this error does not occur.
* **Objects**: parser nodes live in an append-only heap indexed by creation order, so object identity (`is`,
  `list.index`) is index equality, and `parent`/`children` are indices exactly like Python references.
* **Settings** are dicts of tagged values (`Val`); renderer classes are a datatype with their class-level settings,
  plus a constructor for user subclasses that only change settings.
* **Input** is the sequence of `handle_starttag`/`handle_endtag`/`handle_data` calls for most claims. The tokenizer that
  makes these calls, `html.parser` of CPython 3.12.3 with `_markupbase` and `html.unescape`, is modelled on top
  (`Model/Tokenizer.lean`), so that C67-C70 start from the source text and the pieces in which it is fed. The table of named
  character references is a parameter (`Uni.entity`) that has the entries for `&`, `<`, `>` and `"`.
* **Selectors** are trees for most claims. The parser of cssselect that makes them from text is modelled on top
  (`Model/CssParse.lean`, `Model/Tables.lean`), so that C71 and C72 start from the tables of texts. Its source is not in the
  repository or the sandbox; it was written from knowledge of version 1.1.0 and agrees with all 150 selectors in the project's
  tests. One doubt remains: whether the value in an attribute selector is passed as text or as a token. The model takes the
  text; `C04_token_fails` says what the code does with a token.
* **The command line** is read by argparse of CPython 3.12.3, as far as the two positional arguments and two options of the
  program need it (`Model/Args.lean`). It was compared with the original on 60000 random command lines. The texts of the help
  and of errors are left out.
* **`str.format`** is modelled with arguments that are strings, integers or `None`, with conversions, indices, format
  specifications and fields inside them (`Py/Format.lean`, after `unicode_format.h` and `formatter_unicode.c` of CPython 3.12). What is
  left out is listed below and gives the error `unsupported`, which no theorem takes for a Python exception.
* Markdown conversion and the file system are not modelled.

## Plan per property

| Id | Modelled | Proof |
|---|---|---|
| C01 | `_selector_matches` and helpers over the node heap | structural induction on selectors against a declarative CSS relation, using C29's invariant |
| C02 | same | induction on the selector |
| C03 | nth/first/last-child, Python negative indexing | list indexing lemmas; n <= 0 is false of the code: negation by witness, `_partial` for n >= 1 |
| C04 | `_attribute_matches` | per operator characterisation; valueless attributes raise: negation by witness, `_partial` otherwise |
| C05 | `_compare`, `_compare_specificity`, `Specificity` | case analysis, `omega` |
| C06 | `tag_matches` | fold induction |
| C07, C08 | `RendererMap.get_for_tag`, stable sort | stable sort lemma + fold induction, spec = arg-max over (specificity, position) |
| C09 | `_get_renderer` | false of the code: negation for all such tables; `_partial` when some rule names a renderer |
| C10 | dict `update` on the rule table | assoc list lemmas |
| C11 | `Renderer.__new__` aggregation including the `not in all_bases` test | false of the code (equal dicts are skipped): witness; `_partial` without equal dicts |
| C12 | `namedict` state machine | refinement to a plain map, induction on histories |
| C13, C14 | `Box` | induction on the chain, `omega` |
| C15, C16 | `_border_render`, `_outer_render` | list lemmas about split/join |
| C17-C24 | `_wrap_chunks`, `_handle_long_word`, `_split`, `_fix_sentence_endings`, `_munge_whitespace`, `_len` | loop invariants; C19, C22 fail at corners: witnesses + `_partial` |
| C25, C26 | justification functions | arithmetic on gaps; C25 fails with ANSI codes: witness + `_partial` |
| C27 | `DataParser.__init__` | induction over the text |
| C28-C31 | handlers over the heap | invariant over event sequences; C31 by tree induction |
| C32-C34 | link bookkeeping | invariant; C33, C34 fail in some configurations: witnesses + `_partial` |
| C35, C36 | `reset`, `close` | false of the code (`_in_pre`, accumulated output): witnesses + `_partial`; for C35 also exactly when it fails |
| C37-C39 | `close`, `_optimise_parsed`, `_indent_body`, constructor checks | list lemmas |
| C40, C41 | `_guess_type`, `_parse_href`, `urlparse` | case analysis; port can be `None`: witness + `_partial` |
| C42-C44 | extracted link renderers, `link_render` | format lemmas; C42 and C44 fail: witnesses + `_partial` |
| C45-C53 | the renderers | format and list lemmas; C49, C52 fail in corners: witnesses + `_partial` |
| C54 | whole pipeline | induction on render fuel with a per-renderer preservation lemma, plus C28 |
| C55 | whole pipeline | induction on render fuel with a per-renderer width lemma; with links anywhere or a theme by induction on the page of C82 |
| C56 | `NonRenderer` | direct |
| C57 | list items | items with text and then lists proved; bare items, text after a list and deeper levels: witnesses |
| C58 | tree recursion | fuel suffices on well-formed heaps |
| C59, C60 | `str.format`, `ParagraphRenderer` | induction on templates / segments |
| C61 | default rule table | evaluation of the table per tag and position, through C07 |
| C62 | `_fix_sentence_endings` through `wrap` | invariant of chunk lists (dashed chunks), then of lines; documents by C60, C48, C49 |
| C63 | the bundled themes | the tables as data, C07 for which rule wins, C52 for what is shown |
| C64 | `wrap` on text with colours | chunking lemmas, then C23; false in four ways: witnesses + `_partial` |
| C65 | `close` with default rules or a theme | every renderer: can be created, width of its marker, when it raises; then induction on fuel |
| C66 | `feed` | invariant: the stack holds the open tags; outcome of each start tag |
| C67 | `cliMain` | C65, C66 and C54 for the configuration of the program; the log is the list of ignored end tags |
| C68-C70 | `goahead`, `parse_starttag`, `parse_endtag`, declarations, `unescape` | a grammar of documents; one lemma per kind of item for whole and for cut items; induction on the document and the pieces |
| C71, C72 | `cssselect.parse`, `RendererMap.__init__`, `GopherHTMLParser.__init__` | a grammar of selectors; what each piece is as tokens, and what the parser does with them; lengths for termination |
| C73 | `GopherHTMLParser.__init__` | the argument is not used: induction on fuel; witness + `_partial` through C55 |
| C74 | `close`, the extracted link renderers, `cli.main` | C33, C43 and C32; trimming of the page line by line |
| C75, C76 | `HeaderRenderer`, `render` of the inline and extracted renderers | written templates parse back; false in six ways: witnesses |
| C77-C79 | `_inner_render` of the block renderers | C19, C25 and C26 per segment; the box as a function of the settings; false in two ways: witness |
| C80 | `render` of the block renderers in documents | C16 and the rows of `_border_render`, composed with C78 |
| C81 | `LinkParser.render`, `LinkRenderer`, `ImageRenderer` in documents | the assigned renderer (C61) and its templates; numbers by C32; witness + `_partial` |
| C82 | the whole page, default style or a bundled theme | relation `PageOf` on the tree (no renderers, boxes or templates in it); both directions, so the page is unique |
| C83 | `_parse_arguments` with argparse, `main` | step equations for the loop of argparse; a classification of all words; both directions; witnesses + `_partial` |
| C84 | attributes in the default style | two runs kept in step (`Skel`), then transfer of the page of C82 between the two trees |
| C85 | pieces of the page | as C84, piece by piece, for documents with the same tags |
| C86 | documents that go on | `feed` only adds to the tree (`Continued`); transfer of the pieces; prefixes of indented and trimmed text; `C86_open` is the witness for open elements |
| C87 | `_wrap_chunks` with `max_lines` | the loops with and without the limit in step; relation `CutAfter`, both directions; witnesses for the conditions |
| C88 | the class `Formatter` | `classAttr` is the last value; the rest by computation |
| C89 | format specifications | written layouts parse back; lengths of the padding; witness for the box |
| C90 | blanks and line ends of the source | normalised text is determined by its words and ends; two runs of `feed` in step; C68 for source texts |
| C91 | whole pages, from trees | nodes numbered in document order (`Sits`); the reference of C82 read off the tree (`draws_draw`); C65, C66 for the outcome |
| C92 | whitespace between blocks | C91 for both trees; bodies equal line by line but for blank lines (`SameRows`), which padding, indenting and trimming keep |
| C93 | only the blocks count | C91; every document made of blocks is like the flat list of its blocks (`SameRows` under joins, the room and the paint do not depend on containers) |
| C94 | a document and its wrapper | C91 for both trees; an unstyled element hands the drawing of its content through unchanged |
| C95 | texts in pieces | C91 for both trees; the drawing and the text on the page of a cut text are those of the whole |
| C96 | tags that do not match | the two runs of the parser differ in the log and in which elements are closed; no function used for rendering reads either |
| C97 | one document after the other | the tree of C91 is drawn node by node; the place of a node on the top level matters only for items and terms |
| C98 | as few lines as possible | Greedy (C21) stays ahead of every arrangement: the rest of the text after each line is a suffix of the other's rest |
| C99 | which rules count | The page depends on the rules only through the renderers chosen; idle rules add no matches, and a stable sort is determined by the order within each specificity |
| C100 | groups of selectors | All renderers read settings by name only; a group applies with the greatest specificity of its parts, so one of the parts wins where the group wins |
| C101 | which settings count | Every renderer reads only settings it or its bases declare, and the arguments of text wrapping; those of rules for the list of links are read by none |
| C102 | a wider page is not longer | From a drawing of the narrower page (C91) one of the wider page is made, element by element, with no more lines at any place (C98); drawings are unique |
| C103 | the characters of a page | Every step of the drawing of C91 adds characters of a fixed list only; in a gophermap the lines with tabs are counted piece by piece |
| C104 | where lines can be broken | The scanner cuts at a place exactly if the characters around it say so, with an invariant for each kind of piece (whitespace, dash, word) |
| C105 | words that are longer than a line | A relation for filling lines that is shown to be functional; each round of the loop is one step of it |
| C106 | which texts are numbers | A grammar of numbers; the reader is shown to accept exactly it; colours and positions are stated with it |
| C107 | how numbers are shown | Styles of numbers and texts that show a number in a style are defined by digits and groups; induction on the groups from the right |
| C108 | templates with several fields | Induction on the parts, with the state of the numbering; the steps are those of C89 and C107 |

## What the code does that the properties do not expect

Each has a theorem ending in `_fails` (or named in the manifest) with a concrete document or call, and a `_partial` theorem for
the rest.

* Selectors: `:nth-child(0)` matches the last element (C03). An attribute without value raises, and class values are
  compared after normalising their whitespace (C04). `[a^=""]` matches everything, in CSS nothing (C04_empty). Of
  `:nth-child(2n+1)` only the first number is used; `odd` raises `ValueError`; a rule for a pseudo-element is used for the
  element; other pseudo-classes match nothing; `P` does not match `<P>`; namespaces are ignored (C71).
  cssselect resolves escapes in passes, so `.\\61` (the class `\61`) is read as `.a`, `.\5c x` as `.x`, and a number at the end of a
  line of a string runs on in the next one; a comment between blanks makes two white space tokens, of which the parser skips one,
  so `a /* x */ > b` is refused (C71). The entry `''` for the default renderer makes the
  constructor raise if given for extracted links (C72).
* Settings: rules without a renderer are dropped if no matching rule names one (C09). A class that declares the same
  settings as another in its chain is skipped (C11). A rule cannot set the template of a Markdown header (C11).
* Boxes: the edges of a framed block in a framed block are longer than its rows (C15). The padded width does not subtract the
  padding of ancestors (C13_widths). The constructor never reads its argument `width`: the page has 67 columns unless a box is
  given (C73).
* Wrapping: an indent wider than the width makes the loop run for ever (C19, C58; C19_exact says for which texts, C58_cause for which elements). A line can end in a space before a word that
  is broken (C22). Colours count as columns when justifying (C25, C26). A colour after a full stop or hyphen, or before a
  tab, changes the layout, and a long word is broken inside a colour sequence (C64).
* Parser: an end tag of `pre` inside another element of the `pre` does not close it, yet text is no longer kept as it is (C96_fails).
  `reset` does not leave a `pre` (C35). `close` twice doubles the output (C36). Footer images are lost when links are
  placed elsewhere (C33). A link without enclosing element raises when links go after the block, and an image in an inlined link
  is lost (C34). A no-break space at the end or beginning of a line of the source is dropped (C90_nbsp_fails). Rendering with links after the block takes time exponential in the depth (C58_repeats).
* Links: the port of a gopher URL without port is `None`, a relative path is cut at `;`, and a link without address is
  called `None` (C41). Tabs and newlines break gophermap entries (C42). Whether dots are added depends on the length before
  stripping (C43). Rules cannot configure extracted or inlined links (C44).
* Colours: each component is read with `int(..., 16)`, so that `#-1-2 3` is a colour with components below zero, and characters after
  the sixth are ignored (C106_colour, C106_colour_fails).
* Renderers: text between items is counted as an item (C49), and the line feed after `<ul>` moves the first item to the right
  (C92_list_fails; for block quotes C92_quote_fails). Rules cannot set `start_index` (C49). Any `font` raises
  `NameError`, and colour 0 is ignored (C52). Terms, headers, text in block quotes, code-only paragraphs, top level text and lists of links are
  not wrapped, and a header ends after the list of links in it (C55). Items of nested lists can run together, the first inner item of an item without text is in the row of its bullet, text after a
  list can end up in its last row, and the third level is not indented (C57).
* Settings of headers: centring and the line below count all characters of the text, line breaks and colour sequences included;
  in a block quote the width is that of the page, so the line is longer than the page; a line made from several characters is
  longer than the text (C75). The template of a line break is applied twice, and an image with a reference is always called
  `Image` (C76, C81).
* Settings of items: the indent of further lines counts text after the placeholder, and doubled braces twice (C79). Edges of
  a frame in a block quote are longer than the page, and coloured lines in a frame are not filled up to its width (C80).
* Templates: a format specification can cut the text (C54_cut_fails); the box counts its characters as columns and not what it prints, so lines
  can be longer than the page (C89_room_fails); a field inside a specification reads the content as a specification (C59_nested_fails).
* Exceptions: deep nesting raises `ValueError`: 34 nested quotations around a paragraph are too many for the standard page
  (C65_quotes). A `class` attribute without value and an address `urllib` rejects stop the parser (C66).
* Command line: the destination is never written; the page is printed, after messages about ignored end tags (C67).
* Reading: text that is cut between two calls of `feed` is not joined, which changes spaces and the numbers of list items,
  and a reference with very many digits is lost if it is cut (C69). `<![` can raise `AssertionError`; CDATA sections and everything after a quotation mark that is not closed are dropped
  without a message; the content of `script` and `style` is printed (C68, C70).
* Themes: `github` misspells a background colour; a theme that mentions a block takes its layout away, and a link that it
  mentions loses its address (C63).
* Command line: a `--` at the end is refused after an option though not after a file name, and a destination named `--` after
  `--` becomes an empty list (C83). Both come from argparse.

## Not modelled

* Tokenizers of other Python versions (they differ in comments and `script`), line numbers, and comments and declarations
  beyond where they end. The Markdown library, the file system and the terminal.
* Python's recursion limit and memory; time, except for the number of renderings in C58.
* Subclasses of renderers that override methods, multiple inheritance of renderers, and changing a settings dict after it has
  been passed in. Lists and tuples are not distinguished in settings.
* Lone surrogates in strings. The Unicode tables are parameters with the few facts about them that proofs need as fields of
  `Uni` (for instance that a digit is not whitespace). `int()`'s limit of 4300 digits
  (also in numeric character references).
* In `str.format`: attributes (`{0.real}`), `!r` and `!a` of strings, integers in the presentation types
  `c`, `n`, `e`, `E`, `f`, `F`, `g`, `G` and `%`, and decimal digits other than those of ASCII.
* Settings of a type the renderer does not expect, beyond the exception they lead to first: a `break_on_hyphens` that is true
  but not `True`, and link templates given as a string where a list is expected.
* Overriding `_get_format` and `get_box` of `Formatter` (`rendering.py` 212-260), a class that nothing uses. `PurePath.suffix` is that of Python 3.13 and earlier.

## Checking the model

* `Tests/` evaluates the project's own tests in the model: the 28 documents of `tests/test_html.py` (from their source), the 150
  selectors of `tests/test_selectors.py` (from their text) and `tests/test_namedict.py`. All assertions hold. The modules `Tests/Use*` apply the theorems to concrete documents, so that
  no theorem is true only because its conditions cannot be met.
* `validation/stdlib.py` compares the model of the standard library (string methods, `str.format`, `int`, `textwrap`,
  `urllib.parse`, `pathlib`, `html.parser` with pieces, `html.unescape`, and the two regular expressions of the project) with
  Python 3.12 on random inputs: no differences in 1.2 million inputs, 184000 of them HTML documents. The new model of `str.format` was
  compared on 180000 more templates, and integers with signs, marks, separators and presentation types on 26000.
  The tables of whitespace and line boundaries were compared for all code points.
* `validation/themes.py` compares the tables of the bundled themes in the model with the files in `/repo`, read as text: nine themes, no
  differences.
* `seeded/LOG.jsonl` records the wrong programs the theorems were tested against. Most runs were stopped soon after
  the first theorem failed, so `theorems_failed` is not complete; it includes theorems that do not build because a lemma
  they use fails (`lemmas_failed`). `claim_theorems` says what is known of the theorems of the claim named in the entry:
  that they fail, still hold, or were not reached. Where the claim first written down was not the one the edit breaks,
  it was corrected afterwards.

## Trusted base

* Lean's kernel.
* The axioms below, which are those of Lean itself; none are added. `#print axioms` gives for the theorems of the manifest:
<!-- axioms -->
  * No axioms: C11_unique.
  * `propext`: C05_counts, C106_colour_fails, C15_short, C15_fails, C21_chunks, C28_unique, C40, C51_lines,
    C59_nested_fails, C67_written_fails, C71_defaults, C71_themes, C71_pseudo_fails, C71_backslash_fails, C71_line_fails,
    C71_comment_fails, C78_skip, C78_unknown, C96_unique, C96_proper.
  * `Quot.sound`, `propext`: C02, C02_rules, C03_fails, C04_fails, C04_class_fails, C04_empty, C04_token_fails, C07_unique,
    C09_fails, C100_group_fails, C101_known, C101_fallback_fails, C102_long_fails, C103_tab_fails, C104_sentence_fails,
    C105_unique, C106, C106_unique, C11_fails, C11_header_fails, C13, C13_own, C13_widths, C19_fails, C20, C21, C22_fails,
    C23_strip, C24, C25_fails, C25_nbsp_fails, C26_right, C26_fails, C31_nested_pre, C33_fails, C34_fails, C34_fails_inline,
    C35_partial, C35_general, C35_exact, C35_source_partial, C35_fails, C35_source_fails, C36_witness, C37, C38, C41_fails,
    C42_fails, C43_partial, C43_fails, C44_fails, C45_template, C47_row, C49_fails, C49_start_fails, C52_content,
    C52_zero_fails, C55_fails, C55_term_fails, C55_quote_fails, C55_mixed_fails, C55_blank_fails, C55_blank_list_fails,
    C55_code_fails, C55_text_fails, C55_footer_fails, C55_header_fails, C56, C57_fails, C57_depth_fails, C57_bare_fails,
    C57_after_fails, C58_fails, C58_keeping_fails, C58_repeats, C59, C62_limit, C63_background_fails, C63_block_fails,
    C63_link_fails, C64_sentence_fails, C64_hyphen_fails, C64_tab_fails, C64_long_fails, C67_printed_fails, C68_escape,
    sourceExample_ok, C69_fails, C69_reference_fails, C70_fails, C71_nth_fails, C71_element_fails, C71_case_fails,
    C71_namespace_fails, C73_ignored, C73_fails, C75_lines_fails, C75_colour_fails, C75_quote_fails, C75_line_fails,
    C76_inline, C76_code, C76_break, C76_break_fails, C76_image_fails, C77_pre, C77_quote, C77_room, C79_fails,
    C80_quote_fails, C80_colour_fails, C81_fails, C83_dashes_fails, C83_list_fails, C86_open, C87_unique, C87_space_fails,
    C87_long_fails, C89_room_fails, C90_nbsp_fails, C92_list_fails, C92_quote_fails, C92_optimise_fails, C93_text_fails,
    C94_link_fails, C95_fails, C96_tree, C96_fails, C97_fails, C98, C98_long_fails, C98_blank_fails, C99_order_fails.
  * `Classical.choice`, `Quot.sound`, `propext`: C01, C03_partial, C03_any, C03_first, C04_partial, C04_nested, C05,
    C05_total, C06, C07, C08_handed, C08, C09_partial, C10, C10_links, C10_stays, C100, C100_group, C100_group_links, C101,
    C101_rules, C101_unknown, C102, C102_width, C102_source, C103, C103_source, C103_items, C104, C104_unique, C104_lines,
    C105, C105_text, C106_nth, C106_colour, C107, C107_read, C107_differ, C107_refused, C108, C108_error, C108_reference,
    C108_gophermap, C11_partial, C11_rules, C11_builtin, C12, C12_map, C14, C14_order, C15_partial, C15_rows, C15_chars,
    C16, C16_breaks, C16_block, C16_lines, C17, C18, C19_partial, C19_limit_partial, C19_exact, C19_words, C21_words,
    C22_partial, C23, C25_partial, C26_partial, C26_center, C27, C27_pre, C27_scope, C28, C28_close, C29, C29_roots, C30,
    C30_stack, C31, C32, C32_count, C33_partial, C33_absent, C34_partial, C34_parent, C35_document, C36_partial, C36_fails,
    C37_unique, C39, C40_total, C41_relative_partial, C41_total, C41_web, C41_params, C41_gopher, C41_gopher_noport,
    C41_gopher_badport, C41_error, C41_document, C42_partial, C42_entry, C42_image, C42_footer, C43_padded, C43_entry,
    C43_negative, C44_partial, C44_reference, C44_ignored, C45, C46, C46_error, C47, C48_bullet, C48, C48_dd, C49_index,
    C49_partial, C49_subclass, C50, C50_error, C51, C52_partial, C52_fails, C53, C53_total, C53_signs, C54_partial,
    C54_default, C54_theme, C54_fails, C54_cut_fails, C55_partial, C55_footer, C55_page, C55_theme, C55_program,
    C57_partial, C58_partial, C58_hanging, C58_cause, C58_depth, C58_default, C58_assign, C59_uniform, C59_fields, C59_item,
    C60, C60_code, C60_br, C61_plain, C61_p, C61_li, C61_dt, C61_other, C62, C62_paragraph, C62_item, C62_numbered,
    C62_description, C63_partial, C63_css, C63_rest, C63_same, C64_partial, C65, C65_render, C65_quotes, C66, C66_only,
    C66_address, C67_partial, C67_source, C67_unread, C67_text, C67_ends, C68, C69_partial, C69_text, C70_partial, C70_cut,
    C70_unclosed, C70_raises, C71_partial, C71_read, C71_total, C71_unique, C72, C72_tables, C72_default, C73_partial,
    C73_page, C74, C74_program, C75_partial, textOf_drawn, C76_link, C76_image, C76_entry, C76_entry_image, C76_gophermap,
    C76_gophermap_margins, C78_partial, C78_sentences, C79_lines, C79_partial, C80_partial, C80_rectangle,
    C80_paragraph_partial, C81_reference, C81_inline, C81_image, C81_partial, C82, C82_unique, C82_theme, C82_program,
    C83_partial, C83_only, C83_help, C83_program, C83_other, C84, C85, C85_parts, C86, C86_page, C87, C88, C88_base, C89,
    C89_text, C89_unique, C89_number, C89_zeros, C89_shown, C89_given, C89_named, C89_kept, C90, C90_source, C91,
    C91_unique, C91_source, C92, C92_source, C93, C93_source, C94, C94_html, C95, C95_source, C95_pieces, C96, C96_page,
    C96_source, C97, C97_all, C97_source, C98_words, C98_wider, C98_wider_blank, C99, C99_tags, C99_order.
<!-- end -->
* The reading of the Python source, of `textwrap`, `urllib.parse`, `html.parser` and `pathlib` of Python 3.12 and of cssselect recorded in the
  comments of `Py/` and `Model/`.
* The specifications in `Spec/`, which say what the properties mean: CSS matching and specificity, words and lines, ECMA-48
  looks, templates, and the order of documents. They use the data types of `Model/`, and of its functions: the entry points
  whose results they speak about (`feed`, `close`, `renderNode`, `wrap`, constructors such as `Box.new` and tables such as
  `RClass.base`); and four that have characterisations of their own: `vlen` (C23_strip), `selMatch` (C01), specificity
  (C05) and `normaliseData` (C27).
