import Verif.Model.Parser

/-!
# The tokenizer: `HTMLParser` of the standard library

`GopherHTMLParser` inherits `feed` and `close` from `html.parser.HTMLParser` with `convert_charrefs=True` (`_parser.py`
346, 364, 591). The model follows CPython 3.12.3, `Lib/html/parser.py` ("stdlib"), `Lib/_markupbase.py` ("markupbase") and
`html.unescape` in `Lib/html/__init__.py` ("html"). A position in the text is represented by the rest of the text from there
on. Comments, declarations and processing instructions are read and dropped: the handlers for them do nothing
(`GopherHTMLParser` does not override them). Line numbers and `get_starttag_text` are not modelled.
-/

namespace Verif

/-! ## Character references -/

/-- The digits of a number in the given base and what follows; letters are only used for base 16. -/
def isBaseDigit (base : Nat) (c : Char) : Bool :=
  ('0' ≤ c && c ≤ '9') || (base == 16 && (('a' ≤ c && c ≤ 'f') || ('A' ≤ c && c ≤ 'F')))

def baseDigit (c : Char) : Nat :=
  if '0' ≤ c && c ≤ '9' then c.toNat - 48 else if 'a' ≤ c && c ≤ 'f' then c.toNat - 87 else c.toNat - 55

/-- html 29-64 `_invalid_charrefs`. -/
def invalidCharrefs : List (Nat × Char) :=
  [(0x00, '�'), (0x0d, '\r'), (0x80, '€'), (0x81, '\x81'), (0x82, '‚'), (0x83, 'ƒ'), (0x84, '„'),
   (0x85, '…'), (0x86, '†'), (0x87, '‡'), (0x88, 'ˆ'), (0x89, '‰'), (0x8a, 'Š'),
   (0x8b, '‹'), (0x8c, 'Œ'), (0x8d, '\x8d'), (0x8e, 'Ž'), (0x8f, '\x8f'), (0x90, '\x90'), (0x91, '‘'),
   (0x92, '’'), (0x93, '“'), (0x94, '”'), (0x95, '•'), (0x96, '–'), (0x97, '—'),
   (0x98, '˜'), (0x99, '™'), (0x9a, 'š'), (0x9b, '›'), (0x9c, 'œ'), (0x9d, '\x9d'),
   (0x9e, 'ž'), (0x9f, 'Ÿ')]

/-- html 66-87 `_invalid_codepoints`. -/
def invalidCodepoint (n : Nat) : Bool :=
  (0x1 ≤ n && n ≤ 0x8) || (0xe ≤ n && n ≤ 0x1f) || (0x7f ≤ n && n ≤ 0x9f) || (0xfdd0 ≤ n && n ≤ 0xfdef) || n == 0xb ||
  n % 0x10000 == 0xfffe || n % 0x10000 == 0xffff

/-- html 92-104: the text for a numeric character reference. -/
def numericRef (n : Nat) : Str :=
  match invalidCharrefs.lookup n with
  | some c => [c]
  | none =>
    if (0xD800 ≤ n && n ≤ 0xDFFF) || n > 0x10FFFF then ['�']
    else if invalidCodepoint n then []
    else [Char.ofNat n]

/-- html 109-112: the longest proper prefix of at least two characters that is a name, tried from length `n` down. -/
def prefixRef (u : Uni) (s : Str) : Nat → Str
  | 0 => '&' :: s
  | n + 1 =>
    if n + 1 ≤ 1 then '&' :: s
    else match u.entity (s.take (n + 1)) with
      | some t => t ++ s.drop (n + 1)
      | none => prefixRef u s n

/-- html 106-114: the text for a named character reference. -/
def namedRef (u : Uni) (s : Str) : Str :=
  match u.entity s with
  | some t => t
  | none => prefixRef u s (s.length - 1)

/-- The optional semicolon: how many characters it takes. -/
def semi : Str → Nat
  | ';' :: _ => 1
  | _ => 0

/-- A character that may occur in a named reference: `[^\t\n\f <&#;]`. -/
def isRefChar (c : Char) : Bool :=
  !(c == '\t' || c == '\n' || c == '\x0c' || c == ' ' || c == '<' || c == '&' || c == '#' || c == ';')

/-- html 117-119 `_charref` and 91-114 `_replace_charref`, after the `&`: the replacement and the number of characters
read. -/
def charref (u : Uni) (r : Str) : Option (Str × Nat) :=
  match r with
  | '#' :: d =>
    let dec := d.takeWhile (isBaseDigit 10)
    if dec ≠ [] then
      some (numericRef (dec.foldl (fun n c => 10 * n + baseDigit c) 0), 1 + dec.length + semi (d.drop dec.length))
    else match d with
      | x :: h =>
        let hex := h.takeWhile (isBaseDigit 16)
        if (x = 'x' ∨ x = 'X') ∧ hex ≠ [] then
          some (numericRef (hex.foldl (fun n c => 16 * n + baseDigit c) 0), 2 + hex.length + semi (h.drop hex.length))
        else none
      | [] => none
  | _ =>
    let name := (r.takeWhile isRefChar).take 32
    let n := name.length + semi (r.drop name.length)
    if name = [] then none else some (namedRef u (r.take n), n)

/-- html 122-132 `unescape`; the first argument counts characters already read as part of a reference. -/
def unescapeGo (u : Uni) : Nat → Str → Str
  | _, [] => []
  | n + 1, _ :: r => unescapeGo u n r
  | 0, c :: r =>
    if c = '&' then
      match charref u r with
      | some (t, n) => t ++ unescapeGo u n r
      | none => '&' :: unescapeGo u 0 r
    else c :: unescapeGo u 0 r

def unescape (u : Uni) (s : Str) : Str := unescapeGo u 0 s

/-! ## Start tags -/

/-- A character that ends a tag name: not in `[^\t\n\r\f />\x00]`. -/
def endsTagName (c : Char) : Bool :=
  c == '\t' || c == '\n' || c == '\r' || c == '\x0c' || c == ' ' || c == '/' || c == '>' || c == '\x00'

/-- `(?:\s|/(?!>))*`: the character before the new position, and the rest. -/
def skipSep : Char → Str → Char × Str
  | p, [] => (p, [])
  | p, c :: r =>
    if isSpace c then skipSep c r
    else if c = '/' ∧ r.head? ≠ some '>' then skipSep c r
    else (p, c :: r)

/-- The lookbehind `(?<=['"\s/])`. -/
def mayStartAttr (p : Char) : Bool := p == '\'' || p == '"' || p == '/' || isSpace p

/-- `[^\s/=>]` -/
def isAttrChar (c : Char) : Bool := !(isSpace c || c == '/' || c == '=' || c == '>')

/-- The text up to the next `q` and what follows that. -/
def quotedVal (q : Char) : Str → Option (Str × Str)
  | [] => none
  | c :: r => if c = q then some ([], r) else (quotedVal q r).map (fun vt => (c :: vt.1, vt.2))

/-- `[^>\s]*`: a value, a character before the new position, and the rest. -/
def bareValue (s : Str) : Str × Char × Str :=
  let ok (c : Char) : Bool := !(c == '>' || isSpace c)
  (s.takeWhile ok, (s.takeWhile ok).getLast?.getD '=', s.dropWhile ok)

/-- The group `(\s*=+\s*(\'[^\']*\'|"[^"]*"|(?![\'"])[^>\s]*))` of stdlib 43-45 and 50-55: value, character before the new
position, rest; `none` if there is no match. If a quotation mark is not closed, the expression backtracks: to an empty value
before the whitespace in front of the mark, or else to a bare value that begins with the last of several `=`. -/
def attrValue (s : Str) : Option (Str × Char × Str) :=
  let s1 := s.dropWhile isSpace
  let eqs := s1.takeWhile (· == '=')
  let s2 := s1.dropWhile (· == '=')
  let ws := s2.takeWhile isSpace
  let s3 := s2.dropWhile isSpace
  if eqs = [] then none
  else match s3 with
    | [] => some ([], '=', [])
    | q :: r =>
      if q = '\'' ∨ q = '"' then
        match quotedVal q r with
        | some (v, t) => some (v, q, t)
        | none =>
          if ws ≠ [] then some ([], ws.getLast?.getD ' ', s3)
          else if 2 ≤ eqs.length then some (bareValue ('=' :: s3))
          else none
      else some (bareValue s3)

/-- `attrfind_tolerant.match`, stdlib 43-45: the attribute as written, character before the new position, rest. -/
def attrAt (p : Char) : Str → Option ((Str × Option Str) × Char × Str)
  | [] => none
  | c :: r =>
    if mayStartAttr p && !(isSpace c || c == '/' || c == '>') then
      let name := c :: r.takeWhile isAttrChar
      let rest := r.dropWhile isAttrChar
      match attrValue rest with
      | some (v, q, t) => some ((name, some v), skipSep q t)
      | none => some ((name, none), skipSep (name.getLast?.getD c) rest)
    else none

/-- The loop over the attributes, stdlib 49-58 and 307-320, until the rest has length `stop` or less, with fuel. -/
def attrLoop (stop : Nat) : Nat → Char → Str → List (Str × Option Str) × Str
  | 0, _, s => ([], s)
  | f + 1, p, s =>
    if s.length ≤ stop then ([], s)
    else match attrAt p s with
      | none => ([], s)
      | some (a, q, t) => let r := attrLoop stop f q t; (a :: r.1, r.2)

/-- `[\s/]*` -/
def skipSlash : Char → Str → Char × Str
  | p, [] => (p, [])
  | p, c :: r => if isSpace c || c == '/' then skipSlash c r else (p, c :: r)

/-- `locatestarttagend_tolerant.match`, stdlib 46-62, on the text after the `<`: the rest after the match. -/
def locateEnd (s : Str) : Str :=
  let name := s.takeWhile (fun c => !endsTagName c)
  let (p, s1) := skipSlash (name.getLast?.getD ' ') (s.drop name.length)
  (attrLoop 0 s1.length p s1).2.dropWhile isSpace

/-- `check_for_whole_start_tag`, stdlib 337-371, on the text after the `<`: the rest after the tag, or `none` for -1. -/
def wholeStartTag (s : Str) : Option Str :=
  match locateEnd s with
  | '>' :: t => some t
  | '/' :: '>' :: t => some t
  | '/' :: _ => none
  | [] => none
  | c :: t => if isAsciiAlpha c || c == '=' then none else some (c :: t)

/-- What reading one piece of markup gives: the calls, the rest, and the new `cdata_elem`. -/
structure Piece1 where
  events : List Event
  rest : Str
  cdata : Option Str
  deriving DecidableEq

/-- `parse_starttag`, stdlib 296-334, on the text after the `<`. -/
def parseStart (u : Uni) (cdata : Option Str) (s : Str) : Option Piece1 :=
  (wholeStartTag s).map fun after =>
    let name := s.takeWhile (fun c => !endsTagName c)
    let tag := u.lower name
    let (p, s1) := skipSep (name.getLast?.getD ' ') (s.drop name.length)
    let (as, s2) := attrLoop after.length s1.length p s1
    let attrs := as.map (fun a => (u.lower a.1, a.2.map (unescape u)))
    let fin := strip (s2.take (s2.length - after.length))
    if fin = py"/>" then ⟨[.start tag attrs, .stop tag], after, cdata⟩
    else if fin = py">" then
      ⟨[.start tag attrs], after, if tag = py"script" ∨ tag = py"style" then some tag else cdata⟩
    else ⟨[.data ('<' :: s.take (s.length - after.length))], after, cdata⟩

/-! ## Other markup -/

/-- The rest after the first `>`. -/
def afterGt : Str → Option Str
  | [] => none
  | c :: r => if c = '>' then some r else afterGt r

/-- A character of an end tag name: `[-.a-zA-Z0-9:_]`. -/
def isEndNameChar (c : Char) : Bool :=
  isAsciiAlpha c || ('0' ≤ c && c ≤ '9') || c == '-' || c == '.' || c == ':' || c == '_'

/-- `endtagfind.match`, stdlib 66, on the text after the `</`: the name. -/
def endTagName (s : Str) : Option Str :=
  match s.dropWhile isSpace with
  | c :: r =>
    if isAsciiAlpha c then
      match (r.dropWhile isEndNameChar).dropWhile isSpace with
      | '>' :: _ => some (c :: r.takeWhile isEndNameChar)
      | _ => none
    else none
  | [] => none

/-- `parse_endtag`, stdlib 374-412, on the text after the `</`. The name of a tolerated tag and the separators after it
contain no `>`, so the `>` searched at 400 is the one found at 377. -/
def parseEnd (u : Uni) (cdata : Option Str) (s : Str) : Option Piece1 :=
  (afterGt s).map fun after =>
    let verbatim := '<' :: '/' :: s.take (s.length - after.length)
    match endTagName s with
    | none =>
      match cdata with
      | some e => ⟨[.data verbatim], after, some e⟩
      | none =>
        if s.head?.any isAsciiAlpha then ⟨[.stop (u.lower (s.takeWhile (fun c => !endsTagName c)))], after, none⟩
        else ⟨[], after, none⟩
    | some name =>
      match cdata with
      | some e => if u.lower name ≠ e then ⟨[.data verbatim], after, some e⟩ else ⟨[.stop (u.lower name)], after, none⟩
      | none => ⟨[.stop (u.lower name)], after, none⟩

/-- `--\s*>` at the start of the text. -/
def commentCloseAt : Str → Option Str
  | '-' :: '-' :: r => match r.dropWhile isSpace with
    | '>' :: t => some t
    | _ => none
  | _ => none

/-- `]\s*>` at the start of the text. -/
def msCloseAt : Str → Option Str
  | ']' :: r => match r.dropWhile isSpace with
    | '>' :: t => some t
    | _ => none
  | _ => none

/-- `]\s*]\s*>` at the start of the text. -/
def sectionCloseAt : Str → Option Str
  | ']' :: r => msCloseAt (r.dropWhile isSpace)
  | _ => none

/-- The first match of an expression. -/
def searchFor (at_ : Str → Option Str) : Str → Option Str
  | [] => at_ []
  | c :: r => match at_ (c :: r) with
    | some t => some t
    | none => searchFor at_ r

/-- A character of a name in a declaration: `[-_.a-zA-Z0-9]`. -/
def isDeclChar (c : Char) : Bool := isAsciiAlpha c || ('0' ≤ c && c ≤ '9') || c == '-' || c == '_' || c == '.'

/-- `_scan_name`, markupbase 375-392: `none` at the end of the text. -/
def scanName (s : Str) : Py (Option Str) :=
  match s with
  | [] => .ok none
  | c :: r =>
    if isAsciiAlpha c then
      if (r.dropWhile isDeclChar).dropWhile isSpace = [] then .ok none
      else .ok (some ((c :: r.takeWhile isDeclChar).map Char.toLower))
    else .error .assertionError

/-- `parse_marked_section`, markupbase 141-163, on the text after the `<![`. -/
def markedSection (s : Str) : Py (Option Str) := do
  match ← scanName s with
  | none => return none
  | some name =>
    if name = py"temp" ∨ name = py"cdata" ∨ name = py"ignore" ∨ name = py"include" ∨ name = py"rcdata" then
      return searchFor sectionCloseAt s
    else if name = py"if" ∨ name = py"else" ∨ name = py"endif" then return searchFor msCloseAt s
    else .error .assertionError

/-- stdlib 170-181: the markup that begins with the `<` before `r`; `none` if it is not complete. A document type declaration
ends like a bogus comment (stdlib 264-269, 276-284). -/
def parseMarkup (u : Uni) (fin : Bool) (cdata : Option Str) (r : Str) : Py (Option Piece1) :=
  let skip (t : Option Str) : Option Piece1 := t.map fun t => ⟨[], t, cdata⟩
  match r with
  | '/' :: s => .ok (parseEnd u cdata s)
  | '!' :: '-' :: '-' :: s => .ok (skip (searchFor commentCloseAt s))
  | '?' :: s => .ok (skip (afterGt s))
  | '!' :: '[' :: s => (markedSection s).map skip
  | '!' :: s => .ok (skip (afterGt s))
  | [] => .ok (if fin then some ⟨[.data py"<"], [], cdata⟩ else none)
  | c :: s =>
    if isAsciiAlpha c then .ok (parseStart u cdata (c :: s))
    else .ok (some ⟨[.data py"<"], c :: s, cdata⟩)

/-- stdlib 187-213: the calls for incomplete markup at the end of the document; all of it is dropped. -/
def incompleteEvents (r : Str) : List Event := if r = py"/" then [.data py"</"] else []

/-! ## The main loop -/

/-- A letter of `script` or `style` under `re.I` without regard to case. -/
def sameLetter (p c : Char) : Bool :=
  c.toLower == p || (p == 's' && c == 'ſ') || (p == 'i' && (c == 'İ' || c == 'ı'))

/-- The text after a prefix that matches the name without regard to case. -/
def afterName : Str → Str → Option Str
  | [], s => some s
  | p :: ps, c :: s => if sameLetter p c then afterName ps s else none
  | _ :: _, [] => none

/-- `</\s*name\s*>` without regard to case, stdlib 127, at the start of the text. -/
def cdataEndAt (name : Str) : Str → Bool
  | '<' :: '/' :: r => match afterName name (r.dropWhile isSpace) with
    | some t => (t.dropWhile isSpace).head? == some '>'
    | none => false
  | _ => false

/-- The text before the first end tag of the name, and the rest from there. -/
def cdataText (name : Str) : Str → Option (Str × Str)
  | [] => none
  | c :: r => if cdataEndAt name (c :: r) then some ([], c :: r)
    else (cdataText name r).map (fun x => (c :: x.1, x.2))

/-- stdlib 149-151: the text may end in the middle of a character reference. -/
def mayBeCut (text : Str) : Bool :=
  let last := (text.drop (text.length - 34)).reverse
  last.contains '&' && !(last.takeWhile (· != '&')).any (fun c => isSpace c || c == ';')

/-- `rawdata` and `cdata_elem`. -/
structure TokState where
  raw : Str := []
  cdata : Option Str := none
  deriving DecidableEq

/-- stdlib 248-254, after the loop. -/
def finishTok (u : Uni) (fin : Bool) (s : TokState) : List Event × Py TokState :=
  if fin && !s.raw.isEmpty && s.cdata.isNone then ([.data (unescape u s.raw)], .ok { s with raw := [] })
  else ([], .ok s)

/-- stdlib 163-167: a call of `handle_data` unless there is no text before the markup. -/
def dataEvents (read : Str → Str) (t : Str) : List Event := if t = [] then [] else [.data (read t)]

/-- The text up to the next markup and the rest from there, stdlib 138-162; `none` to stop and wait. -/
def nextText (u : Uni) (s : TokState) : Option (List Event × Str) :=
  match s.cdata with
  | none =>
    let text := s.raw.takeWhile (· != '<')
    let rest := s.raw.dropWhile (· != '<')
    if rest = [] ∧ mayBeCut text then none else some (dataEvents (unescape u) text, rest)
  | some e => (cdataText e s.raw).map (fun x => (dataEvents id x.1, x.2))

/-- Put events in front. -/
def emit (es : List Event) (r : List Event × Py TokState) : List Event × Py TokState := (es ++ r.1, r.2)

/-- The loop of `goahead`, stdlib 137-254, with fuel: the calls it makes, and the new state or an exception. -/
def goahead (u : Uni) (fin : Bool) : Nat → TokState → List Event × Py TokState
  | 0, _ => ([], .error .diverge)
  | f + 1, s =>
    if s.raw = [] then finishTok u fin s
    else match nextText u s with
      | none => finishTok u fin s
      | some (es, rest) =>
        emit es (match rest with
          | [] => finishTok u fin { s with raw := [] }
          | _ :: r =>
            match parseMarkup u fin s.cdata r with
            | .error e => ([], .error e)
            | .ok (some p) => emit p.events (goahead u fin f ⟨p.rest, p.cdata⟩)
            | .ok none =>
              if fin then emit (incompleteEvents r) (finishTok u fin { s with raw := [] })
              else finishTok u fin { s with raw := rest })

/-- `HTMLParser.feed`, stdlib 104-111. -/
def tokFeed (u : Uni) (s : TokState) (text : Str) : List Event × Py TokState :=
  goahead u false (s.raw.length + text.length + 1) { s with raw := s.raw ++ text }

/-- `HTMLParser.close`, stdlib 113-115. -/
def tokClose (u : Uni) (s : TokState) : List Event × Py TokState := goahead u true (s.raw.length + 1) s

/-- Feed pieces to the tokenizer and close it: the calls it makes, and how it ends. What the calls do does not influence the
tokenizer, unless they raise. -/
def tokPieces (u : Uni) : TokState → List Str → List Event × Py TokState
  | s, [] => tokClose u s
  | s, p :: ps =>
    match tokFeed u s p with
    | (es, .ok s') => emit es (tokPieces u s' ps)
    | (es, .error e) => (es, .error e)

/-! ## The parser with its tokenizer -/

/-- A `GopherHTMLParser` with the state inherited from `HTMLParser`. -/
structure HtmlParser where
  tok : TokState := {}
  state : PState := {}

/-- `GopherHTMLParser.feed`: the calls are made in order; an exception of the tokenizer comes after the calls before it. -/
def feedHtml (u : Uni) (c : Cfg) (s : HtmlParser) (text : Str) : Py HtmlParser := do
  let r := tokFeed u s.tok text
  let state ← feed u c s.state r.1
  let tok ← r.2
  return { tok, state }

/-- `GopherHTMLParser.close`, `_parser.py` 590-625, with the final call to the tokenizer (591). -/
def closeHtml (u : Uni) (c : Cfg) (s : HtmlParser) : Py HtmlParser := do
  let r := tokClose u s.tok
  let state ← feed u c s.state r.1
  let tok ← r.2
  let state ← close u c state
  return { tok, state }

/-- `reset`, `_parser.py` 627-634, with stdlib 94-100. -/
def resetHtml (s : HtmlParser) : HtmlParser := { tok := {}, state := reset s.state }

/-- Construct a parser, feed it a document in pieces, close it, and read `parsed`. -/
def renderHtml (u : Uni) (c : Cfg) (pieces : List Str) : Py Str := do
  let s ← initParser c
  let s ← pieces.foldlM (feedHtml u c) { state := s }
  let s ← closeHtml u c s
  return s.state.parsed

example : renderHtml asciiUni {} [py"<p>a &lt; <em>b</em></p><!-- c -->"] = .ok py"\na < _b_\n" := by decide +kernel

end Verif
