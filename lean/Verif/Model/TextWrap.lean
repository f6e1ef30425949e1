import Verif.Py.Str

/-!
# `gopher_render/_textwrap.py`

The ANSI aware text wrapper, together with the parts of `textwrap.TextWrapper` (CPython 3.12
`Lib/textwrap.py`, cited as "stdlib") it inherits: `_munge_whitespace`, `_split`, `_fix_sentence_endings`,
`_handle_long_word` and `wrap`.
-/

namespace Verif

/-! ## Visible length -/

def esc : Char := '\x1b'

/-- `_escape_regex.sub("", obj)`, `_textwrap.py` 14-21 and 26. The regular expression is ESC `[` (`;` or digit)* `m`,
run as an automaton. State `none`: not inside a candidate sequence. State `some (b, buf)`: `buf` is the candidate
read so far, `b` tells whether its `[` has been seen. A candidate that fails is kept in the output. -/
def stripAnsiFrom (u : Uni) : Option (Bool × Str) → Str → Str
  | none, [] => []
  | some (_, buf), [] => buf
  | none, c :: r => if c = esc then stripAnsiFrom u (some (false, [c])) r else c :: stripAnsiFrom u none r
  | some (false, buf), c :: r =>
    if c = '[' then stripAnsiFrom u (some (true, buf ++ [c])) r
    else if c = esc then buf ++ stripAnsiFrom u (some (false, [c])) r
    else buf ++ c :: stripAnsiFrom u none r
  | some (true, buf), c :: r =>
    if c = ';' || u.isDigit c then stripAnsiFrom u (some (true, buf ++ [c])) r
    else if c = 'm' then stripAnsiFrom u none r
    else if c = esc then buf ++ stripAnsiFrom u (some (false, [c])) r
    else buf ++ c :: stripAnsiFrom u none r

/-- The text with ANSI colour sequences removed. -/
def stripAnsi (u : Uni) (s : Str) : Str := stripAnsiFrom u none s

/-- `_len`, `_textwrap.py` 23-27 (the argument is always a `str` here). -/
def vlen (u : Uni) (s : Str) : Int := (stripAnsi u s).length

/-! ## Options -/

/-- Attributes of a `TextWrapper` (stdlib 112-137). `hyphenAware` selects the behaviour of `_handle_long_word`:
`true` for Python 3.10 and later, `false` for 3.7 to 3.9 (both satisfy `pyproject.toml`). -/
structure WrapOpts where
  width : Int := 70
  initialIndent : Str := []
  subsequentIndent : Str := []
  expandTabs : Bool := true
  replaceWs : Bool := true
  fixSentence : Bool := false
  breakLong : Bool := true
  dropWs : Bool := true
  breakHyphens : Bool := true
  tabsize : Int := 8
  maxLines : Option Int := none
  placeholder : Str := py" [...]"
  hyphenAware : Bool := true

/-! ## Preparing the chunks -/

/-- stdlib 15: the ASCII whitespace characters `'\t\n\x0b\x0c\r '`. -/
def isTwSpace (c : Char) : Bool :=
  let n := c.toNat
  (9 ≤ n && n ≤ 13) || n == 32

/-- stdlib 143-154 `_munge_whitespace`. -/
def munge (o : WrapOpts) (s : Str) : Str :=
  let s := if o.expandTabs then expandtabs o.tabsize s else s
  if o.replaceWs then s.map (fun c => if isTwSpace c then ' ' else c) else s

/-- stdlib 74: `[\w!"'&.,?]`. -/
def isWordPunct (u : Uni) (c : Char) : Bool :=
  u.isWord c || c == '!' || c == '"' || c == '\'' || c == '&' || c == '.' || c == ',' || c == '?'

/-- stdlib 75: `[^\d\W]`. -/
def isLetter (u : Uni) (c : Char) : Bool := u.isWord c && !u.isDigit c

/-- Number of leading dashes of `s`, and whether a word character follows them: `-{2,}(?=\w)` matches at `s`. -/
def dashesThenWord (u : Uni) : Nat → Str → Bool
  | _, [] => false
  | n, c :: r => if c = '-' then dashesThenWord u (n + 1) r else decide (2 ≤ n) && u.isWord c

/-- stdlib 82, 91: `(?<=wp) -{2,} (?=\w)` at `rest`, `before` being the reversed text before it. -/
def emDashAt (u : Uni) (before rest : Str) : Bool :=
  match before with
  | [] => false
  | p :: _ => isWordPunct u p && dashesThenWord u 0 rest

/-- stdlib 86-87: the hyphen that comes next ends a chunk. `before` is the reversed text before the hyphen,
`after` the text after it: two letters, or letter hyphen letter, before; letter, optional hyphen, letter after. -/
def hyphenBreak (u : Uni) (before after : Str) : Bool :=
  (match before with
   | x1 :: x2 :: r =>
     isLetter u x1 && (isLetter u x2 || (x2 == '-' && match r with | x3 :: _ => isLetter u x3 | [] => false))
   | _ => false) &&
  (match after with
   | l1 :: l2 :: r =>
     isLetter u l1 && (isLetter u l2 || (l2 == '-' && match r with | l3 :: _ => isLetter u l3 | [] => false))
   | _ => false)

/-- What kind of chunk is being read. -/
inductive ChunkMode where
  | fresh | ws | dash | word
  deriving DecidableEq, Repr

/-- Which alternative of `wordsep_re` (stdlib 78-95) matches at the start of a chunk. -/
def chunkMode (u : Uni) (before rest : Str) : ChunkMode :=
  match rest with
  | [] => .fresh
  | c :: _ => if isTwSpace c then .ws else if emDashAt u before rest then .dash else .word

/-- `wordsep_re.split(text)` without empty strings (stdlib 173, 176). The matches of `wordsep_re` are adjacent, so the
result is a partition of the text, read here left to right; `cur` is the reversed chunk being read. -/
def chunkGo (u : Uni) : (before : Str) → ChunkMode → (cur : Str) → Str → List Str
  | _, .fresh, _, [] => []
  | _, _, cur, [] => [cur.reverse]
  | before, .fresh, _, c :: r => chunkGo u (c :: before) (chunkMode u before (c :: r)) [c] r
  | before, .ws, cur, c :: r =>
    if isTwSpace c then chunkGo u (c :: before) .ws (c :: cur) r
    else cur.reverse :: chunkGo u (c :: before) (chunkMode u before (c :: r)) [c] r
  | before, .dash, cur, c :: r =>
    if c = '-' then chunkGo u (c :: before) .dash (c :: cur) r
    else cur.reverse :: chunkGo u (c :: before) (chunkMode u before (c :: r)) [c] r
  | before, .word, cur, c :: r =>
    if c = '-' && hyphenBreak u before r then (c :: cur).reverse :: chunkGo u (c :: before) .fresh [] r
    else if isTwSpace c || emDashAt u before (c :: r) then
      cur.reverse :: chunkGo u (c :: before) (chunkMode u before (c :: r)) [c] r
    else chunkGo u (c :: before) .word (c :: cur) r

/-- `wordsep_simple_re.split(text)` without empty strings (stdlib 102, 175, 176): maximal runs of whitespace and of
non-whitespace. -/
def simpleChunks : Str → List Str
  | [] => []
  | c :: r =>
    match simpleChunks r with
    | [] => [[c]]
    | [] :: ls => [c] :: ls
    | (d :: l) :: ls => if isTwSpace c = isTwSpace d then (c :: d :: l) :: ls else [c] :: (d :: l) :: ls

/-- stdlib 157-177 `_split`. -/
def splitChunks (u : Uni) (o : WrapOpts) (s : Str) : List Str :=
  if o.breakHyphens then chunkGo u [] .fresh [] s else simpleChunks s

/-- stdlib 107-110 `sentence_end_re.search`: `[a-z][.!?]["']?\Z`. -/
def sentenceEnd (s : Str) : Bool :=
  let low (c : Char) : Bool := 'a' ≤ c && c ≤ 'z'
  let punct (c : Char) : Bool := c == '.' || c == '!' || c == '?'
  match s.reverse with
  | p :: l :: r =>
    (punct p && low l) ||
    ((p == '"' || p == '\'') && match r with | l' :: _ => punct l && low l' | [] => false)
  | _ => false

/-- stdlib 179-195 `_fix_sentence_endings`. -/
def fixSentenceEndings : List Str → List Str
  | a :: b :: r =>
    if b = py" " && sentenceEnd a then a :: py"  " :: fixSentenceEndings r
    else a :: fixSentenceEndings (b :: r)
  | l => l

/-! ## The wrapping loop

The code reverses the chunk list and pops from its end; the model keeps the list in order and takes from its front. -/

/-- The inner `while` loop, `_textwrap.py` 78-88: move chunks to the current line while they fit. -/
def fillLine (u : Uni) (width : Int) : (cur : List Str) → (curLen : Int) → List Str → List Str × Int × List Str
  | cur, curLen, [] => (cur, curLen, [])
  | cur, curLen, c :: cs =>
    if curLen + vlen u c ≤ width then fillLine u width (cur ++ [c]) (curLen + vlen u c) cs
    else (cur, curLen, c :: cs)

/-- stdlib 197-236 `_handle_long_word`; note that it counts raw characters, not visible ones. -/
def handleLongWord (o : WrapOpts) (cur : List Str) (curLen width : Int) (c : Str) (cs : List Str) :
    List Str × List Str :=
  let spaceLeft := if width < 1 then 1 else width - curLen
  if o.breakLong then
    let e :=
      if o.hyphenAware && o.breakHyphens && decide (len c > spaceLeft) then
        let h := rfindCh '-' (pyTake c spaceLeft)
        if h > 0 && (pyTake c h).any (· != '-') then h + 1 else spaceLeft
      else spaceLeft
    (cur ++ [pyTake c e], pyDrop c e :: cs)
  else if cur.isEmpty then (cur ++ [c], cs)
  else (cur, c :: cs)

/-- `sum(map(_len, cur_line))`, `_textwrap.py` 94. -/
def sumLen (u : Uni) : List Str → Int
  | [] => 0
  | c :: cs => vlen u c + sumLen u cs

/-- `_textwrap.py` 75-76: drop a whitespace chunk at the start of a line other than the first. -/
def dropLead (o : WrapOpts) (linesEmpty : Bool) : List Str → List Str
  | [] => []
  | c :: cs => if o.dropWs && (strip c).isEmpty && !linesEmpty then cs else c :: cs

/-- `_textwrap.py` 92-94: break a chunk that does not fit on any line. -/
def breakLongChunk (u : Uni) (o : WrapOpts) (width : Int) (cur : List Str) (curLen : Int) :
    List Str → List Str × Int × List Str
  | [] => (cur, curLen, [])
  | c :: cs =>
    if vlen u c > width then
      let r := handleLongWord o cur curLen width c cs
      (r.1, sumLen u r.1, r.2)
    else (cur, curLen, c :: cs)

/-- `_textwrap.py` 97-99: drop a whitespace chunk at the end of the line. -/
def dropTrail (u : Uni) (o : WrapOpts) (cur : List Str) (curLen : Int) : List Str × Int :=
  match cur.getLast? with
  | some l => if o.dropWs && (strip l).isEmpty then (cur.dropLast, curLen - vlen u l) else (cur, curLen)
  | none => (cur, curLen)

/-- One round of the outer loop up to line 99: the chunks on the line, their length, and the chunks left. -/
def nextLine (u : Uni) (o : WrapOpts) (linesEmpty : Bool) (width : Int) (chunks : List Str) :
    List Str × Int × List Str :=
  let f := fillLine u width [] 0 (dropLead o linesEmpty chunks)
  let b := breakLongChunk u o width f.1 f.2.1 f.2.2
  let d := dropTrail u o b.1 b.2.1
  (d.1, d.2, b.2.2)

/-- `_textwrap.py` 65-68: the prefix of the line being built. -/
def lineIndent (o : WrapOpts) (linesEmpty : Bool) : Str :=
  if linesEmpty then o.initialIndent else o.subsequentIndent

/-- `_textwrap.py` 102-107: the line can be stored as it is. -/
def lineAllowed (o : WrapOpts) (nLines : Nat) (curLen width : Int) (chunks : List Str) : Bool :=
  match o.maxLines with
  | none => true
  | some m =>
    decide ((nLines : Int) + 1 < m) ||
    ((match chunks with
      | [] => true
      | [c] => o.dropWs && (strip c).isEmpty
      | _ => false) && decide (curLen ≤ width))

/-- `_textwrap.py` 112-119: put the placeholder after the last chunk that leaves room for it, dropping chunks from
the end (`rcur` is the reversed line); `none` is the `else` of the `while`. -/
def placeholderLine (u : Uni) (o : WrapOpts) (indent : Str) (width : Int) : (rcur : List Str) → Int → Option Str
  | [], _ => none
  | c :: rcur, curLen =>
    if !(strip c).isEmpty && decide (curLen + len o.placeholder ≤ width) then
      some (indent ++ (c :: rcur).reverse.flatten ++ o.placeholder)
    else placeholderLine u o indent width rcur (curLen - vlen u c)

/-- `_textwrap.py` 111-128: the last line when the line limit is reached. -/
def truncateLines (u : Uni) (o : WrapOpts) (lines : List Str) (indent : Str) (width : Int) (cur : List Str)
    (curLen : Int) : List Str :=
  match placeholderLine u o indent width cur.reverse curLen with
  | some l => lines ++ [l]
  | none =>
    match lines.getLast? with
    | some last =>
      let prev := rstrip last
      if vlen u prev + len o.placeholder ≤ o.width then lines.dropLast ++ [prev ++ o.placeholder]
      else lines ++ [indent ++ lstrip o.placeholder]
    | none => lines ++ [indent ++ lstrip o.placeholder]

/-- The outer `while` loop, `_textwrap.py` 57-128, with fuel for the number of rounds. -/
def wrapLoop (u : Uni) (o : WrapOpts) : Nat → (lines : List Str) → (chunks : List Str) → Py (List Str)
  | _, lines, [] => .ok lines
  | 0, _, _ :: _ => .error .diverge
  | f + 1, lines, c :: cs =>
    let indent := lineIndent o lines.isEmpty
    let width := o.width - len indent
    let n := nextLine u o lines.isEmpty width (c :: cs)
    if n.1.isEmpty then wrapLoop u o f lines n.2.2
    else if lineAllowed o lines.length n.2.1 width n.2.2 then
      wrapLoop u o f (lines ++ [indent ++ n.1.flatten]) n.2.2
    else .ok (truncateLines u o lines indent width n.1 n.2.1)

/-- Enough rounds for any input on which the loop ends (see `Props/Wrap`): one per character plus one per chunk. -/
def wrapFuel (chunks : List Str) : Nat := chunks.flatten.length + chunks.length

/-- `AnsiAwareTextWrapper._wrap_chunks`, `_textwrap.py` 36-130. -/
def wrapChunks (u : Uni) (o : WrapOpts) (chunks : List Str) : Py (List Str) :=
  if o.width ≤ 0 then .error .valueError
  else
    match o.maxLines with
    | some m =>
      let indent := if m > 1 then o.subsequentIndent else o.initialIndent
      if len indent + len (lstrip o.placeholder) > o.width then .error .valueError
      else wrapLoop u o (wrapFuel chunks) [] chunks
    | none => wrapLoop u o (wrapFuel chunks) [] chunks

/-- stdlib 341-343 and 356-358: the chunks that are wrapped. -/
def wrapInput (u : Uni) (o : WrapOpts) (text : Str) : List Str :=
  let chunks := splitChunks u o (munge o text)
  if o.fixSentence then fixSentenceEndings chunks else chunks

/-- `_textwrap.wrap`, `_textwrap.py` 133-138, through stdlib 347-359 `TextWrapper.wrap`. -/
def wrap (u : Uni) (o : WrapOpts) (text : Str) : Py (List Str) := wrapChunks u o (wrapInput u o text)

end Verif
