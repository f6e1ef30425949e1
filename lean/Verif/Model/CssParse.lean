import Verif.Model.Cascade

/-!
# Reading selectors: `cssselect.parse`

The parser of cssselect 1.1.0 (`cssselect/parser.py`), which `_parser.py` 314 calls for every key of a table of renderers. The
sources of cssselect are not part of the repository; the definitions follow the names of its functions. Simplifications:

* Namespaces are read and dropped (`_selectors.py` does not look at them), the name of a pseudo-element too.
* The tokens are made before parsing; cssselect makes them one by one, but what it raises is the same.
* Positions of tokens and messages of exceptions are left out.
* An escape for half of a surrogate pair is read as U+FFFD.
-/

namespace Verif

/-- White space of CSS. -/
def cssBlank (c : Char) : Bool := c == ' ' || c == '\t' || c == '\r' || c == '\n' || c == '\x0c'

def cssNewline (c : Char) : Bool := c == '\n' || c == '\r' || c == '\x0c'

def cssHex (c : Char) : Bool := ('0' ≤ c && c ≤ '9') || ('a' ≤ c && c ≤ 'f') || ('A' ≤ c && c ≤ 'F')

/-- `nmstart` without escapes: `[_a-z]` (in any case) and everything outside ASCII. -/
def cssStart (c : Char) : Bool := c == '_' || ('a' ≤ c && c ≤ 'z') || ('A' ≤ c && c ≤ 'Z') || '\x7f' < c

/-- `nmchar` without escapes. -/
def cssName (c : Char) : Bool := cssStart c || ('0' ≤ c && c ≤ '9') || c == '-'

def cssDigit (c : Char) : Bool := '0' ≤ c && c ≤ '9'

/-- At most `n` hexadecimal digits and the rest. -/
def hexRun : Nat → Str → Str × Str
  | n + 1, c :: r => if cssHex c then (c :: (hexRun n r).1, (hexRun n r).2) else ([], c :: r)
  | _, r => ([], r)

/-- `(?:\r\n|[ \n\r\t\f])?` -/
def escBlank : Str → Str × Str
  | '\r' :: '\n' :: r => (py"\r\n", r)
  | c :: r => if cssBlank c then ([c], r) else ([], c :: r)
  | [] => ([], [])

/-- The macro `escape` after its backslash: what it matches and the rest. -/
def cssEscape (r : Str) : Option (Str × Str) :=
  match r with
  | [] => none
  | c :: t =>
    if cssHex c then
      let h := hexRun 6 (c :: t)
      let w := escBlank h.2
      some ('\\' :: (h.1 ++ w.1), w.2)
    else if cssNewline c then none else some (['\\', c], t)

/-- One `nmchar`, or one `nmstart` (`start`). -/
def namePiece (start : Bool) : Str → Option (Str × Str)
  | [] => none
  | c :: r =>
    if c = '\\' then cssEscape r else if (if start then cssStart c else cssName c) then some ([c], r) else none

/-- `(?:nmchar)*` -/
def nameRun : Nat → Str → Str × Str
  | 0, s => ([], s)
  | f + 1, s => match namePiece false s with
    | none => ([], s)
    | some (p, r) => (p ++ (nameRun f r).1, (nameRun f r).2)

/-- `-?` -/
def leadHyphen : Str → Str × Str
  | '-' :: r => (py"-", r)
  | r => ([], r)

/-- `_match_ident`: `-?(?:nmstart)(?:nmchar)*`. -/
def identMatch (s : Str) : Option (Str × Str) :=
  let d := leadHyphen s
  match namePiece true d.2 with
  | none => none
  | some (p, r) => some (d.1 ++ (p ++ (nameRun r.length r).1), (nameRun r.length r).2)

/-- `_replace_unicode` -/
def unicodeEscape (digits : Str) : Char :=
  let n := digits.foldl (fun a c => 16 * a + baseValue c) 0
  if n.isValidChar then Char.ofNat n else '�'
where
  baseValue (c : Char) : Nat :=
    if cssDigit c then c.toNat - 48 else if 'a' ≤ c then c.toNat - 87 else c.toNat - 55

/-- `_sub_unicode_escape(_replace_unicode, s)` -/
def subUnicode : Nat → Str → Str
  | 0, s => s
  | _, [] => []
  | f + 1, c :: r =>
    if c = '\\' ∧ (hexRun 6 r).1 ≠ [] then
      unicodeEscape (hexRun 6 r).1 :: subUnicode f (escBlank (hexRun 6 r).2).2
    else c :: subUnicode f r

/-- `_sub_simple_escape(r'\1', s)` -/
def subSimple : Str → Str
  | '\\' :: c :: r => if c = '\n' then '\\' :: subSimple (c :: r) else c :: subSimple r
  | c :: r => c :: subSimple r
  | [] => []

/-- `_sub_newline_escape('', s)` -/
def subNewline : Str → Str
  | '\\' :: '\r' :: '\n' :: r => subNewline r
  | '\\' :: c :: r => if cssNewline c then subNewline r else '\\' :: subNewline (c :: r)
  | c :: r => c :: subNewline r
  | [] => []

/-- The value of an identifier or a hash. -/
def nameValue (s : Str) : Str := subSimple (subUnicode s.length s)

/-- `_match_string_by_quote`: what follows the quotation mark. -/
def stringRun (q : Char) : Nat → Str → Str × Str
  | 0, s => ([], s)
  | _, [] => ([], [])
  | f + 1, c :: r =>
    let more (p t : Str) : Str × Str := (p ++ (stringRun q f t).1, (stringRun q f t).2)
    if c = '\\' then
      match r with
      | '\r' :: '\n' :: t => more py"\\\r\n" t
      | d :: t => if cssNewline d then more ['\\', d] t else match cssEscape r with
        | some (p, t') => more p t'
        | none => ([], c :: r)
      | [] => ([], c :: r)
    else if cssNewline c || c == q then ([], c :: r) else more [c] r

/-- `[+-]?` -/
def leadSign : Str → Str × Str
  | '+' :: r => (py"+", r)
  | '-' :: r => (py"-", r)
  | r => ([], r)

/-- `_match_number`: `[+-]?(?:[0-9]*\.[0-9]+|[0-9]+)`. -/
def numberMatch (s : Str) : Option (Str × Str) :=
  let sg := leadSign s
  let d := sg.2.takeWhile cssDigit
  let r := sg.2.dropWhile cssDigit
  let whole := if d = [] then none else some (sg.1 ++ d, r)
  match r with
  | '.' :: t => if t.takeWhile cssDigit = [] then whole
      else some (sg.1 ++ (d ++ '.' :: t.takeWhile cssDigit), t.dropWhile cssDigit)
  | _ => whole

/-- `Token`; the end of the list stands for `EOFToken`. -/
inductive CssTok where
  | space
  | ident (v : Str)
  | hash (v : Str)
  | string (v : Str)
  | number (v : Str)
  | delim (c : Char)
  deriving DecidableEq, Repr

/-- The text after a comment that begins with `/*`, without these two characters. -/
def afterComment : Str → Str
  | '*' :: '/' :: r => r
  | _ :: r => afterComment r
  | [] => []

/-- `tokenize`. -/
def cssTokens : Nat → Str → Py (List CssTok)
  | 0, _ => .error .diverge
  | _, [] => .ok []
  | f + 1, c :: s =>
    let put (t : CssTok) (r : Str) : Py (List CssTok) := (cssTokens f r).map (t :: ·)
    if cssBlank c then put .space (s.dropWhile cssBlank)
    else match identMatch (c :: s) with
    | some (v, r) => put (.ident (nameValue v)) r
    | none =>
      if c = '#' ∧ (nameRun s.length s).1 ≠ [] then put (.hash (nameValue (nameRun s.length s).1)) (nameRun s.length s).2
      else if c = '"' ∨ c = '\'' then
        match (stringRun c s.length s).2 with
        | [] => .error .selectorSyntax
        | d :: r => if d = c then put (.string (nameValue (subNewline (stringRun c s.length s).1))) r
            else .error .selectorSyntax
      else match numberMatch (c :: s) with
      | some (v, r) => put (.number v) r
      | none => match c, s with
        | '/', '*' :: r => cssTokens f (afterComment r)
        | c, r => put (.delim c) r

/-- `TokenStream.skip_whitespace`: one token. -/
def skipSpace : List CssTok → List CssTok
  | .space :: r => r
  | r => r

/-- `parse_arguments`; `skipped` is whether white space has just been skipped. -/
def cssArguments : Bool → List CssTok → Py (List Str × List CssTok)
  | false, .space :: r => cssArguments true r
  | _, .ident v :: r => (cssArguments false r).map (fun x => (v :: x.1, x.2))
  | _, .string v :: r => (cssArguments false r).map (fun x => (v :: x.1, x.2))
  | _, .number v :: r => (cssArguments false r).map (fun x => (v :: x.1, x.2))
  | _, .delim c :: r =>
    if c = '+' ∨ c = '-' then (cssArguments false r).map (fun x => ([c] :: x.1, x.2))
    else if c = ')' then .ok ([], r) else .error .selectorSyntax
  | _, _ => .error .selectorSyntax

/-- `TokenStream.next_ident` -/
def nextIdent : List CssTok → Py (Str × List CssTok)
  | .ident v :: r => .ok (v, r)
  | _ => .error .selectorSyntax

/-- `TokenStream.next_ident_or_star` -/
def nextIdentOrStar : List CssTok → Py (Option Str × List CssTok)
  | .ident v :: r => .ok (some v, r)
  | .delim '*' :: r => .ok (none, r)
  | _ => .error .selectorSyntax

/-- The operator before `=`. -/
def attrOp : Char → Option AttrOp
  | '^' => some .pre
  | '$' => some .suf
  | '*' => some .sub
  | '~' => some .word
  | '|' => some .dash
  | '!' => some .ne
  | _ => none

/-- The end of `parse_attrib`: the value and the closing bracket. -/
def attrTail (sel : Sel) (name : Str) (op : AttrOp) (ts : List CssTok) : Py (Sel × List CssTok) := do
  let (v, r) ← match skipSpace ts with
    | .ident v :: r => Except.ok (v, r)
    | .string v :: r => .ok (v, r)
    | _ => .error PyErr.selectorSyntax
  match skipSpace r with
  | .delim ']' :: r => return (.attrib sel name op v, r)
  | _ => .error .selectorSyntax

/-- `parse_attrib` after the name: the operator. -/
def attrOperator (sel : Sel) (name : Str) (ts : List CssTok) : Py (Sel × List CssTok) :=
  match skipSpace ts with
  | .delim ']' :: r => .ok (.attrib sel name .exists [], r)
  | .delim '=' :: r => attrTail sel name .eq r
  | .delim c :: .delim '=' :: r => match attrOp c with
    | some op => attrTail sel name op r
    | none => .error .selectorSyntax
  | _ => .error .selectorSyntax

/-- `parse_attrib` -/
def cssAttrib (sel : Sel) (ts : List CssTok) : Py (Sel × List CssTok) := do
  let (a, r) ← nextIdentOrStar (skipSpace ts)
  match r, a with
  | .delim '|' :: .delim '=' :: r, a => attrTail sel (a.getD []) .dash r
  | .delim '|' :: r, _ => do
    let (n, r) ← nextIdent r
    attrOperator sel n r
  | _, none => .error .selectorSyntax
  | r, some a => attrOperator sel a r

/-- `special_pseudo_elements` -/
def specialPseudo : List Str := [py"first-line", py"first-letter", py"before", py"after", py"selection"]

/-- `ascii_lower` -/
def asciiLower (s : Str) : Str := s.map Char.toLower

/-- `:scope` after nothing is accepted only as the first thing of the text: two tokens have been used, or three that begin
with white space. -/
def scopeOk (all rest : List CssTok) : Bool :=
  let used := all.length - rest.length
  used == 2 || (used == 3 && all.head? == some .space)

/-- The beginning of `parse_simple_selector`: the element; whether there is a namespace; the rest. -/
def cssElement (ts : List CssTok) : Py (Sel × Bool × List CssTok) :=
  match ts with
  | .ident v :: .delim '|' :: r => (nextIdentOrStar r).map (fun x => (.element x.1, !v.isEmpty, x.2))
  | .delim '*' :: .delim '|' :: r => (nextIdentOrStar r).map (fun x => (.element x.1, false, x.2))
  | .ident v :: r => .ok (.element (some v), false, r)
  | .delim '*' :: r => .ok (.element none, false, r)
  | r => .ok (.element none, false, r)

/-- The loop of `parse_simple_selector`: the selector, whether a pseudo-element was given, and the rest. `all` is the list of
all tokens, `ns` whether the element has a namespace. -/
def cssLoop (all : List CssTok) : Nat → Bool → Sel → Bool → Bool → List CssTok → Py (Sel × Bool × List CssTok)
  | 0, _, _, _, _, _ => .error .diverge
  | f + 1, inside, sel, ns, pe, ts =>
    let done : Py (Sel × Bool × List CssTok) := .ok (sel, pe, ts)
    let next (sel : Sel) (r : List CssTok) : Py (Sel × Bool × List CssTok) := cssLoop all f inside sel ns false r
    match ts with
    | [] => done
    | .space :: _ => done
    | .hash v :: r => if pe then .error .selectorSyntax else next (.hash sel v) r
    | .delim c :: r =>
      if c = ',' ∨ c = '+' ∨ c = '>' ∨ c = '~' ∨ (inside = true ∧ c = ')') then done
      else if pe then .error .selectorSyntax
      else if c = '.' then do
        let (v, r) ← nextIdent r
        next (.cls sel v) r
      else if c = '|' then do
        let (v, r) ← nextIdent r
        cssLoop all f inside (.element (some v)) false false r
      else if c = '[' then do
        let (s, r) ← cssAttrib sel r
        next s r
      else if c = ':' then
        match r with
        | .delim ':' :: r => do
          let (_, r) ← nextIdent r
          match r with
          | .delim '(' :: r => do
            let (_, r) ← cssArguments false r
            cssLoop all f inside sel ns true r
          | r => cssLoop all f inside sel ns true r
        | r => do
          let (v, r) ← nextIdent r
          if specialPseudo.contains (asciiLower v) then cssLoop all f inside sel ns true r
          else match r with
            | .delim '(' :: r =>
              if asciiLower v = py"not" then do
                if inside then .error .selectorSyntax
                let start := skipSpace (skipSpace r)
                let (e, ns', r) ← cssElement start
                let (arg, pe', r) ← cssLoop all f true e ns' false r
                if r.length = start.length then .error .selectorSyntax
                match r with
                | .delim ')' :: r => if pe' then .error .selectorSyntax else next (.neg sel arg) r
                | _ => .error .selectorSyntax
              else do
                let (args, r) ← cssArguments false (skipSpace r)
                next (.func sel (asciiLower v) args) r
            | r =>
              if asciiLower v = py"scope" ∧ (sel = .element none ∨ sel = .element (some py"*")) ∧ ns = false ∧
                  scopeOk all r = false then .error .selectorSyntax
              else next (.pseudo sel (asciiLower v)) r
      else .error .selectorSyntax
    | _ => .error .selectorSyntax

/-- `parse_simple_selector` outside of `:not()`. -/
def cssSimple (all ts : List CssTok) : Py (Sel × Bool × List CssTok) := do
  let start := skipSpace ts
  let (e, ns, r) ← cssElement start
  let (s, pe, r) ← cssLoop all (r.length + 1) false e ns false r
  if r.length = start.length then .error .selectorSyntax
  return (s, pe, r)

def combOf : Char → Option Comb
  | '+' => some .adjacent
  | '>' => some .child
  | '~' => some .general
  | _ => none

/-- The loop of `parse_selector`. -/
def cssCombined (all : List CssTok) : Nat → Sel → Bool → List CssTok → Py (Selector × List CssTok)
  | 0, _, _, _ => .error .diverge
  | f + 1, sel, pe, ts =>
    let more (c : Comb) (r : List CssTok) : Py (Selector × List CssTok) := do
      if pe then .error .selectorSyntax
      let (s, pe, r) ← cssSimple all r
      cssCombined all f (.comb sel c s) pe r
    match skipSpace ts with
    | [] => .ok (⟨sel, pe⟩, [])
    | .delim c :: r =>
      if c = ',' then .ok (⟨sel, pe⟩, .delim c :: r)
      else match combOf c with
        | some k => more k (skipSpace r)
        | none => more .desc (.delim c :: r)
    | r => more .desc r

/-- `parse_selector` -/
def cssSelector (all ts : List CssTok) : Py (Selector × List CssTok) := do
  let (s, pe, r) ← cssSimple all ts
  cssCombined all (r.length + 1) s pe r

/-- `parse_selector_group` -/
def cssGroup (all : List CssTok) : Nat → List CssTok → Py (List Selector)
  | 0, _ => .error .diverge
  | f + 1, ts => do
    let (s, r) ← cssSelector all ts
    match r with
    | .delim ',' :: r => return s :: (← cssGroup all f (skipSpace r))
    | _ => return [s]

def isAsciiLetter (c : Char) : Bool := ('a' ≤ c && c ≤ 'z') || ('A' ≤ c && c ≤ 'Z')

def hashChar (c : Char) : Bool := isAsciiLetter c || cssDigit c || c == '_' || c == '-'

/-- The shortcuts `_el_re`, `_id_re` and `_class_re` at the beginning of `parse`. -/
def cssShortcut (s : Str) : Option Selector :=
  let t := s.dropWhile cssBlank
  let e := t.takeWhile isAsciiLetter
  let r := t.dropWhile isAsciiLetter
  let el : Sel := .element (if e = [] then none else some e)
  match r with
  | '#' :: r => if r.takeWhile hashChar ≠ [] ∧ (r.dropWhile hashChar).all cssBlank then
      some { tree := .hash el (r.takeWhile hashChar) } else none
  | '.' :: c :: r => if isAsciiLetter c ∧ (r.dropWhile hashChar).all cssBlank then
      some { tree := .cls el (c :: r.takeWhile hashChar) } else none
  | r => if e ≠ [] ∧ r.all cssBlank then some { tree := el } else none

/-- `cssselect.parse` -/
def cssParse (s : Str) : Py (List Selector) :=
  match cssShortcut s with
  | some t => .ok [t]
  | none => do
    let ts ← cssTokens (s.length + 1) s
    cssGroup ts (ts.length + 1) (skipSpace ts)

/-- `RendererMap.__init__`, `_parser.py` 311-315: a table of renderers with the text of the selectors. -/
def readRules : List (Str × RSpec) → Py (List Rule)
  | [] => .ok []
  | (key, spec) :: rest => do
    let sels ← cssParse key
    return ⟨key, sels, spec⟩ :: (← readRules rest)

/-! Examples -/

example : cssParse py"ol > li" = .ok [{ tree := .comb (.element (some py"ol")) .child (.element (some py"li")) }] := by
  decide +kernel

example : cssParse py"a:not(.x)[href^='gopher:'] , *|p::before" =
    .ok [{ tree := .attrib (.neg (.element (some py"a")) (.cls (.element none) py"x")) py"href" .pre py"gopher:" },
      { tree := .element (some py"p"), pseudoElement := true }] := by decide +kernel

example : cssParse py"li:nth-child(2n+1)" =
    .ok [{ tree := .func (.element (some py"li")) py"nth-child" [py"2", py"n", py"+1"] }] := by decide +kernel

example : cssParse py"" = .error .selectorSyntax ∧ cssParse py"a b," = .error .selectorSyntax ∧
    cssParse py":not(:not(a))" = .error .selectorSyntax ∧ cssParse py"a:scope:scope" ≠ .error .selectorSyntax ∧
    cssParse py"a :scope" = .error .selectorSyntax ∧ cssParse py"[x='y]" = .error .selectorSyntax := by decide +kernel

end Verif
