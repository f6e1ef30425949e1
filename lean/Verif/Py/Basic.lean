/-!
# Python values: strings and exceptions

Strings are lists of characters, so that every function on them is ordinary structural recursion.
Simplification: Python strings may hold lone surrogates, `Char` cannot.
-/

namespace Verif

/-- Python `str`. -/
abbrev Str := List Char

/-- The Python exception classes the modelled code can raise, plus two artefacts of the model:
`diverge` (a `while` loop ran out of fuel) and `recursion` (tree recursion ran out of fuel). -/
inductive PyErr where
  | attributeError
  | valueError
  | indexError
  | keyError
  | typeError
  | nameError
  | assertionError
  /-- `cssselect.SelectorSyntaxError` -/
  | selectorSyntax
  | diverge
  | recursion
  /-- a feature of Python outside the model was used (e.g. format specifications in a template) -/
  | unsupported
  deriving DecidableEq, Repr

/-- A Python computation that returns a value or raises. -/
abbrev Py := Except PyErr

instance instDecEqPy {α} [DecidableEq α] : DecidableEq (Py α)
  | .ok a, .ok b => if h : a = b then isTrue (by rw [h]) else isFalse (by intro e; cases e; exact h rfl)
  | .error a, .error b => if h : a = b then isTrue (by rw [h]) else isFalse (by intro e; cases e; exact h rfl)
  | .ok _, .error _ => isFalse (by intro e; cases e)
  | .error _, .ok _ => isFalse (by intro e; cases e)

/-- `py"abc"` is the literal list of characters `['a', 'b', 'c']`. -/
syntax:max "py" noWs str : term

open Lean in
macro_rules
  | `(py$s:str) => do
    let cs := s.getString.toList.map (fun c => Syntax.mkCharLit c)
    `([$(cs.toArray),*])

example : py"a\n{" = ['a', '\n', '{'] := rfl

/-- `str.isspace` on one character: the 29 code points for which CPython answers `True`. -/
def isSpace (c : Char) : Bool :=
  let n := c.toNat
  (9 ≤ n && n ≤ 13) || (28 ≤ n && n ≤ 32) || n == 133 || n == 160 || n == 5760 ||
  (8192 ≤ n && n ≤ 8202) || n == 8232 || n == 8233 || n == 8239 || n == 8287 || n == 12288

/-- What the model leaves open about the Python runtime: the Unicode tables behind `str.upper` (`rendering.py` 85-86),
`str.lower` (host names in `urllib.parse`, names of tags and attributes in `html.parser`), the table of named character
references (`html.entities`), the regular expression classes `\w` and `\d` (`textwrap.py` 74-95 of the
standard library, `_textwrap.py` 14-21), the validity of network locations, and the version of `textwrap`. They are parameters of the model;
the fields with proofs record the facts about these tables that are used. -/
structure Uni where
  upper : Str → Str
  lower : Str → Str
  isWord : Char → Bool
  isDigit : Char → Bool
  digit_esc : isDigit '\x1b' = false
  digit_m : isDigit 'm' = false
  /-- `urllib.parse` accepts this network location: a bracketed host is a valid address and the location stays free of
  delimiters under NFKC normalisation (`parse.py` 421-465 of the standard library). -/
  netlocOk : Str → Bool
  /-- `html.entities.html5`: the text for a name, which includes the semicolon if there is one. -/
  entity : Str → Option Str
  /-- `textwrap` prefers breaking long words after a hyphen: Python 3.10 and later (3.7 to 3.9 do not). -/
  hyphenAware : Bool
  /-- ASCII digits are digits -/
  digit_ascii : ∀ c, '0' ≤ c → c ≤ '9' → isDigit c = true
  /-- whitespace is no digit -/
  digit_space : ∀ c, isSpace c = true → isDigit c = false
  /-- whitespace belongs to no word -/
  word_space : ∀ c, isSpace c = true → isWord c = false
  /-- lower case of ASCII text -/
  lower_ascii : ∀ s : Str, (∀ c ∈ s, c.toNat < 128) → lower s = s.map Char.toLower
  /-- the references for the characters that have a meaning in HTML -/
  entity_amp : entity ['a', 'm', 'p', ';'] = some ['&']
  entity_lt : entity ['l', 't', ';'] = some ['<']
  entity_gt : entity ['g', 't', ';'] = some ['>']
  entity_quot : entity ['q', 'u', 'o', 't', ';'] = some ['"']

/-- The tables restricted to ASCII: used only in examples. -/
def asciiUni : Uni where
  upper := List.map Char.toUpper
  lower := List.map Char.toLower
  netlocOk _ := true
  entity s :=
    if s = py"amp;" ∨ s = py"amp" then some py"&"
    else if s = py"lt;" ∨ s = py"lt" then some py"<"
    else if s = py"gt;" ∨ s = py"gt" then some py">"
    else if s = py"quot;" ∨ s = py"quot" then some py"\""
    else if s = py"not;" ∨ s = py"not" then some py"¬"
    else if s = py"notin;" then some py"∉"
    else none
  lower_ascii _ _ := rfl
  entity_amp := by decide
  entity_lt := by decide
  entity_gt := by decide
  entity_quot := by decide
  hyphenAware := true
  isWord c := c.isAlphanum || c == '_'
  isDigit := Char.isDigit
  digit_esc := by decide
  digit_m := by decide
  digit_ascii := by
    intro c h1 h2
    simp only [Char.isDigit, Bool.and_eq_true, decide_eq_true_eq]
    exact ⟨h1, h2⟩
  digit_space := by
    intro c h
    by_cases hd : c.isDigit
    · exfalso
      simp only [Char.isDigit, Bool.and_eq_true, decide_eq_true_eq, ge_iff_le] at hd
      have e1 := UInt32.le_iff_toNat_le.1 hd.1
      have e2 := UInt32.le_iff_toNat_le.1 hd.2
      simp only [isSpace, Char.toNat, Bool.or_eq_true, Bool.and_eq_true, decide_eq_true_eq, beq_iff_eq] at h
      simp only [Char.reduceVal, UInt32.reduceToNat] at e1 e2
      omega
    · simpa using hd
  word_space := by
    intro c h
    by_cases hd : (c.isAlphanum || c == '_')
    · exfalso
      simp only [Char.isAlphanum, Char.isAlpha, Char.isUpper, Char.isLower, Char.isDigit, Bool.or_eq_true, Bool.and_eq_true,
        decide_eq_true_eq, ge_iff_le, beq_iff_eq] at hd
      simp only [isSpace, Char.toNat, Bool.or_eq_true, Bool.and_eq_true, decide_eq_true_eq, beq_iff_eq] at h
      rcases hd with ((hd | hd) | hd) | rfl
      · have e1 := UInt32.le_iff_toNat_le.1 hd.1
        have e2 := UInt32.le_iff_toNat_le.1 hd.2
        simp only [Char.reduceVal, UInt32.reduceToNat] at e1 e2
        omega
      · have e1 := UInt32.le_iff_toNat_le.1 hd.1
        have e2 := UInt32.le_iff_toNat_le.1 hd.2
        simp only [Char.reduceVal, UInt32.reduceToNat] at e1 e2
        omega
      · have e1 := UInt32.le_iff_toNat_le.1 hd.1
        have e2 := UInt32.le_iff_toNat_le.1 hd.2
        simp only [Char.reduceVal, UInt32.reduceToNat] at e1 e2
        omega
      · revert h; decide
    · simpa using hd

end Verif
