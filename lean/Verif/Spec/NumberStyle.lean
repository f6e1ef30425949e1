import Verif.Spec.Layout

/-!
# How numbers are shown
-/

namespace Verif.Spec

/-- The ways to write a number. -/
inductive Notation where
  | decimal
  | binary
  | octal
  | hex
  | upperHex
  deriving DecidableEq, Repr

def Notation.base : Notation → Nat
  | .decimal => 10
  | .binary => 2
  | .octal => 8
  | .hex => 16
  | .upperHex => 16

def Notation.char : Notation → Char
  | .decimal => 'd'
  | .binary => 'b'
  | .octal => 'o'
  | .hex => 'x'
  | .upperHex => 'X'

def Notation.digits : Notation → Str
  | .upperHex => py"0123456789ABCDEF"
  | _ => py"0123456789abcdef"

/-- What tells the notations apart, if it is asked for. -/
def Notation.mark : Notation → Str
  | .decimal => []
  | .binary => py"0b"
  | .octal => py"0o"
  | .hex => py"0x"
  | .upperHex => py"0X"

/-- So many digits are between separators. -/
def Notation.group : Notation → Nat
  | .decimal => 3
  | _ => 4

/-- The digits of a number in this notation; only zero begins with `0`. -/
inductive Places (k : Notation) : Nat → Str → Prop where
  | one {v c} : v < k.base → k.digits[v]? = some c → Places k v [c]
  | more {n ds v c} : Places k n ds → 0 < n → v < k.base → k.digits[v]? = some c → Places k (k.base * n + v) (ds ++ [c])

/-- The digits with separators: all groups but the first have `size` digits, and the first has one at least. -/
inductive Groups (size : Nat) (sep : Char) : Str → Str → Prop where
  | first {g} : g ≠ [] → g.length ≤ size → Groups size sep g g
  | next {ds b g} : Groups size sep ds b → g.length = size → Groups size sep (ds ++ g) (b ++ sep :: g)

/-- The sign of numbers that are not negative. -/
inductive SignOf where
  | nothing
  | plus
  | blank
  deriving DecidableEq, Repr

/-- Where the padding is: after, before, around the number, or between the sign and the digits. -/
inductive Padding where
  | after
  | before
  | around
  | inside
  deriving DecidableEq, Repr

def Padding.char : Padding → Char
  | .after => '<'
  | .before => '>'
  | .around => '^'
  | .inside => '='

/-- How a number is shown. -/
structure NumberStyle where
  fill : Char := ' '
  padding : Padding := .before
  sign : SignOf := .nothing
  marked : Bool := false
  width : Nat := 0
  separator : Option Char := none
  notation' : Notation := .decimal
  deriving DecidableEq, Repr

/-- The style can be written: the fill character is not a brace, the width is not larger than Python allows, and the separators are
underscores or, in decimal numbers, commas. -/
structure NumberStyle.Writable (st : NumberStyle) : Prop where
  fill : st.fill ≠ '{' ∧ st.fill ≠ '}'
  width : st.width < 2 ^ 63
  separator : ∀ c, st.separator = some c → c = '_' ∨ c = ',' ∧ st.notation' = .decimal

/-- The ways to write the sign, the mark, the separator and the notation in a format specification. -/
inductive SignOf.Written : SignOf → Option Char → Prop where
  | nothing : Written .nothing none
  | minus : Written .nothing (some '-')
  | plus : Written .plus (some '+')
  | blank : Written .blank (some ' ')

inductive Notation.Written : Notation → Str → Prop where
  | char (k : Notation) : Written k [k.char]
  | decimal : Written .decimal []

/-- The ways to ask for a style. -/
inductive NumberStyle.Written (st : NumberStyle) : Str → Prop where
  | full {sg t} : st.sign.Written sg → st.notation'.Written t →
      Written st ([st.fill, st.padding.char] ++ sg.toList ++ (if st.marked then py"#" else []) ++ natStr st.width ++ st.separator.toList ++ t)
  | zeros {sg t} : st.fill = '0' → st.padding = .inside → st.sign.Written sg → st.notation'.Written t →
      Written st (sg.toList ++ (if st.marked then py"#" else []) ++ py"0" ++ natStr st.width ++ st.separator.toList ++ t)
  | bare {sg t} : st.fill = ' ' → st.padding = .before → st.width = 0 → st.sign.Written sg → st.notation'.Written t →
      sg.toList ++ (if st.marked then py"#" else []) ++ st.separator.toList ++ t ≠ [] →
      Written st (sg.toList ++ (if st.marked then py"#" else []) ++ st.separator.toList ++ t)

def SignOf.shown (s : SignOf) (n : Int) : Str :=
  if n < 0 then py"-" else match s with
    | .nothing => []
    | .plus => py"+"
    | .blank => py" "

/-- The sign and the mark. -/
def NumberStyle.start (st : NumberStyle) (n : Int) : Str := st.sign.shown n ++ (if st.marked then st.notation'.mark else [])

/-- The digits as they are shown, with separators if they are asked for. -/
def NumberStyle.Body (st : NumberStyle) (digits body : Str) : Prop :=
  match st.separator with
  | none => body = digits
  | some c => Groups st.notation'.group c digits body

/-- `y` shows `n` in this style. Zeros between the sign and the digits are digits too, and are separated as such; there are as few of them as
the width allows, but a separator is never first. -/
inductive NumberStyle.Shows (st : NumberStyle) (n : Int) : Str → Prop where
  | zeros {ds body k} : st.fill = '0' → st.padding = .inside → Places st.notation' n.natAbs ds →
      st.Body (List.replicate k '0' ++ ds) body → st.width ≤ (st.start n ++ body).length →
      (0 < k → (st.start n ++ body).length = st.width ∨
        (st.start n ++ body).length = st.width + 1 ∧ st.separator ≠ none ∧ (st.width - (st.start n).length) % (st.notation'.group + 1) = 0) →
      Shows st n (st.start n ++ body)
  | filled {ds body a i b} : ¬ (st.fill = '0' ∧ st.padding = .inside) → Places st.notation' n.natAbs ds → st.Body ds body →
      a + i + b = st.width - (st.start n ++ body).length →
      (match st.padding with
        | .after => a = 0 ∧ i = 0
        | .before => i = 0 ∧ b = 0
        | .around => i = 0 ∧ a ≤ b ∧ b ≤ a + 1
        | .inside => a = 0 ∧ b = 0) →
      Shows st n (List.replicate a st.fill ++ st.start n ++ List.replicate i st.fill ++ body ++ List.replicate b st.fill)

end Verif.Spec
