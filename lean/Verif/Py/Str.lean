import Verif.Py.Basic

/-!
# The `str` methods used by gopher-render

Each function models the CPython 3.12 method of the same name.
-/

namespace Verif

/-- Line boundaries of `str.splitlines` (single characters; `\r\n` counts as one boundary). -/
def isLineBreak (c : Char) : Bool :=
  let n := c.toNat
  (10 ≤ n && n ≤ 13) || (28 ≤ n && n ≤ 30) || n == 133 || n == 8232 || n == 8233

/-- `str.lstrip()`. -/
def lstrip (s : Str) : Str := s.dropWhile isSpace

/-- `str.rstrip()`. -/
def rstrip (s : Str) : Str := (s.reverse.dropWhile isSpace).reverse

/-- `str.strip()`. -/
def strip (s : Str) : Str := rstrip (lstrip s)

/-- `str.lstrip(chars)` for a one-character argument. -/
def lstripCh (c : Char) (s : Str) : Str := s.dropWhile (· == c)

/-- `str.split(sep)` for a one-character separator: never empty. -/
def splitCh (c : Char) : Str → List Str
  | [] => [[]]
  | x :: xs =>
    if x = c then [] :: splitCh c xs
    else match splitCh c xs with
      | [] => [[x]]
      | l :: ls => (x :: l) :: ls

/-- `sep.join(parts)`. -/
def join (sep : Str) : List Str → Str
  | [] => []
  | [l] => l
  | l :: ls => l ++ sep ++ join sep ls

/-- `str.split()` with no argument: maximal runs of non-whitespace. -/
def splitWs : Str → List Str
  | [] => []
  | x :: xs =>
    if isSpace x then splitWs xs
    else match xs, splitWs xs with
      | [], _ => [[x]]
      | y :: _, ws => if isSpace y then [x] :: ws else match ws with
        | [] => [[x]]
        | w :: ws => (x :: w) :: ws

/-- `str.splitlines(keepends=True)`. -/
def splitlinesKeep : Str → List Str
  | [] => []
  | '\r' :: '\n' :: xs => ['\r', '\n'] :: splitlinesKeep xs
  | c :: xs =>
    if isLineBreak c then [c] :: splitlinesKeep xs
    else match splitlinesKeep xs with
      | [] => [[c]]
      | l :: ls => (c :: l) :: ls

/-- `str.splitlines()`. -/
def splitlines : Str → List Str
  | [] => []
  | '\r' :: '\n' :: xs => [] :: splitlines xs
  | c :: xs =>
    if isLineBreak c then [] :: splitlines xs
    else match splitlines xs with
      | [] => [[c]]
      | l :: ls => (c :: l) :: ls

/-- `c * n` for a one-character string and an integer: negative counts give the empty string. -/
def rep (c : Char) (n : Int) : Str := List.replicate n.toNat c

/-- `s * n` for a string and an integer. -/
def repStr (s : Str) (n : Int) : Str := (List.replicate n.toNat s).flatten

/-- `len(s)` as a Python integer. -/
def len (s : Str) : Int := s.length

/-- Python's index clamping for a slice bound: a negative bound counts from the end. -/
def clampIdx (n : Nat) (k : Int) : Nat :=
  if k < 0 then (n + k).toNat else min n k.toNat

/-- `s[:k]`. -/
def pyTake (s : Str) (k : Int) : Str := s.take (clampIdx s.length k)

/-- `s[k:]`. -/
def pyDrop (s : Str) (k : Int) : Str := s.drop (clampIdx s.length k)

/-- `xs[k]` on a list, with Python's negative indices; `none` is `IndexError`. -/
def pyIndex {α} (xs : List α) (k : Int) : Option α :=
  if k < 0 then (if k + xs.length < 0 then none else xs[(k + xs.length).toNat]?)
  else xs[k.toNat]?

/-- `s.startswith(p)`. -/
def startsWith (s p : Str) : Bool := p.isPrefixOf s

/-- `s.endswith(p)`. -/
def endsWith (s p : Str) : Bool := p.isSuffixOf s

/-- `p in s` for strings. -/
def contains (p : Str) : Str → Bool
  | [] => p.isEmpty
  | c :: s => p.isPrefixOf (c :: s) || contains p s

/-- `s.rfind(c)` restricted to `s[:k]`, `c` one character; `-1` if absent. -/
def rfindCh (c : Char) : Str → Int
  | [] => -1
  | x :: xs => let r := rfindCh c xs; if r ≥ 0 then r + 1 else if x = c then 0 else -1

/-- `s.rpartition(c)` for a one-character separator: (before, found, after). -/
def rpartition (c : Char) : Str → Str × Bool × Str
  | [] => ([], false, [])
  | x :: xs => match rpartition c xs with
    | (b, true, a) => (x :: b, true, a)
    | (_, false, _) => if x = c then ([], true, xs) else ([], false, x :: xs)

/-- `s.partition(c)` for a one-character separator: (before, found, after). -/
def partition (c : Char) : Str → Str × Bool × Str
  | [] => ([], false, [])
  | x :: xs => if x = c then ([], true, xs) else
    match partition c xs with
    | (b, f, a) => (x :: b, f, a)

/-- `s.center(width)`: CPython puts `pad/2 + (pad & width & 1)` spaces on the left. -/
def centerStr (s : Str) (width : Int) : Str :=
  if width ≤ len s then s
  else
    let pad := (width - len s).toNat
    let left := pad / 2 + (if pad % 2 = 1 ∧ width.toNat % 2 = 1 then 1 else 0)
    List.replicate left ' ' ++ s ++ List.replicate (pad - left) ' '

/-- `s.rjust(width)`. -/
def rjust (s : Str) (width : Int) : Str := rep ' ' (width - len s) ++ s

/-- `s.expandtabs(tabsize)`; `col` is the current column, reset by `\n` and `\r`. -/
def expandtabsFrom (tabsize : Int) : Nat → Str → Str
  | _, [] => []
  | col, c :: cs =>
    if c = '\t' then
      if tabsize ≤ 0 then expandtabsFrom tabsize col cs
      else
        let n := tabsize.toNat - col % tabsize.toNat
        List.replicate n ' ' ++ expandtabsFrom tabsize (col + n) cs
    else if c = '\n' ∨ c = '\r' then c :: expandtabsFrom tabsize 0 cs
    else c :: expandtabsFrom tabsize (col + 1) cs

def expandtabs (tabsize : Int) (s : Str) : Str := expandtabsFrom tabsize 0 s

/-- `str(n)` for a natural number. -/
def natStr (n : Nat) : Str := Nat.toDigits 10 n

/-- `str(n)` for an integer. -/
def intStr : Int → Str
  | .ofNat n => natStr n
  | .negSucc n => '-' :: natStr (n + 1)

/-- Value of a digit in bases up to 16. -/
def digitVal (base : Nat) (c : Char) : Option Nat :=
  let v : Option Nat :=
    if '0' ≤ c && c ≤ '9' then some (c.toNat - 48)
    else if 'a' ≤ c && c ≤ 'f' then some (c.toNat - 87)
    else if 'A' ≤ c && c ≤ 'F' then some (c.toNat - 55)
    else none
  match v with
  | some n => if n < base then some n else none
  | none => none

/-- Digits with single underscores between them; `acc` is the value so far, `sep` tells that a digit must follow. -/
def digitsVal (base : Nat) : Nat → (sep : Bool) → Str → Option Nat
  | acc, sep, [] => if sep then none else some acc
  | acc, sep, c :: r =>
    if c = '_' then (if sep then none else digitsVal base acc true r)
    else match digitVal base c with
      | some d => digitsVal base (base * acc + d) false r
      | none => none

/-- The sign of a number and what follows it. -/
def pySign : Str → Bool × Str
  | '-' :: r => (true, r)
  | '+' :: r => (false, r)
  | r => (false, r)

/-- `int(s, 16)` accepts a prefix `0x`, and an underscore after it. -/
def dropHexPrefix (base : Nat) : Str → Str
  | '0' :: x :: r =>
    if base = 16 && (x = 'x' || x = 'X') then (match r with | '_' :: r' => r' | _ => r) else '0' :: x :: r
  | s => s

/-- `int(s, base)` for base 10 or 16; `none` is `ValueError`. Simplification: only ASCII digits count as digits. -/
def pyInt (base : Nat) (s : Str) : Option Int :=
  match digitsVal base 0 true (dropHexPrefix base (pySign (strip s)).2) with
  | some n => some (if (pySign (strip s)).1 then -n else n)
  | none => none

end Verif
