import Verif.Spec.Pieces

/-!
# Words that are longer than a line
-/

namespace Verif.Spec

/-- How a word is broken if there is room for `n` characters: after the last hyphen of these that comes after something else than hyphens,
or after them all. -/
inductive BreaksWord (o : WrapOpts) (n : Nat) : Str → Str → Prop where
  | hyphen {a b r : Str} : o.hyphenAware = true → o.breakHyphens = true → (∃ c ∈ a, c ≠ '-') → '-' ∉ b → a.length + 1 + b.length = n →
      BreaksWord o n (a ++ ['-']) (b ++ r)
  | full {x y : Str} : x.length = n → (o.hyphenAware = true → o.breakHyphens = true → ∀ a b, x = a ++ '-' :: b → '-' ∉ b → ∀ c ∈ a, c = '-') →
      BreaksWord o n x y

/-- `Ends u o room taken rest piece rest'`: there is no room on a line for more than the chunks `taken`, and `rest` comes next; `piece` is put
at the end of the line nevertheless, and `rest'` is left. -/
inductive Ends (u : Uni) (o : WrapOpts) (room : Int) : (taken rest piece rest' : List Str) → Prop where
  | text {taken} : Ends u o room taken [] [] []
  | short {taken c r} : vlen u c ≤ room → Ends u o room taken (c :: r) [] (c :: r)
  | broken {taken x y r} {n : Nat} : vlen u (x ++ y) > room → o.breakLong = true → (n : Int) = room - visible u taken → BreaksWord o n x y →
      Ends u o room taken ((x ++ y) :: r) [x] (y :: r)
  | whole {c r} : vlen u c > room → o.breakLong = false → Ends u o room [] (c :: r) [c] r
  | later {taken c r} : vlen u c > room → o.breakLong = false → taken ≠ [] → Ends u o room taken (c :: r) [] (c :: r)

/-- One blank chunk at the end of a line is not shown if whitespace is dropped. -/
inductive Displayed (o : WrapOpts) : (taken shown : List Str) → Prop where
  | all {t : List Str} : (o.dropWs = true → ∀ w, t.getLast? = some w → ¬ Blank w) → Displayed o t t
  | butLast {t : List Str} {w : Str} : o.dropWs = true → Blank w → Displayed o (t ++ [w]) t

/-- `Fills u o lines chunks out`: after these lines the chunks are put on further lines. Each line takes what fits; a blank chunk at its
beginning is left out if whitespace is dropped and it is not the first line; a word that is longer than the line is broken. -/
inductive Fills (u : Uni) (o : WrapOpts) : (lines chunks out : List Str) → Prop where
  | done {lines} : Fills u o lines [] lines
  | line {lines skipped taken rest piece rest' shown out : List Str} : skipped ++ (taken ++ rest) ≠ [] →
      (skipped = [] ∧ (o.dropWs = true → lines ≠ [] → ∀ w, (taken ++ rest).head? = some w → ¬ Blank w) ∨
        o.dropWs = true ∧ lines ≠ [] ∧ ∃ w, skipped = [w] ∧ Blank w) →
      visible u taken ≤ o.width - len (indentAfter o lines) →
      (∀ c, rest.head? = some c → visible u taken + vlen u c > o.width - len (indentAfter o lines)) →
      Ends u o (o.width - len (indentAfter o lines)) taken rest piece rest' → Displayed o (taken ++ piece) shown →
      Fills u o (if shown = [] then lines else lines ++ [indentAfter o lines ++ shown.flatten]) rest' out →
      Fills u o lines (skipped ++ (taken ++ rest)) out

end Verif.Spec
