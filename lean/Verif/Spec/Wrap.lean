import Verif.Model.TextWrap

/-!
# What wrapping should do
-/

namespace Verif.Spec

/-- The characters that are not whitespace. -/
def nonws (s : Str) : Str := s.filter (fun c => !isSpace c)

/-- Only whitespace (or nothing). -/
def Blank (s : Str) : Prop := ∀ c ∈ s, isSpace c = true

/-- An ANSI colour sequence. -/
def AnsiSeq (u : Uni) (q : Str) : Prop :=
  ∃ ds, (∀ c ∈ ds, c = ';' ∨ u.isDigit c = true) ∧ q = '\x1b' :: '[' :: ds ++ py"m"

/-- `t` is `s` with the colour sequences removed, from left to right. -/
inductive Strips (u : Uni) : Str → Str → Prop where
  | nil : Strips u [] []
  | seq {q s t : Str} (h : AnsiSeq u q) (r : Strips u s t) : Strips u (q ++ s) t
  | other {c : Char} {s t : Str} (h : ∀ q r, AnsiSeq u q → c :: s ≠ q ++ r) (r : Strips u s t) : Strips u (c :: s) (c :: t)

/-- At most `n` characters of `s` are visible. -/
def VisibleLe (u : Uni) (s : Str) (n : Int) : Prop := ∃ t, Strips u s t ∧ (t.length : Int) ≤ n

/-- The prefix of the line after the lines `before`. -/
def indentAfter (o : WrapOpts) (before : List Str) : Str := if before = [] then o.initialIndent else o.subsequentIndent

/-- The lines are these texts, each with its indent before it. -/
def Indented (o : WrapOpts) : (before lines bodies : List Str) → Prop
  | _, [], [] => True
  | before, l :: ls, b :: bs => l = indentAfter o before ++ b ∧ Indented o (before ++ [l]) ls bs
  | _, _, _ => False

/-- The first, the last character is whitespace. -/
def StartsWs (s : Str) : Prop := ∃ c, s.head? = some c ∧ isSpace c = true
def EndsWs (s : Str) : Prop := ∃ c, s.getLast? = some c ∧ isSpace c = true

/-- Whitespace other than ASCII whitespace does not occur. -/
def PlainWs (s : Str) : Prop := ∀ c ∈ s, isSpace c = true → isTwSpace c = true

/-- The chunks that go into one line: one whitespace chunk may be skipped before it. -/
structure Row where
  skipped : List Str
  taken : List Str

def Row.chunks (r : Row) : List Str := r.skipped ++ r.taken

/-- No chunk is longer than a line. -/
def NoLong (u : Uni) (o : WrapOpts) (cs : List Str) : Prop :=
  ∀ c ∈ cs, vlen u c ≤ o.width - len o.initialIndent ∧ vlen u c ≤ o.width - len o.subsequentIndent

/-- A chunk whose colour sequences are complete and belong to a word: none is begun and not ended, and with the
sequences removed it is blank only if it was. -/
def Coloured (u : Uni) (c : Str) : Prop := ∃ t, Strips u c t ∧ '\x1b' ∉ t ∧ (Blank t → Blank c)

/-- Visible length of some chunks. -/
def visible (u : Uni) (cs : List Str) : Int := (cs.map (vlen u)).sum

/-- Filling lines greedily: a row takes what fits, and it is ended only because the next chunk does not fit. If whitespace is dropped, then
a whitespace chunk is skipped at the beginning of every line but the first, and whitespace at the end of a row is not shown. A row with
nothing to show gives no line. -/
def Greedy (u : Uni) (o : WrapOpts) : (lines : List Str) → List Row → (out : List Str) → Prop
  | lines, [], out => out = lines
  | lines, r :: rs, out =>
    (r.skipped = [] ∨ (o.dropWs = true ∧ lines ≠ [] ∧ ∃ w, r.skipped = [w] ∧ Blank w)) ∧
    (o.dropWs = true → lines ≠ [] → r.skipped = [] → ∀ w, r.taken.head? = some w → ¬ Blank w) ∧
    visible u r.taken ≤ o.width - len (indentAfter o lines) ∧
    (∀ c, ((rs.map Row.chunks).flatten).head? = some c → visible u r.taken + vlen u c > o.width - len (indentAfter o lines)) ∧
    ∃ shown, (shown = r.taken ∧ (o.dropWs = true → ∀ w, shown.getLast? = some w → ¬ Blank w) ∨
        o.dropWs = true ∧ ∃ w, Blank w ∧ r.taken = shown ++ [w]) ∧
      Greedy u o (if shown = [] then lines else lines ++ [indentAfter o lines ++ shown.flatten]) rs out

end Verif.Spec
