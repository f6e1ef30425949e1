import Verif.Spec.Render

/-!
# Blocks
-/

namespace Verif.Spec

/-- No character that ends a line. -/
def OneLine (l : Str) : Prop := ∀ c ∈ l, isLineBreak c = false

/-- The lines of a text: each ends with a line break (a carriage return and newline together are one) or, the last one,
at the end of the text. -/
inductive Lines : Str → List Str → Prop where
  | nil : Lines [] []
  | last {l : Str} (h : l ≠ []) (hl : OneLine l) : Lines l [l]
  | crlf {l r : Str} {ls : List Str} (hl : OneLine l) (h : Lines r ls) : Lines (l ++ '\r' :: '\n' :: r) (l :: ls)
  | brk {l r : Str} {b : Char} {ls : List Str} (hl : OneLine l) (hb : isLineBreak b = true)
      (hn : b = '\r' → r.head? ≠ some '\n') (h : Lines r ls) : Lines (l ++ b :: r) (l :: ls)

/-- Rows of a block: lines filled up to a width. A block without lines still has one row. -/
def rows (w : Int) (ls : List Str) : Str := join py"\n" ((if ls = [] then [[]] else ls).map (padTo w))

/-- How running text is wrapped. -/
def proseOpts (u : Uni) (w : Int) : WrapOpts := { width := w, fixSentence := true, hyphenAware := u.hyphenAware }

/-- A bullet before the first line, as many spaces before the others. -/
def hang (bullet : Str) : List Str → List Str
  | [] => [bullet]
  | l :: ls => (bullet ++ l) :: ls.map (List.replicate bullet.length ' ' ++ ·)

/-- The columns for text in a box. -/
def textRoom (b : Box) : Int := room b - b.totalPadding.left - b.totalPadding.right

/-- The empty lines above and below a paragraph: one each, unless its style says otherwise. -/
def PSpace (d : Dom) (i : Nat) (above below : Int) : Prop :=
  PStyle d i (margins above below) ∨ PStyle d i [] ∧ above = 1 ∧ below = 1

/-- The empty lines above a list item. -/
def LiSpace (d : Dom) (i : Nat) (above : Int) : Prop := LiStyle d i (margins above 0) ∨ LiStyle d i [] ∧ above = 1

/-- The only child is a `code` or `pre` element. -/
def OnlyCode (d : Dom) (i : Nat) : Prop :=
  ∃ n j, d.nodes[i]? = some n ∧ n.children = [j] ∧ (HasTag d j py"code" ∨ HasTag d j py"pre")

/-- `parts` are the wrapped segments. -/
def WrappedEach (u : Uni) (o : WrapOpts) : (segments : List Str) → (parts : List (List Str)) → Prop
  | [], [] => True
  | x :: xs, p :: ps => wrap u o (strip x) = .ok p ∧ WrappedEach u o xs ps
  | _, _ => False

/-- Settings of a list item with a bullet, otherwise as declared by the built-in classes. -/
structure PlainItem (s : Dict) (bullet : Str) : Prop where
  template : DictOf.get s py"line_template" = some (.str (bullet ++ py"{}"))
  justification : DictOf.get s py"justification" = some (.str py"left")
  initial : DictOf.get s py"initial_indent" = some (.int 0)
  subsequent : DictOf.get s py"subsequent_indent" = some (.int 0)
  capitalized : DictOf.get s py"capitalized" = some (.bool false)
  fix : DictOf.get s py"fix_sentence_endings" = some (.bool true)
  long : DictOf.get s py"break_long_words" = some (.bool true)
  others : ∀ k ∈ [py"expand_tabs", py"replace_whitespace", py"drop_whitespace", py"break_on_hyphens", py"placeholder",
    py"tabsize"], DictOf.get s k = none

end Verif.Spec
