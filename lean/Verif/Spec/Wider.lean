import Verif.Spec.TreePage
import Verif.Spec.Tidy
import Verif.Spec.Fewest

/-!
# Pages that are wider

Which documents do not become longer if the page becomes wider.
-/

namespace Verif.Spec

/-- The elements that the default style puts on lines of their own. -/
def lineTags : List Str := blockTags ++ [py"div", py"li", py"dt", py"dd"]

/-- There are no such elements in the forest. -/
def Forest.Inline (f : Forest) : Prop := f.count (fun tag => decide (tag ∈ lineTags)) = 0

/-- Paragraphs, list items, descriptions, links, images and code have no such elements in them. -/
def Forest.Nests : Forest → Prop
  | .nil => True
  | .text _ rest => rest.Nests
  | .elem tag _ kids rest =>
    (tag = py"p" ∧ ¬ kids.OnlyCode ∨ tag ∈ [py"li", py"dd", py"a", py"img", py"code"] → kids.Inline) ∧ kids.Nests ∧ rest.Nests

/-- Lines are ended by newlines, and by nothing else. -/
def PlainBreaks (s : Str) : Prop := ∀ c ∈ s, isLineBreak c = true → c = '\n'

/-- Nothing in the forest ends a line but newlines. -/
def Forest.PlainBreaks : Forest → Prop
  | .nil => True
  | .text s rest => Spec.PlainBreaks s ∧ rest.PlainBreaks
  | .elem _ attrs kids rest => (∀ name v, (name, some v) ∈ attrs → Spec.PlainBreaks v) ∧ kids.PlainBreaks ∧ rest.PlainBreaks

/-- The text can be put on lines of `w` columns without breaking words; it has ASCII whitespace only, and at most one blank before it. -/
def Smooth (u : Uni) (w : Int) (y : Str) : Prop :=
  PlainWs y ∧ (¬ StartsWs y ∨ ∃ t, y = ' ' :: t ∧ ¬ StartsWs t) ∧ NoLong u (proseOpts u w) (wrapInput u (proseOpts u w) y)

/-- Every paragraph (each line of it, if there are line breaks in it), every item and every description is such a text, and there is at least
one column everywhere, if there are `r` columns for the forest, and `p` of them are not used for text. -/
def Forest.Flows (u : Uni) (c : Cfg) (limit : Nat) (p : Int) : (up : List Str) → (nodes : Nat) → (k : Nat) → (r : Int) → Forest → Prop
  | _, _, _, _, .nil => True
  | up, a, k, r, .text _ rest => rest.Flows u c limit p up (a + 1) k r
  | up, a, k, r, .elem tag _ kids rest =>
    (tag ∈ lineTags → 0 < r) ∧
    (tag = py"p" ∧ ¬ kids.OnlyCode → ∀ y, Draw u c limit p .page (tag :: up) 0 0 k r kids y → ∀ line ∈ splitCh '\n' y, Smooth u (r - p) (strip line)) ∧
    (tag = py"li" ∨ tag = py"dd" → ∀ y, Draw u c limit p .page (tag :: up) 0 0 k (r - Place.marker ⟨up, a, 0, 0⟩ tag) kids y →
      Smooth u (r - p - Place.marker ⟨up, a, 0, 0⟩ tag) y) ∧
    kids.Flows u c limit p (tag :: up) 0 (k + (if numbered c tag then 1 else 0)) (r - Place.marker ⟨up, a, 0, 0⟩ tag) ∧
    rest.Flows u c limit p up (a + 1) (k + (if numbered c tag then 1 else 0) + kids.count (numbered c)) r

/-- Another page: at least as much room for rows and for text, and no more empty lines above and below. -/
structure Wider (b b' : Box) : Prop where
  rows : room b ≤ room b'
  text : textRoom b ≤ textRoom b'
  top : b'.margin.top ≤ b.margin.top
  bottom : b'.margin.bottom ≤ b.margin.bottom

end Verif.Spec
