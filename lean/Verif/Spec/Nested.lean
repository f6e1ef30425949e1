import Verif.Spec.Fit
import Verif.Spec.Sentence

/-!
# Lists in list items
-/

namespace Verif.Spec

/-- The only whitespace is spaces and newlines, and there are no colours. -/
def Simple (x : Str) : Prop := '\x1b' ∉ x ∧ ∀ c ∈ x, isSpace c = true → c = ' ' ∨ c = '\n'

/-- The bullet of a list item: its position among the children of the list (text included) for an ordered list, an asterisk
otherwise. -/
def Bullet (d : Dom) (i : Nat) (a : Str) : Prop :=
  ChildOf d py"ol" i ∧ (∃ before after, Around d i before after ∧ a = natStr (before.length + 1) ++ py". ") ∨
    ¬ ChildOf d py"ol" i ∧ a = py"* "

/-- The node is a list item that has this bullet and whose content, wrapped, has these lines. -/
def ItemLines (u : Uni) (s : PState) (f : Nat) (box : Box) (i : Nat) (a : Str) (lines : List Str) : Prop :=
  HasTag s.dom i py"li" ∧ Bullet s.dom i a ∧
    ∃ above x, LiSpace s.dom i above ∧ contents u s f (inside box above 0 (some (a ++ py"{}"))) i = .ok x ∧
      wrap u (proseOpts u (textRoom box - a.length)) x = .ok lines

/-- The rows of the items of a list one after another, each item as it is on its own but with nothing before and after its rows. -/
inductive ItemsOf (u : Uni) (s : PState) (f : Nat) (box : Box) : List Nat → List Str → Prop
  | nil : ItemsOf u s f box [] []
  | blank {j js rs} : BlankText s.dom j → ItemsOf u s f box js rs → ItemsOf u s f box (j :: js) rs
  | item {j js a lines rs} : ItemLines u s f box j a lines → ItemsOf u s f box js rs →
      ItemsOf u s f box (j :: js) ((hang a lines).map strip ++ rs)

/-- An item that has more than one row has whitespace between it and the next item. -/
def Apart (u : Uni) (s : PState) (f : Nat) (box : Box) (js : List Nat) : Prop :=
  ∀ before j between k after, js = before ++ j :: (between ++ k :: after) → HasTag s.dom k py"li" →
    (∀ b ∈ between, BlankText s.dom b) → ∀ a lines, ItemLines u s f box j a lines →
      lines.length ≤ 1 ∨ ∃ ws, renderAll (textOf u s (f + 1) box) between = .ok ws ∧ ws ≠ []

/-- A list of items, with nothing but whitespace between them, whose content has no colours and no whitespace but spaces and
newlines. -/
def PlainList (u : Uni) (s : PState) (f : Nat) (box : Box) (l : Nat) : Prop :=
  (HasTag s.dom l py"ul" ∨ HasTag s.dom l py"ol") ∧ ∃ m, s.dom.nodes[l]? = some m ∧ m.pending = [] ∧
    (∀ j ∈ m.children, BlankText s.dom j ∨ HasTag s.dom j py"li") ∧
    (∀ j ∈ m.children, BlankText s.dom j → ∀ k b y, textOf u s k b j = .ok y → Simple y) ∧
    (∀ j ∈ m.children, ∀ b x, contents u s f b j = .ok x → Simple x) ∧ Apart u s f (inside box 1 1) m.children

/-- The rows of lists one after another, with whitespace between them. -/
inductive ListsOf (u : Uni) (s : PState) (f : Nat) (box : Box) : List Nat → List Str → Prop
  | nil : ListsOf u s f box [] []
  | blank {j js rs} : BlankText s.dom j → ListsOf u s f box js rs → ListsOf u s f box (j :: js) rs
  | list {l m js rs more} : HasTag s.dom l py"ul" ∨ HasTag s.dom l py"ol" → s.dom.nodes[l]? = some m →
      ItemsOf u s f (inside box 1 1) m.children rs → ListsOf u s f box js more → ListsOf u s f box (l :: js) (rs ++ more)

end Verif.Spec
