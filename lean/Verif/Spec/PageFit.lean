import Verif.Spec.Fit
import Verif.Spec.Page

/-!
# Pages that fit
-/

namespace Verif.Spec

/-- No row of the text is wider than `w` columns, whitespace at its end aside. -/
def RowsFit (u : Uni) (w : Int) (x : Str) : Prop := ∃ ls, x = join py"\n" ls ∧ ∀ l ∈ ls, '\n' ∉ l ∧ VisibleLe u (rstrip l) w

/-- The text begins with a line break, after whitespace perhaps, or is blank. -/
def StartsRow (x : Str) : Prop := ∃ t r, x = t ++ r ∧ Blank t ∧ (r = [] ∨ ∃ r', r = '\n' :: r')

/-- What element `i` contains, drawn in `r` columns, and the list of links at its end. -/
def Content (u : Uni) (c : Cfg) (es : List Event) (d : Dom) (own : OwnStyle) (limit : Nat) (p r : Int) (i : Nat) (x : Str) : Prop :=
  ∃ n y z, d.nodes[i]? = some n ∧ Draws u c es d own limit p false r n.children y ∧ Draws u c es d own limit p true r (waiting c d i) z ∧
    x = y ++ (if waiting c d i = [] then [] else py"\n") ++ z

/-- The node is drawn in `r` columns without rows of more than `r + k`: text that is not wrapped has no longer rows, neither have
lists of links, and blocks start in a new row. Paragraphs, items and descriptions may contain anything. -/
inductive FitsIn (u : Uni) (c : Cfg) (es : List Event) (d : Dom) (own : OwnStyle) (limit : Nat) (p k : Int) : Int → Nat → Prop where
  | paragraph {r i} : HasTag d i py"p" → Unruled c d i → ¬ OnlyCode d i → FitsIn u c es d own limit p k r i
  | item {r i} : HasTag d i py"li" → Unruled c d i → FitsIn u c es d own limit p k r i
  | description {r i} : HasTag d i py"dd" → Unruled c d i → FitsIn u c es d own limit p k r i
  | term {r i x} : HasTag d i py"dt" → Unruled c d i → Content u c es d own limit p r i x → RowsFit u (r + k) x →
      FitsIn u c es d own limit p k r i
  | header {r i x tag level} : HasTag d i tag → Unruled c d i → (tag, level) ∈ headerLevels → Content u c es d own limit p r i x →
      RowsFit u (r + k) (List.replicate level '#' ++ py" " ++ x ++ py" " ++ List.replicate level '#') → FitsIn u c es d own limit p k r i
  | codeOnly {r i x} : HasTag d i py"p" → Unruled c d i → OnlyCode d i → Content u c es d own limit p r i x → RowsFit u (r + k) x →
      FitsIn u c es d own limit p k r i
  | pre {r i x ls} : HasTag d i py"pre" → Unruled c d i → Content u c es d own limit p r i x → Lines x ls →
      (∀ l ∈ ls, VisibleLe u (rstrip l) (r + k - 4)) → FitsIn u c es d own limit p k r i
  | around {r i z} {n : Node} {tag : Str} : d.nodes[i]? = some n → n.tag = some tag → Unruled c d i → tag = py"div" ∨ Unstyled tag →
      (∀ j ∈ n.children, ¬ Flush d j) → (∀ j ∈ n.children, ¬ BlankText d j → FitsIn u c es d own limit p k r j) →
      Draws u c es d own limit p true r (waiting c d i) z → RowsFit u (r + k) z → FitsIn u c es d own limit p k r i
  | quote {r i z} {n : Node} : d.nodes[i]? = some n → n.tag = some py"blockquote" → Unruled c d i → 2 ≤ r + k → Spaced d n.children →
      (∀ j ∈ n.children, ¬ BlankText d j → FitsIn u c es d own limit p k (r - 2) j) →
      Draws u c es d own limit p true (r - 2) (waiting c d i) z → RowsFit u (r - 2 + k) z → FitsIn u c es d own limit p k r i
  | list {r i z} {n : Node} {tag : Str} : d.nodes[i]? = some n → n.tag = some tag → Unruled c d i → tag ∈ [py"ul", py"ol", py"dl"] →
      Spaced d n.children → (∀ j ∈ n.children, ¬ BlankText d j → FitsIn u c es d own limit p k r j) →
      Draws u c es d own limit p true r (waiting c d i) z → RowsFit u (r + k) z → FitsIn u c es d own limit p k r i
  | other {r i x} : Draws u c es d own limit p false r [i] x → RowsFit u (r + k) x → StartsRow x → FitsIn u c es d own limit p k r i

/-- The blocks of the page and the list of links at its end fit into the columns of the page. -/
def PageFits (u : Uni) (c : Cfg) (es : List Event) (d : Dom) (own : OwnStyle) (limit : Nat) (width : Int) (margin : Sides) : Prop :=
  Spaced d d.roots ∧
  (∀ j ∈ d.roots, ¬ BlankText d j →
    FitsIn u c es d own limit (c.pageBox.totalPadding.left + c.pageBox.totalPadding.right)
      (width - margin.left - margin.right - room c.pageBox) (room c.pageBox) j) ∧
  ∃ z, Draws u c es d own limit (c.pageBox.totalPadding.left + c.pageBox.totalPadding.right) true (room c.pageBox) (footNodes c d) z ∧
    RowsFit u (width - margin.left - margin.right) z

end Verif.Spec
