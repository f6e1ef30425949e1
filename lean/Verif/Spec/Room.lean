import Verif.Spec.Theme
import Verif.Spec.Blocks
import Verif.Spec.Links

/-!
# Is there room for a document on the page?
-/

namespace Verif.Spec

/-- `Marker d theme i k`: what is put in front of the lines of element `i` takes `k` columns. An element styled by the
colour theme has nothing in front of its lines. -/
inductive Marker (d : Dom) (theme : List Rule) (i : Nat) : Int → Prop where
  | themed : ¬ Untouched d theme i → Marker d theme i 0
  | quote : Untouched d theme i → HasTag d i py"blockquote" → Marker d theme i 2
  | description : Untouched d theme i → HasTag d i py"dd" → Marker d theme i 2
  | bullet : Untouched d theme i → HasTag d i py"li" → ¬ ChildOf d py"ol" i → Marker d theme i 2
  | number {before after} : Untouched d theme i → HasTag d i py"li" → ChildOf d py"ol" i → Around d i before after →
      Marker d theme i ((Nat.toDigits 10 (before.length + 1)).length + 2)
  | nothing : Untouched d theme i → ¬ HasTag d i py"blockquote" → ¬ HasTag d i py"dd" → ¬ HasTag d i py"li" → Marker d theme i 0

/-- `Within d theme r i k`: `i` is `r` or inside it, and the markers of `r`, `i` and the elements between take `k` columns. -/
inductive Within (d : Dom) (theme : List Rule) : Nat → Nat → Int → Prop where
  | self {i k} : Marker d theme i k → Within d theme i i k
  | child {r j i k m} : Marker d theme r k → ParentOf d r j → Within d theme j i m → Within d theme r i (k + m)

/-- The text of the element is broken into lines. -/
def Wrapped (d : Dom) (theme : List Rule) (i : Nat) : Prop :=
  Untouched d theme i ∧ (HasTag d i py"p" ∧ ¬ OnlyCode d i ∨ HasTag d i py"li" ∨ HasTag d i py"dd")

/-- Every element whose text is broken into lines has at least one column for it, if there are `w` columns for the document. -/
def HasRoom (d : Dom) (theme : List Rule) (w : Int) : Prop :=
  ∀ r ∈ d.roots, ∀ i k, Within d theme r i k → Wrapped d theme i → k < w

end Verif.Spec
