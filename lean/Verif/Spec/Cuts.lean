import Verif.Spec.TreePage

/-!
# Texts in pieces
-/

namespace Verif.Spec

/-- The second document is the first with some texts cut in pieces, as when there is a comment in the middle of a text, or when the
document is fed in pieces. There is not whitespace on both sides of a cut, unless it is in a `pre`, and no cut is directly in an ordered
list. The flags tell whether the documents are in a `pre`, and directly in an `ol`. -/
inductive CutTexts : (pre ol : Bool) → Forest → Forest → Prop where
  | nil {pre ol} : CutTexts pre ol .nil .nil
  | text {pre ol s f f'} : CutTexts pre ol f f' → CutTexts pre ol (.text s f) (.text s f')
  | cut {pre s t f f'} : pre = true ∨ ¬ (EndsWs s ∧ StartsWs t) → CutTexts pre false (.text t f) f' →
      CutTexts pre false (.text (s ++ t) f) (.text s f')
  | elem {pre ol tag attrs kids kids' rest rest'} : CutTexts (pre || tag == py"pre") (tag == py"ol") kids kids' → CutTexts pre ol rest rest' →
      CutTexts pre ol (.elem tag attrs kids rest) (.elem tag attrs kids' rest')

/-- A document that can be cut anywhere: there is no text directly in ordered lists, and outside of `pre` there are
no two whitespace characters in a row. -/
def Forest.Robust : (pre ol : Bool) → Forest → Prop
  | _, _, .nil => True
  | pre, ol, .text s rest => ol = false ∧ (pre = true ∨ ∀ a x y b, s = a ++ x :: y :: b → ¬ (isSpace x = true ∧ isSpace y = true)) ∧
      rest.Robust pre ol
  | pre, ol, .elem tag _ kids rest => kids.Robust (pre || tag == py"pre") (tag == py"ol") ∧ rest.Robust pre ol

end Verif.Spec
