import Verif.Spec.TreePage

/-!
# Blanks between blocks
-/

namespace Verif.Spec

/-- Elements that the default style puts on lines of their own. -/
def blockTags : List Str :=
  [py"p", py"h1", py"h2", py"h3", py"h4", py"h5", py"h6", py"ul", py"ol", py"dl", py"pre", py"blockquote"]

/-- Elements that contain blocks, and are shown as nothing but their content: `div`, and those that the default style does not know, such
as `html`, `body` and `section`. -/
def Container (tag : Str) : Prop := tag = py"div" ∨ Unstyled tag

/-- Two documents that are made of blocks, in containers or not, and are the same but for whitespace between the blocks. -/
inductive SameBlocks : Forest → Forest → Prop where
  | nil : SameBlocks .nil .nil
  | blankLeft {s f f'} : Blank s → SameBlocks f f' → SameBlocks (.text s f) f'
  | blankRight {s f f'} : Blank s → SameBlocks f f' → SameBlocks f (.text s f')
  | block {tag attrs kids rest rest'} : tag ∈ blockTags → SameBlocks rest rest' →
      SameBlocks (.elem tag attrs kids rest) (.elem tag attrs kids rest')
  | container {tag attrs kids kids' rest rest'} : Container tag → SameBlocks kids kids' → SameBlocks rest rest' →
      SameBlocks (.elem tag attrs kids rest) (.elem tag attrs kids' rest')

/-- A block: its tag, its attributes and its content. -/
abbrev Block := Str × List (Str × Option Str) × Forest

/-- The document is made of these blocks: they are in it in this order, at the top level or in containers, with nothing but whitespace
between them. No container has a `class` without value. -/
inductive MadeOf : Forest → List Block → Prop where
  | nil : MadeOf .nil []
  | blank {s rest bs} : Blank s → MadeOf rest bs → MadeOf (.text s rest) bs
  | block {tag attrs kids rest bs} : tag ∈ blockTags → MadeOf rest bs → MadeOf (.elem tag attrs kids rest) ((tag, attrs, kids) :: bs)
  | container {tag attrs kids rest as bs} : Container tag → attrOf attrs py"class" ≠ some none → MadeOf kids as → MadeOf rest bs →
      MadeOf (.elem tag attrs kids rest) (as ++ bs)

end Verif.Spec
