import Verif.Model.Parser

/-!
# What a document tree is
-/

namespace Verif.Spec

/-- Walking a list of sibling nodes in document order visits the nodes of the second list. -/
inductive Walk (d : Dom) : List Nat → List Nat → Prop where
  | nil : Walk d [] []
  | cons {i : Nat} {n : Node} {is a b : List Nat} (hn : d.nodes[i]? = some n) (hk : Walk d n.children a)
      (hr : Walk d is b) : Walk d (i :: is) (i :: a ++ b)

/-- A list of trees of elements and texts: the first tree, and the rest. -/
inductive Forest where
  | nil
  | elem (tag : Str) (attrs : List (Str × Option Str)) (kids rest : Forest)
  | text (s : Str) (rest : Forest)
  deriving DecidableEq, Repr

/-- Elements that HTML does not allow to have content, as far as the parser knows them. -/
def VoidTag (tag : Str) : Prop := tag = py"br" ∨ tag = py"img"

instance (tag : Str) : Decidable (VoidTag tag) := by unfold VoidTag; infer_instance

/-- The tags and texts of a forest in document order. A void element has no end tag. -/
def Forest.events : Forest → List Event
  | .nil => []
  | .elem tag attrs kids rest =>
    .start tag attrs :: (kids.events ++ (if VoidTag tag then [] else [.stop tag]) ++ rest.events)
  | .text s rest => .data s :: rest.events

/-- The events that create a node. -/
def creates : Event → Bool
  | .start _ _ => true
  | .data _ => true
  | .stop _ => false

/-- The value of attribute `k` in a start tag: of repeated attributes the last counts. `some none` is an attribute
without value. -/
def attrOf (attrs : List (Str × Option Str)) (k : Str) : Option (Option Str) :=
  (attrs.reverse.find? (fun kv => kv.1 == k)).map Prod.snd

/-- The node carries the attributes of the start tag, with the words of `class` as classes and the value of `id` as
id. -/
structure AttrsAgree (attrs : List (Str × Option Str)) (n : Node) : Prop where
  other : ∀ k, k ≠ py"class" → DictOf.get n.attrs k =
    (attrOf attrs k).map attrVal
  cls : DictOf.get n.attrs py"class" = (attrOf attrs py"class").map (fun v => AttrVal.words (splitWs (v.getD [])))
  classes : n.classes = match attrOf attrs py"class" with | some (some v) => splitWs v | _ => []
  id : n.id = (attrOf attrs py"id").join
  /-- a start tag with `class` but no value is not accepted -/
  valued : attrOf attrs py"class" ≠ some none

/-- The node is what the event asks for. -/
def Label : Event → Node → Prop
  | .start tag attrs, n => n.tag = some tag ∧ n.data = none ∧ AttrsAgree attrs n
  | .data t, n => n.tag = none ∧ (n.data = some t ∨ n.data = some (normaliseData false t))
  | .stop _, _ => False

/-- The siblings `ids` of the tree are the forest. `pre` tells whether they are inside a `pre` element: there text is
kept as it is. -/
def Rep (d : Dom) : (pre : Bool) → List Nat → Forest → Prop
  | _, ids, .nil => ids = []
  | pre, ids, .elem tag attrs kids rest => ∃ i is n, ids = i :: is ∧ d.nodes[i]? = some n ∧ n.tag = some tag ∧
      n.data = none ∧ AttrsAgree attrs n ∧ Rep d (pre || tag == py"pre") n.children kids ∧ Rep d pre is rest
  | pre, ids, .text s rest => ∃ i is n, ids = i :: is ∧ d.nodes[i]? = some n ∧ n.tag = none ∧
      n.data = some (normaliseData pre s) ∧ Rep d pre is rest

/-- VoidTag elements have no content, and `pre` is not nested in `pre`. -/
def Forest.WellFormed : (pre : Bool) → Forest → Prop
  | _, .nil => True
  | pre, .elem tag _ kids rest =>
    (VoidTag tag → kids = .nil) ∧ (tag = py"pre" → pre = false) ∧ kids.WellFormed (pre || tag == py"pre") ∧
      rest.WellFormed pre
  | pre, .text _ rest => rest.WellFormed pre

end Verif.Spec
