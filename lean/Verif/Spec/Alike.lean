import Verif.Spec.Page

/-!
# Documents that differ in attributes or texts only
-/

namespace Verif.Spec

/-- The attributes of an element that the default style shows. -/
def shownAttrs (tag : Str) : List Str :=
  if tag = py"a" then [py"href", py"title"] else if tag = py"img" then [py"src", py"alt"] else []

/-- The same kind of call, possibly with another text or other attributes. -/
def SameKind : Event → Event → Prop
  | .start t _, .start t' _ => t = t'
  | .stop t, .stop t' => t = t'
  | .data _, .data _ => True
  | _, _ => False

/-- The same text, or the same tag with the same values for the attributes that are shown. -/
def SameShown : Event → Event → Prop
  | .start t a, .start t' a' => t = t' ∧ ∀ k ∈ shownAttrs t, (attrOf a k).join = (attrOf a' k).join
  | e, e' => e = e'

/-- Two documents agree call by call. -/
inductive EachAlike (R : Event → Event → Prop) : List Event → List Event → Prop where
  | nil : EachAlike R [] []
  | cons {e e' es es'} : R e e' → EachAlike R es es' → EachAlike R (e :: es) (e' :: es')

/-- Node `j` is the element `i` or inside it. -/
def Inside (d : Dom) (i j : Nat) : Prop := j = i ∨ AncestorOf d i j

/-- The two documents agree in what node `j` shows. -/
def SameAt (es es' : List Event) (j : Nat) : Prop :=
  ∃ e e', (es.filter creates)[j]? = some e ∧ (es'.filter creates)[j]? = some e' ∧ SameShown e e'

/-- No start tag has a `class` without value. -/
def ClassesValued (es : List Event) : Prop := ∀ t a, Event.start t a ∈ es → attrOf a py"class" ≠ some none

/-- The page is made of these pieces: what the top level nodes look like, and the list of links. -/
def PageParts (u : Uni) (c : Cfg) (es : List Event) (s : PState) (limit : Nat) (parts : List Str) (foot : Str) : Prop :=
  parts.length = s.dom.roots.length ∧
  (∀ k i : Nat, s.dom.roots[k]? = some i → ∃ part : Str, parts[k]? = some part ∧
    Draws u c es s.dom noOwnStyle limit (c.pageBox.totalPadding.left + c.pageBox.totalPadding.right) false (room c.pageBox) [i] part) ∧
  Draws u c es s.dom noOwnStyle limit (c.pageBox.totalPadding.left + c.pageBox.totalPadding.right) true (room c.pageBox) (footNodes c s.dom) foot ∧
  ∃ page, page = newlines c.pageBox.margin.top.toNat ++ indentLines (List.replicate c.pageBox.margin.left.toNat ' ') true
      (parts.flatten ++ (if footNodes c s.dom = [] then [] else py"\n") ++ foot) ++ newlines c.pageBox.margin.bottom.toNat ∧
    (if c.optimise then TrimmedLines page s.parsed else s.parsed = page)

end Verif.Spec
