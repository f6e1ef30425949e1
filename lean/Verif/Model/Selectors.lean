import Verif.Model.Dom

/-!
# Selector matching: `gopher_render/_selectors.py`

The parsed selectors are the classes of `cssselect.parser` (version 1.1). The parser that makes them is in
`Model/CssParse.lean`.
-/

namespace Verif

/-- The attribute operators of `cssselect`'s `Attrib`. -/
inductive AttrOp where
  | exists
  | eq
  | word
  | dash
  | pre
  | suf
  | sub
  /-- the extension `!=`, which `_attribute_matches` does not know -/
  | ne
  deriving DecidableEq, Repr

/-- Combinators of a `CombinedSelector`; `column` stands for `||`. -/
inductive Comb where
  | desc | child | general | adjacent | column
  deriving DecidableEq, Repr

/-- `cssselect` selector trees. `element none` is the universal selector; `func` keeps the argument token values. -/
inductive Sel where
  | element (name : Option Str)
  | cls (s : Sel) (name : Str)
  | hash (s : Sel) (id : Str)
  | neg (s sub : Sel)
  | attrib (s : Sel) (name : Str) (op : AttrOp) (value : Str)
  | pseudo (s : Sel) (ident : Str)
  | func (s : Sel) (name : Str) (args : List Str)
  | comb (s : Sel) (c : Comb) (sub : Sel)
  deriving DecidableEq, Repr

/-- `_element_matches`, `_selectors.py` 18-26. -/
def elementMatches (d : Dom) (p : Par) (name : Option Str) : Bool :=
  match p with
  | .node i => match d.nodes[i]? with
    | some n => if n.data.isSome then false else n.tag == name || name.isNone
    | none => false
  | _ => false

/-- `_any_ancestor_matches`, `_selectors.py` 59-64. `fuel` bounds the length of the parent chain. -/
def anyAncestor (d : Dom) (m : Par → Py Bool) : Nat → Par → Py Bool
  | 0, _ => .error .recursion
  | f + 1, .node i => match d.nodes[i]? with
    | some n => match n.parent with
      | .none => .ok false
      | p => do if ← m p then return true else anyAncestor d m f p
    | none => .ok false
  | _, _ => .ok false

/-- `tag.parent`, when it exists and is not `None` (the guard at the top of the sibling and child functions). -/
def Dom.parentOf (d : Dom) : Par → Option Par
  | .node i => match d.nodes[i]? with
    | some n => match n.parent with
      | .none => none
      | p => some p
    | none => none
  | _ => none

/-- The loop of `_general_sibling_matches`, `_selectors.py` 98-103. -/
def siblingLoop (m : Par → Py Bool) (p : Par) : List Nat → Py Bool
  | [] => .ok false
  | s :: ss => if Par.node s = p then .ok false else do if ← m (.node s) then return true else siblingLoop m p ss

/-- `_adjacent_sibling_matches`, `_selectors.py` 116-123: the element before `p`; `list.index` raises `ValueError`. -/
def adjacentCheck (m : Par → Py Bool) (p : Par) (tagChildren : List Nat) : Py Bool :=
  match tagChildren.findIdx? (fun i => Par.node i = p) with
  | none => .error .valueError
  | some 0 => .ok false
  | some (k + 1) => match tagChildren[k]? with
    | some s => m (.node s)
    | none => .error .indexError

/-- `hasattr(tag, 'data')` -/
def Dom.hasData (d : Dom) : Par → Bool
  | .node i => match d.nodes[i]? with | some n => n.data.isSome | none => false
  | _ => false

/-- `_attribute_matches`, `_selectors.py` 138-159, after the inner selector has matched. -/
def attribCheck (attrs : DictOf AttrVal) (name : Str) (op : AttrOp) (value : Str) : Py Bool :=
  match DictOf.get attrs name with
  | none => .ok false
  | some v =>
    if op = .exists then .ok true
    else
      match (if name = py"class" then
          match v with
          | .words l => Except.ok (some (join py" " l))
          | .str s => .ok (some (join py" " (s.map (fun c => [c]))))
          | .none => .error PyErr.typeError
        else
          match v with
          | .str s => .ok (some s)
          | .none => .ok none
          | .words _ => .error .attributeError) with
      | .error e => .error e
      | .ok a =>
        match op, a with
        | .eq, a => .ok (a == some value)
        | .word, some s => .ok ((splitWs s).contains value)
        | .word, none => .error .attributeError
        | .dash, some s => .ok (s == value || startsWith s (value ++ py"-"))
        | .dash, none => .error .attributeError
        | .pre, some s => .ok (startsWith s value)
        | .pre, none => .error .attributeError
        | .suf, some s => .ok (endsWith s value)
        | .suf, none => .error .attributeError
        | .sub, some s => .ok (contains value s)
        | .sub, none => .error .typeError
        | .exists, _ => .ok true
        | .ne, _ => .ok false

/-- The comparisons of `_attribute_matches`, `_selectors.py` 146-158, in case `selector.value` is not the text of the value but
cssselect's `Token` for it, a tuple of the kind (`IDENT` or `STRING`) and the text, shown with its position. The parser of cssselect
is not part of the repository, and which of the two it passes cannot be told from there; `attribCheck` assumes the text. -/
def tokenCheck (kind value : Str) (pos : Nat) (op : AttrOp) (attr : Option Str) : Py Bool :=
  match op, attr with
  | .exists, _ => .ok true
  | .eq, _ => .ok false
  | .word, some _ => .ok false
  | .dash, some s => .ok (startsWith s (py"<" ++ kind ++ py" '" ++ value ++ py"' at " ++ natStr pos ++ py">-"))
  | .pre, some s => .ok (startsWith s kind || startsWith s value)
  | .suf, some s => .ok (endsWith s kind || endsWith s value)
  | .sub, _ => .error .typeError
  | .ne, _ => .ok false
  | _, none => .error .attributeError

/-- `int(selector.arguments[0].value)`, `_selectors.py` 185 and 199. -/
def firstArg (args : List Str) : Py Int :=
  match args with
  | [] => .error .indexError
  | a :: _ => match pyInt 10 a with
    | some n => .ok n
    | none => .error .valueError

/-- `_nth_child_matches` and `_nth_last_child_matches`, `_selectors.py` 185-189 and 199-203, after the guards:
`tag_children[n - 1] is tag`, or `tag_children[-n] is tag`. -/
def nthCheck (tagChildren : List Nat) (p : Par) (last : Bool) (n : Int) : Py Bool :=
  if n > tagChildren.length then .ok false
  else match pyIndex tagChildren (if last then -n else n - 1) with
    | none => .error .indexError
    | some i => .ok (Par.node i = p)

/-- `_selector_matches`, `_selectors.py` 291-312, with the functions it dispatches to: `_hash_matches` 29-37,
`_class_matches` 40-45, `_negation_matches` 50-56, `_descendant_matches` 67-75, `_child_matches` 78-85,
`_general_sibling_matches` 88-103, `_adjacent_sibling_matches` 106-123, `_column_matches` 126-128,
`_attribute_matches` 131-159, `_combination_matches` 162-173, `_nth_child_matches` 178-189,
`_nth_last_child_matches` 192-203, `_first_child_matches` 206-215, `_last_child_matches` 218-227,
`_pseudoclass_matches` 236-254, `_pseudofunction_matches` 263-282. -/
def selMatch (d : Dom) : Sel → Par → Py Bool
  | .element name, p => .ok (elementMatches d p name)
  | .cls s name, p =>
    match p with
    | .node i => match d.nodes[i]? with
      | some n => if n.data.isSome then .ok false else if n.classes.contains name then selMatch d s p else .ok false
      | none => .ok false
    | _ => .ok false
  | .hash s id, p =>
    match p with
    | .node i => match d.nodes[i]? with
      | some n => match n.id with
        | none => .ok false
        | some nid => if n.data.isSome then .ok false else if nid = id then selMatch d s p else .ok false
      | none => .ok false
    | _ => .ok false
  | .neg s sub, p =>
    if d.hasData p then .ok false
    else do if ← selMatch d s p then return !(← selMatch d sub p) else return false
  | .attrib s name op value, p => do
    if ← selMatch d s p then
      match p with
      | .node i => match d.nodes[i]? with
        | some n => attribCheck n.attrs name op value
        | none => .error .attributeError
      | _ => .error .attributeError
    else return false
  | .pseudo s ident, p =>
    if ident = py"first-child" then
      match d.parentOf p with
      | none => .ok false
      | some q => if d.hasData p then .ok false else
        match (d.tagChildren q).head? with
        | none => .ok false
        | some i => if Par.node i = p then selMatch d s p else .ok false
    else if ident = py"last-child" then
      match d.parentOf p with
      | none => .ok false
      | some q => if d.hasData p then .ok false else
        match (d.tagChildren q).getLast? with
        | none => .ok false
        | some i => if Par.node i = p then selMatch d s p else .ok false
    else .ok false
  | .func s name args, p =>
    if name = py"nth-child" || name = py"nth-last-child" then
      match d.parentOf p with
      | none => .ok false
      | some q => if d.hasData p then .ok false else do
        let n ← firstArg args
        if ← nthCheck (d.tagChildren q) p (name == py"nth-last-child") n then selMatch d s p else return false
    else .ok false
  | .comb s .desc sub, p => do
    if ← selMatch d sub p then anyAncestor d (selMatch d s) (d.nodes.length + 1) p else return false
  | .comb s .child sub, p =>
    match d.parentOf p with
    | none => .ok false
    | some q => do if ← selMatch d sub p then selMatch d s q else return false
  | .comb s .general sub, p =>
    match d.parentOf p with
    | none => .ok false
    | some q => do if ← selMatch d sub p then siblingLoop (selMatch d s) p (d.tagChildren q) else return false
  | .comb s .adjacent sub, p =>
    match d.parentOf p with
    | none => .ok false
    | some q => do if ← selMatch d sub p then adjacentCheck (selMatch d s) p (d.tagChildren q) else return false
  | .comb _ .column _, _ => .ok false

/-! ## Specificity -/

/-- A specificity triple. -/
abbrev Spec3 := Int × Int × Int

/-- `cssselect`'s `specificity` method of each selector class. -/
def Sel.spec : Sel → Spec3
  | .element (some _) => (0, 0, 1)
  | .element none => (0, 0, 0)
  | .cls s _ => (s.spec.1, s.spec.2.1 + 1, s.spec.2.2)
  | .hash s _ => (s.spec.1 + 1, s.spec.2.1, s.spec.2.2)
  | .neg s t => (s.spec.1 + t.spec.1, s.spec.2.1 + t.spec.2.1, s.spec.2.2 + t.spec.2.2)
  | .attrib s _ _ _ => (s.spec.1, s.spec.2.1 + 1, s.spec.2.2)
  | .pseudo s _ => (s.spec.1, s.spec.2.1 + 1, s.spec.2.2)
  | .func s _ _ => (s.spec.1, s.spec.2.1 + 1, s.spec.2.2)
  | .comb s _ t => (s.spec.1 + t.spec.1, s.spec.2.1 + t.spec.2.1, s.spec.2.2 + t.spec.2.2)

/-- `cssselect.parser.Selector`: a tree and whether a pseudo-element was given. -/
structure Selector where
  tree : Sel
  pseudoElement : Bool := false
  deriving DecidableEq, Repr

/-- `Selector.specificity` of `cssselect`. -/
def Selector.spec (s : Selector) : Spec3 :=
  (s.tree.spec.1, s.tree.spec.2.1, s.tree.spec.2.2 + if s.pseudoElement then 1 else 0)

/-- `_compare`, `_selectors.py` 350-357. -/
def compare3 (a b : Int) (c : Option Int) : Int :=
  if a = b then (match c with | none => 0 | some c => c) else a - b

/-- `_compare_specificity`, `_selectors.py` 360-391. `None` as first argument: the name `ArgumentError` does not
exist, so a `NameError` is raised. -/
def compareSpecificity (s1 s2 : Option Spec3) : Py Int :=
  match s1, s2 with
  | none, _ => .error .nameError
  | some _, none => .ok 1
  | some a, some b =>
    let r := compare3 a.1 b.1 (some (compare3 a.2.1 b.2.1 (some (compare3 a.2.2 b.2.2 none))))
    .ok (if r > 0 then 1 else if r < 0 then -1 else r)

/-- `_more_specific`, `_selectors.py` 337-347. -/
def moreSpecific (s1 s2 : Option Spec3) : Py Bool := (compareSpecificity s1 s2).map (fun r => decide (r > 0))

/-- `Specificity.__eq__`, `__lt__`, `__le__`, `__gt__`, `__ge__`, `_selectors.py` 405-418. -/
def specEq (a b : Option Spec3) : Py Bool := (compareSpecificity a b).map (fun r => decide (r = 0))
def specLt (a b : Option Spec3) : Py Bool := (compareSpecificity a b).map (fun r => decide (r < 0))
def specLe (a b : Option Spec3) : Py Bool := (compareSpecificity a b).map (fun r => decide (r ≤ 0))
def specGt (a b : Option Spec3) : Py Bool := (compareSpecificity a b).map (fun r => decide (r > 0))
def specGe (a b : Option Spec3) : Py Bool := (compareSpecificity a b).map (fun r => decide (r ≥ 0))

/-- The loop of `tag_matches`, `_selectors.py` 325-334: `(matched, best_specificity)`. -/
def tagMatchesLoop (d : Dom) (p : Par) : List Selector → Bool → Option Spec3 → Py (Bool × Option Spec3)
  | [], matched, best => .ok (matched, best)
  | s :: ss, matched, best => do
    if ← selMatch d s.tree p then
      if ← moreSpecific (some s.spec) best then tagMatchesLoop d p ss true (some s.spec)
      else tagMatchesLoop d p ss matched best
    else tagMatchesLoop d p ss matched best

/-- `tag_matches`, `_selectors.py` 315-334. -/
def tagMatches (d : Dom) (p : Par) (sels : List Selector) : Py (Bool × Option Spec3) :=
  tagMatchesLoop d p sels false none

end Verif
