import Verif.Model.Selectors
import Verif.Spec.Tree

/-!
# CSS selectors

Selectors Level 3, over the tree as given by the lists of children (not by the parent links the code follows).
-/

namespace Verif.Spec

/-- Node `i` is an element with this tag. -/
def HasTag (d : Dom) (i : Nat) (t : Str) : Prop := ∃ n, d.nodes[i]? = some n ∧ n.tag = some t

def IsElem (d : Dom) (i : Nat) : Prop := ∃ t, HasTag d i t

/-- `j` is the parent of `i`. -/
def ParentOf (d : Dom) (j i : Nat) : Prop := ∃ n, d.nodes[j]? = some n ∧ i ∈ n.children

inductive AncestorOf (d : Dom) : Nat → Nat → Prop where
  | parent {j i} : ParentOf d j i → AncestorOf d j i
  | step {k j i} : ParentOf d j i → AncestorOf d k j → AncestorOf d k i

/-- A list of siblings: the top level nodes, or the children of a node. -/
def Siblings (d : Dom) (l : List Nat) : Prop := l = d.roots ∨ ∃ (j : Nat) (n : Node), d.nodes[j]? = some n ∧ l = n.children

/-- The siblings before and after `i`. -/
def Around (d : Dom) (i : Nat) (before after : List Nat) : Prop := Siblings d (before ++ i :: after)

/-- Number of elements in a list of nodes. -/
def elemCount (d : Dom) (l : List Nat) : Nat := l.countP d.isTag

/-- `w` is one of the whitespace separated words of `s`. -/
def IsWord (w s : Str) : Prop :=
  w ≠ [] ∧ (∀ c ∈ w, isSpace c = false) ∧
    ∃ a b, s = a ++ w ++ b ∧ (∀ c, a.getLast? = some c → isSpace c) ∧ (∀ c, b.head? = some c → isSpace c)

/-- The attribute operators on a string value. -/
def AttrHolds (op : AttrOp) (value v : Str) : Prop :=
  match op with
  | .exists => True
  | .eq => v = value
  | .word => IsWord value v
  | .dash => v = value ∨ (value ++ py"-") <+: v
  | .pre => value <+: v
  | .suf => value <:+ v
  | .sub => value <:+: v
  | .ne => v ≠ value

/-- The attributes of the start tag that node `k` stands for. -/
def srcAttrs (es : List Event) (k : Nat) : List (Str × Option Str) :=
  match (es.filter creates)[k]? with
  | some (.start _ attrs) => attrs
  | _ => []

/-- The attribute operators of CSS 3. -/
def CssOp (op : AttrOp) : Prop := op ≠ .ne

/-- The meaning of a selector in a tree; `src i` are the attributes in the start tag of node `i`. Meaning is given to the
constructs `Basic` allows and to all attribute operators. -/
def Css (d : Dom) (src : Nat → List (Str × Option Str)) : Sel → Nat → Prop
  | .element none, i => IsElem d i
  | .element (some t), i => HasTag d i t
  | .cls s c, i => Css d src s i ∧ ∃ v, attrOf (src i) py"class" = some (some v) ∧ IsWord c v
  | .hash s id, i => Css d src s i ∧ attrOf (src i) py"id" = some (some id)
  | .neg s t, i => Css d src s i ∧ ¬ Css d src t i
  | .attrib s name op value, i => Css d src s i ∧
      ((op = .exists ∧ attrOf (src i) name ≠ none) ∨ (op ≠ .exists ∧ ∃ v, attrOf (src i) name = some (some v) ∧ AttrHolds op value v))
  | .pseudo s ident, i => Css d src s i ∧ ∃ before after, Around d i before after ∧
      ((ident = py"first-child" ∧ elemCount d before = 0) ∨ (ident = py"last-child" ∧ elemCount d after = 0))
  | .func s name args, i => Css d src s i ∧ ∃ before after n, Around d i before after ∧ args = [natStr n] ∧
      ((name = py"nth-child" ∧ elemCount d before + 1 = n) ∨ (name = py"nth-last-child" ∧ elemCount d after + 1 = n))
  | .comb s .desc t, i => Css d src t i ∧ ∃ j, AncestorOf d j i ∧ Css d src s j
  | .comb s .child t, i => Css d src t i ∧ ∃ j, ParentOf d j i ∧ Css d src s j
  | .comb s .general t, i => Css d src t i ∧
      ∃ before after j, Around d i before after ∧ j ∈ before ∧ IsElem d j ∧ Css d src s j
  | .comb s .adjacent t, i => Css d src t i ∧ ∃ before between after j, Around d i (before ++ j :: between) after ∧
      IsElem d j ∧ elemCount d between = 0 ∧ Css d src s j
  | .comb _ .column _, _ => False

/-- The selectors C01 is about, and `:nth-child(n)`, `:nth-last-child(n)` for `n ≥ 1`. -/
def Basic : Sel → Prop
  | .element _ => True
  | .cls s _ => Basic s
  | .hash s _ => Basic s
  | .neg s t => Basic s ∧ Basic t
  | .attrib s _ op _ => Basic s ∧ op = .exists
  | .pseudo s ident => Basic s ∧ (ident = py"first-child" ∨ ident = py"last-child")
  | .func s name args => Basic s ∧ (name = py"nth-child" ∨ name = py"nth-last-child") ∧ ∃ n, n ≥ 1 ∧ args = [natStr n]
  | .comb s c t => Basic s ∧ Basic t ∧ c ≠ .column

/-- Attributes on which an operator has a meaning the program shares: written with a value, unless the operator is `[a]` or `[a=v]`,
and if the attribute is `class`, with single spaces, unless it is `[a]` or `[a~=v]`. -/
def AttrRead (attrs : List (Str × Option Str)) (name : Str) (op : AttrOp) : Prop :=
  (attrOf attrs name ≠ some none ∨ op = .exists ∨ op = .eq) ∧
  ∀ v, name = py"class" → attrOf attrs name = some (some v) → join py" " (splitWs v) = v ∨ op = .exists ∨ op = .word

/-- Selectors with any attribute operators, in a document whose attributes allow them. -/
def Matchable (src : Nat → List (Str × Option Str)) : Sel → Prop
  | .element _ => True
  | .cls s _ => Matchable src s
  | .hash s _ => Matchable src s
  | .neg s t => Matchable src s ∧ Matchable src t
  | .attrib s name op _ => Matchable src s ∧ CssOp op ∧ ∀ i, AttrRead (src i) name op
  | .pseudo s ident => Matchable src s ∧ (ident = py"first-child" ∨ ident = py"last-child")
  | .func s name args => Matchable src s ∧ (name = py"nth-child" ∨ name = py"nth-last-child") ∧ ∃ n, n ≥ 1 ∧ args = [natStr n]
  | .comb s c t => Matchable src s ∧ Matchable src t ∧ c ≠ .column

end Verif.Spec
