import Verif.Spec.Links
import Verif.Spec.Tree

/-!
# Which documents can be read
-/

namespace Verif.Spec

/-- The text after the first colon; empty if there is none. -/
def AfterColon (s p : Str) : Prop := (∃ name, s = name ++ ':' :: p ∧ ':' ∉ name) ∨ (':' ∉ s ∧ p = [])

/-- `p` is the text of the port in a network location: what follows the colon after the host. What ends in `@` comes
before the host, and the host may be in brackets. -/
def PortText (netloc p : Str) : Prop :=
  ∃ user place, netloc = user ++ place ∧ UserPart user ∧ '@' ∉ place ∧
    (('[' ∉ place ∧ AfterColon place p) ∨
      ∃ before inside after, '[' ∉ before ∧ ']' ∉ inside ∧
        ((place = before ++ '[' :: inside ∧ p = []) ∨ (place = before ++ '[' :: (inside ++ ']' :: after) ∧ AfterColon after p)))

/-- The number written with these digits. -/
def decimal (p : Str) : Nat := p.foldl (fun n c => 10 * n + (c.toNat - '0'.toNat)) 0

/-- The port is absent or a number up to 65535. -/
def PortOk (netloc : Str) : Prop := ∃ p, PortText netloc p ∧ (p = [] ∨ (∀ c ∈ p, '0' ≤ c ∧ c ≤ '9') ∧ decimal p ≤ 65535)

/-- The address of a link can be understood: `urllib` accepts the network location, and for `gopher:` also the port. -/
def AddressOk (u : Uni) (raw : Str) : Prop :=
  ∃ s scheme rest netloc tail, Clean raw s ∧ Schemed s scheme rest ∧ Located rest netloc tail ∧ Acceptable u netloc ∧
    (scheme = py"gopher" → PortOk netloc)

/-- The open elements after one more event, innermost first. An end tag that does not belong to the innermost element is
ignored. -/
def openAfter (st : List Str) : Event → List Str
  | .start tag _ => if VoidTag tag then st else tag :: st
  | .stop tag => if st.head? = some tag then st.tail else st
  | .data _ => st

/-- The elements that are open after some events, innermost first. -/
def openTags (es : List Event) : List Str := es.foldl openAfter []

/-- The attribute with the address of a link or image. -/
def addressAttr (tag : Str) : Str := if tag = py"a" then py"href" else py"src"

/-- A start tag is not accepted, with this exception. `inside` tells whether an element is open. -/
inductive Problem (u : Uni) (c : Cfg) (inside : Prop) (tag : Str) (attrs : List (Str × Option Str)) : PyErr → Prop where
  /-- a `class` without value -/
  | class : attrOf attrs py"class" = some none → Problem u c inside tag attrs .attributeError
  /-- an address that cannot be understood -/
  | address {raw} : attrOf attrs py"class" ≠ some none → tag = py"a" ∨ tag = py"img" →
      attrOf attrs (addressAttr tag) = some (some raw) → ¬ AddressOk u raw → Problem u c inside tag attrs .valueError
  /-- a link to be shown after the element it is in, but not in an element -/
  | place : attrOf attrs py"class" ≠ some none →
      (∀ raw, attrOf attrs (addressAttr tag) = some (some raw) → AddressOk u raw) →
      tag = py"a" ∧ c.linkPlacement = py"after_block" ∨ tag = py"img" ∧ c.imagePlacement = py"after_block" → ¬ inside →
      Problem u c inside tag attrs .attributeError

/-- No start tag among the events is a problem where it stands. -/
def Readable (u : Uni) (c : Cfg) (es : List Event) : Prop :=
  ∀ before tag attrs after e, es = before ++ .start tag attrs :: after → ¬ Problem u c (openTags before ≠ []) tag attrs e

end Verif.Spec
