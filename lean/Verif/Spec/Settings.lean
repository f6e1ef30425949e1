import Verif.Model.Renderers

/-!
# Inheritance of settings
-/

namespace Verif.Spec

/-- The value of a setting for a class: what the class declares itself, otherwise the value for its base class. -/
inductive Inherits : RClass → Str → Option Val → Prop where
  | own {c k v} (h : DictOf.get c.ownSettings k = some v) : Inherits c k (some v)
  | up {c b k v} (h : DictOf.get c.ownSettings k = none) (hb : c.base = some b) (hi : Inherits b k v) : Inherits c k v
  | top {c k} (h : DictOf.get c.ownSettings k = none) (hb : c.base = none) : Inherits c k none

/-- `a` is `c` or one of its base classes. -/
inductive Derives : RClass → RClass → Prop where
  | refl {c} : Derives c c
  | step {c b a} (hb : c.base = some b) (h : Derives b a) : Derives c a

/-- No class of the hierarchy that declares `k` repeats the whole declaration of one of its own base classes. -/
def NoRepeat (c : RClass) (k : Str) : Prop :=
  ∀ a b x, Derives c a → a.base = some x → Derives x b → Dict.pyEq a.ownSettings b.ownSettings = true →
    DictOf.get a.ownSettings k = none

/-- The declarations are dicts. -/
def DictSettings (c : RClass) : Prop := ∀ a, Derives c a → (a.ownSettings.map Prod.fst).Nodup

end Verif.Spec
