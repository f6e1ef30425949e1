import Verif.Spec.Wrap

/-!
# What a line limit leaves of a text
-/

namespace Verif.Spec

/-- This beginning of the last line ends with a word and leaves room for the placeholder. -/
def CanEnd (u : Uni) (o : WrapOpts) (ind : Str) (p : List Str) : Prop :=
  (∃ w, p.getLast? = some w ∧ ¬ Blank w) ∧ visible u p + len o.placeholder ≤ o.width - len ind

/-- `r` is the text without the whitespace at its end, at its beginning. -/
def EndTrimmed (s r : Str) : Prop := ∃ t, s = r ++ t ∧ Blank t ∧ ¬ EndsWs r
def StartTrimmed (s r : Str) : Prop := ∃ t, s = t ++ r ∧ Blank t ∧ ¬ StartsWs r

/-- How a text is cut whose next line after the lines `kept` would hold `cur`: the placeholder comes after as many words
of this line as leave room for it; if none does, at the end of the line before; if it does not fit there or there is no such line, on
a line of its own. -/
inductive CutAfter (u : Uni) (o : WrapOpts) (kept cur : List Str) : List Str → Prop where
  | words {p : List Str} (hp : p <+: cur) (he : CanEnd u o (indentAfter o kept) p)
      (hmax : ∀ q, q <+: cur → CanEnd u o (indentAfter o kept) q → q.length ≤ p.length) :
      CutAfter u o kept cur (kept ++ [indentAfter o kept ++ p.flatten ++ o.placeholder])
  | before {last r : Str} (hno : ∀ q, q <+: cur → ¬ CanEnd u o (indentAfter o kept) q) (hl : kept.getLast? = some last) (hr : EndTrimmed last r)
      (hf : VisibleLe u r (o.width - len o.placeholder)) : CutAfter u o kept cur (kept.dropLast ++ [r ++ o.placeholder])
  | alone {r : Str} (hno : ∀ q, q <+: cur → ¬ CanEnd u o (indentAfter o kept) q)
      (hf : ∀ last t, kept.getLast? = some last → EndTrimmed last t → ¬ VisibleLe u t (o.width - len o.placeholder))
      (hr : StartTrimmed o.placeholder r) : CutAfter u o kept cur (kept ++ [indentAfter o kept ++ r])

end Verif.Spec
