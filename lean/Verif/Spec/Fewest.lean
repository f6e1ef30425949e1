import Verif.Spec.Wrap

/-!
# Ways to put pieces of text on lines
-/

namespace Verif.Spec

/-- The columns for text on line `k`. -/
def lineRoom (o : WrapOpts) (k : Nat) : Int := o.width - len (if k = 0 then o.initialIndent else o.subsequentIndent)

/-- `Arranged u o k cs n`: the chunks `cs` can be put on `n` lines, the first of which is line `k`. At a line break one whitespace chunk
can be left out if whitespace is dropped, and so can whitespace at the end of the text. -/
inductive Arranged (u : Uni) (o : WrapOpts) : Nat → List Str → Nat → Prop where
  | done {k} : Arranged u o k [] 0
  | drop {k w} : o.dropWs = true → Blank w → Arranged u o k [w] 0
  | line {k n} {skipped taken rest : List Str} : (skipped = [] ∨ o.dropWs = true ∧ 0 < k ∧ ∃ w, skipped = [w] ∧ Blank w) → taken ≠ [] →
      visible u taken ≤ lineRoom o k → Arranged u o (k + 1) rest n → Arranged u o k (skipped ++ (taken ++ rest)) (n + 1)

/-- `Grouped u o k ws gs`: the words `ws` are put on lines as these groups, with one blank between words; the first is line `k`. -/
inductive Grouped (u : Uni) (o : WrapOpts) : Nat → List Str → List (List Str) → Prop where
  | done {k} : Grouped u o k [] []
  | line {k} {g ws : List Str} {gs : List (List Str)} : g ≠ [] → visible u g + (g.length - 1) ≤ lineRoom o k → Grouped u o (k + 1) ws gs →
      Grouped u o k (g ++ ws) (g :: gs)

end Verif.Spec
