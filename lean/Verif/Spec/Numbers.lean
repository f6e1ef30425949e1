import Verif.Spec.Ansi

/-!
# Which texts are numbers
-/

namespace Verif.Spec

/-- A digit of the base (10 or 16). -/
def DigitOf (base : Nat) (c : Char) (v : Nat) : Prop := Hex c v ∧ v < base

/-- Digits, each perhaps after one underscore, that go on from the number `acc`. -/
inductive MoreDigits (base : Nat) : (acc : Nat) → Str → (n : Nat) → Prop where
  | done {acc} : MoreDigits base acc [] acc
  | digit {acc c v s n} : DigitOf base c v → MoreDigits base (base * acc + v) s n → MoreDigits base acc (c :: s) n
  | after {acc c v s n} : DigitOf base c v → MoreDigits base (base * acc + v) s n → MoreDigits base acc ('_' :: c :: s) n

/-- A number without sign: digits, which do not begin with an underscore. -/
def Digits (base : Nat) (s : Str) (n : Nat) : Prop := ∃ c v r, s = c :: r ∧ DigitOf base c v ∧ MoreDigits base v r n

/-- The same with a prefix if the base is 16: `0x`, perhaps with an underscore after it. -/
def Unsigned (base : Nat) (s : Str) (n : Nat) : Prop :=
  Digits base s n ∨ base = 16 ∧ ∃ x t, (x = 'x' ∨ x = 'X') ∧ Digits 16 t n ∧ (s = '0' :: x :: t ∨ s = '0' :: x :: '_' :: t)

/-- An integer: a number, perhaps with a sign directly before it, and whitespace around it. -/
inductive IntText (base : Nat) : Str → Int → Prop where
  | plain {a b t : Str} {n : Nat} : Blank a → Blank b → Unsigned base t n → IntText base (a ++ t ++ b) n
  | plus {a b t : Str} {n : Nat} : Blank a → Blank b → Unsigned base t n → IntText base (a ++ '+' :: t ++ b) n
  | minus {a b t : Str} {n : Nat} : Blank a → Blank b → Unsigned base t n → IntText base (a ++ '-' :: t ++ b) (-n)

end Verif.Spec
