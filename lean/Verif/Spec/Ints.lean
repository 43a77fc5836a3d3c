import Verif.Py.Basic

/-! # What `int(s)` accepts -/

namespace Warcio

/-- Decimal digits with single underscores between them, and their value. -/
inductive DigitStr [PyUni] : Str → Nat → Prop
  | one {c d} : PyUni.decimal c = some d → DigitStr [c] d
  | snoc {s n c d} : DigitStr s n → PyUni.decimal c = some d → DigitStr (s ++ [c]) (10 * n + d)
  | under {s n c d} : DigitStr s n → PyUni.decimal c = some d → DigitStr (s ++ ['_', c]) (10 * n + d)

/-- An optional sign and digits, with whitespace around them. -/
inductive PyInt [PyUni] : Str → Int → Prop
  | pos {a b t n} : (∀ c ∈ a, intSpace c = true) → (∀ c ∈ b, intSpace c = true) → DigitStr t n → PyInt (a ++ t ++ b) n
  | plus {a b t n} : (∀ c ∈ a, intSpace c = true) → (∀ c ∈ b, intSpace c = true) → DigitStr t n → PyInt (a ++ '+' :: t ++ b) n
  | minus {a b t n} : (∀ c ∈ a, intSpace c = true) → (∀ c ∈ b, intSpace c = true) → DigitStr t n → PyInt (a ++ '-' :: t ++ b) (-n)

end Warcio
