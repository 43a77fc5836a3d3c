import Verif.Spec.Calendar

/-!
# The order of texts and of dates
-/

namespace Warcio

/-- Python's `s < t` for texts: by the first character that differs; a text is before its continuations. -/
inductive TextBefore : Str → Str → Prop
  | short (c t) : TextBefore [] (c :: t)
  | differ (a b s t) : a.toNat < b.toNat → TextBefore (a :: s) (b :: t)
  | same (a s t) : TextBefore s t → TextBefore (a :: s) (a :: t)

/-- `a` is an earlier moment than `b`: an earlier second, or the same second and fewer microseconds. -/
def EarlierMoment (a b : DateTime) : Prop :=
  Earlier a b ∨ (a.year = b.year ∧ a.month = b.month ∧ a.day = b.day ∧ a.hour = b.hour ∧ a.minute = b.minute ∧ a.second = b.second ∧ a.micro < b.micro)

end Warcio
