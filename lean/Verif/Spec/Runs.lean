import Verif.Py.Basic

/-!
# Gzip members whose data can be read in blocks
-/

namespace Warcio

/-- No run of consecutive members that ends before the last member holds a multiple of `n` bytes.  So no member but the last one
is empty. -/
def NoRun (n : Nat) : List Bytes → Prop
  | [] => True
  | d :: ds => (∀ i < ds.length, (d.length + (ds.take i).flatten.length) % n ≠ 0) ∧ NoRun n ds

instance (n : Nat) : ∀ ds, Decidable (NoRun n ds)
  | [] => inferInstanceAs (Decidable True)
  | _ :: ds => haveI := instDecidableNoRun n ds; inferInstanceAs (Decidable (_ ∧ _))

end Warcio
