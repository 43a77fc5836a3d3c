import Verif.Spec.Again
import Verif.Spec.ArcTools
import Verif.Spec.Recheck

/-!
# What is expected of an ARC file that was turned into a WARC file (C86)
-/

namespace Warcio

/-- How many records are said to have right digests. -/
def passes : List Checker.Print → Nat
  | [] => 0
  | .record _ _ _ (some s) _ :: t => (if s = lit "digest pass" then 1 else 0) + passes t
  | _ :: t => passes t

/-- The date of the record is that of a date from 1900 to 2999. -/
def ArcRecord.Timed (a : ArcRecord) : Prop := ∃ e, IsDate e ∧ 1900 ≤ e.year ∧ e.year ≤ 2999 ∧ a.date = datetimeToTimestamp e

end Warcio
