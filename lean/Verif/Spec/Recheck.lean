import Verif.Spec.Check

/-!
# What `check` may say of a file that was recompressed (C83)
-/

namespace Warcio

/-- The verdict `v'` on a rewritten record goes with the verdict `v` on the record: the one is a failure if the other one is, and what was right
stays right.  (Where nothing was known, digests may have been added, and they are right.) -/
def KeptVerdict (v v' : Option Bool) : Prop := (v' = some false ↔ v = some false) ∧ (v = some true → v' = some true)

/-- The records that are reported as failures: their IDs and types. -/
def failures : List Checker.Print → List (Option Str × Option Str)
  | [] => []
  | .record _ id type none _ :: t => (id, type) :: failures t
  | _ :: t => failures t

/-- The file could not be read. -/
def unreadable : List Checker.Print → Bool
  | [] => false
  | .failure _ :: _ => true
  | _ :: t => unreadable t

end Warcio
