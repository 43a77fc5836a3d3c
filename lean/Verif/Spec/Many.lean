import Verif.Spec.CheckParts
import Verif.Spec.Index
import Verif.Spec.Json
import Verif.Proofs.OpenArchive

/-!
# What `warcio check` and `warcio index` say of any uncompressed files
-/

namespace Warcio

section
variable [PyUni] [Hashlib]

/-- The lines for the records of a file, behind its name if there are any. -/
def behindName (name : Str) (lines : List Checker.Print) : List Checker.Print := if lines = [] then [] else .file name :: lines

/-- The check of files: whether there was a failure, and what is printed.  A file that cannot be
read is a failure and named as such; another exception ends the check. -/
inductive CheckedAll (m : Nat) (verbose : Bool) : List (Str × FileObj) → Except PyErr Bool → List Checker.Print → Prop
  | nil : CheckedAll m verbose [] (.ok false) []
  | read (name f vs lines t y out) : CheckedParts { checkDigests := some .other } m verbose 0 none f.origin f.rest (.ok ()) vs lines → CheckedAll m verbose t y out →
      CheckedAll m verbose ((name, f) :: t) (y.map (fun b => decide (some false ∈ vs) || b)) (behindName name lines ++ out)
  | failed (name f e vs lines t y out) : CheckedParts { checkDigests := some .other } m verbose 0 none f.origin f.rest (.error e) vs lines → e.isArchiveLoadFailed = true →
      CheckedAll m verbose t y out → CheckedAll m verbose ((name, f) :: t) (y.map (fun _ => true)) (behindName name lines ++ .failure name :: out)
  | crashed (name f e vs lines t) : CheckedParts { checkDigests := some .other } m verbose 0 none f.origin f.rest (.error e) vs lines → e.isArchiveLoadFailed = false →
      CheckedAll m verbose ((name, f) :: t) (.error e) (behindName name lines)

/-- The index of files: how it ends, and the entries.  Any exception ends it, behind the entries
of the records before it. -/
inductive IndexedAll (io : IterOpts) (m : Nat) (fields : List Str) : List (Str × FileObj) → Except PyErr Unit → List (List (Str × Str)) → Prop
  | nil : IndexedAll io m fields [] (.ok ()) []
  | read (name base f es t y es') : IsBasename name base → Indexed io m base fields 0 f.origin f.rest (.ok ()) es → IndexedAll io m fields t y es' →
      IndexedAll io m fields ((name, f) :: t) y (es ++ es')
  | crashed (name base f e es t) : IsBasename name base → Indexed io m base fields 0 f.origin f.rest (.error e) es →
      IndexedAll io m fields ((name, f) :: t) (.error e) es

end
end Warcio
