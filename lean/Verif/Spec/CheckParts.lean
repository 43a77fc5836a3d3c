import Verif.Spec.Parts
import Verif.Spec.Check

/-!
# What `warcio check` says of any uncompressed file
-/

namespace Warcio

section
variable [PyUni] [Hashlib]

/-- What is said of a record that is not a failure. -/
def Record.note {σ : Type} (rec : Record σ) (v : Option Bool) : Str :=
  if v = some true then lit "digest pass"
  else if (firstValue (lit "WARC-Payload-Digest") rec.recHeaders.headers).getD [] = [] ∧ (firstValue (lit "WARC-Block-Digest") rec.recHeaders.headers).getD [] = [] then lit "no digest to check"
  else if firstValue (lit "WARC-Type") rec.recHeaders.headers = some (lit "revisit") then lit "digest present but not checked (revisit)"
  else lit "digest present but not checked"

/-- The line for a record at `off` with the verdict `v`: a failure is listed with its problems, of which there are
some if its digests are usable; the others only if they are asked for (`verbose`). -/
inductive CheckLine {σ : Type} (verbose : Bool) (off : Int) (rec : Record σ) : Option Bool → List Checker.Print → Prop
  | bad (ps) : (rec.Usable → ps ≠ []) → CheckLine verbose off rec (some false)
      (if ps = [] then [] else [.record off (firstValue (lit "WARC-Record-ID") rec.recHeaders.headers) (firstValue (lit "WARC-Type") rec.recHeaders.headers) none ps])
  | quiet (v) : v ≠ some false → verbose = false → CheckLine verbose off rec v []
  | note (v) : v ≠ some false → verbose = true → CheckLine verbose off rec v
      [.record off (firstValue (lit "WARC-Record-ID") rec.recHeaders.headers) (firstValue (lit "WARC-Type") rec.recHeaders.headers) (some (rec.note v)) []]

/-- The check of `data`, which starts at `off` in the file: how it ends, the verdicts on the records, and the lines.
It ends where the iteration does (`Over`), or with a record whose digest headers are not usable. -/
inductive CheckedParts (io : IterOpts) (m : Nat) (verbose : Bool) : Nat → Option Format → Int → Bytes → Except PyErr Unit → List (Option Bool) → List Checker.Print → Prop
  | over (n kf off data) (e : PyErr) : Over (io.load kf (io.ids n)) m data e →
      CheckedParts io m verbose n kf off data (if e = .stopIteration then .ok () else .error e) [] []
  | broken (n kf off) (p : Portion) (rec : Record Unit) (e : PyErr) : p.Shows (io.load kf (io.ids n)) rec → ¬ rec.Usable → e ≠ .stopIteration → e ≠ .eofError → e ≠ .outOfFuel →
      CheckedParts io m verbose n kf off p.all (.error e) [] []
  | record (n kf off) (p : Portion) (rec : Record Unit) (left v line x vs out) : p.Shows (io.load kf (io.ids n)) rec → p.Parsed (io.load kf (io.ids n)) m rec left → left <:+ p.block →
      (¬ HttpType rec.recType → left = p.block) → (rec.Usable → p.Verdict rec left v) → CheckLine verbose off rec v line →
      CheckedParts io m verbose (n + 1) (if io.arc2warc then kf else some rec.format) (off + len p.bytes + len (skipped p.tail)) (resumed p.tail) x vs out →
      CheckedParts io m verbose n kf off p.all x (v :: vs) (line ++ out)

end
end Warcio
