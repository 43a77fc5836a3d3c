import Verif.Spec.GzParts
import Verif.Spec.CheckParts
import Verif.Spec.Many

/-!
# What `warcio index` and `warcio check` say of any file of gzip members
-/

namespace Warcio

section
variable [PyUni] [Hashlib]

/-- How a tool ends behind the first record of the last member, with `data` left in this member. -/
def EndsWith (io : IterOpts) (m : Nat) (n : Nat) (kf : Option Format) (data : Bytes) (x : Except PyErr Unit) : Prop :=
  (∃ e, Over (io.load kf (io.ids n)) m data e ∧ x = if e = .stopIteration then .ok () else .error e) ∨
  (x = .error .nonChunkedGzip ∧ ∃ (p : Portion) (rec : Record Unit), data = p.all ∧ p.Shows (io.load kf (io.ids n)) rec)

/-- The index of members, each of them given with what it holds; the first one starts at `off` in
the file: how it ends, and its lines.  There is one line for each member.  After a member that is not the
last one and has more than one record, or no record but no error either, nothing is said. -/
inductive GzIndexed (io : IterOpts) (m : Nat) (file : Str) (fields : List Str) : Nat → Int → List (Bytes × Bytes) → Except PyErr Unit → List (List (Str × Str)) → Prop
  | nil (n off) : GzIndexed io m file fields n off [] (.ok ()) []
  | over (n off) (z data : Bytes) (ms) (e : PyErr) : Over (io.load none (io.ids n)) m data e → e ≠ .stopIteration ∨ ms = [] →
      GzIndexed io m file fields n off ((z, data) :: ms) (if e = .stopIteration then .ok () else .error e) []
  | record (n off) (z : Bytes) (p : Portion) (ms rec left x es) : p.Shows (io.load none (io.ids n)) rec → p.Parsed (io.load none (io.ids n)) m rec left → resumed p.tail = [] →
      GzIndexed io m file fields (n + 1) (off + len z) ms x es → GzIndexed io m file fields n off ((z, p.all) :: ms) x (rec.entry off (len z) file fields :: es)
  | several (n off) (z : Bytes) (p : Portion) (ms rec left size x es) : p.Shows (io.load none (io.ids n)) rec → p.Parsed (io.load none (io.ids n)) m rec left → resumed p.tail ≠ [] →
      (ms = [] → es = [] ∧ EndsWith io m (n + 1) none (resumed p.tail) x) → GzIndexed io m file fields n off ((z, p.all) :: ms) x (rec.entry off size file fields :: es)
  | hollow (n off) (z data : Bytes) (ms x es) : ms ≠ [] → Over (io.load none (io.ids n)) m data .stopIteration → GzIndexed io m file fields n off ((z, data) :: ms) x es

/-- The check of members: how it ends, the verdicts on the records, and the lines. -/
inductive GzChecked (io : IterOpts) (m : Nat) (verbose : Bool) : Nat → Option Format → Int → List (Bytes × Bytes) → Except PyErr Unit → List (Option Bool) → List Checker.Print → Prop
  | nil (n kf off) : GzChecked io m verbose n kf off [] (.ok ()) [] []
  | over (n kf off) (z data : Bytes) (ms) (e : PyErr) : Over (io.load kf (io.ids n)) m data e → e ≠ .stopIteration ∨ ms = [] →
      GzChecked io m verbose n kf off ((z, data) :: ms) (if e = .stopIteration then .ok () else .error e) [] []
  | broken (n kf off) (z : Bytes) (p : Portion) (ms) (rec : Record Unit) (e : PyErr) : p.Shows (io.load kf (io.ids n)) rec → ¬ rec.Usable → e ≠ .stopIteration → e ≠ .eofError → e ≠ .outOfFuel →
      GzChecked io m verbose n kf off ((z, p.all) :: ms) (.error e) [] []
  | record (n kf off) (z : Bytes) (p : Portion) (ms) (rec : Record Unit) (left v line x vs out) : p.Shows (io.load kf (io.ids n)) rec → p.Parsed (io.load kf (io.ids n)) m rec left → left <:+ p.block →
      (¬ HttpType rec.recType → left = p.block) → (rec.Usable → p.Verdict rec left v) → CheckLine verbose off rec v line → resumed p.tail = [] →
      GzChecked io m verbose (n + 1) (if io.arc2warc then kf else some rec.format) (off + len z) ms x vs out → GzChecked io m verbose n kf off ((z, p.all) :: ms) x (v :: vs) (line ++ out)
  | several (n kf off) (z : Bytes) (p : Portion) (ms) (rec : Record Unit) (left v line x vs out) : p.Shows (io.load kf (io.ids n)) rec → p.Parsed (io.load kf (io.ids n)) m rec left → left <:+ p.block →
      (¬ HttpType rec.recType → left = p.block) → (rec.Usable → p.Verdict rec left v) → CheckLine verbose off rec v line → resumed p.tail ≠ [] →
      (ms = [] → vs = [] ∧ out = [] ∧ EndsWith io m (n + 1) (if io.arc2warc then kf else some rec.format) (resumed p.tail) x) →
      GzChecked io m verbose n kf off ((z, p.all) :: ms) x (v :: vs) (line ++ out)
  | hollow (n kf off) (z data : Bytes) (ms x vs out) : ms ≠ [] → Over (io.load kf (io.ids n)) m data .stopIteration → GzChecked io m verbose n kf off ((z, data) :: ms) x vs out

/-- A file together with the members of which it consists, or none if it is not compressed. -/
abbrev Kept := FileObj × Option (List (Bytes × Bytes))

/-- The check of a file. -/
def Kept.Checked (m : Nat) (verbose : Bool) (i : Kept) (x : Except PyErr Unit) (vs : List (Option Bool)) (lines : List Checker.Print) : Prop :=
  match i with
  | (f, none) => CheckedParts { checkDigests := some .other } m verbose 0 none f.origin f.rest x vs lines
  | (f, some ms) => GzChecked { checkDigests := some .other } m verbose 0 none f.origin ms x vs lines

/-- The index of a file. -/
def Kept.Indexed (io : IterOpts) (m : Nat) (base : Str) (fields : List Str) (i : Kept) (x : Except PyErr Unit) (es : List (List (Str × Str))) : Prop :=
  match i with
  | (f, none) => Warcio.Indexed io m base fields 0 f.origin f.rest x es
  | (f, some ms) => GzIndexed io m base fields 0 f.origin ms x es

/-- The check of files: whether there was a failure, and what is printed.  A file that cannot be
read is a failure and named as such; another exception ends the check. -/
inductive CheckedFiles (m : Nat) (verbose : Bool) : List (Str × Kept) → Except PyErr Bool → List Checker.Print → Prop
  | nil : CheckedFiles m verbose [] (.ok false) []
  | read (name f vs lines t y out) : Kept.Checked m verbose f (.ok ()) vs lines → CheckedFiles m verbose t y out →
      CheckedFiles m verbose ((name, f) :: t) (y.map (fun b => decide (some false ∈ vs) || b)) (behindName name lines ++ out)
  | failed (name f e vs lines t y out) : Kept.Checked m verbose f (.error e) vs lines → e.isArchiveLoadFailed = true →
      CheckedFiles m verbose t y out → CheckedFiles m verbose ((name, f) :: t) (y.map (fun _ => true)) (behindName name lines ++ .failure name :: out)
  | crashed (name f e vs lines t) : Kept.Checked m verbose f (.error e) vs lines → e.isArchiveLoadFailed = false →
      CheckedFiles m verbose ((name, f) :: t) (.error e) (behindName name lines)

/-- The index of files: how it ends, and the entries.  Any exception ends it, behind the entries
of the records before it. -/
inductive IndexedFiles (io : IterOpts) (m : Nat) (fields : List Str) : List (Str × Kept) → Except PyErr Unit → List (List (Str × Str)) → Prop
  | nil : IndexedFiles io m fields [] (.ok ()) []
  | read (name base f es t y es') : IsBasename name base → Kept.Indexed io m base fields f (.ok ()) es → IndexedFiles io m fields t y es' →
      IndexedFiles io m fields ((name, f) :: t) y (es ++ es')
  | crashed (name base f e es t) : IsBasename name base → Kept.Indexed io m base fields f (.error e) es →
      IndexedFiles io m fields ((name, f) :: t) (.error e) es

end
end Warcio
