import Verif.Spec.Archive

/-!
# What an index of an archive holds
-/

namespace Warcio

section
variable [PyUni]

/-- The HTTP headers of a record with this block, with lines of at most `m` bytes, or that it has none. -/
inductive HttpPartOf (http : Prop) (block : Bytes) (m : Nat) : Option StatusAndHeaders → Prop
  | none : ¬ http ∨ block = [] → HttpPartOf http block m none
  | head (h : StatusAndHeaders) (left : Bytes) : http → HeadWithin m block → lineText (takeLine block) ≠ [] → HttpHead block h left →
      h.statusline ≠ [] ∨ h.headers ≠ [] → HttpPartOf http block m (some h)

/-- The HTTP headers of a WARC record. -/
def WarcRecord.HttpPart (w : WarcRecord) (m : Nat) : Option StatusAndHeaders → Prop := HttpPartOf w.Http w.block m

/-- A record in a file: where it is, how many bytes it takes there, and its HTTP headers. -/
structure Located where
  record : WarcRecord
  offset : Int
  size : Int
  http : Option StatusAndHeaders

/-- A URI without brackets around it and without spaces. -/
def tidied : Str → Str
  | '<' :: t => if t.getLast? = some '>' then noSpaces t.dropLast else noSpaces ('<' :: t)
  | u => noSpaces u

/-- The value of a field of the index: a position, the name of the file, a part of the HTTP headers, or a
header of the record (the URI without brackets and spaces). -/
def Located.field (x : Located) (file name : Str) : Option Str :=
  if name = lit "offset" then some (intToStr x.offset)
  else if name = lit "length" then some (intToStr x.size)
  else if name = lit "filename" then some file
  else if name = lit "http:status" then
    if x.record.value (lit "WARC-Type") ∈ [some (lit "response"), some (lit "revisit")] then x.http.map (fun h => (split1 ' ' h.statusline).1) else none
  else if lit "http:" <+: name then x.http.bind (fun h => firstValue (name.drop 5) h.headers)
  else if PyUni.lower name = PyUni.lower (lit "WARC-Target-URI") then (x.record.value name).map tidied
  else x.record.value name

/-- The entry of a record: the fields that it has, each once, in the order in which they were asked for first. -/
def Located.entry (x : Located) (file : Str) (fields : List Str) : List (Str × Str) :=
  fields.eraseDups.filterMap (fun n => (x.field file n).map (fun v => (n, v)))

/-- Records one after the other. -/
def placements : Int → List (WarcRecord × Option StatusAndHeaders) → List Located
  | _, [] => []
  | off, (w, http) :: t => ⟨w, off, len (w.head ++ w.block), http⟩ :: placements (off + len w.bytes) t

/-- Records each in a gzip member. -/
def placementsGz : Int → List (Bytes × WarcRecord × Option StatusAndHeaders) → List Located
  | _, [] => []
  | off, (z, w, http) :: t => ⟨w, off, len z, http⟩ :: placementsGz (off + len z) t

/-- What is behind the last `/`. -/
def IsBasename (path base : Str) : Prop := '/' ∉ base ∧ (path = base ∨ ∃ dir, path = dir ++ '/' :: base)

end
end Warcio
