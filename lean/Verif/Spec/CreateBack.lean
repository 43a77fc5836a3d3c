import Verif.Spec.Create
import Verif.Spec.WriteCheck

/-!
# Records that are created, written to a file, read back and checked
-/

namespace Warcio

open Builder

/-- A record that is to be created: the arguments, the time and the id that is made up, and what it is to hold: HTTP headers, if any, and the payload. -/
structure NewItem where
  env : Env
  args : CreateArgs FileObj
  http : Option StatusAndHeaders := none
  payload : Bytes

namespace NewItem

/-- The bytes of the HTTP headers. -/
def head (i : NewItem) : Bytes :=
  match i.http with
  | some h => utf8Encode (headText h.protocol h.statusline h.headers)
  | none => []

/-- The HTTP headers and the payload. -/
def block (i : NewItem) : Bytes := i.head ++ i.payload

/-- Where the HTTP headers and the payload come from: the payload stream holds a whole HTTP message; or the HTTP headers are given
apart from it; or the record is not for HTTP, and the stream holds anything; or there is no stream.  The length is given or not. -/
inductive Source (i : NewItem) : Prop
  | message (p : RecStream FileObj) (h : StatusAndHeaders) : i.http = some h → i.args.http = none → i.args.payload = some p → Holds p i.block →
      HttpRecord (some i.args.recType) (some i.args.uri) → Message i.args.recType h i.payload i.block →
      i.args.length = none ∨ i.args.length = some (len i.block) ∧ AtStart p → Source i
  | apart (p : RecStream FileObj) (h : StatusAndHeaders) : i.http = some h → i.args.http = some h → i.args.payload = some p → Holds p i.payload →
      HttpRecord (some i.args.recType) (some i.args.uri) → RegularHttp h → isAscii (headText h.protocol h.statusline h.headers) = true →
      i.args.length = none ∨ i.args.length = some (len i.payload) → Source i
  | data (p : RecStream FileObj) : i.http = none → i.args.http = none → i.args.payload = some p → Holds p i.payload →
      ¬ HttpRecord (some i.args.recType) (some i.args.uri) → i.args.length = none ∨ i.args.length = some (len i.payload) → Source i
  | nothing : i.http = none → i.args.http = none → i.args.payload = none → i.payload = [] → Source i

/-- Well-formed arguments: headers that fit on a line, a URI without spaces and brackets (there has to be one for a record with an HTTP message),
nothing twice that is set; the type is not `revisit`. -/
structure Fits [PyUni] (i : NewItem) : Prop where
  source : Source i
  alone : i.args.headers = none
  date : IsDate i.env.now ∧ i.env.now.aware = false
  id : GoodHeader (lit "WARC-Record-ID", i.env.newId)
  dict : ∀ h ∈ i.args.dict, GoodHeader h
  fits : DictFits i.args.uri i.args.dict
  oneType : AtMostOne (lit "Content-Type") i.args.dict
  type : GoodHeader (lit "WARC-Type", i.args.recType)
  new : i.args.recType ≠ lit "revisit"
  uri : GoodHeader (lit "WARC-Target-URI", i.args.uri)
  tidy : WarcRecord.TidyUri i.args.uri
  noUri : i.args.uri = [] → ¬ HttpType (some i.args.recType) ∧ values (lit "WARC-Target-URI") i.args.dict = []
  contentType : GoodHeader (lit "Content-Type", i.args.contentType)

/-- The record `rec` with `left` in its stream is what was to be created. -/
structure Back [PyUni] (f : Bytes → Bytes) (version : Str) (io : IterOpts) (m : Nat) (i : NewItem) (rec : Record Unit) (left : Bytes) : Prop where
  format : rec.format = .warc
  recType : rec.recType = some i.args.recType
  firstLine : rec.recHeaders.protocol = version ∧ rec.recHeaders.statusline = []
  headers : NewInFile f version i.env i.args.uri i.args.recType i.args.dict i.block i.payload rec.recHeaders.headers
  contentType : i.args.contentType ≠ [] → rec.contentType = some i.args.contentType
  length : rec.length = some (len i.block)
  block : io.noRecordParse = true ∨ i.http = none → left = i.block ∧ (io.ensureHttpHeaders = false → rec.httpHeaders = none)
  http : io.noRecordParse = false → ∀ h, i.http = some h → HeadWithin m i.block →
    left = i.payload ∧ rec.httpHeaders.map (fun x => (x.protocol, x.statusline, x.headers)) = some (h.protocol, h.statusline, h.headers)

/-- The records of a file, in order, from the position `off` on, with the bytes that were written for each: positions and sizes are those of the bytes,
but the two empty lines are not counted in a plain file. -/
def back [PyUni] (f : Bytes → Bytes) (version : Str) (gzip : Bool) (io : IterOpts) (m : Nat) : Int → List (NewItem × Bytes) → List Expected
  | _, [] => []
  | off, (i, z) :: t => { shows := Back f version io m i, off := off, size := if gzip then len z else len z - 4, line := m } :: back f version gzip io m (off + len z) t

/-- The digests that are given, if any, are right, and the body can be decoded. -/
structure Sound [PyUni] [Hashlib] [Zlib] (IsCoded : DType → Bytes → Bytes → Prop) (m : Nat) (i : NewItem) : Prop where
  block : ∀ v, firstValue (lit "WARC-Block-Digest") i.args.dict = some v → Outcome i.block (some v) (some true)
  payload : ∀ v, firstValue (lit "WARC-Payload-Digest") i.args.dict = some v → Outcome i.payload (some v) (some true)
  lines : (HttpRecord (some i.args.recType) (some i.args.uri) → 64 ≤ m) ∧ (i.http ≠ none → HeadWithin m i.block)
  body : ∀ h, i.http = some h → ∃ x, BodyData IsCoded (firstValue (lit "content-encoding") h.headers) (firstValue (lit "transfer-encoding") h.headers) i.payload x

end NewItem

/-- What `warcio check` prints of records (id, type) that are right: nothing, or a line for each if that is asked for; the line says so for those that have to pass. -/
def AllRight (verbose : Bool) (name : Str) (rs : List (Str × Str × Prop)) (out : List Checker.Print) : Prop :=
  if verbose then ∃ lines, out = checkReport name lines false ∧
    Each (fun x p => ∃ off note, p = .record off (some x.1) (some x.2.1) (some note) [] ∧ (x.2.2 → note = lit "digest pass")) rs lines
  else out = []

/-- What is to be said of a new record: its id, its type; it has to pass if it has a block, or a payload digest that is looked at. -/
def NewItem.said [PyUni] (i : NewItem) : Str × Str × Prop :=
  ((firstValue (lit "WARC-Record-ID") i.args.dict).getD i.env.newId, i.args.recType,
    i.block ≠ [] ∨ i.args.recType ≠ lit "warcinfo" ∧ firstValue (lit "WARC-Segment-Number") i.args.dict = none)

end Warcio
