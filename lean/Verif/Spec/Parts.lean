import Verif.Spec.Rewrite

/-!
# Any uncompressed file, cut into records

What an iteration over a file does to the bytes of the file, whatever these are.
-/

namespace Warcio

/-- A line of white space. -/
def blankLine (l : Bytes) : Bool := l.all (fun b => decide (b ∈ ([9, 10, 11, 12, 13, 32] : Bytes)))

/-- What is skipped behind a block: the first line, whatever it is, and the blank lines behind it. -/
def skipped (tl : Bytes) : Bytes := ((splitLines tl).take 1 ++ ((splitLines tl).drop 1).takeWhile blankLine).flatten

/-- What is left behind that. -/
def resumed (tl : Bytes) : Bytes := (((splitLines tl).drop 1).dropWhile blankLine).flatten

/-- The line that is worth a warning: the first one, if it is not blank. -/
def strayLines (tl : Bytes) : List Bytes := ((splitLines tl).take 1).filter (fun l => !blankLine l)

/-- Some of the bytes, as many as are declared; all of them if nothing is. -/
def declaredPart (n : Option Int) (left : Bytes) : Bytes :=
  match n with
  | none => left
  | some n => left.take n.toNat

/-- One record of a file: its header block and its block, and what is behind it in the file. -/
structure Portion where
  head : Bytes
  block : Bytes
  tail : Bytes

/-- All of the bytes from the record on. -/
def Portion.all (p : Portion) : Bytes := p.head ++ p.block ++ p.tail

/-- The bytes of the record. -/
def Portion.bytes (p : Portion) : Bytes := p.head ++ p.block

section
variable [PyUni] [Hashlib]

/-- Its headers name digests that can be compared with data: there is a verdict for any data. -/
def Record.Usable {σ : Type} (rec : Record σ) : Prop :=
  DigestsUsable rec.recType (firstValue (lit "WARC-Segment-Number") rec.recHeaders.headers) (firstValue (lit "WARC-Block-Digest") rec.recHeaders.headers)
    (firstValue (lit "WARC-Payload-Digest") rec.recHeaders.headers)

/-- The digest headers of the record that are looked at: for the block and for the payload. -/
def Record.digests {σ : Type} (rec : Record σ) : Option Str × Option Str :=
  lookedAt rec.recType (firstValue (lit "WARC-Segment-Number") rec.recHeaders.headers) (firstValue (lit "WARC-Block-Digest") rec.recHeaders.headers)
    (firstValue (lit "WARC-Payload-Digest") rec.recHeaders.headers)

/-- `v` is the verdict on the record, whose payload is `left`: none if no length is declared; if the block
is cut off, nothing but that a digest is of no known kind; otherwise what the digest headers say. -/
def Portion.Verdict {σ : Type} (p : Portion) (rec : Record σ) (left : Bytes) (v : Option Bool) : Prop :=
  match rec.length with
  | none => v = none
  | some n =>
    if len p.block < n then v ≠ some true ∧ (v = some false ↔ UnknownDigest rec.digests.1 ∨ UnknownDigest rec.digests.2)
    else ∀ ob op, BlockOutcome p.block rec.digests.1 ob → Outcome left rec.digests.2 op → v = overall ob op

/-- What the loader says of `data` when it is run on these bytes and nothing else: a header block
`p.head`, which `rec` shows; `p.block` is what is declared. -/
structure Portion.Shows (o : LoadOpts) (p : Portion) (rec : Record Unit) : Prop where
  head : ∃ f h, Loader.detectType o p.all none = (.ok (f, h), p.block ++ p.tail) ∧ rec.format = (Loader.fields f h).format ∧
    rec.recType = (Loader.fields f h).recType ∧ rec.recHeaders = (Loader.fields f h).headers ∧ rec.contentType = (Loader.fields f h).contentType ∧
    rec.length = Loader.blockLength (Loader.fields f h).length (Loader.fields f h).subLen
  bare : o.noRecordParse = true ∨ ¬ HttpType rec.recType → rec.payloadLength = some (-1) ∧
    rec.httpHeaders = if o.ensureHttpHeaders then some (Loader.defaultHttpHeaders rec.length rec.contentType) else none
  checker : rec.checker = { kind := o.checkDigests.getD .other }
  some : p.head ≠ []
  block : p.block = declaredPart rec.length (p.block ++ p.tail)

/-- What the loader makes of the block when it is run on these bytes and nothing else: the HTTP
headers, and what is left behind them in the stream of the record.  This is for blocks whose header
lines have at most `m` bytes, and if digests are not checked or are usable. -/
def Portion.Parsed (o : LoadOpts) (m : Nat) (p : Portion) (rec : Record Unit) (left : Bytes) : Prop :=
  (o.checkDigests = none ∨ (o.checkDigests ≠ Option.some .raise ∧ rec.Usable)) → HeadWithin m p.block → ∀ f h, Loader.detectType o p.all none = (.ok (f, h), p.block ++ p.tail) →
    ∃ http, (if o.noRecordParse then (.ok none, p.block) else Loader.loadHttpHeaders o.verifyHttp (Loader.fields f h).recType (Loader.fields f h).uri rec.length p.block) = (.ok http, left) ∧
      rec.httpHeaders = (if !Loader.truthyHeaders http && o.ensureHttpHeaders then Option.some (Loader.defaultHttpHeaders rec.length rec.contentType) else http) ∧
      rec.payloadLength = Option.some (match rec.length with
        | Option.some n => if n ≠ 0 ∧ Loader.truthyHeaders http then n - (len p.block - len left) else -1
        | none => -1)

/-- The block of the record at the front of `data`. -/
def blockAt (o : LoadOpts) (data : Bytes) : Bytes :=
  match Loader.detectType o data none with
  | (.ok (f, h), left) => declaredPart (Loader.blockLength (Loader.fields f h).length (Loader.fields f h).subLen) left
  | _ => []

/-- What an operation on a record gives while its stream holds `left`, and `left'` afterwards: the
position and size of the record in the file, the next bytes of the stream, and the warnings
written before the record and, perhaps, behind it.  Only the check of a digest raises. -/
def Portion.Answer (io : IterOpts) (p : Portion) (off : Int) (ws : List (Int × Bytes)) (left : Bytes) (op : UserOp) (v : Except PyErr UserVal)
    (left' : Bytes) : Prop :=
  (io.checkDigests.isSome = true ∧ (∃ e, v = .error e) ∧ op ≠ .errors ∧ left' <:+ left) ∨
  match op with
  | .call c => ∃ q, v = .ok (.bytes q) ∧ left = q ++ left' ∧ (q = [] → left = [] ∨ c.arg = some 0) ∧ (∀ n, c = .read n → q = c.expect left)
  | .offset => v = .ok (.int off) ∧ left' = []
  | .size => v = .ok (.int (len p.bytes)) ∧ left' = []
  | .toEnd => v = .ok .unit ∧ left' = []
  | .errors => left' = left ∧ ∃ out, v = .ok (.warned out.length out) ∧ (out = ws ∨ out = ws ++ (strayLines p.tail).map (fun l => (off + len p.bytes, l)))

/-- A list of operations. -/
inductive Portion.Answers (io : IterOpts) (p : Portion) (off : Int) (ws : List (Int × Bytes)) : Bytes → List UserOp → List (Except PyErr UserVal) → Prop
  | nil (left) : Portion.Answers io p off ws left [] []
  | cons (left op v left' ops vs) : p.Answer io off ws left op v left' → Portion.Answers io p off ws left' ops vs →
      Portion.Answers io p off ws left (op :: ops) (v :: vs)

/-- The headers name digests that can be compared with data. -/
def Loader.Fields.Usable (f : Loader.Fields) : Prop :=
  DigestsUsable f.recType (firstValue (lit "WARC-Segment-Number") f.headers.headers) (firstValue (lit "WARC-Block-Digest") f.headers.headers)
    (firstValue (lit "WARC-Payload-Digest") f.headers.headers)

/-- What the first line of a request, or of a response, may start with. -/
def statusStarts (recType : Option Str) : List Str :=
  if recType = some (lit "request") then [lit "GET", lit "HEAD", lit "POST", lit "PUT", lit "DELETE", lit "TRACE", lit "OPTIONS", lit "CONNECT", lit "PATCH"]
  else [lit "HTTP/1.0", lit "HTTP/1.1"]

/-- A first line that is not blank, and neither that of a request nor that of a response. -/
def BadStatus (recType : Option Str) (line : Str) : Prop := line ≠ [] ∧ ∀ v ∈ statusStarts recType, ¬ v <+: PyUni.upper line

/-- `HttpVerified recType block h left`: the block starts with the first line of a request or a
response, `h` is what this line and the headers behind it say, and `left` follows the first
blank line. -/
structure HttpVerified (recType : Option Str) (block : Bytes) (h : StatusAndHeaders) (left : Bytes) : Prop where
  known : h.protocol ∈ statusStarts recType
  protocol : h.protocol <+: PyUni.upper (lineText (takeLine block))
  status : h.statusline = strip ((lineText (takeLine block)).drop h.protocol.length)
  headers : h.headers = headersOf (readBlock (splitLines (dropLine block))).1
  left : left = (readBlock (splitLines (dropLine block))).2.1.flatten

/-- Why there is no further record in `data`: it is empty; its beginning is no header block; or the
header block is followed by nothing where an HTTP message is to be, a digest is unusable or failures
are to be raised, the HTTP status line is to be verified and is not one, or the URI is missing.  That
the status line is none is told for blocks whose header lines have at most `m` bytes. -/
inductive Over (o : LoadOpts) (m : Nat) (data : Bytes) : PyErr → Prop
  | empty : data = [] → Over o m data .stopIteration
  | head (e : PyErr) (left : Bytes) : data ≠ [] → Loader.detectType o data none = (.error e, left) → e ≠ .stopIteration → e ≠ .eofError → Over o m data e
  | bare (f h) : data ≠ [] → Loader.detectType o data none = (.ok (f, h), []) → o.noRecordParse = false → HttpRecord (Loader.fields f h).recType (Loader.fields f h).uri →
      (Loader.fields f h).recType ≠ some (lit "revisit") → Loader.blockLength (Loader.fields f h).length (Loader.fields f h).subLen ≠ some 0 → Over o m data .stopIteration
  | digest (e : PyErr) (f h left) : data ≠ [] → Loader.detectType o data none = (.ok (f, h), left) → e ≠ .stopIteration → e ≠ .eofError → o.checkDigests.isSome = true →
      o.checkDigests = some .raise ∨ ¬ (Loader.fields f h).Usable → Over o m data e
  | status (l f h left) : data ≠ [] → Loader.detectType o data none = (.ok (f, h), left) → o.noRecordParse = false → o.verifyHttp = true →
      ((o.checkDigests = none ∨ (o.checkDigests ≠ some .raise ∧ (Loader.fields f h).Usable)) → HeadWithin m (declaredPart (Loader.blockLength (Loader.fields f h).length (Loader.fields f h).subLen) left) →
        HttpRecord (Loader.fields f h).recType (Loader.fields f h).uri ∧ l = decodeHeader (takeLine (declaredPart (Loader.blockLength (Loader.fields f h).length (Loader.fields f h).subLen) left)) ∧
          BadStatus (Loader.fields f h).recType (lineText (takeLine (declaredPart (Loader.blockLength (Loader.fields f h).length (Loader.fields f h).subLen) left)))) → Over o m data (.statusParser l)
  | uri (f h left) : data ≠ [] → Loader.detectType o data none = (.ok (f, h), left) → o.noRecordParse = false → HttpType (Loader.fields f h).recType → (Loader.fields f h).uri = none →
      Loader.blockLength (Loader.fields f h).length (Loader.fields f h).subLen ≠ some 0 → Over o m data .attributeError

/-- An iteration over `data`, which starts at `off` in the file: each record is at the front of
what is left, and the next one is behind the lines that are skipped.  `n` records have been
loaded, and `ws` are the warnings. -/
inductive Parts (io : IterOpts) (m : Nat) : Nat → Option Format → Int → List (Int × Bytes) → Bytes → List (List UserOp) → List Step → Prop
  | enough (n kf off ws data) : Parts io m n kf off ws data [] []
  | record (n kf off ws) (p : Portion) (ops plan rec left vs steps) : p.Shows (io.load kf (io.ids n)) rec → p.Parsed (io.load kf (io.ids n)) m rec left → left <:+ p.block →
      (io.noRecordParse = true ∨ ¬ HttpType rec.recType → left = p.block) → p.Answers io off ws left ops vs →
      Parts io m (n + 1) (if io.arc2warc then kf else some rec.format) (off + len p.bytes + len (skipped p.tail))
        (ws ++ (strayLines p.tail).map (fun l => (off + len p.bytes, l))) (resumed p.tail) plan steps →
      Parts io m n kf off ws p.all (ops :: plan) (.ok (some rec, vs) :: steps)
  | broken (n kf off ws data ops plan) (e : PyErr) : io.checkDigests.isSome = true → e ≠ .stopIteration →
      Parts io m n kf off ws data (ops :: plan) (.error e :: plan.map (fun _ => .error .stopIteration))
  | over (n kf off ws data ops plan) (e : PyErr) : Over (io.load kf (io.ids n)) m data e →
      Parts io m n kf off ws data (ops :: plan) (.error e :: plan.map (fun _ => .error .stopIteration))

/-- Positions and sizes of pieces of `data`, which starts at `off` in the file.  The first piece is
at the beginning, and between a piece and the next one there is what `skipped` takes: one line,
and blank lines. -/
inductive Tiled : Int → Bytes → List (Int × Int) → Prop
  | nil (off data) : Tiled off data []
  | cons (off piece tl os) : piece ≠ [] → Tiled (off + len piece + len (skipped tl)) (resumed tl) os → Tiled off (piece ++ tl) ((off, len piece) :: os)

/-- The HTTP headers of a record, unless they are empty. -/
def Record.httpShown (rec : Record Unit) : Option StatusAndHeaders := rec.httpHeaders.filter (fun h => decide (h.statusline ≠ [] ∨ h.headers ≠ []))

/-- The value of a field of the index, for a record at `off` that takes `size` bytes in the file. -/
def Record.field (rec : Record Unit) (off size : Int) (file name : Str) : Option Str :=
  if name = lit "offset" then Option.some (intToStr off)
  else if name = lit "length" then Option.some (intToStr size)
  else if name = lit "filename" then Option.some file
  else if name = lit "http:status" then
    if rec.recType ∈ [Option.some (lit "response"), Option.some (lit "revisit")] then rec.httpShown.map (fun h => (split1 ' ' h.statusline).1) else none
  else if lit "http:" <+: name then rec.httpShown.bind (fun h => firstValue (name.drop 5) h.headers)
  else firstValue name rec.recHeaders.headers

/-- Its line of the index: the fields that it has, each once, in the order in which they were asked
for first. -/
def Record.entry (rec : Record Unit) (off size : Int) (file : Str) (fields : List Str) : List (Str × Str) :=
  fields.eraseDups.filterMap (fun n => (rec.field off size file n).map (fun v => (n, v)))

/-- The index of `data`, which starts at `off` in the file: how it ends, and its lines.  ARC records
are converted, so that no format is taken for known. -/
inductive Indexed (io : IterOpts) (m : Nat) (file : Str) (fields : List Str) : Nat → Int → Bytes → Except PyErr Unit → List (List (Str × Str)) → Prop
  | over (n off data) (e : PyErr) : Over (io.load none (io.ids n)) m data e → Indexed io m file fields n off data (if e = .stopIteration then .ok () else .error e) []
  | record (n off) (p : Portion) (rec left x es) : p.Shows (io.load none (io.ids n)) rec → p.Parsed (io.load none (io.ids n)) m rec left →
      Indexed io m file fields (n + 1) (off + len p.bytes + len (skipped p.tail)) (resumed p.tail) x es →
      Indexed io m file fields n off p.all x (rec.entry off (len p.bytes) file fields :: es)

/-- The position and size that a step of the iteration reports. -/
def Step.place : Step → Option (Int × Int)
  | .ok (_, [.ok (.int o), .ok (.int s)]) => Option.some (o, s)
  | _ => none

end
end Warcio
