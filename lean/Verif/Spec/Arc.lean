import Verif.Spec.Archive
import Verif.Spec.Calendar
import Verif.Model.TimeUtils

/-!
# What is in an ARC file

Each record is a line with five fields and a block.  In the record that describes the file, whose
URI starts with `filedesc://`, two lines stand between them; the length counts these, too.
-/

namespace Warcio

/-- An ARC record as it is in a file: the fields of its header line, the end of this line, the two
lines behind it if it describes the file, its block, and the blank lines behind it. -/
structure ArcRecord where
  uri : Str
  ip : Str
  date : Str
  ctype : Str
  length : Str
  eol : Bytes := [10]
  extra : Bytes := []
  block : Bytes
  sep : Bytes := [10]

namespace ArcRecord

/-- The header line. -/
def line (a : ArcRecord) : Str := arcLine a.uri a.ip a.date a.ctype a.length

/-- What is in front of the block. -/
def head (a : ArcRecord) : Bytes := utf8Encode a.line ++ a.eol ++ a.extra

/-- All of its bytes. -/
def bytes (a : ArcRecord) : Bytes := a.head ++ a.block ++ a.sep

/-- It describes the file. -/
def Describes (a : ArcRecord) : Prop := lit "filedesc://" <+: a.uri

instance (a : ArcRecord) : Decidable a.Describes := inferInstanceAs (Decidable (_ <+: _))

/-- Two lines of ASCII text. -/
def TwoLines (b : Bytes) : Prop :=
  ∃ l k : Bytes, b = l ++ [10] ++ (k ++ [10]) ∧ (10 : UInt8) ∉ l ∧ (10 : UInt8) ∉ k ∧ ∀ x ∈ b, x < 128

/-- A well-formed record: the line can be taken apart and is not that of a WARC record, the length
is right, and a blank line follows. -/
structure Good [PyUni] (a : ArcRecord) : Prop where
  fields : ArcFields a.ip a.date a.ctype a.length
  line : '\n' ∉ a.line
  eol : a.eol = [10] ∨ a.eol = [13, 10]
  warc : ∀ v ∈ [lit "WARC/1.1", lit "WARC/1.0", lit "WARC/0.17", lit "WARC/0.18"], ¬ v <+: PyUni.upper a.line
  extra : if a.Describes then TwoLines a.extra else a.extra = []
  length : PyInt a.length ((a.extra.length + a.block.length : Nat) : Int)
  sep : BlankLines a.sep

/-- The headers if the record is converted, with an identifier and the date in its other form. -/
def converted (a : ArcRecord) (id iso : Str) : List (Str × Str) :=
  (lit "WARC-Type", if a.Describes then lit "warcinfo" else lit "response") :: (lit "WARC-Record-ID", id) ::
  (if a.Describes then (lit "WARC-Filename", a.uri.drop 11) else (lit "WARC-Target-URI", a.uri)) ::
  [(lit "WARC-IP-Address", a.ip), (lit "WARC-Date", iso),
   (lit "Content-Type", if a.Describes then a.ctype else lit "application/http;msgtype=response"), (lit "Content-Length", a.length)]

/-- `d` is the date of the record, to the second; if its text is that of a date from 1900 to 2999. -/
def Dated (a : ArcRecord) (d : DateTime) : Prop :=
  IsDate d ∧ ∀ e, IsDate e → 1900 ≤ e.year → e.year ≤ 2999 → a.date = datetimeToTimestamp e → datetimeToIsoDate d = datetimeToIsoDate e

/-- It holds an HTTP message. -/
def Http (a : ArcRecord) (io : IterOpts) : Prop :=
  ¬ a.Describes ∧ ∃ v, (if io.arc2warc then CleanUri a.uri v else v = a.uri) ∧ (lit "http:" <+: v ∨ lit "https:" <+: v)

/-- What the user is to see of it: either the ARC record, or (`arc2warc`) the WARC record it is
converted to, with one of the identifiers that are handed out; see `WarcRecord.Shows`. -/
structure Shows [PyUni] (a : ArcRecord) (io : IterOpts) (m : Nat) (rec : Record Unit) (left : Bytes) : Prop where
  format : rec.format = if io.arc2warc then .warc else .arc
  version : rec.recHeaders.protocol = lit "WARC/1.0" ∧ rec.recHeaders.statusline = []
  recType : rec.recType = some (if a.Describes then (if io.arc2warc then lit "warcinfo" else lit "arc_header") else lit "response")
  contentType : rec.contentType = some (if io.arc2warc ∧ ¬ a.Describes then lit "application/http;msgtype=response" else a.ctype)
  length : rec.length = some (len a.block)
  headers : io.arc2warc = false → rec.recHeaders.headers =
    [(lit "uri", a.uri), (lit "ip-address", a.ip), (lit "archive-date", a.date), (lit "content-type", a.ctype), (lit "length", a.length)]
  converted : io.arc2warc = true → ∃ k d, a.Dated d ∧
    WarcRecord.Cleaned (a.converted (io.ids k) (datetimeToIsoDate d)) rec.recHeaders.headers
  block : io.noRecordParse = true ∨ ¬ a.Http io ∨ a.block = [] → left = a.block ∧ rec.payloadLength = some (-1) ∧
    (io.ensureHttpHeaders = false → rec.httpHeaders = none)
  payload : ∃ pre, a.block = pre ++ left
  payloadLength : rec.payloadLength = some (-1) ∨ rec.payloadLength = some (len left)
  http : io.noRecordParse = false → a.Http io → HeadWithin m a.block → lineText (takeLine a.block) ≠ [] →
    ∃ h, HttpHead a.block h left ∧ (h.statusline ≠ [] ∨ h.headers ≠ [] → rec.httpHeaders = some h ∧ rec.payloadLength = some (len left))
  checker : rec.checker = { kind := io.checkDigests.getD .other }

/-- The record, as it is expected at this position.  There are no digests to check. -/
def expected [PyUni] (a : ArcRecord) (io : IterOpts) (m : Nat) (off size : Int) : Expected :=
  { shows := a.Shows io m, off := off, size := size, line := m, judged := fun _ c => c.passed = none ∧ c.problems = [] }

/-- The records of an uncompressed file, with their positions. -/
def placed [PyUni] (io : IterOpts) (m : Nat) : Int → List ArcRecord → List Expected
  | _, [] => []
  | off, a :: as => a.expected io m off (len a.head + len a.block) :: placed io m (off + len a.bytes) as

/-- The records of a file in which each record is a gzip member, with the positions of the
members. -/
def placedGz [PyUni] (io : IterOpts) (m : Nat) : Int → List (Bytes × ArcRecord) → List Expected
  | _, [] => []
  | off, (z, a) :: as => a.expected io m off (len z) :: placedGz io m (off + len z) as

end ArcRecord
end Warcio
