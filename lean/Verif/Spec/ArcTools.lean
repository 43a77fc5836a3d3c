import Verif.Spec.ArcRewrite
import Verif.Spec.Check
import Verif.Spec.Content

/-!
# What the tools are to say of ARC files
-/

namespace Warcio

/-- A record in an ARC file: where it is, how many bytes it takes there, and its HTTP headers. -/
structure ArcAt where
  record : ArcRecord
  offset : Int
  size : Int
  http : Option StatusAndHeaders

/-- The records of an uncompressed file. -/
def arcPlacements : Int → List (ArcRecord × Option StatusAndHeaders) → List ArcAt
  | _, [] => []
  | off, (a, h) :: as => ⟨a, off, len a.head + len a.block, h⟩ :: arcPlacements (off + len a.bytes) as

/-- The records of a file in which each of them is a gzip member. -/
def arcPlacementsGz : Int → List (Bytes × ArcRecord × Option StatusAndHeaders) → List ArcAt
  | _, [] => []
  | off, (z, a, h) :: as => ⟨a, off, len z, h⟩ :: arcPlacementsGz (off + len z) as

namespace ArcRecord

/-- The headers of an ARC record that is not converted. -/
def shown (a : ArcRecord) : List (Str × Str) :=
  [(lit "uri", a.uri), (lit "ip-address", a.ip), (lit "archive-date", a.date), (lit "content-type", a.ctype), (lit "length", a.length)]

/-- The record with these headers, in the form of a WARC record. -/
def asShown (a : ArcRecord) : WarcRecord :=
  { head := utf8Encode (lit "WARC/1.0\r\n"), headers := a.shown, block := a.block, sep := [] }

/-- The content of an ARC record. -/
def Content [PyUni] [Zlib] (IsCoded : DType → Bytes → Bytes → Prop) (a : ArcRecord) (m : Nat) : Bytes → Prop := ContentOf IsCoded (a.Http {}) a.block m

end ArcRecord

/-- The entry of the index is that of the WARC record to which it is converted, with an identifier that is made up, at the
place of the ARC record. -/
def ArcAt.Indexed (ids : Nat → Str) (y : ArcAt) (x : Located) : Prop :=
  ∃ k d, y.record.Dated d ∧ x = ⟨y.record.asWarc (ids k) (datetimeToIsoDate d), y.offset, y.size, y.http⟩

/-- The bytes that are to be printed for an ARC record: its fields as headers of a WARC record without a type, the HTTP headers, the
payload; only the headers; or only the content of the payload. -/
inductive ArcPrinted [PyUni] [Zlib] (IsCoded : DType → Bytes → Bytes → Prop) (a : ArcRecord) (m : Nat) : Bool → Bool → Bytes → Prop
  | all (hb payload : Bytes) : a.Splits {} m hb payload → ArcPrinted IsCoded a m false false (utf8Encode (headText (lit "WARC/1.0") [] a.shown) ++ a.block)
  | headers (hb payload : Bytes) : a.Splits {} m hb payload → ArcPrinted IsCoded a m false true (utf8Encode (headText (lit "WARC/1.0") [] a.shown) ++ hb)
  | payload (headersOnly : Bool) (data : Bytes) : (a.Http {} → 64 ≤ m) → a.Content IsCoded m data → ArcPrinted IsCoded a m true headersOnly data

end Warcio
