import Verif.Spec.Written
import Verif.Spec.Archive

/-!
# What is expected of a record that is written and read back
-/

namespace Warcio

/-- A header block that can be written and read back: the first line is a version, headers are well
formed, there are no two lengths or content types; the type of the record is that of its headers,
and the URI is there if the type needs one, and needs no cleaning. -/
structure Regular [PyUni] {σ : Type} (r : OutRecord σ) : Prop where
  version : r.recHeaders.protocol ∈ [lit "WARC/1.1", lit "WARC/1.0", lit "WARC/0.17", lit "WARC/0.18"]
  status : strip r.recHeaders.statusline = r.recHeaders.statusline ∧ '\n' ∉ r.recHeaders.statusline
  headers : ∀ h ∈ r.recHeaders.headers, GoodHeader h
  ctype : ∀ t, r.contentType = some t → GoodHeader (lit "Content-Type", t)
  oneLength : AtMostOne (lit "Content-Length") r.recHeaders.headers
  oneType : AtMostOne (lit "Content-Type") r.recHeaders.headers
  recType : r.recType = firstValue (lit "WARC-Type") r.recHeaders.headers
  uri : HttpType r.recType → firstValue (lit "WARC-Target-URI") r.recHeaders.headers ≠ none
  tidy : ∀ u, firstValue (lit "WARC-Target-URI") r.recHeaders.headers = some u → WarcRecord.TidyUri u

/-- HTTP headers that can be written and read back: the first line starts with a word, which is
the protocol (or verb), the headers are well formed, and there is more than the first word. -/
structure RegularHttp (h : StatusAndHeaders) : Prop where
  protocol : h.protocol ≠ [] ∧ ' ' ∉ h.protocol ∧ '\n' ∉ h.protocol ∧ rstrip h.protocol = h.protocol
  status : strip h.statusline = h.statusline ∧ '\n' ∉ h.statusline
  headers : ∀ x ∈ h.headers, GoodHeader x
  truthy : h.statusline ≠ [] ∨ h.headers ≠ []

/-- The record `rec` with `left` in its stream is what is to be read where `r` was written with the
HTTP header bytes `hb` and the payload `d`: it has the same type and version, the headers that
`HeadersFor` describes, and
* if it is not parsed as HTTP message, the block in its stream,
* otherwise the same HTTP headers, and the payload in its stream, provided that the header lines
  are at most `m` bytes long. -/
structure SameRecord [PyUni] {σ : Type} (io : IterOpts) (m : Nat) (r : OutRecord σ) (hb d : Bytes) (rec : Record Unit) (left : Bytes) : Prop where
  format : rec.format = .warc
  recType : rec.recType = r.recType
  version : rec.recHeaders.protocol = r.recHeaders.protocol ∧ rec.recHeaders.statusline = r.recHeaders.statusline
  headers : HeadersFor r (blockOf r hb d) rec.recHeaders.headers
  contentType : ∀ t, r.contentType = some t → rec.contentType = some t
  length : rec.length = some (len (blockOf r hb d))
  block : io.noRecordParse = true ∨ ¬ HttpRecord r.recType (firstValue (lit "WARC-Target-URI") r.recHeaders.headers) ∨ blockOf r hb d = [] →
    left = blockOf r hb d ∧ (io.ensureHttpHeaders = false → rec.httpHeaders = none)
  http : io.noRecordParse = false → HttpRecord r.recType (firstValue (lit "WARC-Target-URI") r.recHeaders.headers) →
    ∀ h : StatusAndHeaders, RegularHttp h → hb = utf8Encode (headText h.protocol h.statusline h.headers) → HeadWithin m (blockOf r hb d) →
    hb ++ left = blockOf r hb d ∧ rec.payloadLength = some (len left) ∧
      rec.httpHeaders.map (fun x => (x.protocol, x.statusline, x.headers)) = some (h.protocol, h.statusline, h.headers)

/-- What is to be read from a file in which records were written one after the other: each item is
a record, its HTTP header bytes, its payload and the bytes that were written for it. -/
def written [PyUni] {σ : Type} (io : IterOpts) (m : Nat) (size : Bytes → Int) : Int → List (OutRecord σ × Bytes × Bytes × Bytes) → List Expected
  | _, [] => []
  | off, (r, hb, d, b) :: t => { shows := SameRecord io m r hb d, off := off, size := size b, line := m } :: written io m size (off + len b) t

end Warcio
