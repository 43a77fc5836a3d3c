import Verif.Spec.Records
import Verif.Spec.Codec
import Verif.Model.WarcWriter

/-!
# What is expected of a written record
-/

namespace Warcio

/-- What a compressor has returned for the calls `ws` after the calls `pre`. -/
def Deflater.outFrom [Deflater] (pre : List Bytes) : List Bytes → Bytes
  | [] => []
  | w :: ws => Deflater.compress pre w ++ Deflater.outFrom (pre ++ [w]) ws

/-- What is assumed of `zlib.compressobj`: its output up to `flush` is one member that holds what it
was given. -/
def LawfulDeflater [Deflater] (IsMember : Bytes → Bytes → Prop) : Prop :=
  ∀ ws : List Bytes, IsMember (Deflater.outFrom [] ws ++ Deflater.flush ws) ws.flatten

/-- A digest header as warcio writes it. -/
def sha1Text (f : Bytes → Bytes) (d : Bytes) : Str := lit "sha1:" ++ Rfc4648.base32 (f d)

/-- The value of the last header with this name, in any case. -/
def lastValue [PyUni] (n : Str) (hs : List (Str × Str)) : Option Str := firstValue n hs.reverse

/-- At most one header has this name. -/
def AtMostOne [PyUni] (n : Str) (hs : List (Str × Str)) : Prop := (hs.filter (fun h => PyUni.lower h.1 == PyUni.lower n)).length ≤ 1

instance [PyUni] (n : Str) (hs : List (Str × Str)) : Decidable (AtMostOne n hs) := inferInstanceAs (Decidable (_ ≤ _))

/-- The headers whose names are none of these. -/
def without [PyUni] (ns : List Str) (hs : List (Str × Str)) : List (Str × Str) :=
  hs.filter (fun h => ns.all (fun n => PyUni.lower h.1 != PyUni.lower n))

section
variable {σ : Type}

/-- The bytes of a record's HTTP headers: none if there are no headers, or else those of
`to_ascii_bytes`, provided that this does not raise. -/
inductive HttpPart (flt : Str × Str → Option (Str × Str)) (r : OutRecord σ) : Bytes → Prop
  | none : r.httpHeaders = none → HttpPart flt r []
  | empty (h) : r.httpHeaders = some h → h.statusline = [] → h.headers = [] → HttpPart flt r []
  | some (h hb) : r.httpHeaders = some h → (h.statusline ≠ [] ∨ h.headers ≠ []) → (h.toAsciiBytes flt).1 = .ok hb → HttpPart flt r hb

/-- The block to be written for a record with the HTTP header bytes `hb` whose stream holds `d`: a
revisit record has no payload. -/
def blockOf (r : OutRecord σ) (hb d : Bytes) : Bytes := hb ++ (if r.recType = some (lit "revisit") then [] else d)

/-- The lengths in the record are unknown, or true.  With HTTP headers it is `payload_length` that
counts. -/
inductive LengthsFit (r : OutRecord σ) (hb d : Bytes) : Prop
  | unknown : r.length = none → (hb = [] → r.recType = some (lit "revisit") → d = []) → LengthsFit r hb d
  | payload (n : Int) : hb ≠ [] → r.payloadLength = some n → 0 ≤ n → (r.recType ≠ some (lit "revisit") → n = len d) → LengthsFit r hb d
  | block : (hb ≠ [] → ∃ n : Int, r.payloadLength = some n ∧ n < 0) → r.length = some (len (blockOf r hb d)) → LengthsFit r hb d

end

/-- The header block as it is written: first line, headers, blank line. -/
def headText (version status : Str) (hs : List (Str × Str)) : Str :=
  version ++ (if status = [] then [] else ' ' :: status) ++ lit "\r\n" ++ hs.flatMap (fun h => h.1 ++ lit ": " ++ h.2 ++ lit "\r\n") ++ lit "\r\n"

/-- A record as it is written: header block, block, two empty lines. -/
def recordBytes (version status : Str) (hs : List (Str × Str)) (block : Bytes) : Bytes :=
  utf8Encode (headText version status hs) ++ block ++ [13, 10, 13, 10]

/-- The file with bytes added at its end. -/
def OutFile.extended (o : OutFile) (b : Bytes) : OutFile := { content := o.content ++ b, pos := (o.content ++ b).length }

/-- The file is at its end. -/
def OutFile.AtEnd (o : OutFile) : Prop := o.pos = o.content.length

instance (o : OutFile) : Decidable o.AtEnd := inferInstanceAs (Decidable (_ = _))

/-- What a payload stream over a file holds: the rest of the file. -/
def Holds : RecStream FileObj → Bytes → Prop
  | .own f, d => f.rest = d
  | .mem f, d => f.rest = d
  | .closed, _ => False

/-- The names of the headers that the writer sets. -/
def ownNames : List Str := [lit "Content-Length", lit "Content-Type", lit "WARC-Block-Digest", lit "WARC-Payload-Digest"]

/-- `hs` are headers for writing `r` with the given block: `Content-Length` is the length of the
block, `Content-Type` is the record's, and the headers that are not the writer's own are those of
the record, in order. -/
structure HeadersFor {σ : Type} [PyUni] (r : OutRecord σ) (block : Bytes) (hs : List (Str × Str)) : Prop where
  length : lastValue (lit "Content-Length") hs = some (intToStr (len block))
  one : AtMostOne (lit "Content-Length") r.recHeaders.headers → AtMostOne (lit "Content-Length") hs
  type : ∀ t, r.contentType = some t → lastValue (lit "Content-Type") hs = some t
  others : without ownNames hs = without ownNames r.recHeaders.headers

/-- All headers with this name, in any case. -/
def named [PyUni] (n : Str) (hs : List (Str × Str)) : List (Str × Str) := hs.filter (fun h => PyUni.lower h.1 == PyUni.lower n)

/-- The values of all headers with this name. -/
def values [PyUni] (n : Str) (hs : List (Str × Str)) : List Str := (named n hs).map (·.2)

/-- Write records one after the other, until one fails. -/
def writeAll {σ : Type} [PyUni] [Hashlib] [PyFile σ] [Deflater] (c : BuilderCfg) : List (OutRecord σ) → OutFile → Except PyErr Unit × OutFile
  | [], o => (.ok (), o)
  | r :: rs, o =>
    match Writer.write c r o with
    | (.error e, _, o) => (.error e, o)
    | (.ok _, _, o) => writeAll c rs o

end Warcio
