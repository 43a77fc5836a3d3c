import Verif.Model.RecordBuilder

/-! # Model of /repo/warcio/warcwriter.py -/

namespace Warcio

/-- `zlib.compressobj(9, zlib.DEFLATED, zlib.MAX_WBITS + 16)` (warcwriter.py:115): what `compress`
returns after the given calls, and what `flush` returns. -/
class Deflater where
  compress : List Bytes → Bytes → Bytes
  flush : List Bytes → Bytes

/-- The file that is written to (warcwriter.py:134,147): contents and position.  Writing never
fails. -/
structure OutFile where
  content : Bytes := []
  pos : Nat := 0
  deriving DecidableEq, Repr

/-- `write` at the current position (warcwriter.py:91,95,100,107,122,126). -/
def OutFile.write (o : OutFile) (b : Bytes) : OutFile where
  content := o.content.take o.pos ++ List.replicate (o.pos - o.content.length) 0 ++ b ++ o.content.drop (o.pos + b.length)
  pos := o.pos + b.length

/-- `out` in `_write_warc_record` (warcwriter.py:41-43): the file, with a `GzippingWrapper` that
was given some data so far, or without. -/
structure Sink where
  out : OutFile
  gz : Option (List Bytes) := none
  deriving DecidableEq, Repr

/-- `out.write` (warcwriter.py:118-122). -/
def Sink.write [Deflater] (s : Sink) (b : Bytes) : Sink :=
  match s.gz with
  | none => { s with out := s.out.write b }
  | some hist => { out := s.out.write (Deflater.compress hist b), gz := some (hist ++ [b]) }

/-- `out.flush` (warcwriter.py:124-127). -/
def Sink.flush [Deflater] (s : Sink) : Sink :=
  match s.gz with
  | none => s
  | some hist => { s with out := s.out.write (Deflater.flush hist) }

namespace Writer

variable {σ : Type} [PyUni] [Hashlib] [PyFile σ]

omit [PyUni] [Hashlib] [PyFile σ] in
/-- `record.http_headers.compute_headers_buffer` at the start (warcwriter.py:45-46). -/
def prepareHttp (filter : Header → Option Header) (r : OutRecord σ) : Except PyErr Unit × OutRecord σ :=
  match r.httpHeaders with
  | none => (.ok (), r)
  | some h =>
    if !h.truthy then (.ok (), r)
    else
      let (x, h) := h.computeHeadersBuffer filter
      (x, { r with httpHeaders := some h })

/-- Completing length and digests (warcwriter.py:48-64). -/
def complete (filter : Header → Option Header) (r : OutRecord σ) : Except PyErr Unit × OutRecord σ :=
  match r.length with
  | some _ => Builder.ensureDigest filter r true true
  | none =>
    let h := (r.recHeaders.removeHeader (lit "WARC-Block-Digest")).2
    let h := if r.recType = some (lit "revisit") then h else (h.removeHeader (lit "WARC-Payload-Digest")).2
    let h := (h.removeHeader (lit "Content-Type")).2
    match Builder.ensureDigest filter { r with recHeaders := h } true true with
    | (.error e, r) => (.error e, r)
    | (.ok _, r) => (.ok (), { r with length := r.payloadLength })

omit [PyUni] [Hashlib] [PyFile σ] in
/-- The HTTP header block to write, empty without HTTP headers (warcwriter.py:79-80,94-95). -/
def httpBytes (r : OutRecord σ) : Bytes :=
  match r.httpHeaders with
  | some h => if h.truthy then h.headersBuff.getD [] else []
  | none => []

omit [PyUni] [Hashlib] [PyFile σ] in
/-- Only HTTP headers are written of a revisit (warcwriter.py:70-73). -/
def headersOnly (r : OutRecord σ) : Bool := r.recType == some (lit "revisit")

omit [PyUni] [Hashlib] [PyFile σ] in
/-- `record.length` for the record as it is written (warcwriter.py:75-85); `None >= 0` is a
`TypeError`. -/
def actualLength (r : OutRecord σ) : Except PyErr (Option Int) :=
  if Loader.truthyHeaders r.httpHeaders then
    match r.payloadLength with
    | none => .error .typeError
    | some n =>
      if 0 ≤ n then .ok (some (len (httpBytes r) + (if headersOnly r then 0 else n)))
      else .ok r.length
  else .ok r.length

/-- `str(record.length)` (warcwriter.py:87). -/
def lengthText (n : Option Int) : Str :=
  match n with
  | some n => intToStr n
  | none => lit "None"

/-- The record headers as they are written (warcwriter.py:66-68,87). -/
def finalHeaders (contentType : Option Str) (length : Option Int) (h : StatusAndHeaders) : StatusAndHeaders :=
  let h := match contentType with
    | some t => (h.replaceHeader (lit "Content-Type") t).2
    | none => h
  (h.replaceHeader (lit "Content-Length") (lengthText length)).2

omit [PyUni] [Hashlib] [PyFile σ] in
/-- The `finally` clause behind writing the payload (warcwriter.py:101-104). -/
def restoreStream (r : OutRecord σ) : OutRecord σ :=
  match r.orig with
  | none => r
  | some none => { r with raw := .closed }
  | some (some s) => { r with raw := s, orig := some none }

variable [Deflater]

/-- Writing the payload (warcwriter.py:97-104). -/
def writePayload (r : OutRecord σ) (out : Sink) : Except PyErr Unit × OutRecord σ × Sink :=
  if headersOnly r then (.ok (), r, out)
  else
    let (bufs, x, s) := Builder.iterAll r.raw
    (x, restoreStream { r with raw := s }, bufs.foldl Sink.write out)

/-- `_write_warc_record(out, record)` (warcwriter.py:41-109). -/
def writeTo (c : BuilderCfg) (r : OutRecord σ) (out : Sink) : Except PyErr Unit × OutRecord σ × Sink :=
  match prepareHttp c.filter r with
  | (.error e, r) => (.error e, r, out)
  | (.ok _, r) =>
    match complete c.filter r with
    | (.error e, r) => (.error e, r, out)
    | (.ok _, r) =>
      match actualLength r with
      | .error e => (.error e, r, out)
      | .ok length =>
        let r := { r with length := length, recHeaders := finalHeaders r.contentType length r.recHeaders }
        let out := out.write r.recHeaders.toBytes
        let out := if Loader.truthyHeaders r.httpHeaders then out.write (httpBytes r) else out
        match writePayload r out with
        | (.error e, r, out) => (.error e, r, out)
        | (.ok _, r, out) => (.ok (), r, (out.write (crlf ++ crlf)).flush)

/-- `write_record(record)` (warcwriter.py:136-137). -/
def write (c : BuilderCfg) (r : OutRecord σ) (out : OutFile) : Except PyErr Unit × OutRecord σ × OutFile :=
  let (x, r, s) := writeTo c r { out := out, gz := if c.gzip then some [] else none }
  (x, r, s.out)

omit [Hashlib] [PyFile σ] [Deflater] in
/-- The request as it is linked to its response (warcwriter.py:23-31).  `none`: the response lacks
the URI or the date, and the request gets a header whose value is `None`. -/
def linkRequest (req resp : OutRecord σ) : Option (OutRecord σ) :=
  match resp.recHeaders.getHeader (lit "WARC-Target-URI"), resp.recHeaders.getHeader (lit "WARC-Date") with
  | some url, some dt =>
    let h := (req.recHeaders.replaceHeader (lit "WARC-Target-URI") url).2
    let h := (h.replaceHeader (lit "WARC-Date") dt).2
    let id := resp.recHeaders.getHeader (lit "WARC-Record-ID")
    some { req with recHeaders := if Loader.truthy id then h.addHeader (lit "WARC-Concurrent-To") (id.getD []) else h }
  | _, _ => none

/-- `write_request_response_pair(req, resp)` (warcwriter.py:22-33,139-141): gives the request and
the response afterwards.  Writing a header whose value is `None` is a `TypeError` before anything of
the request is written (statusandheaders.py:160); the request is then left as it was, a
simplification. -/
def writePair (c : BuilderCfg) (req resp : OutRecord σ) (out : OutFile) :
    Except PyErr Unit × OutRecord σ × OutRecord σ × OutFile :=
  let linked := linkRequest req resp
  match write c resp out with
  | (.error e, resp, out) => (.error e, linked.getD req, resp, out)
  | (.ok _, resp, out) =>
    match linked with
    | none => (.error .typeError, req, resp, out)
    | some req =>
      let (x, req, out) := write c req out
      (x, req, resp, out)

end Writer

end Warcio
