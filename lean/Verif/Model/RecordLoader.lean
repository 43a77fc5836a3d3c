import Verif.Model.BufferedReaders
import Verif.Model.Digest
import Verif.Model.StatusAndHeaders
import Verif.Model.TimeUtils

/-! # Model of /repo/warcio/recordloader.py -/

namespace Warcio

/-- The `raw_stream` of a record (recordloader.py:129-135): the archive stream itself when no
length is known, limited to the block, or limited and verifying digests (the verifying reader
wraps the limited one). -/
inductive RawStream (σ : Type)
  | bare (s : σ)
  | limited (r : LimitReader σ)
  | verifying (r : DigestReader (LimitReader σ))
  deriving DecidableEq, Repr

/-- The archive stream below a record's stream (recordloader.py:130,132). -/
def RawStream.under {σ} : RawStream σ → σ
  | .bare s => s
  | .limited r => r.stream
  | .verifying r => r.lim.stream.stream

/-- Python's dynamic dispatch on `raw_stream` (recordloader.py:129-135). -/
instance {σ} [Hashlib] [PyStream σ] : PyStream (RawStream σ) where
  read s n :=
    match s with
    | .bare s => let (b, s) := PyStream.read s n; (b, .bare s)
    | .limited s => let (b, s) := PyStream.read s n; (b, .limited s)
    | .verifying s => let (b, s) := PyStream.read s n; (b, .verifying s)
  readline s n :=
    match s with
    | .bare s => let (b, s) := PyStream.readline s n; (b, .bare s)
    | .limited s => let (b, s) := PyStream.readline s n; (b, .limited s)
    | .verifying s => let (b, s) := PyStream.readline s n; (b, .verifying s)
  tell s :=
    match s with
    | .bare s => PyStream.tell s
    | .limited s => PyStream.tell s
    | .verifying s => PyStream.tell s
  bound s :=
    match s with
    | .bare s => PyStream.bound s
    | .limited s => PyStream.bound s
    | .verifying s => PyStream.bound s

/-- The `format` of a record and the known format of an archive
(recordloader.py:89,100,110, 212-243). -/
inductive Format
  | warc | arc
  deriving DecidableEq, Repr

/-- What the ARC parser in use calls its records (recordloader.py:279-280, 344-345). -/
inductive HeadFormat
  | warc | arc | arc2warc
  deriving DecidableEq, Repr

/-- `ArcWarcRecord` (recordloader.py:20-25).  `σ` is the type of `raw_stream`. -/
structure Record (σ : Type) where
  format : Format
  recType : Option Str
  recHeaders : StatusAndHeaders
  rawStream : σ
  httpHeaders : Option StatusAndHeaders
  contentType : Option Str
  length : Option Int
  payloadLength : Option Int := some (-1)
  checker : DigestChecker := {}
  deriving DecidableEq, Repr

/-- The arguments of the loader and of `parse_record_stream` (recordloader.py:61-77).
`checkDigests` is `none` for a false value.  `newId` is what `make_warc_id` returns in this
call (statusandheaders.py:322-327): a fresh UUID. -/
structure LoadOpts where
  verifyHttp : Bool := true
  arc2warc : Bool := true
  knownFormat : Option Format := none
  noRecordParse : Bool := false
  ensureHttpHeaders : Bool := false
  checkDigests : Option CheckKind := none
  newId : Str := []

namespace Loader

/-- `WARC_TYPES` (recordloader.py:49). -/
def warcTypes : List Str := [lit "WARC/1.1", lit "WARC/1.0", lit "WARC/0.17", lit "WARC/0.18"]

/-- `HTTP_TYPES` (recordloader.py:51). -/
def httpTypes : List Str := [lit "HTTP/1.0", lit "HTTP/1.1"]

/-- `HTTP_VERBS` (recordloader.py:53-54). -/
def httpVerbs : List Str :=
  [lit "GET", lit "HEAD", lit "POST", lit "PUT", lit "DELETE", lit "TRACE", lit "OPTIONS", lit "CONNECT", lit "PATCH"]

/-- `HTTP_RECORDS` (recordloader.py:56). -/
def httpRecords : List Str := [lit "response", lit "request", lit "revisit"]

/-- `HTTP_SCHEMES` (recordloader.py:59). -/
def httpSchemes : List Str := [lit "http:", lit "https:"]

/-- `self.warc_parser` (recordloader.py:67). -/
def warcParser : HeaderParser := { statuslist := warcTypes }

/-- `self.http_parser` (recordloader.py:68). -/
def httpParser (verify : Bool) : HeaderParser := { statuslist := httpTypes, verify := verify }

/-- `self.http_req_parser` (recordloader.py:70). -/
def httpReqParser (verify : Bool) : HeaderParser := { statuslist := httpVerbs, verify := verify }

/-- `ARC_HEADERS` (recordloader.py:273-274). -/
def arcNames : List Str := [lit "uri", lit "ip-address", lit "archive-date", lit "content-type", lit "length"]

/-- `ARC_TO_WARC_HEADERS` (recordloader.py:338-342). -/
def arcToWarcNames : List Str :=
  [lit "WARC-Target-URI", lit "WARC-IP-Address", lit "WARC-Date", lit "Content-Type", lit "Content-Length"]

/-- `headerline.startswith('filedesc://')` (recordloader.py:301,354, 94). -/
def isFiledesc (s : Str) : Bool := startsWith (lit "filedesc://") s

variable [PyUni]

/-- The loop over names and values in `ARC2WARCHeadersParser._get_protocol_and_headers`
(recordloader.py:363-371).  The date conversion raises nothing, but the model lets its errors
through. -/
def convertFields (warcinfo : Bool) : List (Str × Str) → Except PyErr (List Header)
  | [] => .ok []
  | (name, value) :: t =>
    match (if name = lit "WARC-Date" then timestampToIsoDate value else .ok value) with
    | .error e => .error e
    | .ok value =>
      let h := if warcinfo && name == lit "WARC-Target-URI" then (lit "WARC-Filename", value.drop (lit "filedesc://").length)
        else (name, value)
      match convertFields warcinfo t with
      | .ok hs => .ok (h :: hs)
      | .error e => .error e

/-- `_get_protocol_and_headers` (recordloader.py:326-332, 351-373); there are five parts. -/
def arcHeaders (o : LoadOpts) (headerline : Str) (parts : List Str) : Except PyErr (List Header) :=
  if o.arc2warc then
    let info := isFiledesc headerline
    let parts := if info then parts else parts.set 3 (lit "application/http;msgtype=response")
    match convertFields info (arcToWarcNames.zip parts) with
    | .ok hs => .ok ((lit "WARC-Type", if info then lit "warcinfo" else lit "response") :: (lit "WARC-Record-ID", o.newId) :: hs)
    | .error e => .error e
  else .ok (arcNames.zip parts)

section
variable {σ : Type} [PyStream σ]

omit [PyUni] in
/-- `StatusAndHeadersParser.decode_header(stream.readline())` (recordloader.py:288,290,302,303). -/
def decodedLine (s : σ) : Except PyErr Str × σ :=
  match PyStream.readline s none with
  | (.ok b, s) => (.ok (decodeHeader b), s)
  | (.error e, s) => (.error e, s)

omit [PyUni] in
/-- The two lines after an ARC file header (recordloader.py:301-305): their total length. -/
def skipTwo (s : σ) : Except PyErr Int × σ :=
  match decodedLine s with
  | (.error e, s) => (.error e, s)
  | (.ok version, s) =>
    match decodedLine s with
    | (.error e, s) => (.error e, s)
    | (.ok spec, s) => (.ok (len version + len spec), s)

/-- `parse` of the ARC parsers once the header line is decoded (recordloader.py:292-320). -/
def parseArcFrom (o : LoadOpts) (headerline : Str) (s : σ) : Except PyErr StatusAndHeaders × σ :=
  if headerline.isEmpty then (.error .eofError, s)
  else
    let headerline := rstrip headerline
    match (if isFiledesc headerline then skipTwo s else (.ok 0, s)) with
    | (.error e, s) => (.error e, s)
    | (.ok total, s) =>
      let parts := rsplitN ' ' 4 headerline
      if parts.length ≠ 5 then (.error (.arcParser parts), s)
      else
        match arcHeaders o headerline parts with
        | .error e => (.error e, s)
        | .ok hs => (.ok { statusline := [], headers := hs, protocol := lit "WARC/1.0", totalLen := total }, s)

/-- `ARCHeadersParser.parse(stream, headerline)` (recordloader.py:284-320). -/
def parseArc (o : LoadOpts) (s : σ) (headerline : Option Line) : Except PyErr StatusAndHeaders × σ :=
  match headerline with
  | some l => parseArcFrom o l.decode s
  | none =>
    match decodedLine s with
    | (.ok l, s) => parseArcFrom o l s
    | (.error e, s) => (.error e, s)

/-- The second half of `_detect_type_load_headers` (recordloader.py:234-243). -/
def detectArc (o : LoadOpts) (s : σ) (statusline : Option Line) :
    Except PyErr (HeadFormat × StatusAndHeaders) × σ :=
  match parseArc o s statusline with
  | (.ok h, s) => (.ok (if o.arc2warc then .arc2warc else .arc, h), s)
  | (.error (.arcParser _), s) => (.error (if o.knownFormat = some .arc then .invalidArc else .unknownFormat), s)
  | (.error e, s) => (.error e, s)

/-- `_detect_type_load_headers(stream, statusline, known_format)` (recordloader.py:212-243). -/
def detectType (o : LoadOpts) (s : σ) (statusline : Option Line) :
    Except PyErr (HeadFormat × StatusAndHeaders) × σ :=
  if o.knownFormat = some .arc then detectArc o s statusline
  else
    match warcParser.parse s statusline with
    | (.ok h, s) => (.ok (.warc, h), s)
    | (.error (.statusParser line), s) =>
      if o.knownFormat = some .warc then (.error .invalidWarc, s)
      else detectArc o s (some (.str line))
    | (.error e, s) => (.error e, s)

end

/-- `uri.replace(" ", "%20")` (recordloader.py:265). -/
def escapeSpaces (s : Str) : Str := s.flatMap (fun c => if c = ' ' then lit "%20" else [c])

/-- `_ensure_target_uri_format(rec_headers)` (recordloader.py:245-268). -/
def ensureTargetUri (h : StatusAndHeaders) : Option Str × StatusAndHeaders :=
  match h.getHeader (lit "WARC-Target-URI") with
  | none => (none, h)
  | some uri =>
    let (uri, h) :=
      if startsWith ['<'] uri && endsWith ['>'] uri then
        let uri := (uri.drop 1).dropLast
        (uri, (h.replaceHeader (lit "WARC-Target-URI") uri).2)
      else (uri, h)
    if uri.contains ' ' then
      let uri := escapeSpaces uri
      (some uri, (h.replaceHeader (lit "WARC-Target-URI") uri).2)
    else (some uri, h)

/-- What `parse_record_stream` takes from the record headers (recordloader.py:87-110): type,
URI, length text, content type, length of extra header lines, and the headers with the URI
cleaned up. -/
structure Fields where
  format : Format
  recType : Option Str
  uri : Option Str
  length : Option Str
  contentType : Option Str
  subLen : Int
  headers : StatusAndHeaders
  deriving DecidableEq, Repr

/-- recordloader.py:87-110. -/
def fields (f : HeadFormat) (h : StatusAndHeaders) : Fields :=
  if f = .arc then
    let uri := h.getHeader (lit "uri")
    { format := .arc, recType := some (if isFiledesc (uri.getD []) then lit "arc_header" else lit "response"), uri := uri,
      length := h.getHeader (lit "length"), contentType := h.getHeader (lit "content-type"), subLen := h.totalLen, headers := h }
  else
    let recType := h.getHeader (lit "WARC-Type")
    let (uri, h) := ensureTargetUri h
    { format := .warc, recType := recType, uri := uri, length := h.getHeader (lit "Content-Length"),
      contentType := h.getHeader (lit "Content-Type"), subLen := if f = .warc then 0 else h.totalLen, headers := h }

/-- The length of the block (recordloader.py:112-124): 0 if the text is no number or the
result is negative; unknown without a text. -/
def blockLength (length : Option Str) (subLen : Int) : Option Int :=
  match length with
  | none => none
  | some t =>
    match parseInt t with
    | none => some 0
    | some n => if n - subLen < 0 then some 0 else some (n - subLen)

/-- A header value as a condition (recordloader.py:163): absent and empty count as false. -/
def truthy (v : Option Str) : Bool := !(v.getD []).isEmpty

variable {σ : Type} [Hashlib] [PyStream σ]

omit [PyStream σ] in
/-- Limiting and verifying the stream (recordloader.py:126-135, 158-171).  An exception (an
unusable digest with kind `'raise'`) happens before anything is read. -/
def wrap (o : LoadOpts) (f : Fields) (length : Option Int) (s : σ) : Except PyErr (RawStream σ) :=
  match length with
  | none => .ok (.bare s)
  | some n =>
    match LimitReader.wrapStream s n with
    | .inr s => .ok (.bare s)
    | .inl r =>
      let payload := f.headers.getHeader (lit "WARC-Payload-Digest")
      let block := f.headers.getHeader (lit "WARC-Block-Digest")
      if o.checkDigests.isSome && (truthy payload || truthy block) then
        match (DigestReader.new r n { kind := o.checkDigests.getD .other } f.recType payload block
            (f.headers.getHeader (lit "WARC-Segment-Number"))).1 with
        | .ok d => .ok (.verifying d)
        | .error e => .error e
      else .ok (.limited r)

omit [Hashlib] in
/-- `load_http_headers(rec_type, uri, stream, length)` (recordloader.py:173-200). -/
def loadHttpHeaders (verify : Bool) (recType uri : Option Str) (length : Option Int) (s : σ) :
    Except PyErr (Option StatusAndHeaders) × σ :=
  if length = some 0 then (.ok none, s)
  else
    match recType with
    | none => (.ok none, s)
    | some t =>
      if !httpRecords.contains t then (.ok none, s)
      else
        match uri with
        | none => (.error .attributeError, s)
        | some u =>
          if !httpSchemes.any (fun p => startsWith p u) then (.ok none, s)
          else if t = lit "request" then
            match (httpReqParser verify).parse s with
            | (.ok h, s) => (.ok (some h), s)
            | (.error e, s) => (.error e, s)
          else
            match (httpParser verify).parse s with
            | (.ok h, s) => (.ok (some h), s)
            | (.error e, s) => if t = lit "revisit" ∧ e = .eofError then (.ok none, s) else (.error e, s)

omit [PyUni] [Hashlib] [PyStream σ] in
/-- `default_http_headers(length, content_type)` (recordloader.py:202-210). -/
def defaultHttpHeaders (length : Option Int) (contentType : Option Str) : StatusAndHeaders :=
  let hs := if truthy contentType then [(lit "Content-Type", contentType.getD [])] else []
  let hs := match length with
    | some n => if 0 ≤ n then hs ++ [(lit "Content-Length", intToStr n)] else hs
    | none => hs
  { statusline := lit "200 OK", headers := hs, protocol := lit "HTTP/1.0" }

omit [PyUni] [Hashlib] [PyStream σ] in
/-- `bool(http_headers)` (statusandheaders.py:138-139, recordloader.py:144,148). -/
def truthyHeaders (h : Option StatusAndHeaders) : Bool :=
  match h with
  | some h => h.truthy
  | none => false

omit [PyUni] [PyStream σ] in
/-- `if is_verifying: stream.begin_payload()` (recordloader.py:151-152). -/
def beginPayload (s : RawStream σ) : Except PyErr Unit × RawStream σ :=
  match s with
  | .verifying r => let (e, r) := r.beginPayload; (e, .verifying r)
  | s => (.ok (), s)

/-- `parse_record_stream` (recordloader.py:72-156).  The second component is the archive
stream afterwards; when a record is returned it is also the stream below the record's
`raw_stream` (they share it). -/
def parseRecordStream (o : LoadOpts) (s : σ) (statusline : Option Line := none) :
    Except PyErr (Record (RawStream σ)) × σ :=
  match detectType o s statusline with
  | (.error e, s) => (.error e, s)
  | (.ok (f, h), s) =>
    let fl := fields f h
    let length := blockLength fl.length fl.subLen
    match wrap o fl length s with
    | .error e => (.error e, s)
    | .ok raw =>
      let start := PyStream.tell raw
      match (if o.noRecordParse then (.ok none, raw) else loadHttpHeaders o.verifyHttp fl.recType fl.uri length raw) with
      | (.error e, raw) => (.error e, raw.under)
      | (.ok http, raw) =>
        let payloadLength := match length with
          | some n => if n ≠ 0 ∧ truthyHeaders http then n - (PyStream.tell raw - start) else -1
          | none => -1
        let http := if !truthyHeaders http && o.ensureHttpHeaders then some (defaultHttpHeaders length fl.contentType) else http
        match beginPayload raw with
        | (.error e, raw) => (.error e, raw.under)
        | (.ok _, raw) =>
          (.ok { format := fl.format, recType := fl.recType, recHeaders := fl.headers, rawStream := raw,
                 httpHeaders := http, contentType := fl.contentType, length := length,
                 payloadLength := some payloadLength, checker := { kind := o.checkDigests.getD .other } }, raw.under)

end Loader

/-- `record.digest_checker` (recordloader.py:25,127,156): the object that a verifying stream
updates. -/
def Record.digestChecker {σ} (r : Record (RawStream σ)) : DigestChecker :=
  match r.rawStream with
  | .verifying d => d.checker
  | _ => r.checker

/-- The name of a decompressor (bufferedreaders.py:34,59-62). -/
def DType.ofName (n : Str) : Option DType :=
  if n = lit "gzip" then some .gzip
  else if n = lit "deflate" then some .deflate
  else if n = lit "deflate_alt" then some .deflateAlt
  else if n = lit "br" then some .br
  else none

/-- What `content_stream` returns (recordloader.py:27-44). -/
inductive ContentStream (σ : Type)
  | raw (s : σ)
  | buffered (r : BufReader σ)
  deriving DecidableEq, Repr

/-- The decompressor for a `Content-Encoding`, if it is supported (recordloader.py:31-37,
bufferedreaders.py:250-252). -/
def contentDecoder [PyUni] [Zlib] (encoding : Option Str) : Option DType :=
  if Loader.truthy encoding then
    match DType.ofName (PyUni.lower (encoding.getD [])) with
    | some t => if (Zlib.codec t).isSome then some t else none
    | none => none
  else none

/-- `content_stream()` (recordloader.py:27-44).  Constructing the reader cannot fail, as the
decompressor is supported. -/
def Record.contentStream {σ} [PyUni] [Zlib] (r : Record σ) : Except PyErr (ContentStream σ) :=
  match r.httpHeaders with
  | none => .ok (.raw r.rawStream)
  | some h =>
    if !h.truthy then .ok (.raw r.rawStream)
    else
      let enc := contentDecoder (h.getHeader (lit "content-encoding"))
      if h.getHeader (lit "transfer-encoding") = some (lit "chunked") then
        (BufReader.newChunked r.rawStream false 16384 enc).map .buffered
      else
        match enc with
        | some t => (BufReader.new r.rawStream 16384 (some t)).map .buffered
        | none => .ok (.raw r.rawStream)

/-- Reading from a content stream (recordloader.py:27-44). -/
instance {σ} [Zlib] [PyStream σ] : PyStream (ContentStream σ) where
  read s n :=
    match s with
    | .raw s => let (b, s) := PyStream.read s n; (b, .raw s)
    | .buffered s => let (b, s) := PyStream.read s n; (b, .buffered s)
  readline s n :=
    match s with
    | .raw s => let (b, s) := PyStream.readline s n; (b, .raw s)
    | .buffered s => let (b, s) := PyStream.readline s n; (b, .buffered s)
  tell s :=
    match s with
    | .raw s => PyStream.tell s
    | .buffered s => PyStream.tell s
  bound s :=
    match s with
    | .raw s => PyStream.bound s
    | .buffered s => PyStream.bound s

end Warcio
