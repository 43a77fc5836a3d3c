import Verif.Model.RecordLoader

/-! # Model of /repo/warcio/recordbuilder.py -/

namespace Warcio

/-- What the builder uses of a payload stream besides reading: `tell` and `seek`, which may
raise (recordbuilder.py:96,180-181,207). -/
class PyFile (σ : Type) extends PyStream σ where
  tellE : σ → Except PyErr Int
  seek : σ → Int → Except PyErr σ

/-- Files, `BytesIO`, pipes (recordbuilder.py:96,180-181,207). -/
instance : PyFile FileObj where
  tellE f := if f.seekable then .ok f.pos else .error .attributeError
  seek f p := if p < 0 then .error .valueError else f.seek p.toNat

/-- The stream of a record that was read: `tell` works, there is no `seek` (limitreader.py:44-46,
bufferedreaders.py:208-209, recordbuilder.py:180-181). -/
instance {σ} [Hashlib] [PyStream σ] : PyFile (RawStream σ) where
  tellE s := .ok (PyStream.tell s)
  seek _ _ := .error .attributeError

/-- `record.raw_stream` in the builder: the stream the caller gave, a `BytesIO` or temporary file
(recordbuilder.py:99,184,205), or a stream that was closed (warcwriter.py:103). -/
inductive RecStream (σ : Type)
  | own (s : σ)
  | mem (f : FileObj)
  | closed
  deriving DecidableEq, Repr

/-- Dynamic dispatch on `record.raw_stream` (recordbuilder.py:218).  Every use of a closed stream
raises `ValueError`; that is a simplification for the closed stream of a record that was read. -/
instance {σ} [PyFile σ] : PyFile (RecStream σ) where
  read s n :=
    match s with
    | .own s => let (b, s) := PyStream.read s n; (b, .own s)
    | .mem s => let (b, s) := PyStream.read s n; (b, .mem s)
    | .closed => (.error .valueError, .closed)
  readline s n :=
    match s with
    | .own s => let (b, s) := PyStream.readline s n; (b, .own s)
    | .mem s => let (b, s) := PyStream.readline s n; (b, .mem s)
    | .closed => (.error .valueError, .closed)
  tell s :=
    match s with
    | .own s => PyStream.tell s
    | .mem s => PyStream.tell s
    | .closed => 0
  bound s :=
    match s with
    | .own s => PyStream.bound s
    | .mem s => PyStream.bound s
    | .closed => 0
  tellE s :=
    match s with
    | .own s => PyFile.tellE s
    | .mem s => PyFile.tellE s
    | .closed => .error .valueError
  seek s p :=
    match s with
    | .own s => (PyFile.seek s p).map .own
    | .mem s => (PyFile.seek s p).map .mem
    | .closed => .error .valueError

/-- `ArcWarcRecord` as the builder and the writer use it (recordloader.py:20-25).  `orig` is the
attribute `_orig_stream` (recordbuilder.py:204, warcwriter.py:102-104): absent, the very object
that `raw` is, or another stream. -/
structure OutRecord (σ : Type) where
  recType : Option Str
  recHeaders : StatusAndHeaders
  raw : RecStream σ
  httpHeaders : Option StatusAndHeaders
  contentType : Option Str
  length : Option Int
  payloadLength : Option Int := some (-1)
  orig : Option (Option (RecStream σ)) := none
  deriving DecidableEq, Repr

/-- A record that was read, given to the writer (recordloader.py:20-25, warcwriter.py:136-137). -/
def OutRecord.ofRead {σ} (r : Record σ) : OutRecord σ where
  recType := r.recType
  recHeaders := r.recHeaders
  raw := .own r.rawStream
  httpHeaders := r.httpHeaders
  contentType := r.contentType
  length := r.length
  payloadLength := r.payloadLength

/-- `RecordBuilder` (recordbuilder.py:33-36) with `gzip` of the writer (warcwriter.py:17). -/
structure BuilderCfg where
  version : Str := lit "WARC/1.0"
  filter : Header → Option Header := some
  gzip : Bool := true

/-- What the environment gives to one call: a new record id (statusandheaders.py:322-327) and the
current time in UTC (recordbuilder.py:156). -/
structure Env where
  newId : Str
  now : DateTime

namespace Builder

/-- `REVISIT_PROFILE` (recordbuilder.py:14). -/
def revisitProfile : Str := lit "http://netpreserve.org/warc/1.0/revisit/identical-payload-digest"

/-- `REVISIT_PROFILE_1_1` (recordbuilder.py:15). -/
def revisitProfile11 : Str := lit "http://netpreserve.org/warc/1.1/revisit/identical-payload-digest"

/-- `WARC_RECORDS` (recordbuilder.py:23-28). -/
def warcRecords : List (Str × Str) :=
  [(lit "warcinfo", lit "application/warc-fields"),
   (lit "response", lit "application/http; msgtype=response"),
   (lit "revisit", lit "application/http; msgtype=response"),
   (lit "request", lit "application/http; msgtype=request"),
   (lit "metadata", lit "application/warc-fields")]

/-- `NO_PAYLOAD_DIGEST_TYPES` (recordbuilder.py:30). -/
def noPayloadDigest (recType : Option Str) : Bool := recType == some (lit "warcinfo") || recType == some (lit "revisit")

/-- `_parse_warc_version(version)` (recordbuilder.py:140-148), of a version given as text. -/
def parseVersion (version : Str) : Str :=
  if version.isEmpty then lit "WARC/1.0"
  else if startsWith (lit "WARC/") version then version
  else lit "WARC/" ++ version

/-- Python's `a >= b` of texts (recordbuilder.py:137). -/
def strGe : Str → Str → Bool
  | _, [] => true
  | [], _ :: _ => false
  | a :: s, b :: t => b.toNat < a.toNat || (a == b && strGe s t)

/-- `curr_warc_date` (recordbuilder.py:136-138, 154-156). -/
def currDate (version : Str) (now : DateTime) : Str := datetimeToIsoDate now (strGe version (lit "WARC/1.1"))

section
variable [PyUni]

/-- `_init_warc_headers(uri, record_type, warc_headers_dict)` (recordbuilder.py:122-134). -/
def initHeaders (version : Str) (env : Env) (uri recType : Str) (dict : List Header) : StatusAndHeaders :=
  let h : StatusAndHeaders := { statusline := [], headers := dict, protocol := version }
  let h := (h.replaceHeader (lit "WARC-Type") recType).2
  let h := if Loader.truthy (h.getHeader (lit "WARC-Record-ID")) then h else h.addHeader (lit "WARC-Record-ID") env.newId
  let h := if uri.isEmpty then h else (h.replaceHeader (lit "WARC-Target-URI") uri).2
  if Loader.truthy (h.getHeader (lit "WARC-Date")) then h else h.addHeader (lit "WARC-Date") (currDate version env.now)

variable {σ : Type}

/-- `_iter_stream(stream)` (recordbuilder.py:215-222): the buffers it yields, how it ends, and the
stream afterwards. -/
def iterStream [PyStream σ] : Nat → σ → List Bytes × Except PyErr Unit × σ
  | 0, s => ([], .error .outOfFuel, s)
  | fuel + 1, s =>
    match PyStream.read s (some 16384) with
    | (.error e, s) => ([], .error e, s)
    | (.ok b, s) =>
      if b.isEmpty then ([], .ok (), s)
      else
        let (bs, x, s) := iterStream fuel s
        (b :: bs, x, s)

/-- `_iter_stream` with enough fuel (recordbuilder.py:215-222). -/
def iterAll [PyStream σ] (s : σ) : List Bytes × Except PyErr Unit × σ := iterStream (PyStream.bound s + 2) s

variable [Hashlib] [PyFile σ]

/-- `self._create_digester() if wanted else None` (recordbuilder.py:168-169,224-226). -/
def digesterIf (wanted : Bool) : Except PyErr (Option Digester) :=
  if wanted then (Digester.new (lit "sha1")).map some else .ok none

omit [PyUni] [Hashlib] in
/-- `tell` and `seek` of the record's stream (recordbuilder.py:177-184): the position and the
stream, or `none` if a temporary file is needed. -/
def rewindable (r : OutRecord σ) : Option (Int × RecStream σ) :=
  match r.length with
  | none => none
  | some _ =>
    match PyFile.tellE r.raw with
    | .error _ => none
    | .ok pos =>
      match PyFile.seek r.raw pos with
      | .error _ => none
      | .ok s => some (pos, s)

omit [PyUni] [Hashlib] [PyFile σ] in
/-- The HTTP headers at the front of the block (recordbuilder.py:186-189): what the block digester
is given, if there is one. -/
def headersForDigest (filter : Header → Option Header) (block : Bool) (r : OutRecord σ) : Except PyErr Bytes × OutRecord σ :=
  match r.httpHeaders with
  | none => (.ok [], r)
  | some h =>
    if !block || !h.truthy then (.ok [], r)
    else if (h.headersBuff.getD []).isEmpty then
      match h.computeHeadersBuffer filter with
      | (.ok _, h) => (.ok (h.headersBuff.getD []), { r with httpHeaders := some h })
      | (.error e, h) => (.error e, { r with httpHeaders := some h })
    else (.ok (h.headersBuff.getD []), r)

omit [Hashlib] [PyFile σ] in
/-- Adding a digest header, if there is a digester (recordbuilder.py:209-213). -/
def addDigest [Hashlib] (name : Str) (d : Option Digester) (h : StatusAndHeaders) : StatusAndHeaders :=
  match d with
  | some d => h.addHeader name d.str
  | none => h

/-- `ensure_digest(record, block, payload)` (recordbuilder.py:158-213). -/
def ensureDigest (filter : Header → Option Header) (r : OutRecord σ) (block payload : Bool) : Except PyErr Unit × OutRecord σ :=
  let block := block && !Loader.truthy (r.recHeaders.getHeader (lit "WARC-Block-Digest"))
  let payload := payload && !(Loader.truthy (r.recHeaders.getHeader (lit "WARC-Payload-Digest")) || noPayloadDigest r.recType)
  match digesterIf block, digesterIf payload with
  | .error e, _ => (.error e, r)
  | _, .error e => (.error e, r)
  | .ok bd, .ok pd =>
    if bd.isNone && pd.isNone && r.length.isSome then (.ok (), r)
    else
      let start := rewindable r
      let r := match start with
        | some (_, s) => { r with raw := s }
        | none => r
      match headersForDigest filter block r with
      | (.error e, r) => (.error e, r)
      | (.ok buff, r) =>
        match iterAll r.raw with
        | (_, .error e, s) => (.error e, { r with raw := s })
        | (bufs, .ok _, s) =>
          let bd := bd.map (fun d => bufs.foldl Digester.update (d.update buff))
          let pd := pd.map (fun d => bufs.foldl Digester.update d)
          match (match start with
            | none => (.ok { r with payloadLength := some (len bufs.flatten), raw := .mem { content := bufs.flatten }, orig := some (some s) } : Except PyErr (OutRecord σ))
            | some (pos, _) =>
              match PyFile.seek s pos with
              | .ok s => .ok { r with raw := s }
              | .error e => .error e) with
          | .error e => (.error e, { r with raw := s })
          | .ok r =>
            let h := addDigest (lit "WARC-Payload-Digest") pd r.recHeaders
            (.ok (), { r with recHeaders := addDigest (lit "WARC-Block-Digest") bd h })

/-- The HTTP headers of a new record (recordbuilder.py:92-96): they are parsed from the payload if
none are given; gives the headers, the payload and the length. -/
def httpOf (uri recType : Str) (payload : Option (RecStream σ)) (length : Option Int) (http : Option StatusAndHeaders) :
    Except PyErr (Option StatusAndHeaders × Option (RecStream σ) × Option Int) :=
  match payload with
  | none => .ok (http, none, length)
  | some p =>
    if Loader.truthyHeaders http then .ok (http, some p, length)
    else
      match Loader.loadHttpHeaders true (some recType) (some uri) length p with
      | (.error e, _) => .error e
      | (.ok http, p) =>
        match length with
        | none => .ok (http, some p, none)
        | some n =>
          if Loader.truthyHeaders http then
            match PyFile.tellE p with
            | .ok k => .ok (http, some p, some (n - k))
            | .error e => .error e
          else .ok (http, some p, some n)

/-- The content type of a new record (recordbuilder.py:105-111). -/
def contentTypeOf (given : Str) (h : StatusAndHeaders) (recType : Str) : Str :=
  if !given.isEmpty then given
  else
    let t := h.getHeader (lit "Content-Type")
    if Loader.truthy t then t.getD []
    else ((warcRecords.find? (fun x => x.1 == recType)).map (·.2)).getD (lit "application/warc-record")

/-- Arguments of `create_warc_record` (recordbuilder.py:82-88).  File objects are always true as
conditions. -/
structure CreateArgs (σ : Type) where
  uri : Str
  recType : Str
  payload : Option (RecStream σ) := none
  length : Option Int := none
  contentType : Str := []
  dict : List Header := []
  headers : Option StatusAndHeaders := none
  http : Option StatusAndHeaders := none

/-- `create_warc_record` (recordbuilder.py:82-120). -/
def createRecord (c : BuilderCfg) (env : Env) (a : CreateArgs σ) : Except PyErr (OutRecord σ) :=
  match httpOf a.uri a.recType a.payload a.length a.http with
  | .error e => .error e
  | .ok (http, payload, length) =>
    let (raw, length) := match payload with
      | some p => (p, length)
      | none => (.mem { content := [] }, some 0)
    let h := if Loader.truthyHeaders a.headers then a.headers.getD { statusline := [], headers := [] }
      else initHeaders c.version env a.uri a.recType a.dict
    let r : OutRecord σ :=
      { recType := some a.recType, recHeaders := h, raw := raw, httpHeaders := http,
        contentType := some (contentTypeOf a.contentType h a.recType), length := length, payloadLength := length }
    match ensureDigest c.filter r false true with
    | (.ok _, r) => .ok r
    | (.error e, _) => .error e

omit [PyUni] [Hashlib] [PyFile σ] in
/-- The lines of a warcinfo record (recordbuilder.py:46-52); `info` is the list of items with values
as texts; a false value (an empty text) is skipped. -/
def infoLines (info : List (Str × Str)) : Bytes :=
  match info with
  | [] => []
  | (n, v) :: t =>
    if v.isEmpty then infoLines t
    else utf8Encode (n ++ lit ": " ++ v ++ lit "\r\n") ++ infoLines t

/-- `create_warcinfo_record(filename, info)` (recordbuilder.py:38-60). -/
def createInfo (c : BuilderCfg) (env : Env) (filename : Str) (info : List (Str × Str)) : Except PyErr (OutRecord σ) :=
  let h : StatusAndHeaders := { statusline := [], headers := [], protocol := c.version }
  let h := h.addHeader (lit "WARC-Type") (lit "warcinfo")
  let h := h.addHeader (lit "WARC-Record-ID") env.newId
  let h := if filename.isEmpty then h else h.addHeader (lit "WARC-Filename") filename
  let h := h.addHeader (lit "WARC-Date") (currDate c.version env.now)
  createRecord c env { uri := [], recType := lit "warcinfo", headers := some h, payload := some (.mem { content := infoLines info }),
                       length := some (len (infoLines info)) }

/-- `create_revisit_record` (recordbuilder.py:62-80). -/
def createRevisit (c : BuilderCfg) (env : Env) (uri digest refersUri refersDate : Str) (http : Option StatusAndHeaders) (dict : List Header) :
    Except PyErr (OutRecord σ) :=
  if digest.isEmpty then .error .assertionError
  else
    match createRecord c env ({ uri := uri, recType := lit "revisit", http := http, dict := dict } : CreateArgs σ) with
    | .error e => .error e
    | .ok r =>
      let h := r.recHeaders.addHeader (lit "WARC-Profile") (if c.version = lit "WARC/1.1" then revisitProfile11 else revisitProfile)
      let h := h.addHeader (lit "WARC-Refers-To-Target-URI") refersUri
      let h := h.addHeader (lit "WARC-Refers-To-Date") refersDate
      let h := h.addHeader (lit "WARC-Payload-Digest") digest
      .ok { r with recHeaders := h }

end
end Builder
end Warcio
