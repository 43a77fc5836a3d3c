import Verif.Model.Iterator
import Verif.Model.WarcWriter

/-!
# Model of the command line tools

/repo/warcio/recompressor.py, extractor.py, indexer.py, checker.py.  Files are given as file
objects; what is printed for people to read is modelled where it is the result of the tool.
-/

namespace Warcio

/-! ## Reading a stream to its end -/

/-- `while buf: ...; buf = stream.read(n)` (extractor.py:28-31,37-40; checker.py:8-12;
`shutil.copyfileobj`, recompressor.py:77): the buffers, how it ends, and the stream afterwards. -/
def readBlocks {σ} [PyStream σ] (n : Int) : Nat → σ → List Bytes × Except PyErr Unit × σ
  | 0, s => ([], .error .outOfFuel, s)
  | fuel + 1, s =>
    match PyStream.read s (some n) with
    | (.error e, s) => ([], .error e, s)
    | (.ok b, s) =>
      if b.isEmpty then ([], .ok (), s)
      else
        let (bs, x, s) := readBlocks n fuel s
        (b :: bs, x, s)

/-- The loop with enough fuel (extractor.py:28-31,37-40; checker.py:8-12). -/
def readAllBlocks {σ} [PyStream σ] (n : Int) (s : σ) : List Bytes × Except PyErr Unit × σ :=
  readBlocks n (PyStream.bound s + 2) s

/-- The raw stream below a content stream: the same object as `record.raw_stream`
(recordloader.py:27-44). -/
def ContentStream.below {σ} : ContentStream σ → σ
  | .raw s => s
  | .buffered r => r.stream

/-! ## recompressor.py -/

namespace Recompressor

section
variable [Zlib] [Hashlib] [PyUni] [Deflater]

/-- The archive stream after a record was written (recompressor.py:61-66).  The writer has either
read the record's stream, and puts it back behind a temporary file (warcwriter.py:101-104), or it
leaves it.  If a temporary file stays in place (a revisit record without digest), the iterator
will drain that file and not the stream, which was read to its end; that makes no difference. -/
def putBack {σ} (was : RawStream (BufReader σ)) (r : OutRecord (RawStream (BufReader σ))) : RawStream (BufReader σ) :=
  match r.raw with
  | .own s => s
  | _ =>
    match r.orig with
    | some (some (.own s)) => s
    | _ => was

/-- The loop of `load_and_write` (recompressor.py:61-67), with the count so far. -/
def copyLoop {σ} [PyStream σ] (c : BuilderCfg) : Nat → ArchiveIter σ → OutFile → Nat → Except PyErr Nat × OutFile
  | 0, _, out, _ => (.error .outOfFuel, out)
  | fuel + 1, it, out, count =>
    match it.next with
    | (.error .stopIteration, _) => (.ok count, out)
    | (.error e, _) => (.error e, out)
    | (.ok _, it) =>
      match it.current with
      | none => (.error .attributeError, out)
      | some rec =>
        match Writer.write c (OutRecord.ofRead rec) out with
        | (.error e, _, out) => (.error e, out)
        | (.ok _, r, out) => copyLoop c fuel { it with raw := putBack it.raw r } out (count + 1)

/-- The options of the iterator (recompressor.py:61-64); `ids` supplies record ids for ARC records
(statusandheaders.py:322-327). -/
def opts (ids : Nat → Str) : IterOpts := { noRecordParse := false, arc2warc := true, verifyHttp := false, ids := ids }

/-- `load_and_write(stream, output)` (recompressor.py:56-69): the number of records and the output
file, which is opened anew.  The writer's settings are a parameter; the tool uses `gzip=True`. -/
def loadAndWrite (c : BuilderCfg) (ids : Nat → Str) (f : FileObj) : Except PyErr Nat × OutFile :=
  match openArchive f (opts ids) with
  | .error e => (.error e, {})
  | .ok it => copyLoop c (PyStream.bound it.reader + 2) it {} 0

/-- `decompress_and_recompress(stream, output)` (recompressor.py:71-81).  `again` are the short
reads of the file when it is read for the second time. -/
def decompressAndRecompress (c : BuilderCfg) (ids : Nat → Str) (f : FileObj) (again : List Nat) : Except PyErr Nat × OutFile :=
  match BufReader.new f 16384 (some .gzip) true with
  | .error e => (.error e, {})
  | .ok r =>
    match f.seek 0 with
    | .error e => (.error e, {})
    | .ok f =>
      match readAllBlocks 65536 ({ r with stream := { f with caps := again } } : BufReader FileObj) with
      | (_, .error e, _) => (.error e, {})
      | (bufs, .ok _, _) => loadAndWrite c ids { content := bufs.flatten }

/-- What `recompress` prints (recompressor.py:29,37,44-45,53). -/
inductive Outcome
  | noErrors (count : Nat)
  | fixed (count : Nat)
  | failed
  deriving DecidableEq, Repr

/-- `recompress()` (recompressor.py:21-54): what it reports and the output file, which the second
attempt opens anew.  After `failed` the exit code is 1. -/
def recompress (c : BuilderCfg) (ids : Nat → Str) (f : FileObj) (again : List Nat) : Outcome × OutFile :=
  match loadAndWrite c ids f with
  | (.ok n, out) => (.noErrors n, out)
  | (.error _, _) =>
    match decompressAndRecompress c ids f again with
    | (.ok n, out) => (.fixed n, out)
    | (.error _, out) => (.failed, out)

end
end Recompressor

/-! ## extractor.py -/

namespace Extractor

/-- `READ_SIZE` (extractor.py:9, utils.py:19). -/
def readSize : Int := 65536

section
variable [Zlib] [Hashlib] [PyUni]

/-- Writing a record out (extractor.py:26-40): how it ends, and the bytes. -/
def output {σ} [PyStream σ] (rec : Record (RawStream (BufReader σ))) (payloadOnly headersOnly : Bool) : Except PyErr Unit × Bytes :=
  if payloadOnly then
    match rec.contentStream with
    | .error e => (.error e, [])
    | .ok s =>
      let (bufs, x, _) := readAllBlocks readSize s
      (x, bufs.flatten)
  else
    let head := rec.recHeaders.toBytes ++
      (match rec.httpHeaders with
        | some h => if h.truthy then h.toBytes else []
        | none => [])
    if headersOnly then (.ok (), head)
    else
      let (bufs, x, _) := readAllBlocks readSize rec.rawStream
      (x, head ++ bufs.flatten)

/-- `extract(payload_only, headers_only)` (extractor.py:15-40): how it ends, and what is written to
standard output.  A negative offset cannot be sought. -/
def extract (f : FileObj) (offset : Int) (payloadOnly headersOnly : Bool) : Except PyErr Unit × Bytes :=
  if offset < 0 then (.error .valueError, [])
  else
    match f.seek offset.toNat with
    | .error e => (.error e, [])
    | .ok f =>
      match openArchive f with
      | .error e => (.error e, [])
      | .ok it =>
        match it.next with
        | (.error e, _) => (.error e, [])
        | (.ok _, it) =>
          match it.current with
          | none => (.error .attributeError, [])
          | some rec => output rec payloadOnly headersOnly

/-- `warcio extract FILE OFFSET` (cli.py:49,84-86; `int(self.offset)`, extractor.py:17): the offset is
given as a text. -/
def extractAt (f : FileObj) (offset : Str) (payloadOnly headersOnly : Bool) : Except PyErr Unit × Bytes :=
  match parseInt offset with
  | none => (.error .valueError, [])
  | some n => extract f n payloadOnly headersOnly

end
end Extractor

/-! ## indexer.py -/

namespace Indexer

/-- `str.split(',')` (indexer.py:17). -/
def splitComma : Str → List Str
  | [] => [[]]
  | c :: t =>
    if c = ',' then [] :: splitComma t
    else
      match splitComma t with
      | [] => [[c]]
      | f :: fs => (c :: f) :: fs

/-- `os.path.basename` (indexer.py:71): what is behind the last `/`. -/
def basename (p : Str) : Str := (p.reverse.takeWhile (· ≠ '/')).reverse

/-- `index[field] = value` (indexer.py:51): an `OrderedDict` keeps the place of a key. -/
def dictSet (k v : Str) : List (Str × Str) → List (Str × Str)
  | [] => [(k, v)]
  | (k', v') :: t => if k = k' then (k, v) :: t else (k', v') :: dictSet k v t

/-- A hexadecimal digit of `json.dumps` (indexer.py:87). -/
def hexDigit (n : Nat) : Char := (lit "0123456789abcdef").getD n '0'

/-- `\uXXXX` (indexer.py:87). -/
def jsonU (n : Nat) : Str := '\\' :: 'u' :: [hexDigit (n / 4096 % 16), hexDigit (n / 256 % 16), hexDigit (n / 16 % 16), hexDigit (n % 16)]

/-- One character in a JSON text (`json.dumps` with `ensure_ascii`, indexer.py:87). -/
def jsonChar (c : Char) : Str :=
  if c = '"' then lit "\\\""
  else if c = '\\' then lit "\\\\"
  else if c = '\n' then lit "\\n"
  else if c = '\r' then lit "\\r"
  else if c = '\t' then lit "\\t"
  else if c.toNat = 12 then lit "\\f"
  else if c.toNat = 8 then lit "\\b"
  else if 32 ≤ c.toNat ∧ c.toNat ≤ 126 then [c]
  else if c.toNat < 65536 then jsonU c.toNat
  else jsonU (55296 + (c.toNat - 65536) / 1024) ++ jsonU (56320 + (c.toNat - 65536) % 1024)

/-- A JSON text (indexer.py:87). -/
def jsonStr (s : Str) : Str := '"' :: s.flatMap jsonChar ++ ['"']

/-- The items of a JSON object (indexer.py:87). -/
def jsonItems : List (Str × Str) → Str
  | [] => []
  | [(k, v)] => jsonStr k ++ lit ": " ++ jsonStr v
  | (k, v) :: t => jsonStr k ++ lit ": " ++ jsonStr v ++ lit ", " ++ jsonItems t

/-- `json.dumps(index) + '\n'` (indexer.py:86-87). -/
def jsonLine (index : List (Str × Str)) : Str := '{' :: jsonItems index ++ lit "}\n"

section
variable [Zlib] [Hashlib] [PyUni] {σ : Type} [PyStream σ]

/-- `get_field(record, name, it, filename)` (indexer.py:64-81) for the record of the iterator. -/
def getField (filename : Str) (rec : Record Unit) (name : Str) (it : ArchiveIter σ) : Except PyErr (Option Str) × ArchiveIter σ :=
  if name = lit "offset" then
    let (n, it) := it.getRecordOffset
    (n.map (fun n => some (intToStr n)), it)
  else if name = lit "length" then
    let (n, it) := it.getRecordLength
    (n.map (fun n => some (intToStr n)), it)
  else if name = lit "filename" then (.ok (some (basename filename)), it)
  else if name = lit "http:status" then
    if (rec.recType = some (lit "response") ∨ rec.recType = some (lit "revisit")) ∧ Loader.truthyHeaders rec.httpHeaders = true then
      (.ok (rec.httpHeaders.map StatusAndHeaders.getStatuscode), it)
    else (.ok none, it)
  else if startsWith (lit "http:") name then
    if Loader.truthyHeaders rec.httpHeaders then
      (.ok (match rec.httpHeaders with
        | some h => h.getHeader (name.drop 5)
        | none => none), it)
    else (.ok none, it)
  else (.ok (rec.recHeaders.getHeader name), it)

/-- The fields of `process_index_entry` (indexer.py:43-51). -/
def entry (filename : Str) (rec : Record Unit) : List Str → List (Str × Str) → ArchiveIter σ → Except PyErr (List (Str × Str)) × ArchiveIter σ
  | [], index, it => (.ok index, it)
  | name :: names, index, it =>
    match getField filename rec name it with
    | (.error e, it) => (.error e, it)
    | (.ok none, it) => entry filename rec names index it
    | (.ok (some v), it) => entry filename rec names (dictSet name v index) it

/-- The loop of `process_one` (indexer.py:35-41): how it ends, and the index entries. -/
def indexLoop (filename : Str) (fields : List Str) : Nat → ArchiveIter σ → Except PyErr Unit × List (List (Str × Str))
  | 0, _ => (.error .outOfFuel, [])
  | fuel + 1, it =>
    match it.next with
    | (.error .stopIteration, _) => (.ok (), [])
    | (.error e, _) => (.error e, [])
    | (.ok _, it) =>
      match it.record with
      | none => (.error .attributeError, [])
      | some rec =>
        match entry filename rec fields [] it with
        | (.error e, _) => (.error e, [])
        | (.ok index, it) =>
          let (x, es) := indexLoop filename fields fuel it
          (x, index :: es)

end

section
variable [Zlib] [Hashlib] [PyUni]

/-- The options of the iterator (indexer.py:19,55-59). -/
def opts (fields : List Str) (verifyHttp : Bool) (ids : Nat → Str) : IterOpts :=
  { noRecordParse := !fields.any (startsWith (lit "http:")), arc2warc := true, verifyHttp := verifyHttp, ids := ids }

/-- `process_one` (indexer.py:35-41). -/
def indexFile (fields : List Str) (verifyHttp : Bool) (ids : Nat → Str) (filename : Str) (f : FileObj) :
    Except PyErr Unit × List (List (Str × Str)) :=
  match openArchive f (opts fields verifyHttp ids) with
  | .error e => (.error e, [])
  | .ok it => indexLoop filename fields (PyStream.bound it.reader + 2) it

/-- `process_all` (indexer.py:25-33): how it ends and what is written to the output. -/
def index (fields : List Str) (verifyHttp : Bool) (ids : Nat → Str) : List (Str × FileObj) → Except PyErr Unit × Str
  | [] => (.ok (), [])
  | (name, f) :: t =>
    let (x, es) := indexFile fields verifyHttp ids name f
    let text := es.flatMap jsonLine
    match x with
    | .error e => (.error e, text)
    | .ok _ =>
      let (y, rest) := index fields verifyHttp ids t
      (y, text ++ rest)

end
end Indexer

/-! ## checker.py -/

namespace Checker

/-- What is printed (checker.py:25-28, 63-71): a file name; a record's position, id and type with
a message and the problems; or that a file could not be read. -/
inductive Print
  | file (name : Str)
  | record (offset : Int) (id type : Option Str) (msg : Option Str) (problems : List Problem)
  | failure (name : Str)
  deriving DecidableEq

/-- The message for a record (checker.py:49-61) and the problems listed for it. -/
def verdict (verbose digestPresent : Bool) (recType : Option Str) (passed : Option Bool) (problems : List Problem) : Option Str × List Problem :=
  match passed with
  | some false => (none, problems)
  | some true => (if verbose then some (lit "digest pass") else none, [])
  | none =>
    (if verbose then
      some (if digestPresent && recType == some (lit "revisit") then lit "digest present but not checked (revisit)"
        else if digestPresent then lit "digest present but not checked"
        else lit "no digest to check")
    else none, [])

section
variable [Zlib] [Hashlib] [PyUni]

/-- What is done with one record (checker.py:40-51): the position, the digest checker, and the
iterator afterwards. -/
def examine {σ} [PyStream σ] (it : ArchiveIter σ) (rec : Record (RawStream (BufReader σ))) : Except PyErr (Int × DigestChecker) × ArchiveIter σ :=
  match rec.contentStream with
  | .error e => (.error e, it)
  | .ok s =>
    match readAllBlocks 1048576 s with
    | (_, .error e, s) => (.error e, { it with raw := s.below })
    | (_, .ok _, s) =>
      match ({ it with raw := s.below } : ArchiveIter σ).getRecordOffset with
      | (.error e, it) => (.error e, it)
      | (.ok off, it) => (.ok (off, ({ rec with rawStream := it.raw } : Record (RawStream (BufReader σ))).digestChecker), it)

/-- The loop of `process_one` (checker.py:36-71): how it ends, whether `exit_value` is set, and
what is printed.  `printed` is `printed_filename`. -/
def checkLoop {σ} [PyStream σ] (verbose : Bool) (name : Str) : Nat → ArchiveIter σ → Bool → Except PyErr Unit × Bool × List Print
  | 0, _, _ => (.error .outOfFuel, false, [])
  | fuel + 1, it, printed =>
    match it.next with
    | (.error .stopIteration, _) => (.ok (), false, [])
    | (.error e, _) => (.error e, false, [])
    | (.ok _, it) =>
      match it.current with
      | none => (.error .attributeError, false, [])
      | some rec =>
        let present := Loader.truthy (rec.recHeaders.getHeader (lit "WARC-Payload-Digest")) ||
          Loader.truthy (rec.recHeaders.getHeader (lit "WARC-Block-Digest"))
        match examine it rec with
        | (.error e, _) => (.error e, false, [])
        | (.ok (off, checker), it) =>
          let recType := rec.recHeaders.getHeader (lit "WARC-Type")
          let (msg, problems) := verdict verbose present recType checker.passed checker.problems
          let show_ := msg.isSome || !problems.isEmpty
          let now := if show_ then (if printed then [] else [.file name]) ++
              [.record off (rec.recHeaders.getHeader (lit "WARC-Record-ID")) recType msg problems] else []
          let (x, bad, out) := checkLoop verbose name fuel it (printed || show_)
          (x, checker.passed == some false || bad, now ++ out)

/-- `process_one(filename)` (checker.py:32-71). -/
def processOne (verbose : Bool) (name : Str) (f : FileObj) : Except PyErr Unit × Bool × List Print :=
  match openArchive f { checkDigests := some .other } with
  | .error e => (.error e, false, [])
  | .ok it => checkLoop verbose name (PyStream.bound it.reader + 2) it false

/-- `process_all()` (checker.py:21-30): the exit value, and what is printed.  Only
`ArchiveLoadFailed` is caught.  `exit` is `exit_value` so far. -/
def processAll (verbose : Bool) : List (Str × FileObj) → Nat → Except PyErr Nat × List Print
  | [], exit => (.ok exit, [])
  | (name, f) :: t, exit =>
    match processOne verbose name f with
    | (.ok _, bad, out) =>
      let (x, rest) := processAll verbose t (if bad then 1 else exit)
      (x, out ++ rest)
    | (.error e, _, out) =>
      if e.isArchiveLoadFailed then
        let (x, rest) := processAll verbose t 1
        (x, out ++ .failure name :: rest)
      else (.error e, out)

end
end Checker
end Warcio
