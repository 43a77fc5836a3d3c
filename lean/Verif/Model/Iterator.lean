import Verif.Model.RecordLoader

/-!
# Model of /repo/warcio/archiveiterator.py

`UnseekableYetTellable` (archiveiterator.py:12-23) is in `Verif/Py/Stream.lean`.
-/

namespace Warcio

/-- `self.fh` (archiveiterator.py:61,73-77): the file object, or a wrapper that counts bytes if
the file cannot tell its position. -/
inductive Source
  | file (f : FileObj)
  | wrapped (u : UnseekableYetTellable FileObj)

/-- `self.fh` as a stream (archiveiterator.py:12-23, 61-80). -/
instance : PyStream Source where
  read s n :=
    match s with
    | .file f => let (b, f) := PyStream.read f n; (b, .file f)
    | .wrapped u => let (b, u) := PyStream.read u n; (b, .wrapped u)
  readline s n :=
    match s with
    | .file f => let (b, f) := PyStream.readline f n; (b, .file f)
    | .wrapped u => let (b, u) := PyStream.readline u n; (b, .wrapped u)
  tell s :=
    match s with
    | .file f => PyStream.tell f
    | .wrapped u => PyStream.tell u
  bound s :=
    match s with
    | .file f => PyStream.bound f
    | .wrapped u => PyStream.bound u

/-- Choosing `self.fh` (archiveiterator.py:73-77): `tell()` raises for a file that is not
seekable. -/
def Source.of (f : FileObj) : Source :=
  if f.seekable then .file f else .wrapped { fh := f }

/-- Replace the archive stream below a record's stream: the reader is one object that the
iterator and the record's streams share (archiveiterator.py:79, recordloader.py:130,132). -/
def RawStream.setUnder {σ} (r : RawStream σ) (s : σ) : RawStream σ :=
  match r with
  | .bare _ => .bare s
  | .limited l => .limited { l with stream := s }
  | .verifying d => .verifying { d with lim := { d.lim with stream := { d.lim.stream with stream := s } } }

/-- Arguments of `ArchiveIterator.__init__` (archiveiterator.py:56-59) and, as a supply of
distinct names, the ids that `make_warc_id` hands out. -/
structure IterOpts where
  noRecordParse : Bool := false
  verifyHttp : Bool := false
  arc2warc : Bool := false
  ensureHttpHeaders : Bool := false
  checkDigests : Option CheckKind := none
  ids : Nat → Str := fun _ => []

/-- Where the generator `_iterate_records` is (archiveiterator.py:102-140). -/
inductive GenState
  | start | yielded | finished
  deriving DecidableEq, Repr

/-- `ArchiveIterator` (archiveiterator.py:26-88).  `raw` owns the reader: it is the
`raw_stream` of `self.record`, or the bare reader if there is no record; `record` is the rest of
`self.record`.  `warnings` are the offset and the text of each warning written to stderr
(archiveiterator.py:186-188); `err_count` is their number.  `closed`: `self.reader` is `None`.
`raiseInvalidGzip` and `emptyRecord` are locals of the generator.  `loads` counts calls of the
loader. -/
structure ArchiveIter (σ : Type) where
  opts : IterOpts
  raw : RawStream (BufReader σ)
  record : Option (Record Unit) := none
  closed : Bool := false
  offset : Int
  nextLine : Option Bytes := none
  knownFormat : Option Format := none
  memberInfo : Option (Int × Int) := none
  warnings : List (Int × Bytes) := []
  gen : GenState := .start
  raiseInvalidGzip : Bool := false
  emptyRecord : Bool := false
  loads : Nat := 0

namespace ArchiveIter

variable {σ : Type}

/-- `self.reader` (archiveiterator.py:79). -/
def reader (it : ArchiveIter σ) : BufReader σ := it.raw.under

/-- The reader after a call on it (archiveiterator.py:79,174,257). -/
def setReader (it : ArchiveIter σ) (r : BufReader σ) : ArchiveIter σ := { it with raw := it.raw.setUnder r }

/-- `self.err_count` (archiveiterator.py:85,188). -/
def errCount (it : ArchiveIter σ) : Nat := it.warnings.length

/-- `self.record`, with its stream (archiveiterator.py:86,110). -/
def current (it : ArchiveIter σ) : Option (Record (RawStream (BufReader σ))) :=
  it.record.map (fun r => { format := r.format, recType := r.recType, recHeaders := r.recHeaders, rawStream := it.raw,
                            httpHeaders := r.httpHeaders, contentType := r.contentType, length := r.length,
                            payloadLength := r.payloadLength, checker := r.checker })

/-- `close` (archiveiterator.py:96-100). -/
def close (it : ArchiveIter σ) : ArchiveIter σ := { it with record := none, closed := true }

section
variable [Zlib] [PyStream σ]

/-- `ArchiveIterator.__init__` (archiveiterator.py:56-88), with `known_format` set by the
subclasses `WARCIterator` and `ARCIterator` (archiveiterator.py:274-284).  `s` is `self.fh`. -/
def new (s : σ) (opts : IterOpts := {}) (blockSize : Nat := 16384) (knownFormat : Option Format := none) :
    Except PyErr (ArchiveIter σ) :=
  match BufReader.new s blockSize (some .gzip) with
  | .ok r => .ok { opts := opts, raw := .bare r, offset := PyStream.tell s, knownFormat := knownFormat }
  | .error e => .error e

/-- `self.fh.tell() - self.reader.rem_length()` (archiveiterator.py:186,225). -/
def position (it : ArchiveIter σ) : Int := PyStream.tell it.reader.stream - it.reader.remLength

/-- The loop of `_consume_blanklines` (archiveiterator.py:173-193): the next line and the size
of the lines skipped. -/
def blankLoop : Nat → Bool → Int → ArchiveIter σ → Except PyErr (Option Bytes × Int) × ArchiveIter σ
  | 0, _, _, it => (.error .outOfFuel, it)
  | fuel + 1, first, emptySize, it =>
    match PyStream.readline it.reader none with
    | (.error e, r) => (.error e, it.setReader r)
    | (.ok line, r) =>
      let it := it.setReader r
      if line.isEmpty then (.ok (none, emptySize), it)
      else if (rstripBytes line).isEmpty then blankLoop fuel false (emptySize + len line) it
      else if first then
        blankLoop fuel false (emptySize + len line)
          { it with warnings := it.warnings ++ [(it.position - (emptySize + len line), line)] }
      else (.ok (some line, emptySize), it)

/-- `_consume_blanklines` (archiveiterator.py:155-193). -/
def consumeBlanklines (it : ArchiveIter σ) : Except PyErr (Option Bytes × Int) × ArchiveIter σ :=
  blankLoop (PyStream.bound it.reader + 2) true 0 it

variable [Hashlib]

/-- Reading the rest of the record (archiveiterator.py:211-214); `BUFF_SIZE` is 16384
(utils.py:19). -/
def drainLoop : Nat → ArchiveIter σ → Except PyErr Unit × ArchiveIter σ
  | 0, it => (.error .outOfFuel, it)
  | fuel + 1, it =>
    match PyStream.read it.raw (some 16384) with
    | (.error e, raw) => (.error e, { it with raw := raw })
    | (.ok b, raw) => if b.isEmpty then (.ok (), { it with raw := raw }) else drainLoop fuel { it with raw := raw }

/-- `read_to_end` (archiveiterator.py:195-237). -/
def readToEnd (it : ArchiveIter σ) : Except PyErr Unit × ArchiveIter σ :=
  if it.record.isNone then (.ok (), it)
  else if it.memberInfo.isSome then (.ok (), it)
  else
    match drainLoop (PyStream.bound it.raw + 2) it with
    | (.error e, it) => (.error e, it)
    | (.ok _, it) =>
      match it.consumeBlanklines with
      | (.error e, it) => (.error e, it)
      | (.ok (next, emptySize), it) =>
        let offset := it.position - len (next.getD [])
        let length := offset - it.offset - (if it.reader.decompressor.isNone then emptySize else 0)
        (.ok (), { it with nextLine := next, offset := offset, memberInfo := some (it.offset, length) })

/-- `self.member_info[0]` and the like; `None[0]` is a `TypeError` (archiveiterator.py:245,251). -/
def memberField (f : Int × Int → Int) (it : ArchiveIter σ) : Except PyErr Int :=
  match it.memberInfo with
  | some m => .ok (f m)
  | none => .error .typeError

/-- `get_record_offset`, `get_record_length` (archiveiterator.py:241-251). -/
def getMember (f : Int × Int → Int) (it : ArchiveIter σ) : Except PyErr Int × ArchiveIter σ :=
  if it.memberInfo.isNone then
    match it.readToEnd with
    | (.error e, it) => (.error e, it)
    | (.ok _, it) => (memberField f it, it)
  else (memberField f it, it)

/-- `get_record_offset` (archiveiterator.py:241-245). -/
def getRecordOffset (it : ArchiveIter σ) : Except PyErr Int × ArchiveIter σ := getMember (·.1) it

/-- `get_record_length` (archiveiterator.py:247-251). -/
def getRecordLength (it : ArchiveIter σ) : Except PyErr Int × ArchiveIter σ := getMember (·.2) it

variable [PyUni]

/-- The arguments of the loader (archiveiterator.py:63-64, 257-262). -/
def loadOpts (it : ArchiveIter σ) : LoadOpts :=
  { verifyHttp := it.opts.verifyHttp, arc2warc := it.opts.arc2warc, knownFormat := it.knownFormat,
    noRecordParse := it.opts.noRecordParse, ensureHttpHeaders := it.opts.ensureHttpHeaders,
    checkDigests := it.opts.checkDigests, newId := it.opts.ids it.loads }

/-- `self.record = self._next_record(self.next_line)` (archiveiterator.py:110, 253-270).  After
an exception the old record stays; a closed iterator has no reader, and calling it is an
`AttributeError`. -/
def nextRecord (it : ArchiveIter σ) : Except PyErr Unit × ArchiveIter σ :=
  if it.closed then (.error .attributeError, it)
  else
    match Loader.parseRecordStream it.loadOpts it.reader (it.nextLine.map .bytes) with
    | (.error e, r) => (.error e, { it.setReader r with loads := it.loads + 1 })
    | (.ok rec, _) =>
      (.ok (), { it with raw := rec.rawStream,
                         record := some { format := rec.format, recType := rec.recType, recHeaders := rec.recHeaders,
                                          rawStream := (), httpHeaders := rec.httpHeaders, contentType := rec.contentType,
                                          length := rec.length, payloadLength := rec.payloadLength, checker := rec.checker },
                         memberInfo := none,
                         knownFormat := if it.opts.arc2warc then it.knownFormat else some rec.format,
                         loads := it.loads + 1 })

/-- What the generator does behind the record (archiveiterator.py:119-138): whether the loop
goes on. -/
def afterRecord (it : ArchiveIter σ) : Except PyErr Bool × ArchiveIter σ :=
  match it.readToEnd with
  | (.error e, it) => (.error e, it)
  | (.ok _, it) =>
    if it.closed then (.error .attributeError, it)
    else if it.reader.decompressor.isSome then
      let (more, r) := it.reader.readNextMember
      let it := it.setReader r
      if more then (.ok true, it)
      else if it.emptyRecord then (.ok false, it)
      else (.ok true, { it with raiseInvalidGzip := true })
    else (.ok (!it.emptyRecord), it)

/-- The loop of the generator from its top to the next `yield` or its end
(archiveiterator.py:108-140).  An exception ends the generator. -/
def genLoop : Nat → ArchiveIter σ → Except PyErr Unit × ArchiveIter σ
  | 0, it => (.error .outOfFuel, it)
  | fuel + 1, it =>
    match it.nextRecord with
    | (.ok _, it) =>
      if it.raiseInvalidGzip then (.error .nonChunkedGzip, { it with gen := .finished })
      else (.ok (), { it with gen := .yielded })
    | (.error .eofError, it) =>
      match afterRecord { it with emptyRecord := true } with
      | (.error e, it) => (.error e, { it with gen := .finished })
      | (.ok false, it) => (.error .stopIteration, { it.close with gen := .finished })
      | (.ok true, it) => genLoop fuel it
    | (.error e, it) => (.error e, { it with gen := .finished })

/-- `__next__` (archiveiterator.py:93-94): the new record is then `it.current`; at the end
`StopIteration`. -/
def next (it : ArchiveIter σ) : Except PyErr Unit × ArchiveIter σ :=
  match it.gen with
  | .finished => (.error .stopIteration, it)
  | .start => genLoop (PyStream.bound it.reader + 2) it
  | .yielded =>
    match it.afterRecord with
    | (.error e, it) => (.error e, { it with gen := .finished })
    | (.ok false, it) => (.error .stopIteration, { it.close with gen := .finished })
    | (.ok true, it) => genLoop (PyStream.bound it.reader + 2) it

end
end ArchiveIter

/-- `ArchiveIterator(fileobj, ...)`, `WARCIterator`, `ARCIterator`
(archiveiterator.py:56-88, 274-284). -/
def openArchive [Zlib] (f : FileObj) (opts : IterOpts := {}) (blockSize : Nat := 16384) (knownFormat : Option Format := none) :
    Except PyErr (ArchiveIter Source) :=
  ArchiveIter.new (Source.of f) opts blockSize knownFormat

end Warcio
