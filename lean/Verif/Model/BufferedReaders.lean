import Verif.Py.Stream

/-! # `/repo/warcio/bufferedreaders.py` -/

namespace Warcio

/-- Names of decompressors (bufferedreaders.py:34, 59-62).  Callers pass lower-case names
(archiveiterator.py:79 via 264; recordloader.py:34-42). -/
inductive DType
  | gzip | deflate | deflateAlt | br
  deriving DecidableEq, Repr

/-- A decompressor object as a function of the chunks it has been fed so far
(`zlib.decompressobj`, bufferedreaders.py:9-21; brotli, 29-32).  `out hist c` is the result
of `decompress(c)` after `hist`, `none` an exception; `unused hist` is `unused_data`. -/
structure Codec where
  out : List Bytes → Bytes → Option Bytes
  unused : List Bytes → Bytes

/-- The decompression libraries: a codec per name, `none` if not installed
(bufferedreaders.py:25-36, 59-62), and a bound on how much they expand their input (used
only for loop fuel). -/
class Zlib where
  codec : DType → Option Codec
  ratio : Nat

/-- A decompressor object: which kind, and the chunks fed to it so far. -/
structure Decompressor where
  kind : DType
  hist : List Bytes := []
  deriving DecidableEq, Repr

/-- `decompressor.unused_data` (bufferedreaders.py:118,222,225,234). -/
def Decompressor.unused [Zlib] (d : Decompressor) : Bytes :=
  match Zlib.codec d.kind with
  | some c => c.unused d.hist
  | none => []

/-- State that `ChunkedDataReader` adds (bufferedreaders.py:286-292). -/
structure ChunkState where
  allChunksRead : Bool := false
  notChunked : Bool := false
  raiseExceptions : Bool := false
  deriving DecidableEq, Repr

/-- `BufferedReader` (bufferedreaders.py:64-79) and its subclasses.  The `BytesIO` in `buff`
is modelled by its unread part (so `buff_size - buff.tell()` is its length); `chunk` is
`some` for a `ChunkedDataReader`.  `blockSize` is at least 1 in every use. -/
structure BufReader (σ : Type) where
  stream : σ
  blockSize : Nat := 16384
  decompType : Option DType := none
  decompressor : Option Decompressor := none
  buff : Option Bytes := none
  startingData : Option Bytes := none
  numRead : Nat := 0
  numBlockRead : Nat := 0
  readAllMembers : Bool := false
  chunk : Option ChunkState := none
  deriving DecidableEq, Repr

namespace BufReader

variable {σ : Type}

/-- `_init_decomp` for a known type (bufferedreaders.py:84-95). -/
def initDecomp (r : BufReader σ) (t : Option DType) : BufReader σ :=
  match t with
  | some k => { r with numBlockRead := 0, decompType := some k, decompressor := some { kind := k } }
  | none => { r with numBlockRead := 0, decompType := none, decompressor := none }

/-- `BufferedReader.__init__` (bufferedreaders.py:64-79); an unavailable decompression type
raises (88-92). -/
def new [Zlib] (s : σ) (blockSize : Nat := 16384) (t : Option DType := none)
    (readAllMembers : Bool := false) : Except PyErr (BufReader σ) :=
  match t with
  | none => .ok { stream := s, blockSize := blockSize, readAllMembers := readAllMembers }
  | some k =>
    match Zlib.codec k with
    | some _ => .ok { stream := s, blockSize := blockSize, decompType := some k,
                      decompressor := some { kind := k }, readAllMembers := readAllMembers }
    | none => .error .unsupportedDecomp

/-- `ChunkedDataReader.__init__` (bufferedreaders.py:286-292). -/
def newChunked [Zlib] (s : σ) (raiseExceptions : Bool := false) (blockSize : Nat := 16384)
    (t : Option DType := none) : Except PyErr (BufReader σ) :=
  match new s blockSize t with
  | .ok r => .ok { r with chunk := some { raiseExceptions := raiseExceptions } }
  | .error e => .error e

variable [Zlib]

/-- `self.decompressor.unused_data`, empty when there is no decompressor. -/
def unused (r : BufReader σ) : Bytes :=
  match r.decompressor with
  | some d => d.unused
  | none => []

/-- `read_next_member` (bufferedreaders.py:221-227). -/
def readNextMember (r : BufReader σ) : Bool × BufReader σ :=
  match r.decompressor with
  | none => (false, r)
  | some d =>
    if d.unused = [] then (false, r)
    else (true, { r with startingData := some d.unused }.initDecomp r.decompType)

/-- The test of `empty` without its side effect (bufferedreaders.py:212). -/
def noBuff (r : BufReader σ) : Bool :=
  match r.buff with
  | none => true
  | some b => b.isEmpty

/-- `empty` (bufferedreaders.py:211-219), including the attempt to go to the next member. -/
def empty (r : BufReader σ) : Bool × BufReader σ :=
  if r.noBuff then
    if r.readAllMembers then (true, r.readNextMember.2) else (true, r)
  else (false, r)

/-- `rem_length` (bufferedreaders.py:229-236). -/
def remLength (r : BufReader σ) : Int :=
  (match r.buff with | some b => len b | none => 0) + len r.unused

/-- `decompressor.decompress(data)`: the result and the reader with the chunk recorded. -/
def feed (r : BufReader σ) (data : Bytes) : Option Bytes × BufReader σ :=
  match r.decompressor with
  | none => (some data, r)
  | some d =>
    match Zlib.codec d.kind with
    | none => (none, r)
    | some c => (c.out d.hist data, { r with decompressor := some { d with hist := d.hist ++ [data] } })

/-- `_decompress` after the switch to `deflate_alt` (bufferedreaders.py:134-150 with
`decomp_type == 'deflate_alt'`). -/
def decompressAlt (r : BufReader σ) (data : Bytes) : Bytes × BufReader σ :=
  match r.feed data with
  | (some o, r') => (o, r')
  | (none, r') =>
    if r'.numBlockRead = 0 then (data, { r' with decompressor := none }) else ([], r')

/-- `_decompress` (bufferedreaders.py:134-150). -/
def decompress (r : BufReader σ) (data : Bytes) : Bytes × BufReader σ :=
  if r.decompressor.isSome && !data.isEmpty then
    match r.feed data with
    | (some o, r') => (o, r')
    | (none, r') =>
      if r'.numBlockRead = 0 then
        if r'.decompType = some .deflate then
          decompressAlt (r'.initDecomp (some .deflateAlt)) data
        else (data, { r' with decompressor := none })
      else ([], r')
  else (data, r)

/-- `_process_read` (bufferedreaders.py:122-132). -/
def processRead (r : BufReader σ) (data : Bytes) : BufReader σ :=
  if data.isEmpty then { r with buff := none }
  else
    let (d, r) := r.decompress data
    { r with numRead := r.numRead + d.length, numBlockRead := r.numBlockRead + d.length,
             buff := some d }

variable [PyStream σ]

/-- `self.stream.read(n)`. -/
def readStream (r : BufReader σ) (n : Int) : Except PyErr Bytes × BufReader σ :=
  let (b, s) := PyStream.read r.stream (some n)
  (b, { r with stream := s })

/-- The loop of `_fillbuff` (bufferedreaders.py:118-120). -/
def fillLoop : Nat → Bytes → BufReader σ → Except PyErr Unit × BufReader σ
  | 0, _, r => (.error .outOfFuel, r)
  | fuel + 1, data, r =>
    if !data.isEmpty && r.decompressor.isSome && r.unused.isEmpty then
      let (e, r) := r.empty
      if e then
        match r.readStream r.blockSize with
        | (.error e, r) => (.error e, r)
        | (.ok data, r) => fillLoop fuel data (r.processRead data)
      else (.ok (), r)
    else (.ok (), r)

/-- The raw data to process next: data put back by `read_next_member`, or a block from the
stream (bufferedreaders.py:107-111). -/
def nextData (r : BufReader σ) : Except PyErr Bytes × BufReader σ :=
  if (r.startingData.getD []).isEmpty then r.readStream r.blockSize
  else (.ok (r.startingData.getD []), { r with startingData := none })

/-- `BufferedReader._fillbuff` (bufferedreaders.py:97-120).  `block_size` is never passed by
warcio, so it is `self.block_size`. -/
def baseFill (r : BufReader σ) : Except PyErr Unit × BufReader σ :=
  let (e, r) := r.empty
  if !e then (.ok (), r)
  else if 0 < r.remLength then (.ok (), r)
  else
    match r.nextData with
    | (.error e, r) => (.error e, r)
    | (.ok data, r) => fillLoop (PyStream.bound r.stream + 2) data (r.processRead data)

/-- The loop that reads the data of one chunk (bufferedreaders.py:350-365): returns the data
and whether it ran out of data. -/
def chunkLoop (raiseExc : Bool) : Nat → Int → Bytes → BufReader σ →
    Except PyErr (Bytes × Bool) × BufReader σ
  | 0, _, _, r => (.error .outOfFuel, r)
  | fuel + 1, size, data, r =>
    if len data < size then
      match r.readStream (size - len data) with
      | (.error e, r) => (.error e, r)
      | (.ok new, r) =>
        if new.isEmpty then
          if raiseExc then (.error (.chunkedData data), r)
          else (.ok (data, true), r)
        else chunkLoop raiseExc fuel size (data ++ new) r
    else (.ok (data, false), r)

/-- `length_header[:-2]` and the CRLF check (bufferedreaders.py:326-327). -/
def chunkSizeOf (header : Bytes) : Option Int :=
  if header.drop (header.length - 2) = crlf then
    match parseHexBytes (split1 59 (header.take (header.length - 2))).1 with
    | some n => if n ≤ 2147483648 then some n else none
    | none => none
  else none

/-- `_try_decode` (bufferedreaders.py:322-376). -/
def tryDecode (r : BufReader σ) (c : ChunkState) (header : Bytes) : Except PyErr Unit × BufReader σ :=
  match chunkSizeOf header with
  | none => (.error (.chunkedData []), r)
  | some size =>
    if size = 0 then
      match r.readStream 2 with
      | (.error e, r) => (.error e, r)
      | (.ok fin, r) =>
        if fin = crlf then
          (.ok (), { r with chunk := some { c with allChunksRead := true } }.processRead [])
        else (.error (.chunkedData []), r)
    else
      match chunkLoop c.raiseExceptions (PyStream.bound r.stream + 2) size [] r with
      | (.error e, r) => (.error e, r)
      | (.ok (data, ranOut), r) =>
        if ranOut then
          (.ok (), { r with chunk := some { c with allChunksRead := true } }.processRead data)
        else
          match r.readStream 2 with
          | (.error e, r) => (.error e, r)
          | (.ok t, r) =>
            if t = crlf then (.ok (), r.processRead data)
            else (.error (.chunkedData data), r)

/-- `self.stream.readline(n)`. -/
def readlineStream (r : BufReader σ) (n : Int) : Except PyErr Bytes × BufReader σ :=
  let (b, s) := PyStream.readline r.stream (some n)
  (b, { r with stream := s })

/-- The loop of `ChunkedDataReader._fillbuff` (bufferedreaders.py:301-320). -/
def chunkedFillLoop : Nat → BufReader σ → Except PyErr Unit × BufReader σ
  | 0, r => (.error .outOfFuel, r)
  | fuel + 1, r =>
    let (e, r) := r.empty
    let c := r.chunk.getD {}
    if e && !c.allChunksRead && !c.notChunked then
      match r.readlineStream 64 with
      | (.error e, r) => (.error e, r)
      | (.ok header, r) =>
        match r.tryDecode c header with
        | (.ok _, r) => chunkedFillLoop fuel r
        | (.error (.chunkedData d), r) =>
          if c.raiseExceptions then (.error (.chunkedData d), r)
          else
            let r := r.processRead (header ++ d)
            let r := { r with chunk := some { c with notChunked := true } }
            r.baseFill
        | (.error e, r) => (.error e, r)
    else (.ok (), r)

/-- `self._fillbuff()`: dispatches to `ChunkedDataReader._fillbuff`
(bufferedreaders.py:294-320) for a chunked reader. -/
def fillbuff (r : BufReader σ) : Except PyErr Unit × BufReader σ :=
  match r.chunk with
  | none => r.baseFill
  | some c =>
    if c.notChunked then r.baseFill
    else chunkedFillLoop (PyStream.bound r.stream + 2) r

/-- Upper bound on the bytes still to come, for loop fuel (not a Python method). -/
def bound (r : BufReader σ) : Nat :=
  (r.buff.getD []).length +
  (Zlib.ratio + 1) * ((match r.decompressor with | some d => d.hist.flatten.length | none => 0) +
    (r.startingData.getD []).length + PyStream.bound r.stream)

/-- `self.buff.read(length)` for a non-negative length (bufferedreaders.py:166). -/
def buffRead (r : BufReader σ) (n : Option Int) : Bytes × BufReader σ :=
  let b := r.buff.getD []
  let k := askLen n b.length
  (b.take k, { r with buff := some (b.drop k) })

/-- `self.buff.readline(length)` (bufferedreaders.py:190,204). -/
def buffReadline (r : BufReader σ) (n : Option Int) : Bytes × BufReader σ :=
  let b := r.buff.getD []
  let l := takeLine b
  let l := l.take (askLen n l.length)
  (l, { r with buff := some (b.drop l.length) })

/-- `length is None or length > 0` (bufferedreaders.py:161). -/
def wantsMore : Option Int → Bool
  | none => true
  | some n => decide (0 < n)

/-- The loop of `read` (bufferedreaders.py:161-169). -/
def readLoop : Nat → Option Int → Bytes → BufReader σ → Except PyErr Bytes × BufReader σ
  | 0, _, _, r => (.error .outOfFuel, r)
  | fuel + 1, length, acc, r =>
    if wantsMore length then
      match r.fillbuff with
      | (.error e, r) => (.error e, r)
      | (.ok _, r) =>
        let (e, r) := r.empty
        if e then (.ok acc, r)
        else
          let (b, r) := r.buffRead length
          readLoop fuel (length.map (· - len b)) (acc ++ b) r
    else (.ok acc, r)

/-- `BufferedReader.read` (bufferedreaders.py:152-171). -/
def read (r : BufReader σ) (length : Option Int) : Except PyErr Bytes × BufReader σ :=
  readLoop (r.bound + 2) length [] r

/-- `if length: length -= len(linebuff); if length <= 0: break`
(bufferedreaders.py:194-197); `none` is the `break`.  The *whole* line read so far is
subtracted, each time round. -/
def decLen : Option Int → Bytes → Option (Option Int)
  | none, _ => some none
  | some n, line =>
    if n = 0 then some (some 0)
    else if n - len line ≤ 0 then none
    else some (some (n - len line))

/-- The loop of `readline` (bufferedreaders.py:193-204). -/
def readlineLoop : Nat → Option Int → Bytes → BufReader σ → Except PyErr Bytes × BufReader σ
  | 0, _, _, r => (.error .outOfFuel, r)
  | fuel + 1, length, line, r =>
    if endsWith [10] line then (.ok line, r)
    else
      match decLen length line with
      | none => (.ok line, r)
      | some length =>
        match r.fillbuff with
        | (.error e, r) => (.error e, r)
        | (.ok _, r) =>
          let (e, r) := r.empty
          if e then (.ok line, r)
          else
            let (b, r) := r.buffReadline length
            readlineLoop fuel length (line ++ b) r

/-- `BufferedReader.readline` (bufferedreaders.py:175-206). -/
def readline (r : BufReader σ) (length : Option Int) : Except PyErr Bytes × BufReader σ :=
  if length = some 0 then (.ok [], r)
  else
    match r.fillbuff with
    | (.error e, r) => (.error e, r)
    | (.ok _, r) =>
      let (e, r) := r.empty
      if e then (.ok [], r)
      else
        let (b, r) := r.buffReadline length
        readlineLoop (r.bound + 2) length b r

end BufReader

/-- A buffered reader is itself a stream; `tell` is `num_read` (bufferedreaders.py:208-209). -/
instance {σ} [Zlib] [PyStream σ] : PyStream (BufReader σ) where
  read := BufReader.read
  readline := BufReader.readline
  tell r := r.numRead
  bound := BufReader.bound

end Warcio
