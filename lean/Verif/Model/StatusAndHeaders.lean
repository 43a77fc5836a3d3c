import Verif.Py.Utf8
import Verif.Py.Stream

/-! # Model of /repo/warcio/statusandheaders.py -/

namespace Warcio

/-- A header is a name and a value (statusandheaders.py:20). -/
abbrev Header := Str × Str

/-- `StatusAndHeaders` (statusandheaders.py:15-32).  `headers` has gone through
`headers_to_str_headers` (utils.py:71-93), which decodes byte strings; a mapping is given as
the list of its items. -/
structure StatusAndHeaders where
  statusline : Str
  headers : List Header
  protocol : Str := []
  totalLen : Int := 0
  headersBuff : Option Bytes := none
  deriving DecidableEq, Repr

namespace StatusAndHeaders

/-- `StatusAndHeaders(statusline, headers, is_http_request=True)`
(statusandheaders.py:25-32): the verb is split off; without a space the unpacking raises
`ValueError`. -/
def newRequest (statusline : Str) (headers : List Header) : Except PyErr StatusAndHeaders :=
  match split1 ' ' statusline with
  | (_, none) => .error .valueError
  | (verb, some rest) => .ok { statusline := rest, headers := headers, protocol := verb }

variable [PyUni]

/-- `value[0].lower() == name_lower` (statusandheaders.py:41,57,71). -/
def nameEq (name : Str) (h : Header) : Bool := PyUni.lower h.1 == PyUni.lower name

/-- The loop of `get_header` (statusandheaders.py:40-42). -/
def findHeader (name : Str) : List Header → Option Str
  | [] => none
  | h :: t => if nameEq name h then some h.2 else findHeader name t

/-- `get_header(name)` (statusandheaders.py:34-44). -/
def getHeader (s : StatusAndHeaders) (name : Str) : Option Str := findHeader name s.headers

/-- `name in headers` (statusandheaders.py:217-218): false for an empty value as well. -/
def contains (s : StatusAndHeaders) (name : Str) : Bool :=
  match s.getHeader name with
  | none => false
  | some v => !v.isEmpty

/-- `add_header(name, value)` (statusandheaders.py:46-47). -/
def addHeader (s : StatusAndHeaders) (name value : Str) : StatusAndHeaders :=
  { s with headers := s.headers ++ [(name, value)] }

/-- The loop `for index in range(len(self.headers) - 1, -1, -1)` with a test
(statusandheaders.py:55-57,70-71): the largest index below `n` whose header name matches. -/
def lastIndex (name : Str) (hs : List Header) : Nat → Option Nat
  | 0 => none
  | n + 1 =>
    match hs[n]? with
    | some h => if nameEq name h then some n else lastIndex name hs n
    | none => lastIndex name hs n

/-- `replace_header(name, value)` (statusandheaders.py:49-62), on the header list. -/
def replaceIn (hs : List Header) (name value : Str) : Option Str × List Header :=
  match lastIndex name hs hs.length with
  | some i =>
    match hs[i]? with
    | some h => (some h.2, hs.set i (h.1, value))
    | none => (none, hs)
  | none => (none, hs ++ [(name, value)])

/-- `replace_header(name, value)` (statusandheaders.py:49-62). -/
def replaceHeader (s : StatusAndHeaders) (name value : Str) : Option Str × StatusAndHeaders :=
  let r := replaceIn s.headers name value
  (r.1, { s with headers := r.2 })

/-- `remove_header(name)` (statusandheaders.py:64-75), on the header list. -/
def removeIn (hs : List Header) (name : Str) : Bool × List Header :=
  match lastIndex name hs hs.length with
  | some i => (true, hs.eraseIdx i)
  | none => (false, hs)

/-- `remove_header(name)` (statusandheaders.py:64-75). -/
def removeHeader (s : StatusAndHeaders) (name : Str) : Bool × StatusAndHeaders :=
  let r := removeIn s.headers name
  (r.1, { s with headers := r.2 })

/-- `get_statuscode()` (statusandheaders.py:77-83). -/
def getStatuscode (s : StatusAndHeaders) : Str := (split1 ' ' s.statusline).1

/-- `validate_statusline(valid)` (statusandheaders.py:85-97).  `assert` is taken as enabled. -/
def validateStatusline (s : StatusAndHeaders) (valid : Str) : Bool × StatusAndHeaders :=
  match parseInt s.getStatuscode with
  | some n => if 0 < n then (true, s) else (false, { s with statusline := valid })
  | none => (false, { s with statusline := valid })

/-- `add_range(start, part_len, total_len)` (statusandheaders.py:99-111). -/
def addRange (s : StatusAndHeaders) (start partLen total : Int) : StatusAndHeaders :=
  let range := lit "bytes " ++ intToStr start ++ lit "-" ++ intToStr (start + partLen - 1) ++ lit "/" ++ intToStr total
  let s := { s with statusline := lit "206 Partial Content" }
  let s := (s.replaceHeader (lit "Content-Range") range).2
  let s := (s.replaceHeader (lit "Content-Length") (intToStr partLen)).2
  (s.replaceHeader (lit "Accept-Ranges") (lit "bytes")).2

omit [PyUni] in
/-- `__eq__` (statusandheaders.py:127-133) of two objects, the second one truthy. -/
def beq (a b : StatusAndHeaders) : Bool :=
  a.statusline == b.statusline && a.headers == b.headers && a.protocol == b.protocol

omit [PyUni] in
/-- `__bool__` (statusandheaders.py:138-139). -/
def truthy (s : StatusAndHeaders) : Bool := !s.statusline.isEmpty || !s.headers.isEmpty

omit [PyUni] in
/-- The first line in `to_str` (statusandheaders.py:144-153). -/
def firstLine (s : StatusAndHeaders) : Str :=
  let str := s.protocol
  let str := if !str.isEmpty && !s.statusline.isEmpty then str ++ [' '] else str
  let str := if !s.statusline.isEmpty then str ++ s.statusline else str
  if !str.isEmpty then str ++ crlfStr else str

omit [PyUni] in
/-- The loop over the headers in `to_str` (statusandheaders.py:155-161).  A filter gives the
header to write, or `None`; an empty tuple is not considered. -/
def headerLines (filter : Header → Option Header) : List Header → Str
  | [] => []
  | h :: t =>
    match filter h with
    | none => headerLines filter t
    | some h => h.1 ++ [':', ' '] ++ h.2 ++ crlfStr ++ headerLines filter t

omit [PyUni] in
/-- `to_str(filter_func)` (statusandheaders.py:143-163). -/
def toStr (s : StatusAndHeaders) (filter : Header → Option Header := some) : Str :=
  s.firstLine ++ headerLines filter s.headers

omit [PyUni] in
/-- `to_bytes(filter_func)` with the default encoding (statusandheaders.py:165-166). -/
def toBytes (s : StatusAndHeaders) (filter : Header → Option Header := some) : Bytes :=
  utf8Encode (s.toStr filter) ++ crlf

end StatusAndHeaders

/-- A hexadecimal digit as `quote` writes it (urllib.parse.quote, used at
statusandheaders.py:190,200,206). -/
def hexUpper (n : Nat) : Char := if n < 10 then Char.ofNat (48 + n) else Char.ofNat (55 + n)

/-- The characters `urllib.parse.quote` leaves alone: letters, digits, `_.-~` and the default
`safe='/'` (statusandheaders.py:190,200,206). -/
def quoteSafe (b : UInt8) : Bool :=
  let n := b.toNat
  (48 ≤ n && n ≤ 57) || (65 ≤ n && n ≤ 90) || (97 ≤ n && n ≤ 122) ||
  n == 95 || n == 46 || n == 45 || n == 126 || n == 47

/-- `quote` of one byte (statusandheaders.py:190,200,206). -/
def quoteByte (b : UInt8) : Str :=
  if quoteSafe b then [Char.ofNat b.toNat]
  else ['%', hexUpper (b.toNat / 16), hexUpper (b.toNat % 16)]

/-- `urllib.parse.quote(s)` (statusandheaders.py:190,200,206). -/
def quote (s : Str) : Str := (utf8Encode s).flatMap quoteByte

namespace StatusAndHeaders

/-- `[^;"]` in `ENCODE_HEADER_RX` (statusandheaders.py:16). -/
def rxVal (c : Char) : Bool := c != ';' && c != '"'

/-- `["\']` in `ENCODE_HEADER_RX` (statusandheaders.py:16). -/
def rxQuote (c : Char) : Bool := c == '"' || c == '\''

/-- `([^;"]+)["\']?(?=[;]?)` at the start of `s`: the group and what follows the match
(statusandheaders.py:16).  The group is greedy and stops before a `;`, a `"` or the end, so
the optional quote after it can only be a `"`; the look-ahead always succeeds. -/
def rxGroup (s : Str) : Option (Str × Str) :=
  match s.takeWhile rxVal with
  | [] => none
  | g =>
    match s.dropWhile rxVal with
    | '"' :: t => some (g, t)
    | t => some (g, t)

/-- A match of `ENCODE_HEADER_RX` behind its `=` (statusandheaders.py:16): the optional quote
is tried first, and left out if the rest does not match then. -/
def rxMatch (s : Str) : Option (Str × Str) :=
  match s with
  | [] => none
  | c :: t =>
    if rxQuote c then
      match rxGroup t with
      | some r => some r
      | none => rxGroup s
    else rxGroup s

/-- `ENCODE_HEADER_RX.sub(do_encode, s)` (statusandheaders.py:189-190,204), with fuel for the
length of `s`. -/
def rxSub : Nat → Str → Str
  | 0, s => s
  | _, [] => []
  | fuel + 1, c :: t =>
    if c = '=' then
      match rxMatch t with
      | some (g, rest) => lit "*=UTF-8''" ++ quote g ++ rxSub fuel rest
      | none => c :: rxSub fuel t
    else c :: rxSub fuel t

/-- The new value of a header in `percent_encode_non_ascii_headers`
(statusandheaders.py:194-206). -/
def percentEncodeValue (v : Str) : Str :=
  if isAscii v then v
  else if v.contains ';' then
    let new := rxSub v.length v
    if new = v then quote v else new
  else quote v

/-- `percent_encode_non_ascii_headers()` (statusandheaders.py:183-208). -/
def percentEncode (s : StatusAndHeaders) : StatusAndHeaders :=
  { s with headers := s.headers.map (fun h => (h.1, percentEncodeValue h.2)) }

/-- `to_ascii_bytes(filter_func)` (statusandheaders.py:168-181); the headers stay
percent-encoded. -/
def toAsciiBytes (s : StatusAndHeaders) (filter : Header → Option Header := some) :
    Except PyErr Bytes × StatusAndHeaders :=
  match encodeAscii (s.toStr filter) with
  | .ok b => (.ok (b ++ crlf), s)
  | .error _ =>
    let s := s.percentEncode
    match encodeAscii (s.toStr filter) with
    | .ok b => (.ok (b ++ crlf), s)
    | .error e => (.error e, s)

/-- `compute_headers_buffer(header_filter)` (statusandheaders.py:113-118). -/
def computeHeadersBuffer (s : StatusAndHeaders) (filter : Header → Option Header := some) :
    Except PyErr Unit × StatusAndHeaders :=
  match s.toAsciiBytes filter with
  | (.ok b, s) => (.ok (), { s with headersBuff := some b })
  | (.error e, s) => (.error e, s)

end StatusAndHeaders

/-- A line of text given as `bytes` or as `str` (`full_statusline`,
statusandheaders.py:236,245-248). -/
inductive Line
  | bytes (b : Bytes)
  | str (s : Str)
  deriving DecidableEq, Repr

/-- `decode_header` (statusandheaders.py:329-336, utils.py:23-32): a `str` is left alone. -/
def Line.decode : Line → Str
  | .bytes b => decodeHeader b
  | .str s => s

/-- `StatusAndHeadersParser.__init__` (statusandheaders.py:227-234). -/
structure HeaderParser where
  statuslist : List Str
  verify : Bool := true
  deriving DecidableEq, Repr

namespace HeaderParser

variable {σ : Type} [PyStream σ]

/-- `_strip_count(self.decode_header(stream.readline()), total_read)`
(statusandheaders.py:221-223,274,284,291). -/
def nextLine (s : σ) (total : Int) : Except PyErr (Str × Int) × σ :=
  match PyStream.readline s none with
  | (.ok b, s) => (.ok (rstrip (decodeHeader b), total + len (decodeHeader b)), s)
  | (.error e, s) => (.error e, s)

/-- `next_line.startswith((' ', '\t'))` (statusandheaders.py:288). -/
def isContinuation (l : Str) : Bool := startsWith [' '] l || startsWith ['\t'] l

/-- The loop over continuation lines (statusandheaders.py:288-292). -/
def contLoop : Nat → Option Str → Str → Int → σ → Except PyErr (Option Str × Str × Int) × σ
  | 0, _, _, _, s => (.error .outOfFuel, s)
  | fuel + 1, value, next, total, s =>
    if isContinuation next then
      match nextLine s total with
      | (.ok (l, t), s) => contLoop fuel (value.map (· ++ next)) l t s
      | (.error e, s) => (.error e, s)
    else (.ok (value, next, total), s)

/-- Name and value of a header line (statusandheaders.py:276-282). -/
def splitHeader (line : Str) : Str × Option Str :=
  match split1 ':' line with
  | (n, some v) => (rstripBlank n, some (lstrip v))
  | (n, none) => (n, none)

/-- The loop over header lines (statusandheaders.py:275-298). -/
def headerLoop : Nat → Str → Int → List Header → σ → Except PyErr (List Header × Int) × σ
  | 0, _, _, _, s => (.error .outOfFuel, s)
  | fuel + 1, line, total, hs, s =>
    if line.isEmpty then (.ok (hs, total), s)
    else
      match nextLine s total with
      | (.error e, s) => (.error e, s)
      | (.ok (next, total), s) =>
        match contLoop (PyStream.bound s + 2) (splitHeader line).2 next total s with
        | (.error e, s) => (.error e, s)
        | (.ok (value, next, total), s) =>
          match value with
          | some v => headerLoop fuel next total (hs ++ [((splitHeader line).1, v)]) s
          | none => headerLoop fuel next total hs s

/-- `split_prefix` (statusandheaders.py:310-320). -/
def splitPrefix [PyUni] (key : Str) : List Str → Option (Str × Str)
  | [] => none
  | p :: ps =>
    if startsWith p (PyUni.upper key) then some ((PyUni.upper key).take p.length, key.drop p.length)
    else splitPrefix key ps

/-- The status line split into protocol and the rest (statusandheaders.py:264-272). -/
def protocolStatus [PyUni] (c : HeaderParser) (full statusline : Str) : Except PyErr (Str × Option Str) :=
  if c.verify then
    match splitPrefix statusline c.statuslist with
    | some (p, r) => .ok (p, some r)
    | none => .error (.statusParser full)
  else .ok (split1 ' ' statusline)

/-- `parse` after the status line is decoded (statusandheaders.py:250-308). -/
def parseFrom [PyUni] (c : HeaderParser) (full : Str) (s : σ) : Except PyErr StatusAndHeaders × σ :=
  if full.isEmpty then (.error .eofError, s)
  else if (rstrip full).isEmpty then
    (.ok { statusline := [], headers := [], protocol := [], totalLen := len full }, s)
  else
    match c.protocolStatus full (rstrip full) with
    | .error e => (.error e, s)
    | .ok ps =>
      match nextLine s (len full) with
      | (.error e, s) => (.error e, s)
      | (.ok (line, total), s) =>
        match headerLoop (PyStream.bound s + 2) line total [] s with
        | (.error e, s) => (.error e, s)
        | (.ok (hs, total), s) =>
          (.ok { statusline := (match ps.2 with | some r => strip r | none => []),
                 headers := hs, protocol := ps.1, totalLen := total }, s)

/-- `parse(stream, full_statusline)` (statusandheaders.py:236-308). -/
def parse [PyUni] (c : HeaderParser) (s : σ) (full : Option Line := none) : Except PyErr StatusAndHeaders × σ :=
  match full with
  | some l => c.parseFrom l.decode s
  | none =>
    match PyStream.readline s none with
    | (.ok b, s) => c.parseFrom (decodeHeader b) s
    | (.error e, s) => (.error e, s)

end HeaderParser
end Warcio
