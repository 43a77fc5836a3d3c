/-!
# Python values used by the model

`bytes` is `List UInt8`, `str` is `List Char`.  A Python `str` may hold lone
surrogates; those are excluded (nothing in warcio produces them from decoded data).
Exceptions are values of `PyErr`.
-/

namespace Warcio

/-- Python `bytes` (all of /repo/warcio). -/
abbrev Bytes := List UInt8

/-- Python `str` (all of /repo/warcio), without lone surrogates. -/
abbrev Str := List Char

/-- The exceptions that warcio raises or lets through.  Message texts are dropped
except where the code uses them (`StatusAndHeadersParserException.statusline`,
statusandheaders.py:340-346; `ChunkedDataException.data`, bufferedreaders.py:270-273).
`outOfFuel` is not a Python exception: it marks a model loop that was cut off. -/
inductive PyErr
  /-- `EOFError` (statusandheaders.py:256, recordloader.py:294) -/
  | eofError
  /-- `StatusAndHeadersParserException` with a `str` statusline (statusandheaders.py:270) -/
  | statusParser (line : Str)
  /-- `StatusAndHeadersParserException` with a list of parts (recordloader.py:312) -/
  | arcParser (parts : List Str)
  /-- `ArchiveLoadFailed` (exceptions.py:2-5): 'Invalid WARC record' (recordloader.py:228) -/
  | invalidWarc
  /-- `ArchiveLoadFailed`: 'Invalid ARC record' (recordloader.py:240) -/
  | invalidArc
  /-- `ArchiveLoadFailed`: 'Unknown archive format' (recordloader.py:242) -/
  | unknownFormat
  /-- `ArchiveLoadFailed`: non-chunked gzip file (archiveiterator.py:153) -/
  | nonChunkedGzip
  /-- `ArchiveLoadFailed`: digest problem with kind 'raise' (digestverifyingreader.py:31) -/
  | digestFailed
  /-- `ChunkedDataException` (bufferedreaders.py:270-273) -/
  | chunkedData (data : Bytes)
  /-- 'Decompression type not supported' (bufferedreaders.py:91) -/
  | unsupportedDecomp
  /-- `ValueError` other than the ones below -/
  | valueError
  /-- `binascii.Error` (a `ValueError`) from base64 decoding (digestverifyingreader.py:144-158) -/
  | binascii
  | typeError
  | attributeError
  | indexError
  | assertionError
  | unicodeEncode
  /-- `StopIteration` from a finished generator -/
  | stopIteration
  /-- the model's loop fuel ran out; not a Python exception -/
  | outOfFuel
  deriving DecidableEq, Repr

/-- `isinstance(e, ArchiveLoadFailed)` (exceptions.py:2-5). -/
def PyErr.isArchiveLoadFailed : PyErr → Bool
  | .invalidWarc | .invalidArc | .unknownFormat | .nonChunkedGzip | .digestFailed => true
  | _ => false

/-- `isinstance(e, ValueError)`: `binascii.Error` is a `ValueError`
(used by `except ValueError`, digestverifyingreader.py:67,74). -/
def PyErr.isValueError : PyErr → Bool
  | .valueError | .binascii | .unicodeEncode => true
  | _ => false

deriving instance DecidableEq for Except

/-- Equality of character codes, as Python compares `str` elements. -/
abbrev code (c : Char) : Nat := c.toNat

/-- Code points for which `str.isspace()` holds; used by `str.strip/rstrip/lstrip` without
argument (statusandheaders.py:223,279,301; recordloader.py:296). -/
def isSpace (c : Char) : Bool :=
  let n := c.toNat
  (9 ≤ n && n ≤ 13) || (28 ≤ n && n ≤ 32) || n == 0x85 || n == 0xa0 || n == 0x1680 ||
  (0x2000 ≤ n && n ≤ 0x200a) || n == 0x2028 || n == 0x2029 || n == 0x202f || n == 0x205f ||
  n == 0x3000

/-- ASCII whitespace as `bytes.rstrip()` sees it (archiveiterator.py:178). -/
def isByteSpace (b : UInt8) : Bool :=
  let n := b.toNat
  (9 ≤ n && n ≤ 13) || n == 32

/-- Drop the longest suffix whose elements satisfy `p`. -/
def rdropWhile {α} (p : α → Bool) (s : List α) : List α :=
  (s.reverse.dropWhile p).reverse

/-- `str.rstrip()` (statusandheaders.py:223). -/
def rstrip (s : Str) : Str := rdropWhile isSpace s

/-- `str.lstrip()` (statusandheaders.py:279). -/
def lstrip (s : Str) : Str := s.dropWhile isSpace

/-- `str.strip()` (statusandheaders.py:301). -/
def strip (s : Str) : Str := rstrip (lstrip s)

/-- `str.rstrip(' \t')` (statusandheaders.py:278). -/
def rstripBlank (s : Str) : Str := rdropWhile (fun c => c == ' ' || c == '\t') s

/-- `bytes.rstrip()` (archiveiterator.py:178). -/
def rstripBytes (s : Bytes) : Bytes := rdropWhile isByteSpace s

/-- Split at the first `c`: the part before it and, if there is a `c`, the part after it.
Models `split(c, 1)` (statusandheaders.py:26,82,272,276; capture_http.py:216) and
`partition` (digestverifyingreader.py:162). -/
def split1 {α} [DecidableEq α] (c : α) : List α → List α × Option (List α)
  | [] => ([], none)
  | x :: xs =>
    if x = c then ([], some xs)
    else
      let r := split1 c xs
      (x :: r.1, r.2)

/-- Split at the last `c`: the part before it and the part after it, if any. -/
def rsplit1 {α} [DecidableEq α] (c : α) (s : List α) : Option (List α × List α) :=
  match split1 c s.reverse with
  | (_, none) => none
  | (post, some pre) => some (pre.reverse, post.reverse)

/-- `s.rsplit(c, n)` (recordloader.py:307): at most `n` splits, from the right. -/
def rsplitN {α} [DecidableEq α] (c : α) : Nat → List α → List (List α)
  | 0, s => [s]
  | n + 1, s =>
    match rsplit1 c s with
    | none => [s]
    | some (pre, post) => rsplitN c n pre ++ [post]

/-- `s.startswith(p)`. -/
def startsWith {α} [DecidableEq α] (p s : List α) : Bool := p.isPrefixOf s

/-- `s.endswith(p)`. -/
def endsWith {α} [DecidableEq α] (p s : List α) : Bool := p.isSuffixOf s

/-- `len` as a Python integer. -/
abbrev len {α} (s : List α) : Int := (s.length : Int)

/-- The string literal `s` as a model string. -/
abbrev lit (s : String) : Str := s.toList

/-- `str(n)` of a non-negative integer (statusandheaders.py:109, warcwriter.py:87). -/
def natToStr (n : Nat) : Str := Nat.toDigits 10 n

/-- `str(n)` of an integer. -/
def intToStr : Int → Str
  | .ofNat n => natToStr n
  | .negSucc n => '-' :: natToStr (n + 1)

/-- ASCII test: `s.encode('ascii')` succeeds (statusandheaders.py:175,196). -/
def isAscii (s : Str) : Bool := s.all (fun c => c.toNat < 128)

/-- The Unicode parts of Python that the model leaves open: case mapping and decimal digits
of non-ASCII characters.  `lower`/`upper` are `str.lower`/`str.upper`
(statusandheaders.py:39,54,69,316; recordloader.py:34); `decimal` is the value of a character
that `int()` accepts as a decimal digit, `isDigit` is `str.isdigit` (in `email.utils.parsedate`,
timeutils.py:86). -/
class PyUni where
  lower : Str → Str
  upper : Str → Str
  decimal : Char → Option Nat
  isDigit : Char → Bool
  lower_ascii : ∀ s, isAscii s = true → lower s = s.map Char.toLower
  upper_ascii : ∀ s, isAscii s = true → upper s = s.map Char.toUpper
  /-- upper-casing works character by character (true of CPython, unlike `lower`, which
  treats a final sigma specially) -/
  upper_append : ∀ s t, upper (s ++ t) = upper s ++ upper t
  decimal_ascii : ∀ c : Char, c.toNat < 128 →
    decimal c = if 48 ≤ c.toNat ∧ c.toNat ≤ 57 then some (c.toNat - 48) else none
  decimal_lt : ∀ c n, decimal c = some n → n < 10
  /-- a digit is not whitespace -/
  decimal_space : ∀ c n, decimal c = some n → isSpace c = false
  /-- every decimal digit is a digit -/
  digit_decimal : ∀ c n, decimal c = some n → isDigit c = true

/-- Characters that `int(str)` strips at both ends: ASCII whitespace without `\x1c`-`\x1f`,
and every non-ASCII whitespace character. -/
def intSpace (c : Char) : Bool :=
  let n := c.toNat
  (9 ≤ n && n ≤ 13) || n == 32 || (128 ≤ n && isSpace c)

/-- Digits with single underscores between them, in base `base`.  `prev` tells whether the
previous character was a digit (an underscore must stand between two digits). -/
def digitsLoop {α} (digit : α → Option Nat) (under : α → Bool) (base : Nat) :
    Bool → Nat → List α → Option Nat
  | prev, acc, [] => if prev then some acc else none
  | prev, acc, c :: cs =>
    match digit c with
    | some d => digitsLoop digit under base true (acc * base + d) cs
    | none =>
      if under c && prev then
        match cs with
        | [] => none
        | c' :: cs' =>
          match digit c' with
          | some d => digitsLoop digit under base true (acc * base + d) cs'
          | none => none
      else none

/-- `int(s)` for a `str` (statusandheaders.py:92, recordloader.py:115, timeutils.py:70,324,
capture_http.py:218); `none` is `ValueError`.  CPython's limit of 4300 digits is not
modelled. -/
def parseInt [PyUni] (s : Str) : Option Int :=
  let s := rdropWhile intSpace (s.dropWhile intSpace)
  match s with
  | '-' :: t => (digitsLoop PyUni.decimal (· == '_') 10 false 0 t).map (fun (n : Nat) => - (n : Int))
  | '+' :: t => (digitsLoop PyUni.decimal (· == '_') 10 false 0 t).map (fun (n : Nat) => (n : Int))
  | t => (digitsLoop PyUni.decimal (· == '_') 10 false 0 t).map (fun (n : Nat) => (n : Int))

/-- Value of an ASCII hexadecimal digit. -/
def hexVal (b : UInt8) : Option Nat :=
  let n := b.toNat
  if 48 ≤ n ∧ n ≤ 57 then some (n - 48)
  else if 97 ≤ n ∧ n ≤ 102 then some (n - 87)
  else if 65 ≤ n ∧ n ≤ 70 then some (n - 55)
  else none

/-- Drop a `0x`/`0X` prefix, and one underscore after it, as `int(b, 16)` does. -/
def dropHexPrefix : Bytes → Bytes
  | 48 :: x :: t =>
    if x = 120 ∨ x = 88 then
      match t with
      | 95 :: t' => t'
      | _ => t
    else 48 :: x :: t
  | t => t

/-- `int(b, 16)` for `bytes` (bufferedreaders.py:328); `none` is `ValueError`. -/
def parseHexBytes (s : Bytes) : Option Int :=
  let s := rdropWhile isByteSpace (s.dropWhile isByteSpace)
  match s with
  | 45 :: t => (digitsLoop hexVal (· == 95) 16 false 0 (dropHexPrefix t)).map (fun (n : Nat) => - (n : Int))
  | 43 :: t => (digitsLoop hexVal (· == 95) 16 false 0 (dropHexPrefix t)).map (fun (n : Nat) => (n : Int))
  | t => (digitsLoop hexVal (· == 95) 16 false 0 (dropHexPrefix t)).map (fun (n : Nat) => (n : Int))

/-- The next line of `b`, with its newline, as `BytesIO.readline()` returns it. -/
def takeLine : Bytes → Bytes
  | [] => []
  | x :: xs => if x = 10 then [x] else x :: takeLine xs

/-- What is left after the next line. -/
def dropLine : Bytes → Bytes
  | [] => []
  | x :: xs => if x = 10 then xs else dropLine xs

/-- Carriage return + line feed. -/
abbrev crlf : Bytes := [13, 10]

/-- `'\r\n'`. -/
abbrev crlfStr : Str := ['\r', '\n']

end Warcio
