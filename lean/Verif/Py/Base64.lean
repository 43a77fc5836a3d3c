import Verif.Py.Basic

/-!
# The parts of Python's `base64` that warcio uses

Modelled on CPython 3.11's `base64.py` and `binascii.c`.
-/

namespace Warcio

/-- The base32 alphabet (`base64._b32alphabet`, used by digestverifyingreader.py:148 and
utils.py:106). -/
def b32Char (n : Nat) : Char := if n < 26 then Char.ofNat (65 + n) else Char.ofNat (50 + (n - 26))

/-- A group of five bytes as a number (`int.from_bytes` in `base64.b32encode`, used by
digestverifyingreader.py:148 and utils.py:106). -/
def b32Num (a b c d e : UInt8) : Nat :=
  (((a.toNat * 256 + b.toNat) * 256 + c.toNat) * 256 + d.toNat) * 256 + e.toNat

/-- Eight base32 digits of a 40-bit number (`base64.b32encode`, used by
digestverifyingreader.py:148 and utils.py:106). -/
def b32Group (n : Nat) : Str :=
  [b32Char (n / 34359738368 % 32), b32Char (n / 1073741824 % 32), b32Char (n / 33554432 % 32), b32Char (n / 1048576 % 32),
   b32Char (n / 32768 % 32), b32Char (n / 1024 % 32), b32Char (n / 32 % 32), b32Char (n % 32)]

/-- `base64.b32encode` (digestverifyingreader.py:148, utils.py:106): groups of five bytes, the
last one filled up with zero bytes and its unused digits replaced by `=`. -/
def b32encode : Bytes → Str
  | a :: b :: c :: d :: e :: t => b32Group (b32Num a b c d e) ++ b32encode t
  | [a, b, c, d] => (b32Group (b32Num a b c d 0)).take 7 ++ ['=']
  | [a, b, c] => (b32Group (b32Num a b c 0 0)).take 5 ++ ['=', '=', '=']
  | [a, b] => (b32Group (b32Num a b 0 0 0)).take 4 ++ ['=', '=', '=', '=']
  | [a] => (b32Group (b32Num a 0 0 0 0)).take 2 ++ ['=', '=', '=', '=', '=', '=']
  | [] => []

/-- Value of a hexadecimal digit of either case (`base64.b16decode(s, casefold=True)`,
digestverifyingreader.py:144). -/
def b16Val (c : Char) : Option Nat :=
  let n := c.toNat
  if 48 ≤ n ∧ n ≤ 57 then some (n - 48)
  else if 65 ≤ n ∧ n ≤ 70 then some (n - 55)
  else if 97 ≤ n ∧ n ≤ 102 then some (n - 87)
  else none

/-- Pairs of hexadecimal digits (`binascii.unhexlify`, behind digestverifyingreader.py:144). -/
def b16Pairs : Str → Option Bytes
  | [] => some []
  | [_] => none
  | x :: y :: t =>
    match b16Val x, b16Val y, b16Pairs t with
    | some a, some b, some r => some (UInt8.ofNat (a * 16 + b) :: r)
    | _, _, _ => none

/-- `base64.b16decode(value, casefold=True)` (digestverifyingreader.py:144): a non-ASCII
string is a `ValueError`, a bad digit or an odd number of digits a `binascii.Error`. -/
def b16decode (v : Str) : Except PyErr Bytes :=
  if isAscii v then
    match b16Pairs v with
    | some b => .ok b
    | none => .error .binascii
  else .error .valueError

/-- Value of a base64 digit (`table_a2b_base64` of binascii.c, behind
digestverifyingreader.py:156-158). -/
def b64Val (c : Char) : Option Nat :=
  let n := c.toNat
  if 65 ≤ n ∧ n ≤ 90 then some (n - 65)
  else if 97 ≤ n ∧ n ≤ 122 then some (n - 71)
  else if 48 ≤ n ∧ n ≤ 57 then some (n + 4)
  else if n = 43 then some 62
  else if n = 47 then some 63
  else none

/-- `binascii.a2b_base64` in non-strict mode (behind digestverifyingreader.py:156-158):
`quad` digits of the current group of four are read, `left` holds the bits not yet written,
`pads` counts the `=` in a row.  Characters outside the alphabet are skipped, also a `=` that
comes too early; decoding ends with the padding. -/
def b64Loop : Nat → Nat → Nat → Str → Except PyErr Bytes
  | quad, _, _, [] => if quad = 0 then .ok [] else .error .binascii
  | quad, left, pads, c :: t =>
    if c = '=' then
      if 2 ≤ quad then
        if 4 ≤ quad + (pads + 1) then .ok [] else b64Loop quad left (pads + 1) t
      else b64Loop quad left pads t
    else
      match b64Val c with
      | none => b64Loop quad left pads t
      | some v =>
        match quad with
        | 0 => b64Loop 1 v 0 t
        | 1 => (b64Loop 2 (v % 16) 0 t).map (UInt8.ofNat (left * 4 + v / 16) :: ·)
        | 2 => (b64Loop 3 (v % 4) 0 t).map (UInt8.ofNat (left * 16 + v / 4) :: ·)
        | _ => (b64Loop 0 0 0 t).map (UInt8.ofNat (left * 64 + v) :: ·)

/-- `bytes.translate` with `altchars=b'-_'` (`base64.b64decode`, digestverifyingreader.py:156). -/
def urlSafe (c : Char) : Char := if c = '-' then '+' else if c = '_' then '/' else c

/-- `base64.b64decode(value)` (digestverifyingreader.py:158). -/
def b64decode (v : Str) : Except PyErr Bytes :=
  if isAscii v then b64Loop 0 0 0 v else .error .valueError

/-- `_b64_wrapper` (digestverifyingreader.py:154-158). -/
def b64Wrapper (v : Str) : Except PyErr Bytes :=
  if v.contains '-' || v.contains '_' then b64decode (v.map urlSafe) else b64decode v

end Warcio
