import Verif.Py.Basic

/-!
# Base encodings (RFC 4648, obsoleting RFC 3548)

Groups of bytes are read as one big-endian number, which is written with digits of `k` bits;
a short last group is filled with zero bytes, and the digits that hold no data are replaced
by `=`.
-/

namespace Warcio.Rfc4648

/-- A big-endian number. -/
def beNum (bs : Bytes) : Nat := bs.foldl (fun n b => n * 256 + b.toNat) 0

/-- One group of `g.length ≤ nb` bytes, as `nc` characters of `k` bits. -/
def group (alphabet : Str) (k nb nc : Nat) (g : Bytes) : Str :=
  let n := beNum (g ++ List.replicate (nb - g.length) 0)
  (List.range nc).map (fun i =>
    if k * i < 8 * g.length then (alphabet[n / 2 ^ (k * (nc - 1 - i)) % 2 ^ k]?).getD '?' else '=')

/-- All groups. -/
def groups (alphabet : Str) (k nb nc : Nat) : Nat → Bytes → Str
  | 0, _ => []
  | _, [] => []
  | fuel + 1, d => group alphabet k nb nc (d.take nb) ++ groups alphabet k nb nc fuel (d.drop nb)

/-- base16: one byte is two characters. -/
def base16 (d : Bytes) : Str := groups (lit "0123456789ABCDEF") 4 1 2 d.length d

/-- base32: five bytes are eight characters. -/
def base32 (d : Bytes) : Str := groups (lit "ABCDEFGHIJKLMNOPQRSTUVWXYZ234567") 5 5 8 d.length d

/-- base64: three bytes are four characters. -/
def base64 (d : Bytes) : Str :=
  groups (lit "ABCDEFGHIJKLMNOPQRSTUVWXYZabcdefghijklmnopqrstuvwxyz0123456789+/") 6 3 4 d.length d

/-- URL and filename safe base64. -/
def base64url (d : Bytes) : Str :=
  groups (lit "ABCDEFGHIJKLMNOPQRSTUVWXYZabcdefghijklmnopqrstuvwxyz0123456789-_") 6 3 4 d.length d

end Warcio.Rfc4648
