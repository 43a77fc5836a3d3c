import Verif.Py.Basic

/-!
# Chunked transfer encoding (RFC 7230, 4.1)

Independent of the reader: which byte strings are chunked bodies, and of what payload.
Trailers after the last chunk are not included.
-/

namespace Warcio

/-- Value of a hexadecimal digit, either case. -/
def hexDigit? (b : UInt8) : Option Nat :=
  if 48 ≤ b.toNat ∧ b.toNat ≤ 57 then some (b.toNat - 48)
  else if 65 ≤ b.toNat ∧ b.toNat ≤ 70 then some (b.toNat - 55)
  else if 97 ≤ b.toNat ∧ b.toNat ≤ 102 then some (b.toNat - 87)
  else none

/-- `HexNum s n`: the non-empty string `s` of hexadecimal digits denotes `n`. -/
inductive HexNum : Bytes → Nat → Prop
  | one {b d} : hexDigit? b = some d → HexNum [b] d
  | snoc {s n b d} : HexNum s n → hexDigit? b = some d → HexNum (s ++ [b]) (16 * n + d)

/-- A chunk size line without its CRLF: the size and optional extensions, at most 62 bytes,
the size at most 2^31. -/
inductive SizeLine : Bytes → Nat → Prop
  | plain {s n} : HexNum s n → s.length ≤ 62 → n ≤ 2147483648 → SizeLine s n
  | ext {s n x} : HexNum s n → 10 ∉ x → (s ++ 59 :: x).length ≤ 62 → n ≤ 2147483648 → SizeLine (s ++ 59 :: x) n

/-- `ChunkedBody e p`: `e` is a complete chunked encoding of the payload `p`. -/
inductive ChunkedBody : Bytes → Bytes → Prop
  | last {l} : SizeLine l 0 → ChunkedBody (l ++ crlf ++ crlf) []
  | chunk {l d e p} : SizeLine l d.length → d ≠ [] → ChunkedBody e p →
      ChunkedBody (l ++ crlf ++ d ++ crlf ++ e) (d ++ p)

/-- A size line as the reader accepts it: everything Python's `int(_, 16)` accepts before the
first `;`, in a line of at most 64 bytes. -/
def LooseLine (l : Bytes) (n : Int) : Prop :=
  10 ∉ l ∧ l.length ≤ 62 ∧ parseHexBytes (split1 59 l).1 = some n ∧ n ≤ 2147483648

/-- Chunked bodies as the reader accepts them: size lines are loose, and a chunk of negative
size is a chunk without data. -/
inductive LooseBody : Bytes → Bytes → Prop
  | last {l} : LooseLine l 0 → LooseBody (l ++ crlf ++ crlf) []
  | chunk {l n d e p} : LooseLine l n → n ≠ 0 → d.length = n.toNat → LooseBody e p →
      LooseBody (l ++ crlf ++ d ++ crlf ++ e) (d ++ p)

end Warcio
