import Verif.Py.Basic

/-! # Percent-decoding -/

namespace Warcio

/-- Value of a hexadecimal digit character. -/
def hexCharVal (c : Char) : Option Nat :=
  if '0' ≤ c ∧ c ≤ '9' then some (c.toNat - 48)
  else if 'A' ≤ c ∧ c ≤ 'F' then some (c.toNat - 55)
  else if 'a' ≤ c ∧ c ≤ 'f' then some (c.toNat - 87)
  else none

/-- Percent-decode an ASCII string to bytes (RFC 3986, 2.1): `%XY` is the byte `0xXY`, any
other character is its own code. -/
def percentDecode : Str → Option Bytes
  | [] => some []
  | c :: t =>
    if c = '%' then
      match t with
      | x :: y :: t' =>
        match hexCharVal x, hexCharVal y with
        | some a, some b => (percentDecode t').map (UInt8.ofNat (16 * a + b) :: ·)
        | _, _ => none
      | _ => none
    else if c.toNat < 128 then (percentDecode t).map (UInt8.ofNat c.toNat :: ·)
    else none

end Warcio

namespace Warcio

/-- A header value whose non-ASCII characters all lie inside parameter values: `name=value`
up to a `;` or the end, or `name="value"` with a non-empty value. -/
inductive ParamValue : Str → Prop
  | nil : ParamValue []
  | char {c t} : c.toNat < 128 → c ≠ '=' → ParamValue t → ParamValue (c :: t)
  | plain {c g rest} : c ≠ '"' → c ≠ '\'' → c ≠ ';' → (∀ x ∈ g, x ≠ ';' ∧ x ≠ '"') →
      (rest = [] ∨ ∃ t, rest = ';' :: t) → ParamValue rest → ParamValue ('=' :: c :: g ++ rest)
  | quoted {c g rest} : c ≠ '"' → c ≠ ';' → (∀ x ∈ g, x ≠ ';' ∧ x ≠ '"') →
      ParamValue rest → ParamValue ('=' :: '"' :: c :: g ++ '"' :: rest)

end Warcio
