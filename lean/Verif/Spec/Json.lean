import Verif.Py.Basic

/-!
# Reading JSON objects of texts (RFC 8259)
-/

namespace Warcio
namespace Json

/-- The value of a hexadecimal digit. -/
def hexVal (c : Char) : Option Nat :=
  if 48 ≤ c.toNat ∧ c.toNat ≤ 57 then some (c.toNat - 48)
  else if 97 ≤ c.toNat ∧ c.toNat ≤ 102 then some (c.toNat - 87)
  else if 65 ≤ c.toNat ∧ c.toNat ≤ 70 then some (c.toNat - 55)
  else none

/-- Four hexadecimal digits. -/
def hex4 (s : Str) : Option (Nat × Str) :=
  match s with
  | a :: b :: c :: d :: t =>
    match hexVal a, hexVal b, hexVal c, hexVal d with
    | some a, some b, some c, some d => some (a * 4096 + b * 256 + c * 16 + d, t)
    | _, _, _, _ => none
  | _ => none

/-- What follows `\`, other than `u`. -/
def simpleEscape (c : Char) : Option Char :=
  if c = '"' then some '"'
  else if c = '\\' then some '\\'
  else if c = '/' then some '/'
  else if c = 'b' then some (Char.ofNat 8)
  else if c = 'f' then some (Char.ofNat 12)
  else if c = 'n' then some '\n'
  else if c = 'r' then some '\r'
  else if c = 't' then some '\t'
  else none

/-- What follows `\u`: one character of the basic plane, or two surrogates. -/
def unicodeEscape (s : Str) : Option (Char × Str) :=
  match hex4 s with
  | none => none
  | some (n, t) =>
    if n < 0xD800 ∨ 0xE000 ≤ n then some (Char.ofNat n, t)
    else if n < 0xDC00 then
      match t with
      | x :: y :: t =>
        if x = '\\' ∧ y = 'u' then
          match hex4 t with
          | none => none
          | some (l, t) => if 0xDC00 ≤ l ∧ l < 0xE000 then some (Char.ofNat (0x10000 + (n - 0xD800) * 1024 + (l - 0xDC00)), t) else none
        else none
      | _ => none
    else none

/-- One character of a text. -/
def character (s : Str) : Option (Char × Str) :=
  match s with
  | [] => none
  | c :: t =>
    if c.toNat < 32 ∨ c = '"' then none
    else if c = '\\' then
      match t with
      | [] => none
      | e :: t => if e = 'u' then unicodeEscape t else (simpleEscape e).map (fun c => (c, t))
    else some (c, t)

/-- The characters up to the closing quote. -/
def characters : Nat → Str → Option (Str × Str)
  | 0, _ => none
  | k + 1, s =>
    if s.head? = some '"' then some ([], s.tail)
    else
      match character s with
      | none => none
      | some (c, t) => (characters k t).map (fun x => (c :: x.1, x.2))

/-- Without white space at the start. -/
def skip (s : Str) : Str := s.dropWhile (fun c => c = ' ' ∨ c = '\t' ∨ c = '\n' ∨ c = '\r')

/-- This character, and then the rest. -/
def expect (c : Char) (s : Str) : Option Str := if s.head? = some c then some s.tail else none

/-- A text. -/
def text (s : Str) : Option (Str × Str) := (expect '"' (skip s)).bind (fun t => characters t.length t)

/-- The members of an object, and the closing brace. -/
def members : Nat → Str → Option (List (Str × Str) × Str)
  | 0, _ => none
  | k + 1, s =>
    (text s).bind fun (key, s) =>
    (expect ':' (skip s)).bind fun s =>
    (text s).bind fun (value, s) =>
    if (skip s).head? = some '}' then some ([(key, value)], (skip s).tail)
    else (expect ',' (skip s)).bind fun s => (members k s).map fun x => ((key, value) :: x.1, x.2)

/-- An object whose values are texts, and what follows it. -/
def object (s : Str) : Option (List (Str × Str) × Str) :=
  (expect '{' (skip s)).bind fun s =>
  if (skip s).head? = some '}' then some ([], (skip s).tail) else members s.length s

end Json
end Warcio
