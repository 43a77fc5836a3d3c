import Verif.Spec.Ints
import Verif.Spec.Digest
import Verif.Spec.Headers

/-!
# What a record is

The block a length text declares, which records hold HTTP messages, and how a target URI is
cleaned up.  Nothing of the loader is used.
-/

namespace Warcio

/-- The value of the first header with this name, in any case. -/
def firstValue [PyUni] (n : Str) (hs : List (Str × Str)) : Option Str :=
  (hs.find? (fun h => PyUni.lower h.1 == PyUni.lower n)).map (·.2)

/-- The first line names a WARC version. -/
def StartsWarc [PyUni] (data : Bytes) : Prop :=
  ∃ v ∈ [lit "WARC/1.1", lit "WARC/1.0", lit "WARC/0.17", lit "WARC/0.18"], v <+: PyUni.upper (lineText (takeLine data))

/-- `VersionLine data p rest`: the first line names the version `p`, and `rest` stands behind it. -/
def VersionLine [PyUni] (data : Bytes) (p rest : Str) : Prop :=
  p ∈ [lit "WARC/1.1", lit "WARC/1.0", lit "WARC/0.17", lit "WARC/0.18"] ∧ p <+: PyUni.upper (lineText (takeLine data)) ∧
    rest = strip ((lineText (takeLine data)).drop p.length)

/-- `WarcHead data hs rest`: `data` starts with the header block of a WARC record, whose headers
are `hs`, and `rest` follows it. -/
structure WarcHead [PyUni] (data : Bytes) (hs : List (Str × Str)) (rest : Bytes) : Prop where
  version : StartsWarc data
  headers : hs = headersOf (readBlock (splitLines (dropLine data))).1
  rest : rest = (readBlock (splitLines (dropLine data))).2.1.flatten

/-- An ARC header line. -/
def arcLine (uri ip date ctype length : Str) : Str := uri ++ ' ' :: ip ++ ' ' :: date ++ ' ' :: ctype ++ ' ' :: length

/-- Four fields without spaces behind a URI; whitespace at the end of the line would be lost. -/
structure ArcFields (ip date ctype length : Str) : Prop where
  ip_sp : ' ' ∉ ip
  date_sp : ' ' ∉ date
  ctype_sp : ' ' ∉ ctype
  length_sp : ' ' ∉ length
  ne : length ≠ []
  trail : rstrip length = length

/-- `Declared text data block`: of the data behind the header block, `block` is what the text
of `Content-Length` declares. -/
inductive Declared [PyUni] : Option Str → Bytes → Bytes → Prop
  | absent (data) : Declared none data data
  | number (t) (n : Nat) (data) : PyInt t (n : Int) → Declared (some t) data (data.take n)
  | negative (t n data) : PyInt t n → n < 0 → Declared (some t) data []
  | invalid (t data) : (∀ n, ¬ PyInt t n) → Declared (some t) data []

/-- Records of these types and with these URIs hold an HTTP message. -/
def HttpRecord (recType uri : Option Str) : Prop :=
  (recType = some (lit "response") ∨ recType = some (lit "request") ∨ recType = some (lit "revisit")) ∧
  ∃ u, uri = some u ∧ (lit "http:" <+: u ∨ lit "https:" <+: u)

/-- Records of these types need a URI. -/
def HttpType (recType : Option Str) : Prop :=
  recType = some (lit "response") ∨ recType = some (lit "request") ∨ recType = some (lit "revisit")

/-- Spaces become `%20`. -/
def noSpaces : Str → Str
  | [] => []
  | ' ' :: t => '%' :: '2' :: '0' :: noSpaces t
  | c :: t => c :: noSpaces t

/-- `CleanUri u v`: `v` is `u` without one enclosing pair of brackets, spaces replaced. -/
inductive CleanUri : Str → Str → Prop
  | brackets (m) : CleanUri ('<' :: m ++ ['>']) (noSpaces m)
  | plain (u) : (∀ m, u ≠ '<' :: m ++ ['>']) → CleanUri u (noSpaces u)

/-- The digest headers of a record are absent, unusable, or encodings of digests of the right
length: checking them gives a verdict. -/
def DigestsUsable [Hashlib] (recType segment block payload : Option Str) : Prop :=
  ∀ data, (∃ x, Outcome data (lookedAt recType segment block payload).1 x) ∧
    ∃ x, Outcome data (lookedAt recType segment block payload).2 x

end Warcio
