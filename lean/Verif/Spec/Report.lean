import Verif.Spec.Written

/-!
# What is expected of the output of `recompress`, whatever its input
-/

namespace Warcio

/-- The bytes of a record: first line with a version of WARC, headers of which the last
`Content-Length` is a number, an empty line, a block, two empty lines. -/
structure VersionedRecord [PyUni] (p : Bytes) (version status : Str) (hs : List (Str × Str)) (block : Bytes) : Prop where
  known : version ∈ [lit "WARC/1.1", lit "WARC/1.0", lit "WARC/0.17", lit "WARC/0.18"]
  length : ∃ n : Nat, lastValue (lit "Content-Length") hs = some (intToStr n)
  bytes : p = recordBytes version status hs block

/-- The same without a first line. -/
structure HeadlessRecord [PyUni] (p : Bytes) (hs : List (Str × Str)) (block : Bytes) : Prop where
  length : ∃ n : Nat, lastValue (lit "Content-Length") hs = some (intToStr n)
  bytes : p = utf8Encode (hs.flatMap (fun h => h.1 ++ lit ": " ++ h.2 ++ lit "\r\n") ++ lit "\r\n") ++ block ++ [13, 10, 13, 10]

/-- The bytes in a member of the output. -/
inductive OutputRecord [PyUni] (p : Bytes) : Prop
  | versioned (version status : Str) (hs : List (Str × Str)) (block : Bytes) : VersionedRecord p version status hs block → OutputRecord p
  | headless (hs : List (Str × Str)) (block : Bytes) : HeadlessRecord p hs block → OutputRecord p

/-- The output is `n` gzip members with a record in each. -/
def OutputOf [PyUni] (IsMember : Bytes → Bytes → Prop) (n : Nat) (out : OutFile) : Prop :=
  ∃ ms : List (Bytes × Bytes), ms.length = n ∧ (∀ m ∈ ms, IsMember m.1 m.2 ∧ OutputRecord m.2) ∧ out = ({} : OutFile).extended (ms.flatMap (·.1))

end Warcio
