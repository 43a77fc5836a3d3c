import Verif.Spec.Archive
import Verif.Spec.Chunked
import Verif.Spec.Codec

/-!
# The content of an HTTP message

The payload of an HTTP message may be chunked, and it may be compressed.  `IsCoded k z d`: `z` is one
complete string in the coding `k`, of the data `d`.
-/

namespace Warcio

/-- The laws of a decompressor of the kind `k`, as in `LawfulGzip`. -/
structure LawfulCodec [Zlib] (k : DType) (IsCoded : Bytes → Bytes → Prop) where
  codec : Codec
  codec_eq : Zlib.codec k = some codec
  member : ∀ {z d : Bytes} {hist : List Bytes}, IsCoded z d → (∀ ch ∈ hist, ch ≠ []) →
    (hist.flatten <+: z ∨ z <+: hist.flatten) →
    ∃ o, codec.run hist = some o ∧ o <+: d ∧ (z <+: hist.flatten → o = d) ∧
      codec.unused hist = hist.flatten.drop z.length
  ratio : ∀ {z d : Bytes}, IsCoded z d → d.length ≤ Zlib.ratio * z.length

/-- The laws of all decompressors that are available. -/
def LawfulCodecs [Zlib] (IsCoded : DType → Bytes → Bytes → Prop) : Prop :=
  ∀ k, (Zlib.codec k).isSome → Nonempty (LawfulCodec k (IsCoded k))

section
variable [PyUni] [Zlib]

/-- A `Content-Encoding` names a coding, in any case. -/
inductive NamesCoding : Option Str → Option DType → Prop
  | gzip (n : Str) : PyUni.lower n = lit "gzip" → NamesCoding (some n) (some .gzip)
  | deflate (n : Str) : PyUni.lower n = lit "deflate" → NamesCoding (some n) (some .deflate)
  | br (n : Str) : PyUni.lower n = lit "br" → NamesCoding (some n) (some .br)
  | none : NamesCoding none none
  | other (n : Str) : PyUni.lower n ∉ [lit "gzip", lit "deflate", lit "br", lit "deflate_alt"] → NamesCoding (some n) none

/-- Decoding: what is not compressed, or in a coding that is not available, is as it is; a compressed string
may be followed by anything; nothing is nothing (though it is no string in any coding). -/
inductive Decoded (IsCoded : DType → Bytes → Bytes → Prop) : Option DType → Bytes → Bytes → Prop
  | none (p : Bytes) : Decoded IsCoded none p p
  | missing (k : DType) (p : Bytes) : Zlib.codec k = none → Decoded IsCoded (some k) p p
  | coded (k : DType) (z d more : Bytes) : (Zlib.codec k).isSome → IsCoded k z d → Decoded IsCoded (some k) (z ++ more) d
  | empty (k : DType) : Decoded IsCoded (some k) [] []

/-- The data of a payload, for a `Content-Encoding` and a `Transfer-Encoding`.  A payload may be missing, as in a revisit record
or in the answer to a HEAD request. -/
inductive BodyData (IsCoded : DType → Bytes → Bytes → Prop) (ce te : Option Str) : Bytes → Bytes → Prop
  | plain (k : Option DType) (p d : Bytes) : te ≠ some (lit "chunked") → NamesCoding ce k → Decoded IsCoded k p d → BodyData IsCoded ce te p d
  | chunked (k : Option DType) (e p d more : Bytes) : te = some (lit "chunked") → ChunkedBody e p → NamesCoding ce k → Decoded IsCoded k p d →
      BodyData IsCoded ce te (e ++ more) d
  | empty (k : Option DType) : NamesCoding ce k → BodyData IsCoded ce te [] []

/-- The content of a record with this block: the data of the payload, if it is HTTP with headers of lines of at most `m` bytes,
otherwise the block. -/
inductive ContentOf (IsCoded : DType → Bytes → Bytes → Prop) (http : Prop) (block : Bytes) (m : Nat) : Bytes → Prop
  | whole : ¬ http ∨ block = [] → ContentOf IsCoded http block m block
  | http (h : StatusAndHeaders) (p d : Bytes) : http → HeadWithin m block → lineText (takeLine block) ≠ [] → HttpHead block h p →
      h.statusline ≠ [] ∨ h.headers ≠ [] → BodyData IsCoded (firstValue (lit "content-encoding") h.headers) (firstValue (lit "transfer-encoding") h.headers) p d →
      ContentOf IsCoded http block m d

/-- The content of a WARC record. -/
def WarcRecord.Content (IsCoded : DType → Bytes → Bytes → Prop) (w : WarcRecord) (m : Nat) : Bytes → Prop := ContentOf IsCoded w.Http w.block m

/-- `Serves m data calls results`: the results of calls on a stream of which `data` is left.  `read` is exact,
`readline()` is exact for lines of at most `m` bytes; any `readline` gives a part of a line, and something if there
is something. -/
inductive Serves (m : Nat) : Bytes → List Call → List (Except PyErr Bytes) → Prop
  | nil (data) : Serves m data [] []
  | call (c p left cs rs) : (∀ n, c = .read n → p = c.expect (p ++ left)) →
      (c = .readline none → (10 : UInt8) ∈ p ++ left → (takeLine (p ++ left)).length ≤ m → p = takeLine (p ++ left)) →
      (p = [] → left = [] ∨ c.arg = some 0) → Serves m left cs rs → Serves m (p ++ left) (c :: cs) (.ok p :: rs)

end

section
variable {σ : Type} [Zlib] [PyStream σ] [Hashlib] [PyUni]

/-- Go through an archive, performing the operations of the plan on each record, and get one more record. -/
def advance (it : ArchiveIter σ) : List (List UserOp) → Except PyErr (ArchiveIter σ)
  | [] =>
    match it.next with
    | (.error e, _) => .error e
    | (.ok _, it) => .ok it
  | ops :: plan =>
    match it.next with
    | (.error e, _) => .error e
    | (.ok _, it) => advance (runOps it ops).2 plan

end
end Warcio
