import Verif.Spec.ReadBack

/-!
# What is expected when a record of a file is read and written again
-/

namespace Warcio

/-- The relation holds for the elements of two lists, one after the other. -/
inductive Each {α β : Type} (R : α → β → Prop) : List α → List β → Prop
  | nil : Each R [] []
  | cons {a b as bs} : R a b → Each R as bs → Each R (a :: as) (b :: bs)

/-- `SplitsOf http block m hb payload`: the block is the HTTP headers `hb` and the payload.  A record that
does not hold an HTTP message has a payload only.  The HTTP headers are ASCII, in the form in which
they are written, with lines of at most `m` bytes. -/
inductive SplitsOf [PyUni] (http : Prop) (block : Bytes) (m : Nat) : Bytes → Bytes → Prop
  | whole : ¬ http ∨ block = [] → SplitsOf http block m [] block
  | http (h : StatusAndHeaders) (payload : Bytes) : http → RegularHttp h → isAscii (headText h.protocol h.statusline h.headers) = true →
      block = utf8Encode (headText h.protocol h.statusline h.headers) ++ payload → HeadWithin m block →
      SplitsOf http block m (utf8Encode (headText h.protocol h.statusline h.headers)) payload

namespace WarcRecord
variable [PyUni]

/-- The block of `w` is the HTTP headers and the payload, see `SplitsOf`. -/
def Splits (w : WarcRecord) (m : Nat) : Bytes → Bytes → Prop := SplitsOf w.Http w.block m

/-- A record that can be read and written again: it is well formed, with header values in the form
in which they are written, one length, at most one content type, a URI that needs no cleaning, and
a block that `Splits`; a revisit record has no payload. -/
structure Rewritable (w : WarcRecord) (m : Nat) (payload : Bytes) : Prop where
  good : w.Good
  headers : ∀ h ∈ w.headers, GoodHeader h
  oneLength : AtMostOne (lit "Content-Length") w.headers
  oneType : AtMostOne (lit "Content-Type") w.headers
  tidy : ∀ u, w.value (lit "WARC-Target-URI") = some u → TidyUri u
  splits : ∃ hb, w.Splits m hb payload
  revisit : w.value (lit "WARC-Type") = some (lit "revisit") → payload = []

/-- The value is there and not empty. -/
def Has (w : WarcRecord) (n : Str) : Prop := ∃ c t, w.value n = some (c :: t)

/-- The headers of the rewritten record: the same, but the length is the plain decimal number, and
digests that are missing are added: of the payload, unless it is a `warcinfo` or `revisit` record,
and of the block. -/
def NewHeaders (f : Bytes → Bytes) (w : WarcRecord) (payload : Bytes) (hs : List (Str × Str)) : Prop :=
  ∃ pd bd : List (Str × Str),
    hs = w.headers.map (fun h => if PyUni.lower h.1 = PyUni.lower (lit "Content-Length") then (h.1, intToStr (len w.block)) else h) ++ pd ++ bd ∧
    (w.Has (lit "WARC-Payload-Digest") ∨ w.value (lit "WARC-Type") = some (lit "warcinfo") ∨ w.value (lit "WARC-Type") = some (lit "revisit") → pd = []) ∧
    (¬ w.Has (lit "WARC-Payload-Digest") → w.value (lit "WARC-Type") ≠ some (lit "warcinfo") → w.value (lit "WARC-Type") ≠ some (lit "revisit") →
      pd = [(lit "WARC-Payload-Digest", sha1Text f payload)]) ∧
    (w.Has (lit "WARC-Block-Digest") → bd = []) ∧
    (¬ w.Has (lit "WARC-Block-Digest") → bd = [(lit "WARC-Block-Digest", sha1Text f w.block)])

/-- `w'` is `w` rewritten: the version line, with what stands behind the version; the headers as above;
the same block, and two line ends. -/
structure Rewritten (f : Bytes → Bytes) (w : WarcRecord) (payload : Bytes) (w' : WarcRecord) : Prop where
  good : w'.Good
  head : ∀ p s, VersionLine w.head p s → VersionLine w'.head p s ∧ w'.head = utf8Encode (headText p s w'.headers)
  headers : w.NewHeaders f payload w'.headers
  block : w'.block = w.block
  sep : w'.sep = [13, 10, 13, 10]

/-- A record in the form in which it is written: header block and end are as the writer has them,
the length is the plain decimal number, and the digests are there. -/
structure Normal (w : WarcRecord) : Prop where
  head : ∃ p s, VersionLine w.head p s ∧ w.head = utf8Encode (headText p s w.headers)
  length : w.value (lit "Content-Length") = some (intToStr (len w.block))
  payloadDigest : w.Has (lit "WARC-Payload-Digest") ∨ w.value (lit "WARC-Type") = some (lit "warcinfo") ∨ w.value (lit "WARC-Type") = some (lit "revisit")
  blockDigest : w.Has (lit "WARC-Block-Digest")
  sep : w.sep = [13, 10, 13, 10]

end WarcRecord
end Warcio
