import Verif.Spec.Archive

/-!
# Which exceptions reading an archive may raise
-/

namespace Warcio

/-- What reading the stream of a record may raise: nothing if no digests are checked; an error for a digest
that is none of base16, base32, base64 (exceptions of the decoders); with `'raise'` also that a digest is
wrong. -/
def DigestErr (o : IterOpts) (e : PyErr) : Prop :=
  match e with
  | .binascii | .valueError => o.checkDigests ≠ none
  | .digestFailed => o.checkDigests = some .raise
  | _ => False

/-- What going to the next record may raise, other than `StopIteration`: the file is not a WARC or ARC file
(or not any longer), or a gzip member holds several records; if HTTP headers are parsed, `AttributeError` (a
record that should be an HTTP message has no URI) and, if they are verified, that they are no HTTP headers;
and, as the rest of the current record is read, what reading its stream may raise. -/
def NextErr (o : IterOpts) (e : PyErr) : Prop :=
  match e with
  | .invalidWarc | .invalidArc | .unknownFormat | .nonChunkedGzip => True
  | .attributeError => o.noRecordParse = false
  | .statusParser _ => o.noRecordParse = false ∧ o.verifyHttp = true
  | e => DigestErr o e

end Warcio
