import Verif.Spec.ReadBack
import Verif.Spec.Content
import Verif.Spec.Check
import Verif.Spec.Rewrite

/-!
# Records that are to pass `warcio check` once they are written
-/

namespace Warcio

section
variable [PyUni] {σ : Type}

/-- The digests that the record is given are right, for this block and payload, or there are none, and it is left to the writer to add them;
or its length is not known, so that they are replaced, and no digest is given twice; or it is a revisit, of which digests are not checked. -/
inductive RightDigests [Hashlib] (r : OutRecord σ) (block payload : Bytes) : Prop
  | given : (∀ v, firstValue (lit "WARC-Block-Digest") r.recHeaders.headers = some v → Outcome block (some v) (some true)) →
      (∀ v, firstValue (lit "WARC-Payload-Digest") r.recHeaders.headers = some v → Outcome payload (some v) (some true)) → RightDigests r block payload
  | unknown : r.length = none → AtMostOne (lit "WARC-Block-Digest") r.recHeaders.headers → AtMostOne (lit "WARC-Payload-Digest") r.recHeaders.headers → RightDigests r block payload
  | revisit : r.recType = some (lit "revisit") → RightDigests r block payload

/-- The payload is where a reader looks for it, and can be decoded: the record has no HTTP headers and is none that is read as HTTP message, or
has nothing in its block; or `hb` are HTTP headers, with lines of at most `m` bytes. -/
inductive PayloadFound [Zlib] (IsCoded : DType → Bytes → Bytes → Prop) (m : Nat) (r : OutRecord σ) (hb d : Bytes) : Prop
  | whole : hb = [] → ¬ HttpRecord r.recType (firstValue (lit "WARC-Target-URI") r.recHeaders.headers) ∨ blockOf r hb d = [] → PayloadFound IsCoded m r hb d
  | http (h : StatusAndHeaders) (p x : Bytes) : HttpRecord r.recType (firstValue (lit "WARC-Target-URI") r.recHeaders.headers) → RegularHttp h →
      hb = utf8Encode (headText h.protocol h.statusline h.headers) → HeadWithin m (blockOf r hb d) → blockOf r hb d = hb ++ p →
      BodyData IsCoded (firstValue (lit "content-encoding") h.headers) (firstValue (lit "transfer-encoding") h.headers) p x → PayloadFound IsCoded m r hb d

/-- It is to be said of the written record that its digests are right: it is no revisit, and it has a block, or a payload digest that is looked at. -/
def MustPass (r : OutRecord σ) (block : Bytes) : Prop :=
  r.recType ≠ some (lit "revisit") ∧
    (block ≠ [] ∨ r.recType ≠ some (lit "warcinfo") ∧ firstValue (lit "WARC-Segment-Number") r.recHeaders.headers = none)

/-- What `warcio check` is to print of records that were written (with these HTTP header bytes and payloads): nothing; or, if the records that are right are asked for,
the name of the file and a line for each record. -/
def Approved (verbose : Bool) (name : Str) (rs : List (OutRecord σ × Bytes × Bytes)) (out : List Checker.Print) : Prop :=
  if verbose then ∃ lines, out = checkReport name lines false ∧
    Each (fun x p => ∃ off note, p = .record off (firstValue (lit "WARC-Record-ID") x.1.recHeaders.headers) x.1.recType (some note) [] ∧
      (MustPass x.1 (blockOf x.1 x.2.1 x.2.2) → note = lit "digest pass")) rs lines
  else out = []

end
end Warcio
