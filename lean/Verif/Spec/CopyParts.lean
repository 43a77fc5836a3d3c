import Verif.Spec.Parts
import Verif.Spec.Report

/-!
# What is expected of a copy of any uncompressed file

The records are those into which the file is cut (`Portion.Shows` in Spec/Parts).
-/

namespace Warcio

section
variable [PyUni] [Hashlib]

/-- The bytes `b` of the copy of a record `rec` whose stream holds `left`.  The headers are the ones
of the record except for length, type and digests; the block consists of the HTTP headers `hb`, encoded
again, and of `left`.  Digests that are there are kept, and missing ones are those of what is written (the payload
digest: not for `warcinfo` and `revisit`).
The length is right if the lengths of the record are. -/
structure CopiedRecord (f : Bytes → Bytes) (flt : Str × Str → Option (Str × Str)) (rec : Record Unit) (left hb : Bytes) (hs : List (Str × Str)) (b : Bytes) : Prop where
  http : HttpPart flt (OutRecord.ofRead rec) hb
  bytes : VersionedRecord b rec.recHeaders.protocol rec.recHeaders.statusline hs (blockOf (OutRecord.ofRead rec) hb left) ∨
    (rec.recHeaders.protocol = [] ∧ rec.recHeaders.statusline = [] ∧ HeadlessRecord b hs (blockOf (OutRecord.ofRead rec) hb left))
  others : without ownNames hs = without ownNames rec.recHeaders.headers
  type : ∀ t, rec.contentType = some t → lastValue (lit "Content-Type") hs = some t
  length : LengthsFit (OutRecord.ofRead rec) hb left → lastValue (lit "Content-Length") hs = some (intToStr (len (blockOf (OutRecord.ofRead rec) hb left)))
  declared : ∀ n, rec.length = some n → hb = [] → lastValue (lit "Content-Length") hs = some (intToStr n)
  kept : rec.length ≠ none → ∀ n ∈ [lit "WARC-Block-Digest", lit "WARC-Payload-Digest"], (∃ t, firstValue n rec.recHeaders.headers = some t ∧ t ≠ []) → named n hs = named n rec.recHeaders.headers
  digest : rec.length ≠ none → firstValue (lit "WARC-Block-Digest") rec.recHeaders.headers = none → named (lit "WARC-Block-Digest") hs = [(lit "WARC-Block-Digest", sha1Text f (hb ++ left))]
  payload : rec.length ≠ none → firstValue (lit "WARC-Payload-Digest") rec.recHeaders.headers = none →
    named (lit "WARC-Payload-Digest") hs = if rec.recType = some (lit "warcinfo") ∨ rec.recType = some (lit "revisit") then [] else [(lit "WARC-Payload-Digest", sha1Text f left)]

/-- `CopiedParts io f flt m n data x bs`: `bs` are the copies of the records at the front of `data`, one
for each, in order; `n` records were loaded before.  It ends at the end of the file, with the exception of
the loader, or with HTTP headers that cannot be encoded. -/
inductive CopiedParts (io : IterOpts) (f : Bytes → Bytes) (flt : Str × Str → Option (Str × Str)) (m : Nat) : Nat → Bytes → Except PyErr Unit → List Bytes → Prop
  | over (n data) (e : PyErr) : Over (io.load none (io.ids n)) m data e → CopiedParts io f flt m n data (if e = .stopIteration then .ok () else .error e) []
  | stuck (n) (p : Portion) (rec : Record Unit) (left h e) : p.Shows (io.load none (io.ids n)) rec → p.Parsed (io.load none (io.ids n)) m rec left → rec.httpHeaders = some h → (h.toAsciiBytes flt).1 = .error e →
      CopiedParts io f flt m n p.all (.error e) []
  | record (n) (p : Portion) (rec : Record Unit) (left hb hs b x bs) : p.Shows (io.load none (io.ids n)) rec → p.Parsed (io.load none (io.ids n)) m rec left → left <:+ p.block → (¬ HttpType rec.recType → left = p.block) →
      CopiedRecord f flt rec left hb hs b → CopiedParts io f flt m (n + 1) (resumed p.tail) x bs → CopiedParts io f flt m n p.all x (b :: bs)

end
end Warcio
