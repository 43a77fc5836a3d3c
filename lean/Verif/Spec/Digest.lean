import Verif.Py.Hash
import Verif.Spec.Rfc4648

/-!
# What a digest header says about a piece of data

Written with the RFC 4648 encodings only; nothing of the digest code is used.
-/

namespace Warcio

open Rfc4648

/-- `v` is the text of the digest `x`: base32, base16 in either case, base64 or URL-safe
base64.  Very short digests are left out of the last three: warcio tells the encodings apart
by length, and that works for base16 from 17 bytes and for base64 from 11 bytes on. -/
inductive Encodes : Str → Bytes → Prop
  | b32 (x) : Encodes (base32 x) x
  | b16 (v x) : 17 ≤ x.length → v.map Char.toUpper = base16 x → Encodes v x
  | b64 (x) : 11 ≤ x.length → Encodes (base64 x) x
  | b64url (x) : 11 ≤ x.length → Encodes (base64url x) x

/-- What a digest header (`none`: no such header) says of `data`: nothing (`none`), that the
data is what it was (`some true`), or that it is not or cannot be known (`some false`). -/
inductive Outcome [Hashlib] (data : Bytes) : Option Str → Option Bool → Prop
  | absent : Outcome data none none
  | empty : Outcome data (some []) none
  | noColon (h) : h ≠ [] → ':' ∉ h → Outcome data (some h) (some false)
  | unknown (algo v) : ':' ∉ algo → Hashlib.hash algo = none → Outcome data (some (algo ++ ':' :: v)) (some false)
  | good (algo v f) : ':' ∉ algo → Hashlib.hash algo = some f → Encodes v (f data) →
      Outcome data (some (algo ++ ':' :: v)) (some true)
  | bad (algo v f x) : ':' ∉ algo → Hashlib.hash algo = some f → Encodes v x → x.length = (f data).length →
      x ≠ f data → Outcome data (some (algo ++ ':' :: v)) (some false)

/-- A digest header that does not name an algorithm that is known. -/
def UnknownDigest [Hashlib] (v : Option Str) : Prop :=
  ∃ h, v = some h ∧ h ≠ [] ∧ ∀ algo x, h = algo ++ ':' :: x → ':' ∉ algo → Hashlib.hash algo = none

/-- The verdict on a record from what its two digest headers say. -/
def overall (block payload : Option Bool) : Option Bool :=
  if block = some false ∨ payload = some false then some false
  else if block = some true ∨ payload = some true then some true
  else none

/-- The digest headers that are looked at: none of a revisit record, no payload digest of a
segment. -/
def lookedAt (recType segment block payload : Option Str) : Option Str × Option Str :=
  if recType = some (lit "revisit") then (none, none)
  else if segment.isSome then (block, none)
  else (block, payload)

/-- What is noticed of a block digest: an empty block is not compared with it, only that it cannot be used is noticed. -/
inductive BlockOutcome [Hashlib] (data : Bytes) (v : Option Str) : Option Bool → Prop
  | compared (o) : data ≠ [] → Outcome data v o → BlockOutcome data v o
  | passed_over : data = [] → ¬ UnknownDigest v → BlockOutcome data v none
  | unusable : data = [] → UnknownDigest v → BlockOutcome data v (some false)

/-- `v` is the right verdict on a record with these headers, the block `data` and the payload `rest`: none
if digests are not checked (`checked`), otherwise the one that follows from what the digest headers
say. -/
def Judged [Hashlib] (checked : Bool) (recType segment block payload : Option Str) (data rest : Bytes) (v : Option Bool) : Prop :=
  (checked = false → v = none) ∧
  (checked = true → ∀ ob op, BlockOutcome data (lookedAt recType segment block payload).1 ob →
    Outcome rest (lookedAt recType segment block payload).2 op → v = overall ob op)

end Warcio
