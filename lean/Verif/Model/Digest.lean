import Verif.Py.Base64
import Verif.Py.Hash
import Verif.Model.LimitReader

/-! # Model of /repo/warcio/digestverifyingreader.py and of `Digester` (utils.py) -/

namespace Warcio

/-- `Digester` (utils.py:97-106): the algorithm and all data so far. -/
structure Digester where
  algo : Str
  data : Bytes := []
  deriving DecidableEq, Repr

namespace Digester

variable [Hashlib]

/-- `Digester(type_)` (utils.py:98-100). -/
def new (algo : Str) : Except PyErr Digester :=
  match Hashlib.hash algo with
  | some _ => .ok { algo := algo }
  | none => .error .valueError

omit [Hashlib] in
/-- `Digester.update` (utils.py:102-103). -/
def update (d : Digester) (b : Bytes) : Digester := { d with data := d.data ++ b }

/-- `self.digester.digest()` (utils.py:106).  There is no `Digester` for an unknown name. -/
def value (d : Digester) : Bytes :=
  match Hashlib.hash d.algo with
  | some h => h d.data
  | none => []

/-- `Digester.__str__` (utils.py:105-106). -/
def str (d : Digester) : Str := d.algo ++ ':' :: b32encode d.value

end Digester

/-- `_parse_digest` (digestverifyingreader.py:161-166). -/
def parseDigest (digest : Str) : Except PyErr (Str × Str) :=
  match split1 ':' digest with
  | (algo, some value) => .ok (algo, value)
  | (_, none) => .error .valueError

/-- `_to_b32` (digestverifyingreader.py:135-148). -/
def toB32 (length : Nat) (value : Str) : Except PyErr Str :=
  if value.length = length then .ok value
  else
    match (if length < value.length then b16decode value else b64Wrapper value) with
    | .ok b => .ok (b32encode b)
    | .error e => .error e

/-- `_compare_digest_rfc_3548` (digestverifyingreader.py:111-132). -/
def compareDigest [Hashlib] (digester : Option Digester) (digest : Option Str) : Except PyErr (Option Bool) :=
  match digester, digest with
  | some d, some h =>
    if h.isEmpty then .ok none
    else
      match parseDigest d.str, parseDigest h with
      | .ok (_, ours), .ok (_, theirs) =>
        match toB32 ours.length theirs with
        | .ok v => .ok (some (ours == v))
        | .error e => .error e
      | .error e, _ => .error e
      | _, .error e => .error e
  | _, _ => .ok none

/-- The `kind` of a `DigestChecker`: `'raise'`, `'log'`, or anything else
(digestverifyingreader.py:30-33). -/
inductive CheckKind
  | raise | log | other
  deriving DecidableEq, Repr

/-- The messages passed to `problem` (digestverifyingreader.py:68,75,83,99,104). -/
inductive Problem
  | unknownBlockAlgo | unknownPayloadAlgo | blockFailed (digest : Str) | payloadFailed (digest : Str)
  deriving DecidableEq, Repr

/-- `DigestChecker` (digestverifyingreader.py:10-34). -/
structure DigestChecker where
  kind : CheckKind := .other
  problems : List Problem := []
  passed : Option Bool := none
  deriving DecidableEq, Repr

namespace DigestChecker

/-- `problem(value)` (digestverifyingreader.py:28-34); the message on stderr is left out. -/
def problem (c : DigestChecker) (p : Problem) : Except PyErr Unit × DigestChecker :=
  let c := { c with problems := c.problems ++ [p] }
  if c.kind = .raise then (.error .digestFailed, c)
  else (.ok (), { c with passed := some false })

/-- What is done with the outcome of a comparison (digestverifyingreader.py:98-101, 103-106). -/
def verdict (c : DigestChecker) (check : Option Bool) (p : Problem) : Except PyErr Unit × DigestChecker :=
  match check with
  | some false => c.problem p
  | some true => (.ok (), if c.passed = some false then c else { c with passed := some true })
  | none => (.ok (), c)

end DigestChecker

/-- `DigestVerifyingReader` (digestverifyingreader.py:38-76).  `payload_digester` is either
`None` or the object `payload_digester_obj`; `payloadOn` tells which. -/
structure DigestReader (σ : Type) where
  lim : LimitReader σ
  checker : DigestChecker
  payloadDigest : Option Str
  blockDigest : Option Str
  payloadDigester : Option Digester
  blockDigester : Option Digester
  payloadOn : Bool := false
  deriving DecidableEq, Repr

namespace DigestReader

variable {σ : Type} [Hashlib]

/-- The `Digester` for a digest header (digestverifyingreader.py:63-69, 70-76). -/
def makeDigester (c : DigestChecker) (digest : Option Str) (p : Problem) :
    Except PyErr (Option Digester) × DigestChecker :=
  match digest with
  | none => (.ok none, c)
  | some h =>
    if h.isEmpty then (.ok none, c)
    else
      match (match parseDigest h with | .ok (algo, _) => Digester.new algo | .error e => .error e) with
      | .ok d => (.ok (some d), c)
      | .error _ =>
        match c.problem p with
        | (.ok _, c) => (.ok none, c)
        | (.error e, c) => (.error e, c)

/-- `DigestVerifyingReader.__init__` (digestverifyingreader.py:43-76).  An exception (kind
`'raise'`) leaves no reader, but the checker has recorded the problem. -/
def new (s : σ) (limit : Int) (c : DigestChecker) (recType payload block segment : Option Str) :
    Except PyErr (DigestReader σ) × DigestChecker :=
  let block := if recType = some (lit "revisit") then none else block
  let payload := if recType = some (lit "revisit") then none else payload
  let payload := if segment.isSome then none else payload
  match makeDigester c block .unknownBlockAlgo with
  | (.error e, c) => (.error e, c)
  | (.ok bd, c) =>
    match makeDigester c payload .unknownPayloadAlgo with
    | (.error e, c) => (.error e, c)
    | (.ok pd, c) =>
      (.ok { lim := LimitReader.mk' s limit, checker := c, payloadDigest := payload, blockDigest := block,
             payloadDigester := pd, blockDigester := bd }, c)

/-- `self.payload_digester` (digestverifyingreader.py:59,79,84). -/
def activePayload (r : DigestReader σ) : Option Digester := if r.payloadOn then r.payloadDigester else none

/-- `begin_payload` (digestverifyingreader.py:78-86). -/
def beginPayload (r : DigestReader σ) : Except PyErr Unit × DigestReader σ :=
  let r := { r with payloadOn := true }
  if r.lim.limit = 0 then
    match compareDigest r.activePayload r.payloadDigest with
    | .error e => (.error e, r)
    | .ok check =>
      match r.checker.verdict check (.payloadFailed (r.payloadDigest.getD [])) with
      | (.error e, c) => (.error e, { r with checker := c })
      | (.ok _, c) => (.ok (), { r with checker := c, payloadOn := if check = some false then false else true })
  else (.ok (), r)

/-- The digest part of `_update` once the record is complete
(digestverifyingreader.py:96-106). -/
def finish (r : DigestReader σ) : Except PyErr Unit × DigestReader σ :=
  match compareDigest r.blockDigester r.blockDigest with
  | .error e => (.error e, r)
  | .ok check =>
    match r.checker.verdict check (.blockFailed (r.blockDigest.getD [])) with
    | (.error e, c) => (.error e, { r with checker := c })
    | (.ok _, c) =>
      let r := { r with checker := c }
      match compareDigest r.activePayload r.payloadDigest with
      | .error e => (.error e, r)
      | .ok check =>
        match r.checker.verdict check (.payloadFailed (r.payloadDigest.getD [])) with
        | (.error e, c) => (.error e, { r with checker := c })
        | (.ok _, c) => (.ok (), { r with checker := c })

/-- `_update` (digestverifyingreader.py:88-108, limitreader.py:12-15). -/
def update (r : DigestReader σ) (b : Bytes) : Except PyErr Bytes × DigestReader σ :=
  let r : DigestReader σ := { r with
    lim := { r.lim with limit := r.lim.limit - len b },
    payloadDigester := if r.payloadOn then r.payloadDigester.map (·.update b) else r.payloadDigester,
    blockDigester := r.blockDigester.map (·.update b) }
  if r.lim.limit = 0 then
    match r.finish with
    | (.ok _, r) => (.ok b, r)
    | (.error e, r) => (.error e, r)
  else (.ok b, r)

variable [PyStream σ]

/-- `read` as inherited from `LimitReader`, with the overridden `_update`
(limitreader.py:17-27). -/
def read (r : DigestReader σ) (length : Option Int) : Except PyErr Bytes × DigestReader σ :=
  let n := r.lim.clampLen length
  if n = 0 then (.ok [], r)
  else
    match PyStream.read r.lim.stream (some n) with
    | (.ok b, s) => { r with lim := { r.lim with stream := s } }.update b
    | (.error e, s) => (.error e, { r with lim := { r.lim with stream := s } })

/-- `readline` as inherited from `LimitReader`, with the overridden `_update`
(limitreader.py:29-39). -/
def readline (r : DigestReader σ) (length : Option Int) : Except PyErr Bytes × DigestReader σ :=
  let n := r.lim.clampLen length
  if n = 0 then (.ok [], r)
  else
    match PyStream.readline r.lim.stream (some n) with
    | (.ok b, s) => { r with lim := { r.lim with stream := s } }.update b
    | (.error e, s) => (.error e, { r with lim := { r.lim with stream := s } })

end DigestReader

/-- A verifying reader is itself a stream (digestverifyingreader.py:38, limitreader.py:44-46). -/
instance {σ} [Hashlib] [PyStream σ] : PyStream (DigestReader σ) where
  read := DigestReader.read
  readline := DigestReader.readline
  tell r := r.lim.tell
  bound r := PyStream.bound r.lim.stream

end Warcio
