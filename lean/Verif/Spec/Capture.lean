import Verif.Spec.Create
import Verif.Model.Capture

/-!
# What is expected of a capture

`Event` is the vocabulary of the model; what is sent and received, and the URL of a request, are
described here without the recorder.
-/

namespace Warcio.Capture

variable {τ : Type}

/-- The data starts with a request line with this verb and this target, which are separated by a
space, and a space or the end of the line follows. -/
def RequestLine (data : Bytes) (verb target : Str) : Prop :=
  ' ' ∉ verb ∧ ' ' ∉ target ∧ ∃ t, latin1Decode (takeLine data) = verb ++ ' ' :: target ++ t ∧ (t = [] ∨ t.head? = some ' ')

/-- The URL of a request for this target that is sent to a host. -/
def urlOf (host : Str) (port default : Int) (target : Str) : Str :=
  if lit "http:" <+: target ∨ lit "https:" <+: target then target
  else (if default = 443 then lit "https://" else lit "http://") ++ host ++ (if port = default then [] else ':' :: intToStr port) ++ target

/-- A `CONNECT` request starts here. -/
def Event.Connects : Event τ → Prop
  | .line data _ _ _ => ∃ t, latin1Decode (takeLine data) = lit "CONNECT " ++ t
  | _ => False

/-- An event between the start of a request and the end of its response. -/
def Event.Inner : Event τ → Prop
  | .tunnel | .start | .close _ => False
  | _ => True

/-- No request line. -/
def Event.NoLine : Event τ → Prop
  | .line .. => False
  | _ => True

/-- The bytes that are sent. -/
def sentBytes : List (Event τ) → Bytes
  | [] => []
  | .sent b :: t => b ++ sentBytes t
  | _ :: t => sentBytes t

/-- The bytes that the reader of the response is given. -/
def receivedBytes : List (Except PyErr Result) → Bytes
  | [] => []
  | .ok (.bytes b) :: t => b ++ receivedBytes t
  | .ok (.into n buff) :: t => buff.take n.toNat ++ receivedBytes t
  | _ :: t => receivedBytes t

/-- The last address that a response came from, as far as it is known. -/
def lastIp : List (Event τ) → Option Str
  | [] => none
  | .response _ (some ip) :: t => (lastIp t).or (if ip = [] then none else some ip)
  | _ :: t => lastIp t

/-- `readinto` filled its buffer. -/
def Full : Except PyErr Result → Prop
  | .ok (.into n buff) => n = len buff
  | _ => True

/-- `hs` are headers in the file of a request that is linked to a response with the headers `hs0`. -/
structure LinkedRequest [PyUni] (f : Bytes → Bytes) (uri : Str) (env : Env) (dict : List (Str × Str)) (block payload : Bytes) (hs0 hs : List (Str × Str)) : Prop where
  type : values (lit "WARC-Type") hs = [lit "request"]
  uri : values (lit "WARC-Target-URI") hs = [uri]
  date : values (lit "WARC-Date") hs = values (lit "WARC-Date") hs0
  id : values (lit "WARC-Record-ID") hs = [env.newId]
  concurrent : values (lit "WARC-Concurrent-To") hs = values (lit "WARC-Record-ID") hs0
  length : values (lit "Content-Length") hs = [intToStr (len block)]
  blockDigest : values (lit "WARC-Block-Digest") hs = [sha1Text f block]
  payloadDigest : values (lit "WARC-Payload-Digest") hs = [sha1Text f payload]
  others : without (madeNames ++ ownNames ++ [lit "WARC-Concurrent-To"]) hs = without (madeNames ++ ownNames ++ [lit "WARC-Concurrent-To"]) dict

/-- The arguments for a record of an exchange (capture_http.py:174-182). -/
def exchangeArgs (url recType : Str) (block : Bytes) (dict : List (Str × Str)) : Builder.CreateArgs FileObj :=
  { uri := url, recType := recType, payload := some (.mem { content := block }), length := some (len block), dict := dict }

end Warcio.Capture
