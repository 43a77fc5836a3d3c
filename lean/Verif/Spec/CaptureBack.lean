import Verif.Spec.Capture
import Verif.Spec.CreateBack

/-!
# A capture that is read back and checked
-/

namespace Warcio.Capture

open Builder

/-- An exchange: what happens before the request is started, what happens until the response is closed, the times and ids for the request and the response, the URL,
the recorder's headers, and the two messages, each as HTTP headers and payload. -/
structure Exchange (τ : Type) where
  before : List (Event τ)
  inner : List (Event τ)
  envs : Env × Env
  url : Str
  dict : List (Str × Str)
  request : StatusAndHeaders × Bytes
  response : StatusAndHeaders × Bytes

namespace Exchange

variable {τ : Type}

/-- Everything that happens. -/
def events (x : Exchange τ) : List (Event τ) := x.before ++ .start :: x.inner ++ [.close x.envs]

/-- The bytes of a message. -/
def bytesOf (m : StatusAndHeaders × Bytes) : Bytes := utf8Encode (headText m.1.protocol m.1.statusline m.1.headers) ++ m.2

/-- The response, as a record that is to be created. -/
def responseItem (x : Exchange τ) : NewItem :=
  { env := x.envs.2, args := exchangeArgs x.url (lit "response") (bytesOf x.response) x.dict, http := some x.response.1, payload := x.response.2 }

/-- The request. -/
def requestItem (x : Exchange τ) : NewItem :=
  { env := x.envs.1, args := exchangeArgs x.url (lit "request") (bytesOf x.request) x.dict, http := some x.request.1, payload := x.request.2 }

section
variable [PyStream τ] [PyUni] [Hashlib] [Deflater]

/-- The exchange happens in the state `s`, with these messages: no response is closed before the request starts; `readinto` fills its buffers; the bytes sent and received are the messages.
What is written in headers fits there. -/
structure Happens (c : BuilderCfg) (flt : Option Recorder.Filter) (s : State τ) (x : Exchange τ) : Prop where
  quiet : ∀ e ∈ x.before, ∀ envs, e ≠ .close envs
  inner : ∀ e ∈ x.inner, e.Inner
  full : ∀ r ∈ (run c flt (run c flt s (x.before ++ [.start])).2 x.inner).1, Full r
  url : (run c flt (run c flt s (x.before ++ [.start])).2 x.inner).2.recorder.url = some x.url
  dict : (run c flt (run c flt s (x.before ++ [.start])).2 x.inner).2.recorder.headers = x.dict
  web : lit "http:" <+: x.url ∨ lit "https:" <+: x.url
  request : Message (lit "request") x.request.1 x.request.2 (sentBytes x.inner)
  response : Message (lit "response") x.response.1 x.response.2 (receivedBytes (run c flt (run c flt s (x.before ++ [.start])).2 x.inner).1)
  dates : (IsDate x.envs.1.now ∧ x.envs.1.now.aware = false) ∧ IsDate x.envs.2.now ∧ x.envs.2.now.aware = false
  ids : GoodHeader (lit "WARC-Record-ID", x.envs.1.newId) ∧ GoodHeader (lit "WARC-Record-ID", x.envs.2.newId) ∧ x.envs.2.newId ≠ []
  goodUrl : GoodHeader (lit "WARC-Target-URI", x.url) ∧ WarcRecord.TidyUri x.url
  goodDict : ∀ h ∈ x.dict, GoodHeader h

/-- The exchanges happen one after the other. -/
def AllHappen (c : BuilderCfg) (flt : Option Recorder.Filter) : State τ → List (Exchange τ) → Prop
  | _, [] => True
  | s, x :: xs => x.Happens c flt s ∧ AllHappen c flt (run c flt s x.events).2 xs

end

/-- The record `rec` with `left` in its stream is the request of the exchange, linked to the response. -/
structure RequestBack [PyUni] (f : Bytes → Bytes) (version : Str) (io : IterOpts) (m : Nat) (x : Exchange τ) (rec : Record Unit) (left : Bytes) : Prop where
  format : rec.format = .warc
  recType : rec.recType = some (lit "request")
  firstLine : rec.recHeaders.protocol = version ∧ rec.recHeaders.statusline = []
  headers : ∃ hs, NewInFile f version x.envs.2 x.url (lit "response") x.dict (bytesOf x.response) x.response.2 hs ∧
    LinkedRequest f x.url x.envs.1 x.dict (bytesOf x.request) x.request.2 hs rec.recHeaders.headers
  length : rec.length = some (len (bytesOf x.request))
  block : io.noRecordParse = true → left = bytesOf x.request ∧ (io.ensureHttpHeaders = false → rec.httpHeaders = none)
  http : io.noRecordParse = false → HeadWithin m (bytesOf x.request) →
    left = x.request.2 ∧ rec.httpHeaders.map (fun h => (h.protocol, h.statusline, h.headers)) = some (x.request.1.protocol, x.request.1.statusline, x.request.1.headers)

/-- The records of a capture, in order, from the position `off` on, with the bytes that were written for each response and request. -/
def back [PyUni] (f : Bytes → Bytes) (version : Str) (gzip : Bool) (io : IterOpts) (m : Nat) : Int → List (Exchange τ × Bytes × Bytes) → List Expected
  | _, [] => []
  | off, (x, z, z') :: t =>
    { shows := NewItem.Back f version io m x.responseItem, off := off, size := if gzip then len z else len z - 4, line := m } ::
    { shows := RequestBack f version io m x, off := off + len z, size := if gzip then len z' else len z' - 4, line := m } :: back f version gzip io m (off + len z + len z') t

/-- The bodies can be decoded, and the lines of the HTTP headers are short enough for this. -/
structure Sound [PyUni] [Zlib] (IsCoded : DType → Bytes → Bytes → Prop) (m : Nat) (x : Exchange τ) : Prop where
  lines : 64 ≤ m ∧ HeadWithin m (bytesOf x.request) ∧ HeadWithin m (bytesOf x.response)
  request : ∃ d, BodyData IsCoded (firstValue (lit "content-encoding") x.request.1.headers) (firstValue (lit "transfer-encoding") x.request.1.headers) x.request.2 d
  response : ∃ d, BodyData IsCoded (firstValue (lit "content-encoding") x.response.1.headers) (firstValue (lit "transfer-encoding") x.response.1.headers) x.response.2 d

/-- What is to be said of an exchange: of the response, then of the request, that they are right. -/
def said (x : Exchange τ) : List (Str × Str × Prop) := [(x.envs.2.newId, lit "response", True), (x.envs.1.newId, lit "request", True)]

end Exchange
end Warcio.Capture
