import Verif.Model.WarcWriter

/-!
# Model of /repo/warcio/capture_http.py

What happens to the recorder is a sequence of events.  Sockets and `http.client` are not modelled:
they decide which events happen, and what the response stream holds.
-/

namespace Warcio

/-- `request_out` and `response_out` (capture_http.py:137-138,153-160,200-201): a temporary file
that is only written at its end. -/
inductive Spool
  | absent
  | opened (b : Bytes)
  | closed
  deriving DecidableEq, Repr

/-- `out.write(buff)` (capture_http.py:168,172). -/
def Spool.write (s : Spool) (b : Bytes) : Except PyErr Unit × Spool :=
  match s with
  | .absent => (.error .attributeError, s)
  | .opened a => (.ok (), .opened (a ++ b))
  | .closed => (.error .valueError, s)

/-- `RequestRecorder` (capture_http.py:134-145), without its writer and its filter.  `headers` is
the dictionary `warc_headers`. -/
structure Recorder where
  recordIp : Bool := true
  requestOut : Spool := .absent
  responseOut : Spool := .absent
  url : Option Str := none
  connectHost : Option Str := none
  connectPort : Option Int := none
  started : Bool := false
  firstLineRead : Bool := false
  headers : List Header := []
  deriving DecidableEq, Repr

namespace Recorder

/-- `d[k] = v` for a dictionary (capture_http.py:164,219,229). -/
def setItem : List Header → Str → Str → List Header
  | [], k, v => [(k, v)]
  | (k', v') :: t, k, v => if k' = k then (k, v) :: t else (k', v') :: setItem t k v

/-- `start_tunnel()` (capture_http.py:147-150). -/
def startTunnel (r : Recorder) : Recorder := { r with connectHost := none, connectPort := none, started := false, firstLineRead := false }

/-- `start()` (capture_http.py:152-157). -/
def start (r : Recorder) : Recorder :=
  { r with requestOut := .opened [], responseOut := .opened [], url := none, started := true, firstLineRead := false }

/-- `set_remote_ip(remote_ip)` (capture_http.py:162-164). -/
def setRemoteIp (r : Recorder) (ip : Option Str) : Recorder :=
  if r.recordIp && !(ip.getD []).isEmpty then { r with headers := setItem r.headers (lit "WARC-IP-Address") (ip.getD []) } else r

/-- `write_request(buff)` (capture_http.py:166-168). -/
def writeRequest (r : Recorder) (b : Bytes) : Except PyErr Unit × Recorder :=
  if r.started then
    let (x, s) := r.requestOut.write b
    (x, { r with requestOut := s })
  else (.ok (), r)

/-- `write_response(buff)` (capture_http.py:170-172). -/
def writeResponse (r : Recorder) (b : Bytes) : Except PyErr Unit × Recorder :=
  if r.started then
    let (x, s) := r.responseOut.write b
    (x, { r with responseOut := s })
  else (.ok (), r)

/-- Setting the URL of a request that is not `CONNECT` (capture_http.py:222-238). -/
def setUrl (r : Recorder) (path host : Str) (port default : Int) : Recorder :=
  let host := if (r.connectHost.getD []).isEmpty then host else r.connectHost.getD []
  let port := if r.connectPort.getD 0 = 0 then port else r.connectPort.getD 0
  if startsWith (lit "http:") path || startsWith (lit "https:") path then
    { r with headers := setItem r.headers (lit "WARC-Proxy-Host") (lit "http://" ++ host ++ lit ":" ++ intToStr port), url := some path }
  else
    let url := (if default = 443 then lit "https" else lit "http") ++ lit "://" ++ host
    let url := if port ≠ default then url ++ lit ":" ++ intToStr port else url
    { r with url := some (url ++ path) }

section
variable [PyUni]

/-- A `CONNECT` request (capture_http.py:215-220). -/
def setConnect (r : Recorder) (path host : Str) (port default : Int) : Except PyErr Unit × Recorder :=
  let r := { r with connectHost := some (split1 ':' path).1 }
  match (match (split1 ':' path).2 with
    | none => (.ok default : Except PyErr Int)
    | some p => match parseInt p with
      | some n => .ok n
      | none => .error .valueError) with
  | .error e => (.error e, r)
  | .ok n =>
    (.ok (), { r with connectPort := some n, headers := setItem r.headers (lit "WARC-Proxy-Host") (lit "https://" ++ host ++ lit ":" ++ intToStr port) })

/-- `extract_url(data, host, port, default_port)` (capture_http.py:203-238). -/
def extractUrl (r : Recorder) (data : Bytes) (host : Str) (port default : Int) : Except PyErr Unit × Recorder :=
  if r.firstLineRead then (.ok (), r)
  else
    let r := { r with firstLineRead := true }
    match split1 ' ' (latin1Decode (takeLine data)) with
    | (_, none) => (.error .indexError, r)
    | (verb, some t) =>
      let path := (split1 ' ' t).1
      if verb = lit "CONNECT" then r.setConnect path host port default
      else (.ok (), r.setUrl path host port default)

variable [Hashlib]

/-- `_create_record(out, record_type)` (capture_http.py:174-182).  Without a URL
`load_http_headers` fails unless the length is 0 (recordloader.py:175-184). -/
def createRecord (c : BuilderCfg) (env : Env) (r : Recorder) (s : Spool) (recType : Str) : Except PyErr (OutRecord FileObj) :=
  match s with
  | .absent => .error .attributeError
  | .closed => .error .valueError
  | .opened b =>
    if r.url.isNone && !b.isEmpty then .error .attributeError
    else Builder.createRecord c env { uri := r.url.getD [], recType := recType, payload := some (.mem { content := b }), length := some (len b), dict := r.headers }

/-- A filter function (capture_http.py:193); it is assumed not to raise and not to change anything. -/
abbrev Filter := OutRecord FileObj → OutRecord FileObj → Recorder → Option (OutRecord FileObj) × Option (OutRecord FileObj)

/-- The part of `done` under `try` (capture_http.py:188-198).  `envs` are the environments of the
two new records. -/
def store [Deflater] (c : BuilderCfg) (flt : Option Filter) (envs : Env × Env) (r : Recorder) (out : OutFile) : Except PyErr Unit × OutFile :=
  match r.createRecord c envs.1 r.requestOut (lit "request") with
  | .error e => (.error e, out)
  | .ok req =>
    match r.createRecord c envs.2 r.responseOut (lit "response") with
    | .error e => (.error e, out)
    | .ok resp =>
      match (match flt with | some f => f req resp r | none => (some req, some resp)) with
      | (some req, some resp) =>
        let (x, _, _, out) := Writer.writePair c req resp out
        (x, out)
      | _ => (.ok (), out)

/-- `done()` (capture_http.py:184-201).  Once a request is started there are buffers to close. -/
def done [Deflater] (c : BuilderCfg) (flt : Option Filter) (envs : Env × Env) (r : Recorder) (out : OutFile) : Except PyErr Unit × Recorder × OutFile :=
  if r.started then
    let (x, out) := r.store c flt envs out
    (x, { r with requestOut := .closed, responseOut := .closed }, out)
  else (.ok (), r, out)

end
end Recorder

namespace Capture

/-- What can happen to the recorder.
* `tunnel`: `_tunnel` (capture_http.py:120-124).
* `start`: `putrequest` (capture_http.py:126-129).
* `line`: `send_request` before sending (capture_http.py:103).
* `sent`: `send_request` after sending (capture_http.py:106).
* `response`: a `RecordingStream` is made (capture_http.py:23-27).
* `read`, `readline`, `readinto`, `close`: its methods (capture_http.py:48-67). -/
inductive Event (τ : Type)
  | tunnel
  | start
  | line (data : Bytes) (host : Str) (port default : Int)
  | sent (data : Bytes)
  | response (fp : τ) (ip : Option Str)
  | read (n : Option Int)
  | readline (n : Option Int)
  | readinto (buff : Bytes)
  | close (envs : Env × Env)

/-- What an event gives to its caller (capture_http.py:51,57,62). -/
inductive Result
  | none
  | bytes (b : Bytes)
  | into (n : Int) (buff : Bytes)
  deriving DecidableEq, Repr

/-- The recorder, the stream of the current response and the file of the writer
(capture_http.py:24-25,135). -/
structure State (τ : Type) where
  recorder : Recorder := {}
  fp : τ
  out : OutFile := {}

variable {τ : Type} [PyStream τ] [PyUni] [Hashlib] [Deflater]

omit [PyUni] [Hashlib] [Deflater] in
/-- `self.recorder.write_response(buff)` behind reading (capture_http.py:50,56,61). -/
def record (s : State τ) (fp : τ) (b : Bytes) (r : Result) : Except PyErr Result × State τ :=
  let (x, rec) := s.recorder.writeResponse b
  (x.map (fun _ => r), { s with recorder := rec, fp := fp })

/-- One event.  `readinto` records the whole buffer (capture_http.py:54-57). -/
def step (c : BuilderCfg) (flt : Option Recorder.Filter) (s : State τ) : Event τ → Except PyErr Result × State τ
  | .tunnel => (.ok .none, { s with recorder := s.recorder.startTunnel })
  | .start => (.ok .none, { s with recorder := s.recorder.start })
  | .line data host port default =>
    let (x, rec) := s.recorder.extractUrl data host port default
    (x.map (fun _ => .none), { s with recorder := rec })
  | .sent data =>
    let (x, rec) := s.recorder.writeRequest data
    (x.map (fun _ => .none), { s with recorder := rec })
  | .response fp ip => (.ok .none, { s with recorder := s.recorder.setRemoteIp ip, fp := fp })
  | .read n =>
    match PyStream.read s.fp n with
    | (.error e, fp) => (.error e, { s with fp := fp })
    | (.ok b, fp) => record s fp b (.bytes b)
  | .readline n =>
    match PyStream.readline s.fp n with
    | (.error e, fp) => (.error e, { s with fp := fp })
    | (.ok b, fp) => record s fp b (.bytes b)
  | .readinto buff =>
    match PyStream.read s.fp (some (len buff)) with
    | (.error e, fp) => (.error e, { s with fp := fp })
    | (.ok b, fp) => record s fp (b ++ buff.drop b.length) (.into (len b) (b ++ buff.drop b.length))
  | .close envs =>
    let (x, rec, out) := s.recorder.done c flt envs s.out
    (x.map (fun _ => .none), { s with recorder := rec, out := out })

/-- Events one after the other; an exception does not end the capture (capture_http.py:260-263). -/
def run (c : BuilderCfg) (flt : Option Recorder.Filter) : State τ → List (Event τ) → List (Except PyErr Result) × State τ
  | s, [] => ([], s)
  | s, e :: es =>
    let (x, s) := step c flt s e
    let (xs, s) := run c flt s es
    (x :: xs, s)

/-- `send(data)` over an open connection (capture_http.py:97-118). -/
def send (data : Bytes) (host : Str) (port default : Int) : List (Event τ) := [.line data host port default, .sent data]

end Capture
end Warcio
