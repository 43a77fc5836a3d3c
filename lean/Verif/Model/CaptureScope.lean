import Verif.Model.Capture

/-!
# Model of `capture_http` itself (/repo/warcio/capture_http.py:78-95,242-268)

Which connections are recorded, and by which recorder.  A world of threads, `with` blocks and
connections; what happens on a connection is an event of `Verif/Model/Capture.lean`.
-/

namespace Warcio
namespace CaptureScope

/-- The argument `warc_writer` (capture_http.py:246-258): none, so that a `BufferWARCWriter` is made; a
writer, with what its file holds; or the name of a file, which may exist. -/
inductive Target
  | buffer
  | writer (out : OutFile)
  | file (append : Bool) (existing : Option Bytes)
  deriving DecidableEq

/-- What is written to (capture_http.py:247-258): a new temporary file, the file of the writer, or the
opened file.  `none`: mode `x` raises `FileExistsError`. -/
def Target.open : Target → Option OutFile
  | .buffer => some {}
  | .writer o => some o
  | .file true e => some { content := e.getD [], pos := (e.getD []).length }
  | .file false none => some {}
  | .file false (some _) => none

/-- `out` is set (capture_http.py:245,255-258,266). -/
def Target.named : Target → Bool
  | .file _ _ => true
  | _ => false

/-- The arguments of `capture_http` (capture_http.py:243-244): the writer and its settings, the filter,
`record_ip`. -/
structure Args where
  target : Target := .buffer
  cfg : BuilderCfg := {}
  filter : Option (Recorder.Filter) := none
  recordIp : Bool := true

/-- `gzip` is off for the writer that is made if there is none (capture_http.py:248-251); `asked`: the
caller has set it. -/
def Args.settings (a : Args) (asked : Bool) : BuilderCfg :=
  if a.target = .buffer && !asked then { a.cfg with gzip := false } else a.cfg

/-- A `with` block: its recorder and its file (capture_http.py:257-261), and whether the file has been
closed. -/
structure Block (τ : Type) where
  cfg : BuilderCfg
  filter : Option (Recorder.Filter)
  named : Bool
  closed : Bool := false
  state : Capture.State τ

/-- `RecordingHTTPConnection.local.recorder` of each thread (capture_http.py:79,261,265), the blocks in
the order in which they were entered, and the recorders of the connections (capture_http.py:83-86). -/
structure World (τ : Type) where
  local_ : Nat → Option Nat := fun _ => none
  blocks : List (Block τ) := []
  conns : List (Option Nat) := []

/-- What can happen: a thread enters a block (capture_http.py:243-262), leaves it
(capture_http.py:264-267), or makes a connection (capture_http.py:81-92); something happens on a
connection. -/
inductive Act (τ : Type)
  | enter (t : Nat) (args : Args) (asked : Bool) (fp : τ)
  | leave (t k : Nat)
  | connect (t : Nat)
  | event (i : Nat) (e : Capture.Event τ)

/-- What its caller gets: something, or an exception. -/
inductive Reply
  | done (x : Except PyErr Capture.Result)
  | fileExists
  deriving DecidableEq

variable {τ : Type} [PyStream τ] [PyUni] [Hashlib] [Deflater]

/-- An event for a recorder whose file may be closed: then writing to it raises `ValueError`
(capture_http.py:197,267).  Simplified: an exception between two writes is not told apart. -/
def Block.step (b : Block τ) (e : Capture.Event τ) : Except PyErr Capture.Result × Block τ :=
  let (x, s) := Capture.step b.cfg b.filter b.state e
  if b.closed && s.out ≠ b.state.out then (.error .valueError, { b with state := { s with out := b.state.out } })
  else (x, { b with state := s })

omit [PyStream τ] [PyUni] [Hashlib] [Deflater] in
/-- `local.recorder = …` in a thread (capture_http.py:261,265). -/
def World.set (w : World τ) (t : Nat) (r : Option Nat) : World τ := { w with local_ := fun u => if u = t then r else w.local_ u }

/-- One of these.  On a connection without recorder everything is left to `http.client`
(capture_http.py:88-92,97-100,120-129). -/
def step (w : World τ) : Act τ → Reply × World τ
  | .enter t a asked fp =>
    match a.target.open with
    | none => (.fileExists, w)
    | some out =>
      let start : Capture.State τ := { recorder := { recordIp := a.recordIp }, fp := fp, out := out }
      let b : Block τ := { cfg := a.settings asked, filter := a.filter, named := a.target.named, state := start }
      (.done (.ok .none), World.set { w with blocks := w.blocks ++ [b] } t (some w.blocks.length))
  | .leave t k =>
    (.done (.ok .none), World.set { w with blocks := w.blocks.modify k (fun b => { b with closed := b.closed || b.named }) } t none)
  | .connect t => (.done (.ok .none), { w with conns := w.conns ++ [w.local_ t] })
  | .event i e =>
    match w.conns[i]? with
    | some (some k) =>
      match w.blocks[k]? with
      | some b =>
        let (x, b) := b.step e
        (.done x, { w with blocks := w.blocks.set k b })
      | none => (.done (.ok .none), w)
    | _ => (.done (.ok .none), w)

/-- Any number of them; exceptions do not stop the others. -/
def run : World τ → List (Act τ) → List Reply × World τ
  | w, [] => ([], w)
  | w, a :: as =>
    let (x, w) := step w a
    let (xs, w) := run w as
    (x :: xs, w)

end CaptureScope
end Warcio
