import Verif.Model.WarcWriter

/-! # Model of `BufferWARCWriter` (/repo/warcio/warcwriter.py:145-159) -/

namespace Warcio

/-- `self.out.seek(n)` (warcwriter.py:152,154,158). -/
def OutFile.seek (o : OutFile) (n : Nat) : OutFile := { o with pos := n }

/-- `read(n)`, or `read()`, of the temporary file (warcwriter.py:153, recordbuilder.py:228-230). -/
def OutFile.read (o : OutFile) (n : Option Nat) : Bytes × OutFile :=
  let b := match n with
    | none => o.content.drop o.pos
    | some n => (o.content.drop o.pos).take n
  (b, { o with pos := o.pos + b.length })

/-- `BufferWARCWriter.get_contents()` (warcwriter.py:150-155). -/
def OutFile.getContents (o : OutFile) : Bytes × OutFile :=
  let pos := o.pos
  let (buff, o) := (o.seek 0).read none
  (buff, o.seek pos)

/-- `BufferWARCWriter.get_stream()` (warcwriter.py:157-159): the file itself, at its start. -/
def OutFile.getStream (o : OutFile) : OutFile := o.seek 0

namespace BufferWriter

/-- What a user calls: `write_record` (warcwriter.py:136-137), `write_request_response_pair`
(warcwriter.py:22-33), `get_contents`, `get_stream` (warcwriter.py:150-159), and `read` of the file
that the latter returned. -/
inductive BufCall (σ : Type) where
  | record (r : OutRecord σ)
  | pair (req resp : OutRecord σ)
  | contents
  | stream
  | read (n : Option Nat)

/-- What it returns, or raises. -/
inductive Answer where
  | done (x : Except PyErr Unit)
  | bytes (b : Bytes)
  deriving DecidableEq

variable {σ : Type} [PyUni] [Hashlib] [PyFile σ] [Deflater]

/-- One call (warcwriter.py:22-33,136-159).  All of them work on the one temporary file
(warcwriter.py:147-148). -/
def call (c : BuilderCfg) (o : OutFile) : BufCall σ → Answer × OutFile
  | .record r => let (x, _, o) := Writer.write c r o; (.done x, o)
  | .pair req resp => let (x, _, _, o) := Writer.writePair c req resp o; (.done x, o)
  | .contents => let (b, o) := o.getContents; (.bytes b, o)
  | .stream => (.done (.ok ()), o.getStream)
  | .read n => let (b, o) := o.read n; (.bytes b, o)

/-- The calls one after the other; exceptions are caught by the user.  `BufferWARCWriter(...)` starts
with an empty file (warcwriter.py:146-148). -/
def run (c : BuilderCfg) : OutFile → List (BufCall σ) → List Answer × OutFile
  | o, [] => ([], o)
  | o, x :: xs =>
    let (a, o) := call c o x
    let (as, o) := run c o xs
    (a :: as, o)

end BufferWriter
end Warcio
