import Verif.Py.Basic

/-!
# File-like objects

A stream is a state with `read`, `readline` and `tell`.  A length argument is `none`
(Python `None`) or any integer.  The result keeps the state also when an exception is
raised.
-/

namespace Warcio

/-- The file-like protocol that warcio's readers use of what they wrap
(limitreader.py:26,38; bufferedreaders.py:111,306,337; archiveiterator.py:17-23).
`bound` is not a Python method: an upper bound on the number of bytes still to come, used
as fuel for loops. -/
class PyStream (σ : Type) where
  read : σ → Option Int → Except PyErr Bytes × σ
  readline : σ → Option Int → Except PyErr Bytes × σ
  tell : σ → Int
  bound : σ → Nat

/-- How many bytes a length argument asks for: `None` and negative numbers mean all. -/
def askLen (n : Option Int) (avail : Nat) : Nat :=
  match n with
  | none => avail
  | some k => if k < 0 then avail else k.toNat

/-- `io.BytesIO` seen as its unread contents (bufferedreaders.py:132,166,190,
recordbuilder.py:46); `tell` is not available from the unread part and never used of it. -/
instance : PyStream Bytes where
  read s n := (.ok (s.take (askLen n s.length)), s.drop (askLen n s.length))
  readline s n :=
    let l := takeLine s
    (.ok (l.take (askLen n l.length)), s.drop (l.take (askLen n l.length)).length)
  tell _ := 0
  bound s := s.length

/-- A file, pipe or socket: contents, position, and a schedule of short reads.  Each
`read(n)` with `n > 0` consumes one entry of `caps`, which limits how many bytes that call
returns (at least one if any is left, as `read` of a raw stream behaves); once the schedule
is used up reads are full.  `seekable` tells whether `tell`/`seek` work. -/
structure FileObj where
  content : Bytes
  pos : Nat := 0
  caps : List Nat := []
  seekable : Bool := true
  deriving DecidableEq, Repr

namespace FileObj

/-- What is left to read. -/
def rest (f : FileObj) : Bytes := f.content.drop f.pos

/-- `fh.read(n)`. -/
def read (f : FileObj) (n : Option Int) : Except PyErr Bytes × FileObj :=
  match n with
  | none => (.ok f.rest, { f with pos := f.pos + f.rest.length })
  | some k =>
    if k < 0 then (.ok f.rest, { f with pos := f.pos + f.rest.length })
    else if k = 0 then (.ok [], f)
    else
      match f.caps with
      | [] => (.ok (f.rest.take k.toNat), { f with pos := f.pos + (f.rest.take k.toNat).length })
      | c :: cs =>
        let m := max 1 (min k.toNat c)
        (.ok (f.rest.take m), { f with pos := f.pos + (f.rest.take m).length, caps := cs })

/-- `fh.readline(n)`. -/
def readline (f : FileObj) (n : Option Int) : Except PyErr Bytes × FileObj :=
  let l := takeLine f.rest
  let l := l.take (askLen n l.length)
  (.ok l, { f with pos := f.pos + l.length })

/-- `fh.seek(p)` for an absolute position (recordbuilder.py:181,207; extractor.py:17);
an unseekable stream raises. -/
def seek (f : FileObj) (p : Nat) : Except PyErr FileObj :=
  if f.seekable then .ok { f with pos := p } else .error .attributeError

end FileObj

instance : PyStream FileObj where
  read := FileObj.read
  readline := FileObj.readline
  tell f := f.pos
  bound f := f.rest.length

/-- `UnseekableYetTellable` (archiveiterator.py:12-23): counts the bytes handed out by a
stream that cannot `tell`. -/
structure UnseekableYetTellable (σ : Type) where
  fh : σ
  offset : Int := 0

/-- archiveiterator.py:17-23.  The class has no `readline`; it is never called on it, and
the model raises `AttributeError`. -/
instance {σ} [PyStream σ] : PyStream (UnseekableYetTellable σ) where
  read u n :=
    match PyStream.read u.fh n with
    | (.ok b, fh) => (.ok b, { fh := fh, offset := u.offset + len b })
    | (.error e, fh) => (.error e, { u with fh := fh })
  readline u _ := (.error .attributeError, u)
  tell u := u.offset
  bound u := PyStream.bound u.fh

end Warcio
