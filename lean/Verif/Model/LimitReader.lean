import Verif.Py.Stream

/-! # `/repo/warcio/limitreader.py` -/

namespace Warcio

/-- `LimitReader` (limitreader.py:2-10). -/
structure LimitReader (σ : Type) where
  stream : σ
  limit : Int
  origLimit : Int
  deriving DecidableEq, Repr

namespace LimitReader

variable {σ : Type}

/-- `LimitReader.__init__` (limitreader.py:7-10). -/
def mk' (s : σ) (limit : Int) : LimitReader σ := { stream := s, limit := limit, origLimit := limit }

/-- The length actually asked for (limitreader.py:18-21, 30-33). -/
def clampLen (r : LimitReader σ) (length : Option Int) : Int :=
  match length with
  | some n => min n r.limit
  | none => r.limit

variable [PyStream σ]

/-- `LimitReader.read` with `_update` (limitreader.py:12-15, 17-27). -/
def read (r : LimitReader σ) (length : Option Int) : Except PyErr Bytes × LimitReader σ :=
  let n := r.clampLen length
  if n = 0 then (.ok [], r)
  else
    match PyStream.read r.stream (some n) with
    | (.ok b, s) => (.ok b, { r with stream := s, limit := r.limit - len b })
    | (.error e, s) => (.error e, { r with stream := s })

/-- `LimitReader.readline` with `_update` (limitreader.py:12-15, 29-39). -/
def readline (r : LimitReader σ) (length : Option Int) : Except PyErr Bytes × LimitReader σ :=
  let n := r.clampLen length
  if n = 0 then (.ok [], r)
  else
    match PyStream.readline r.stream (some n) with
    | (.ok b, s) => (.ok b, { r with stream := s, limit := r.limit - len b })
    | (.error e, s) => (.error e, { r with stream := s })

/-- `LimitReader.tell` (limitreader.py:44-46). -/
def tell (r : LimitReader σ) : Int := r.origLimit - r.limit

end LimitReader

/-- A `LimitReader` is itself a stream. -/
instance {σ} [PyStream σ] : PyStream (LimitReader σ) where
  read := LimitReader.read
  readline := LimitReader.readline
  tell := LimitReader.tell
  bound r := PyStream.bound r.stream

/-- Outcome of `LimitReader.wrap_stream` on a stream that is not a `LimitReader`
(limitreader.py:48-67): the wrapped stream, or the stream unaltered when the length is
negative.  The length is an integer at every call site (recordloader.py:130-131). -/
def LimitReader.wrapStream {σ} (s : σ) (contentLength : Int) : LimitReader σ ⊕ σ :=
  if 0 ≤ contentLength then .inl (LimitReader.mk' s contentLength) else .inr s

/-- `LimitReader.wrap_stream` on a stream that already is a `LimitReader`: the smaller limit
is kept (limitreader.py:59-60). -/
def LimitReader.rewrap {σ} (r : LimitReader σ) (contentLength : Int) : LimitReader σ :=
  if 0 ≤ contentLength then { r with limit := min r.limit contentLength } else r

end Warcio
