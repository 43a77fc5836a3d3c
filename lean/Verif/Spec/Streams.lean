import Verif.Py.Stream

/-!
# What a stream is expected to do

A history of `read`/`readline` calls, and the results an ideal stream with remaining data
`rem` gives.  This is the specification the readers are compared with; it does not use any
of their definitions.
-/

namespace Warcio

/-- A call a user makes on a stream. -/
inductive Call
  | read (n : Option Int)
  | readline (n : Option Int)
  deriving DecidableEq, Repr

/-- The length argument. -/
def Call.arg : Call → Option Int
  | .read n => n
  | .readline n => n

/-- The length argument is `None` or not negative. -/
def Call.nonneg (c : Call) : Prop := ∀ n, c.arg = some n → 0 ≤ n

instance (c : Call) : Decidable c.nonneg :=
  match h : c.arg with
  | none => isTrue (by intro n hn; rw [h] at hn; cases hn)
  | some m => if hm : 0 ≤ m then isTrue (by intro n hn; rw [h] at hn; cases hn; exact hm)
    else isFalse (fun hh => hm (hh m h))

/-- `read` with any argument, or `readline()` without one. -/
def Call.simple : Call → Bool
  | .read _ => true
  | .readline n => n.isNone

/-- Run one call. -/
def Call.run {σ} [PyStream σ] : Call → σ → Except PyErr Bytes × σ
  | .read n, s => PyStream.read s n
  | .readline n, s => PyStream.readline s n

/-- Run a history of calls, collecting the results. -/
def runCalls {σ} [PyStream σ] : σ → List Call → List (Except PyErr Bytes) × σ
  | s, [] => ([], s)
  | s, c :: cs =>
    let (r, s) := c.run s
    let (rs, s) := runCalls s cs
    (r :: rs, s)

/-- What a call returns on an ideal stream that still holds `rem`. -/
def Call.expect : Call → Bytes → Bytes
  | .read none, rem => rem
  | .read (some n), rem => rem.take n.toNat
  | .readline none, rem => takeLine rem
  | .readline (some n), rem => (takeLine rem).take n.toNat

/-- The results of a history on an ideal stream, and what is left then. -/
def expectCalls : Bytes → List Call → List Bytes × Bytes
  | rem, [] => ([], rem)
  | rem, c :: cs =>
    let b := c.expect rem
    let (bs, rem') := expectCalls (rem.drop b.length) cs
    (b :: bs, rem')

/-- Concatenation of the results that did not raise. -/
def okBytes : List (Except PyErr Bytes) → Bytes
  | [] => []
  | .ok b :: t => b ++ okBytes t
  | .error _ :: t => okBytes t

end Warcio
