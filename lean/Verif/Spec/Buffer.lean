import Verif.Model.BufferWriter

/-!
# What is expected of a writer that keeps its records in a buffer
-/

namespace Warcio
namespace BufferWriter

/-- What a user does: write, look at the contents, or get the stream and read it to its end, with
reads of these lengths first. -/
inductive BufStep (σ : Type) where
  | record (r : OutRecord σ)
  | pair (req resp : OutRecord σ)
  | contents
  | readAll (ns : List Nat)

/-- The calls for it. -/
def BufStep.calls {σ : Type} : BufStep σ → List (BufCall σ)
  | .record r => [.record r]
  | .pair req resp => [.pair req resp]
  | .contents => [.contents]
  | .readAll ns => .stream :: (ns.map (fun n => .read (some n)) ++ [.read none])

variable {σ : Type} [PyUni] [Hashlib] [PyFile σ] [Deflater]

/-- `Keeps c b steps answers e`: with `b` in the buffer the steps give these answers, and `e` is in the
buffer then.  What is written is what would be written to a file of its own, and is added at the
end; contents and stream give all that was written. -/
inductive Keeps (c : BuilderCfg) : Bytes → List (BufStep σ) → List Answer → Bytes → Prop
  | nil (b) : Keeps c b [] [] b
  | record {b r x r' o steps as e} : Writer.write c r {} = (x, r', o) → Keeps c (b ++ o.content) steps as e →
      Keeps c b (.record r :: steps) (.done x :: as) e
  | pair {b req resp x req' resp' o steps as e} : Writer.writePair c req resp {} = (x, req', resp', o) → Keeps c (b ++ o.content) steps as e →
      Keeps c b (.pair req resp :: steps) (.done x :: as) e
  | contents {b steps as e} : Keeps c b steps as e → Keeps c b (.contents :: steps) (.bytes b :: as) e
  | readAll {b steps as e} (ns : List Nat) (pieces : List Bytes) : pieces.length = ns.length + 1 → pieces.flatten = b → Keeps c b steps as e →
      Keeps c b (.readAll ns :: steps) (.done (.ok ()) :: (pieces.map .bytes ++ as)) e

end BufferWriter
end Warcio
