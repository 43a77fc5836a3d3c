import Verif.Spec.Written

/-!
# What is expected when a file is recompressed twice (C84), and of the index of a recompressed file (C85)
-/

namespace Warcio

/-- What a compressor returns in the end depends on the data alone, not on the pieces in which it was given. -/
def Deflater.Uniform [Deflater] : Prop :=
  ∀ ws vs : List Bytes, ws.flatten = vs.flatten → Deflater.outFrom [] ws ++ Deflater.flush ws = Deflater.outFrom [] vs ++ Deflater.flush vs

/-- A field of the index that says something about the record, and not about the file: not a position, not the name of the file, and none of the headers that
recompressing may write anew. -/
structure Lasting [PyUni] (name : Str) : Prop where
  place : name ≠ lit "offset" ∧ name ≠ lit "length" ∧ name ≠ lit "filename"
  length : PyUni.lower (lit "Content-Length") ≠ PyUni.lower name
  payload : PyUni.lower (lit "WARC-Payload-Digest") ≠ PyUni.lower name
  block : PyUni.lower (lit "WARC-Block-Digest") ≠ PyUni.lower name

end Warcio
