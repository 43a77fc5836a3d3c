import Verif.Toy
import Verif.Spec.Written

/-!
# A toy compressor

It keeps everything until `flush` and then gives one member of the toy format.  It stands for
`zlib.compressobj` (warcwriter.py:115) in examples.
-/

namespace Warcio.Toy

/-- The toy `compressobj` (warcwriter.py:115-126). -/
scoped instance deflater : Deflater where
  compress _ _ := []
  flush hist := compress hist.flatten

theorem outFrom_nil (ws pre : List Bytes) : Deflater.outFrom pre ws = [] := by
  induction ws generalizing pre with
  | nil => rfl
  | cons w ws ih => simp [Deflater.outFrom, ih, Deflater.compress]

theorem lawfulDeflater : LawfulDeflater IsMember := by
  intro ws
  rw [outFrom_nil]
  rfl

/-- The toy SHA-1 (utils.py:28-49). -/
def sha1 (d : Bytes) : Bytes := UInt8.ofNat d.length :: List.replicate 19 (d.foldl (· + ·) 0)

theorem sha1_eq : Hashlib.hash (lit "sha1") = some sha1 := rfl

end Warcio.Toy
