import Verif.Spec.CheckParts
import Verif.Spec.CopyParts

/-!
# Files that can be put before others
-/

namespace Warcio

section
variable [PyUni] [Hashlib]

/-- `data` consists of `k` records: each one can be loaded, declares its length, is all there, and has something
behind its block.  HTTP status lines that are verified are in header blocks with lines of at most `m` bytes.  `n` records have been loaded before, and `kf` is the format that is known; `kf'` is the one
that is known afterwards. -/
inductive Complete (io : IterOpts) (m : Nat) : Nat → Option Format → Bytes → Nat → Option Format → Prop
  | nil (n kf) : Complete io m n kf [] 0 kf
  | record (n kf) (p : Portion) (rec : Record Unit) (k kf') : p.Shows (io.load kf (io.ids n)) rec → (∀ e, ¬ Over (io.load kf (io.ids n)) m p.all e) →
      rec.length = some (len p.block) → p.tail ≠ [] → Complete io m (n + 1) (if io.arc2warc then kf else some rec.format) (resumed p.tail) k kf' →
      Complete io m n kf p.all (k + 1) kf'

/-- `data` ends at the end of a line. -/
def EndsLine (data : Bytes) : Prop := ∃ d, data = d ++ [10]

end
end Warcio
