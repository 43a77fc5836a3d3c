import Verif.Spec.GzTools
import Verif.Spec.CopyParts

/-!
# What is expected of a copy of any file of gzip members
-/

namespace Warcio

section
variable [PyUni] [Hashlib]

/-- `Murky io m n ms`: before its end an iteration over the members comes to one that is not the last one, and has
more than one record, or no record but no error either. -/
inductive Murky (io : IterOpts) (m : Nat) : Nat → List (Bytes × Bytes) → Prop
  | several (n) (z : Bytes) (p : Portion) (ms) (rec : Record Unit) : p.Shows (io.load none (io.ids n)) rec → resumed p.tail ≠ [] → ms ≠ [] → Murky io m n ((z, p.all) :: ms)
  | hollow (n) (z data : Bytes) (ms) : ms ≠ [] → Over (io.load none (io.ids n)) m data .stopIteration → Murky io m n ((z, data) :: ms)
  | later (n) (z : Bytes) (p : Portion) (ms) (rec : Record Unit) : p.Shows (io.load none (io.ids n)) rec → resumed p.tail = [] → Murky io m (n + 1) ms → Murky io m n ((z, p.all) :: ms)

/-- `GzCopied io f flt m n ms x bs`: `bs` are the copies of the records in the members, one for each, in
order; `n` records were loaded before.  It ends behind the last member, with the exception of the loader, with HTTP headers
that cannot be encoded, or with the error for a second record in the last member. -/
inductive GzCopied (io : IterOpts) (f : Bytes → Bytes) (flt : Str × Str → Option (Str × Str)) (m : Nat) : Nat → List (Bytes × Bytes) → Except PyErr Unit → List Bytes → Prop
  | nil (n) : GzCopied io f flt m n [] (.ok ()) []
  | over (n) (z data : Bytes) (ms) (e : PyErr) : Over (io.load none (io.ids n)) m data e → e ≠ .stopIteration ∨ ms = [] →
      GzCopied io f flt m n ((z, data) :: ms) (if e = .stopIteration then .ok () else .error e) []
  | stuck (n) (z : Bytes) (p : Portion) (ms) (rec : Record Unit) (left h e) : p.Shows (io.load none (io.ids n)) rec → p.Parsed (io.load none (io.ids n)) m rec left → rec.httpHeaders = some h → (h.toAsciiBytes flt).1 = .error e →
      GzCopied io f flt m n ((z, p.all) :: ms) (.error e) []
  | record (n) (z : Bytes) (p : Portion) (ms) (rec : Record Unit) (left hb hs b x bs) : p.Shows (io.load none (io.ids n)) rec → p.Parsed (io.load none (io.ids n)) m rec left → left <:+ p.block → (¬ HttpType rec.recType → left = p.block) →
      CopiedRecord f flt rec left hb hs b → resumed p.tail = [] → GzCopied io f flt m (n + 1) ms x bs → GzCopied io f flt m n ((z, p.all) :: ms) x (b :: bs)
  | last (n) (z : Bytes) (p : Portion) (rec : Record Unit) (left hb hs b x) : p.Shows (io.load none (io.ids n)) rec → p.Parsed (io.load none (io.ids n)) m rec left → left <:+ p.block → (¬ HttpType rec.recType → left = p.block) →
      CopiedRecord f flt rec left hb hs b → resumed p.tail ≠ [] → EndsWith io m (n + 1) none (resumed p.tail) x → GzCopied io f flt m n [(z, p.all)] x [b]

end
end Warcio
