import Verif.Spec.Parts

/-!
# Any file of gzip members, cut into records

What an iteration does to a list of gzip members, whatever they hold.
-/

namespace Warcio

section
variable [PyUni] [Hashlib]

/-- What an operation gives on a record that is in the member at `off`, of `size` bytes, while its
stream holds `left`, and `left'` afterwards.  The size is that of the member if there is nothing
behind the record but what is skipped.  The warnings are lines that were behind the records
(their positions mean nothing in a compressed file).  Only the check of a digest raises. -/
def Portion.GzAnswer (io : IterOpts) (p : Portion) (off size : Int) (ws : List Bytes) (left : Bytes) (op : UserOp) (v : Except PyErr UserVal)
    (left' : Bytes) : Prop :=
  (io.checkDigests.isSome = true ∧ (∃ e, v = .error e) ∧ op ≠ .errors ∧ left' <:+ left) ∨
  match op with
  | .call c => ∃ q, v = .ok (.bytes q) ∧ left = q ++ left' ∧ (q = [] → left = [] ∨ c.arg = some 0) ∧ (∀ n, c = .read n → q = c.expect left)
  | .offset => v = .ok (.int off) ∧ left' = []
  | .size => ∃ k, v = .ok (.int k) ∧ left' = [] ∧ (resumed p.tail = [] → k = size)
  | .toEnd => v = .ok .unit ∧ left' = []
  | .errors => left' = left ∧ ∃ out, v = .ok (.warned out.length out) ∧ (out.map (·.2) = ws ∨ out.map (·.2) = ws ++ strayLines p.tail)

/-- A list of operations. -/
inductive Portion.GzAnswers (io : IterOpts) (p : Portion) (off size : Int) (ws : List Bytes) : Bytes → List UserOp → List (Except PyErr UserVal) → Prop
  | nil (left) : Portion.GzAnswers io p off size ws left [] []
  | cons (left op v left' ops vs) : p.GzAnswer io off size ws left op v left' → Portion.GzAnswers io p off size ws left' ops vs →
      Portion.GzAnswers io p off size ws left (op :: ops) (v :: vs)

/-- How an iteration goes on behind the first record of the last member, if there is more in this
member than what is skipped: it ends, and an error is raised unless no record follows. -/
inductive Surplus (io : IterOpts) (m n : Nat) (kf : Option Format) (data : Bytes) : List (List UserOp) → List Step → Prop
  | enough : Surplus io m n kf data [] []
  | multi (ops plan) (p : Portion) (rec) : data = p.all → p.Shows (io.load kf (io.ids n)) rec →
      Surplus io m n kf data (ops :: plan) (.error .nonChunkedGzip :: plan.map (fun _ => .error .stopIteration))
  | over (ops plan) (e : PyErr) : Over (io.load kf (io.ids n)) m data e → Surplus io m n kf data (ops :: plan) (.error e :: plan.map (fun _ => .error .stopIteration))
  | broken (ops plan) (e : PyErr) : io.checkDigests.isSome = true → e ≠ .stopIteration →
      Surplus io m n kf data (ops :: plan) (.error e :: plan.map (fun _ => .error .stopIteration))

/-- An iteration over members, each of them given with what it holds; the first one starts at
`off` in the file.  In each member there is one record.  `n` records have been loaded, and `ws`
are the lines that were worth a warning.  After a member that is not the last one and
has more than one record, or no record but no error either, nothing is said. -/
inductive GzParts (io : IterOpts) (m : Nat) : Nat → Option Format → Int → List Bytes → List (Bytes × Bytes) → List (List UserOp) → List Step → Prop
  | enough (n kf off ws ms) : GzParts io m n kf off ws ms [] []
  | nil (n kf off ws ops plan) : GzParts io m n kf off ws [] (ops :: plan) (.error .stopIteration :: plan.map (fun _ => .error .stopIteration))
  | record (n kf off ws) (z : Bytes) (p : Portion) (ms ops plan rec left vs steps) : p.Shows (io.load kf (io.ids n)) rec → p.Parsed (io.load kf (io.ids n)) m rec left →
      left <:+ p.block → (io.noRecordParse = true ∨ ¬ HttpType rec.recType → left = p.block) → p.GzAnswers io off (len z) ws left ops vs →
      resumed p.tail = [] → GzParts io m (n + 1) (if io.arc2warc then kf else some rec.format) (off + len z) (ws ++ strayLines p.tail) ms plan steps →
      GzParts io m n kf off ws ((z, p.all) :: ms) (ops :: plan) (.ok (some rec, vs) :: steps)
  | several (n kf off ws) (z : Bytes) (p : Portion) (ms ops plan rec left vs steps) : p.Shows (io.load kf (io.ids n)) rec → p.Parsed (io.load kf (io.ids n)) m rec left →
      left <:+ p.block → (io.noRecordParse = true ∨ ¬ HttpType rec.recType → left = p.block) → p.GzAnswers io off (len z) ws left ops vs →
      resumed p.tail ≠ [] → (ms = [] → Surplus io m (n + 1) (if io.arc2warc then kf else some rec.format) (resumed p.tail) plan steps) →
      GzParts io m n kf off ws ((z, p.all) :: ms) (ops :: plan) (.ok (some rec, vs) :: steps)
  | broken (n kf off ws ms ops plan) (e : PyErr) : 0 < n → io.checkDigests.isSome = true → e ≠ .stopIteration →
      GzParts io m n kf off ws ms (ops :: plan) (.error e :: plan.map (fun _ => .error .stopIteration))
  | over (n kf off ws) (z data : Bytes) (ms ops plan) (e : PyErr) : Over (io.load kf (io.ids n)) m data e → e ≠ .stopIteration ∨ ms = [] →
      GzParts io m n kf off ws ((z, data) :: ms) (ops :: plan) (.error e :: plan.map (fun _ => .error .stopIteration))
  | hollow (n kf off ws) (z data : Bytes) (ms plan steps) : ms ≠ [] → Over (io.load kf (io.ids n)) m data .stopIteration →
      GzParts io m n kf off ws ((z, data) :: ms) plan steps

end
end Warcio
