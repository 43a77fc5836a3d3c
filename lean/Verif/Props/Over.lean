import Verif.Model.Iterator
import Verif.Toy

/-!
# C103: an exception ends the iteration
-/

set_option linter.unusedSectionVars false

namespace Warcio.Props
open Warcio ArchiveIter

section
variable [PyUni] [Hashlib] [Zlib] {σ : Type} [PyStream σ]

theorem genLoop_over : ∀ {fuel : Nat} {it it' : ArchiveIter σ} {e : PyErr}, genLoop fuel it = (.error e, it') → e ≠ .outOfFuel → it'.gen = .finished
  | 0, _, _, _, h, he => by
    cases h
    exact absurd rfl he
  | fuel + 1, it, it', e, h, he => by
    unfold genLoop at h
    split at h
    · split at h
      · cases h; rfl
      · cases h
    · split at h
      · cases h; rfl
      · cases h; rfl
      · exact genLoop_over h he
    · cases h; rfl

theorem next_over {it it' : ArchiveIter σ} {e : PyErr} (h : it.next = (.error e, it')) (he : e ≠ .outOfFuel) : it'.gen = .finished := by
  unfold next at h
  split at h
  · cases h; assumption
  · exact genLoop_over h he
  · split at h
    · cases h; rfl
    · cases h; rfl
    · exact genLoop_over h he

/-- `n` calls of `next` (archiveiterator.py:93-94), with what each of them does. -/
def calls : Nat → ArchiveIter σ → List (Except PyErr Unit) × ArchiveIter σ
  | 0, it => ([], it)
  | n + 1, it =>
    let (x, it1) := it.next
    let (xs, it2) := calls n it1
    (x :: xs, it2)

/-- C103: once `next` has raised an exception, be it `StopIteration` or another one, each later call raises `StopIteration` and does nothing else: nothing is read, no record is set.
(`outOfFuel` is no exception of the code; see C38.) -/
theorem C103_over {it it' : ArchiveIter σ} {e : PyErr} (h : it.next = (.error e, it')) (he : e ≠ .outOfFuel) (n : Nat) : calls n it' = (List.replicate n (.error .stopIteration), it') := by
  have hg := next_over h he
  induction n with
  | zero => rfl
  | succ n ih =>
    have e1 : it'.next = (.error .stopIteration, it') := by
      unfold next
      rw [hg]
    simp only [calls, e1, ih, List.replicate_succ]

end

section
open Toy

/-- A record, and something that is none. -/
def exBroken : FileObj := { content := utf8Encode (lit "WARC/1.0\r\nContent-Length: 1\r\n\r\nx\r\n\r\nno record\r\n") }

/-- The second call raises an exception, each later one `StopIteration`. -/
example : (match openArchive exBroken with | .ok it => (calls 4 it).1 | .error _ => []) = [.ok (), .error .invalidWarc, .error .stopIteration, .error .stopIteration] := by
  decide +kernel

end
end Warcio.Props
