import Verif.Spec.Index
import Verif.Model.Tools

/-!
# What `warcio check` says

The verdict on a record, from what its digest headers say (`Outcome`, `Verif/Spec/Digest.lean`) of its
block and of its payload; and what is printed.
-/

namespace Warcio

section
variable [PyUni] [Hashlib]

/-- The payload of a record: what follows the HTTP headers, with lines of at most `m` bytes, if it has any;
otherwise the block. -/
inductive WarcRecord.Payload (w : WarcRecord) (m : Nat) : Bytes → Prop
  | whole : ¬ w.Http ∨ w.block = [] → w.Payload m w.block
  | http (h : StatusAndHeaders) (p : Bytes) : w.Http → HeadWithin m w.block → lineText (takeLine w.block) ≠ [] → HttpHead w.block h p → w.Payload m p

/-- The digest headers of the record that are looked at: for the block and for the payload. -/
def WarcRecord.digests (w : WarcRecord) : Option Str × Option Str :=
  lookedAt (w.value (lit "WARC-Type")) (w.value (lit "WARC-Segment-Number")) (w.value (lit "WARC-Block-Digest")) (w.value (lit "WARC-Payload-Digest"))

/-- The verdict on a record. -/
def WarcRecord.Verdict (w : WarcRecord) (m : Nat) (v : Option Bool) : Prop :=
  ∃ p ob op, w.Payload m p ∧ BlockOutcome w.block w.digests.1 ob ∧ Outcome p w.digests.2 op ∧ v = overall ob op

end

/-- What is said of a record that is not a failure. -/
def WarcRecord.note [PyUni] (w : WarcRecord) (v : Option Bool) : Str :=
  if v = some true then lit "digest pass"
  else if (w.value (lit "WARC-Payload-Digest")).getD [] = [] ∧ (w.value (lit "WARC-Block-Digest")).getD [] = [] then lit "no digest to check"
  else if w.value (lit "WARC-Type") = some (lit "revisit") then lit "digest present but not checked (revisit)"
  else lit "digest present but not checked"

/-- The lines for records with these verdicts: one for each failure, with some problem; and, if they are asked for
(`verbose`), one for each of the others. -/
inductive CheckLines [PyUni] (verbose : Bool) : List (Located × Option Bool) → List Checker.Print → Prop
  | nil : CheckLines verbose [] []
  | bad (x xs ps out) : ps ≠ [] → CheckLines verbose xs out →
      CheckLines verbose ((x, some false) :: xs)
        (.record x.offset (x.record.value (lit "WARC-Record-ID")) (x.record.value (lit "WARC-Type")) none ps :: out)
  | quiet (x v xs out) : v ≠ some false → verbose = false → CheckLines verbose xs out → CheckLines verbose ((x, v) :: xs) out
  | note (x v xs out) : v ≠ some false → verbose = true → CheckLines verbose xs out →
      CheckLines verbose ((x, v) :: xs)
        (.record x.offset (x.record.value (lit "WARC-Record-ID")) (x.record.value (lit "WARC-Type")) (some (x.record.note v)) [] :: out)

/-- What is printed for a file: its name before its lines, if there are any; and that it could not be read, if so. -/
def checkReport (name : Str) (lines : List Checker.Print) (failed : Bool) : List Checker.Print :=
  (if lines = [] then [] else .file name :: lines) ++ if failed then [.failure name] else []

/-- The whole output, for inputs with these records and verdicts; `true` if reading ended with an error. -/
inductive CheckOutput [PyUni] (verbose : Bool) : List (Str × List (Located × Option Bool) × Bool) → List Checker.Print → Prop
  | nil : CheckOutput verbose [] []
  | cons (name xs failed lines rest out) : CheckLines verbose xs lines → CheckOutput verbose rest out →
      CheckOutput verbose ((name, xs, failed) :: rest) (checkReport name lines failed ++ out)

/-- Operations after which nothing is left of a record. -/
def UserOp.Finishes (o : UserOp) : Prop := o = .call (.read none) ∨ o = .toEnd ∨ o = .offset ∨ o = .size

/-- Iterate, performing some operations and then another one on each record, and then look at `record.digest_checker`: its `passed` and its
`problems`. -/
def verdicts {σ} [Zlib] [PyStream σ] [Hashlib] [PyUni] (it : ArchiveIter σ) : List (List UserOp × UserOp) → List (Except PyErr (Option Bool × List Problem))
  | [] => []
  | (ops, o) :: plan =>
    match it.next with
    | (.error e, _) => [.error e]
    | (.ok _, it) =>
      match it.current with
      | none => [.error .attributeError]
      | some rec =>
        let it' := (runOps it (ops ++ [o])).2
        let c := ({ rec with rawStream := it'.raw } : Record _).digestChecker
        .ok (c.passed, c.problems) :: verdicts it' plan

end Warcio
