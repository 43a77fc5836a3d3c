import Verif.Proofs.CheckParts
import Verif.Props.PartsTools
import Verif.Props.Check

/-!
# Property C93: checking any uncompressed file

Specification: `CheckedParts`, `CheckLine` in `Verif/Spec/CheckParts.lean`, `Portion.Verdict` in
`Verif/Spec/Parts.lean`.
-/

set_option linter.unusedSectionVars false

namespace Warcio.Props

open Warcio ArchiveIter BufReader Checker

section
variable [Zlib] [TameZlib] [Hashlib] [PyUni] {IsMember : Bytes → Bytes → Prop}

/-- C93: `warcio check` on any uncompressed file, whatever it holds.  Each record is judged by the digest
headers it has, its block, and what is behind its HTTP headers: the content and transfer codings it
declares make no difference, and neither does the rest of the file.  A failure sets the exit value.
What is printed are the lines of the records, behind the name of the file if there is any.
The check ends as the iteration does, or with a record whose digest headers are not usable. -/
theorem C93_check (L : LawfulGzip IsMember) {f : FileObj} (h : Uncompressed f 16384) {m : Nat} (hl : Lined f 16384 m) (verbose : Bool) (name : Str) :
    ∃ x vs lines, CheckedParts { checkDigests := some .other } m verbose 0 none f.origin f.rest x vs lines ∧
      processOne verbose name f = (x, vs.any (· == some false), if lines = [] then [] else .file name :: lines) := by
  obtain ⟨V, it, hV, hX, k1, k2, k3⟩ := open_any L hl h.block h.first h.two h.magic { checkDigests := some .other } none
  obtain ⟨x, vs, lines, m1, m2⟩ := checkLoop_any L hV hX rfl rfl verbose name (PyStream.bound it.reader + 2) false (next_start k2) k3 (by have := open_bound k1; omega)
  refine ⟨x, vs, lines, m1, ?_⟩
  unfold processOne
  rw [k1]
  dsimp only
  rw [m2]
  cases lines <;> rfl

/-- C93: data that differ from what a digest header says are a failure, whatever else is in the record. -/
theorem C93_differs {p : Portion} {rec : Record Unit} {left : Bytes} {v : Option Bool} (h : p.Verdict rec left v) (hu : rec.Usable) (hn : rec.length = some (len p.block))
    (ho : (p.block ≠ [] ∧ Outcome p.block rec.digests.1 (some false)) ∨ Outcome left rec.digests.2 (some false)) : v = some false := by
  unfold Portion.Verdict at h
  rw [hn] at h
  dsimp only at h
  rw [if_neg (by omega)] at h
  rcases ho with ⟨h1, h2⟩ | h2
  · obtain ⟨op, h3⟩ := (hu left).2
    rw [h _ op (.compared _ h1 h2) h3]
    simp [overall]
  · have : ∃ ob, BlockOutcome p.block rec.digests.1 ob := by
      by_cases h1 : p.block = []
      · by_cases h3 : UnknownDigest rec.digests.1
        · exact ⟨_, .unusable h1 h3⟩
        · exact ⟨_, .passed_over h1 h3⟩
      · obtain ⟨ob, h3⟩ := (hu p.block).1
        exact ⟨ob, .compared _ h1 h3⟩
    obtain ⟨ob, h3⟩ := this
    rw [h ob _ h3 h2]
    simp [overall]

/-- C93: a record whose digests are all right is not a failure. -/
theorem C93_agrees {p : Portion} {rec : Record Unit} {left : Bytes} {v : Option Bool} (h : p.Verdict rec left v) (hn : rec.length = some (len p.block)) (hb : p.block ≠ []) {ob op : Option Bool}
    (h1 : Outcome p.block rec.digests.1 ob) (h2 : Outcome left rec.digests.2 op) (h3 : ob ≠ some false) (h4 : op ≠ some false) : v ≠ some false ∧ (v = some true ↔ ob = some true ∨ op = some true) := by
  unfold Portion.Verdict at h
  rw [hn] at h
  dsimp only at h
  rw [if_neg (by omega)] at h
  rw [h _ _ (.compared _ hb h1) h2]
  rcases ob with _ | _ | _ <;> rcases op with _ | _ | _ <;> simp_all [overall]

end

section
open Toy

/-- A response whose block is declared to be chunked and compressed and is neither, and a line that is none of it behind
its block; a record with a wrong digest; and a record that is cut off. -/
def exCoded : FileObj where
  content := utf8Encode (lit "WARC/1.1\r\nWARC-Type: response\r\nWARC-Target-URI: http://x/\r\nWARC-Payload-Digest: sha1:02c3c3c3c3c3c3c3c3c3c3c3c3c3c3c3c3c3c3c3\r\nContent-Length: 73\r\n\r\nHTTP/1.1 200 OK\r\nContent-Encoding: gzip\r\nTransfer-Encoding: chunked\r\n\r\nabnot blank\r\n") ++
    (exSum exWrong).bytes ++ utf8Encode (lit "WARC/1.1\r\nWARC-Type: metadata\r\nWARC-Block-Digest: sha1:02c3c3c3c3c3c3c3c3c3c3c3c3c3c3c3c3c3c3c3\r\nContent-Length: 7\r\n\r\nab")

/-- It meets the hypotheses. -/
example : Uncompressed exCoded 16384 ∧ Lined exCoded 16384 100 :=
  ⟨⟨by decide, by simp [exCoded], fun _ => by decide +kernel, by decide +kernel⟩, .inr ⟨rfl, by decide⟩⟩

/-- What is printed: a pass, a failure, and a digest that is not checked. -/
example : processOne true (lit "a") exCoded = (.ok (), true, [.file (lit "a"), .record 0 none (some (lit "response")) (some (lit "digest pass")) [],
    .record 233 none (some (lit "metadata")) none [.blockFailed exWrong], .record 357 none (some (lit "metadata")) (some (lit "digest present but not checked")) []]) := by
  decide +kernel

/-- The record with the wrong digest meets the hypotheses of the theorem on data that differ. -/
example : ∃ rec : Record Unit, rec.Usable ∧ rec.length = some (len (exSum exWrong).block) ∧ (exSum exWrong).block ≠ [] ∧ Outcome (exSum exWrong).block rec.digests.1 (some false) :=
  ⟨{ format := .warc, recType := some (lit "metadata"), recHeaders := { statusline := [], headers := (exSum exWrong).headers, protocol := lit "WARC/1.1" }, rawStream := (), httpHeaders := none, contentType := none, length := some 2, payloadLength := some (-1), checker := { kind := .other } },
   (exWrong_checkable 0).usable, rfl, by decide, .bad (lit "sha1") (lit "02c4c4c4c4c4c4c4c4c4c4c4c4c4c4c4c4c4c4c4") sha1 (2 :: List.replicate 19 0xc4) (by decide) rfl (.b16 _ _ (by decide) (by decide +kernel)) (by decide) (by decide)⟩

end
end Warcio.Props
