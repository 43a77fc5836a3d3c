import Verif.Proofs.CopyAny
import Verif.Props.Recompress

/-!
# The tools on any input: C79 (they end), C80 (what `recompress` reports)
-/

set_option linter.unusedSectionVars false

namespace Warcio.Props
open Warcio Recompressor ArchiveIter

section
variable [Zlib] [Hashlib] [PyUni]

theorem open_fuel [TameZlib] {f : FileObj} {io : IterOpts} {bs : Nat} {kf : Option Format} {it : ArchiveIter Source} (h : openArchive f io bs kf = .ok it) : it.left < PyStream.bound it.reader + 2 := by
  have hb := Tame.bound it.reader
  have hm : it.memberInfo = none := by
    unfold openArchive ArchiveIter.new at h
    split at h
    · cases h; rfl
    · cases h
  unfold ArchiveIter.left
  rw [hm]
  have : (if (none : Option (Int × Int)).isSome = true then (it.nextLine.getD []).length else 0) = 0 := rfl
  omega

theorem open_calm {f : FileObj} {io : IterOpts} {bs : Nat} {kf : Option Format} : openArchive f io bs kf ≠ .error .outOfFuel := by
  intro h
  unfold openArchive ArchiveIter.new at h
  split at h
  · cases h
  · rename_i hr
    cases h
    unfold BufReader.new at hr
    dsimp only at hr
    split at hr <;> cases hr

theorem load_ends [TameZlib] [Deflater] (c : BuilderCfg) (ids : Nat → Str) (f : FileObj) :
    (loadAndWrite c ids f).1 ≠ .error .outOfFuel ∧ ∀ n, (loadAndWrite c ids f).1 = .ok n → n ≤ (Zlib.ratio + 1) * f.rest.length := by
  unfold loadAndWrite
  split
  · rename_i h; exact ⟨(fun h' => by cases h'; exact open_calm h), (fun n h => by cases h)⟩
  · rename_i it h
    obtain ⟨k1, k2⟩ := openArchive_left h
    obtain ⟨i1, i2⟩ := copyLoop_uses c _ it {} 0 k1 (open_fuel h)
    exact ⟨i1, fun n hn => by have := i2 n hn; omega⟩

theorem new_pot [TameZlib] {f : FileObj} {r : BufReader FileObj} (h : BufReader.new f 16384 (some .gzip) true = .ok r) (g : FileObj) : pot ({ r with stream := g } : BufReader FileObj) = (Zlib.ratio + 1) * g.rest.length := by
  unfold BufReader.new at h
  dsimp only at h
  split at h
  · cases h
    show 0 + (BufReader.credit (some { kind := .gzip }) + (Zlib.ratio + 1) * (0 + pot g)) = _
    have hc : BufReader.credit (some { kind := .gzip }) = 0 := by
      unfold BufReader.credit; simp
    rw [hc, Nat.zero_add, Nat.zero_add, Nat.zero_add]
    rfl
  · cases h

/-- C79 for `recompress`: whatever the file holds and however it is read, both attempts come to an end,
and the number of records that is reported is bounded by the size of the file. -/
theorem C79_recompress [TameZlib] [Deflater] (c : BuilderCfg) (ids : Nat → Str) (f : FileObj) (again : List Nat) :
    (loadAndWrite c ids f).1 ≠ .error .outOfFuel ∧ (decompressAndRecompress c ids f again).1 ≠ .error .outOfFuel ∧
    (∀ n, (recompress c ids f again).1 = .noErrors n → n ≤ (Zlib.ratio + 1) * f.content.length) ∧
    (∀ n, (recompress c ids f again).1 = .fixed n → n ≤ (Zlib.ratio + 1) * ((Zlib.ratio + 1) * f.content.length)) := by
  obtain ⟨a1, a2⟩ := load_ends c ids f
  have hr : f.rest.length ≤ f.content.length := by rw [FileObj.rest, List.length_drop]; omega
  have hd : (decompressAndRecompress c ids f again).1 ≠ .error .outOfFuel ∧ ∀ n, (decompressAndRecompress c ids f again).1 = .ok n → n ≤ (Zlib.ratio + 1) * ((Zlib.ratio + 1) * f.content.length) := by
    unfold decompressAndRecompress
    split
    · rename_i h
      refine ⟨(fun h' => ?_), (fun n h => by cases h)⟩
      cases h'
      unfold BufReader.new at h
      dsimp only at h
      split at h <;> cases h
    · rename_i r h
      split
      · rename_i h
        refine ⟨(fun h' => ?_), (fun n h => by cases h)⟩
        cases h'
        unfold FileObj.seek at h
        split at h <;> cases h
      · rename_i g hg
        have hc : g.content = f.content := by
          unfold FileObj.seek at hg
          split at hg
          · cases hg; rfl
          · cases hg
        have hgr : ({ g with caps := again } : FileObj).rest.length ≤ f.content.length := by
          rw [FileObj.rest, List.length_drop, ← hc]
          exact Nat.sub_le _ _
        have hu := readAllBlocks_uses 65536 ({ r with stream := { g with caps := again } } : BufReader FileObj)
        rw [new_pot h] at hu
        generalize readAllBlocks 65536 ({ r with stream := { g with caps := again } } : BufReader FileObj) = y at *
        obtain ⟨bufs, y, s⟩ := y
        cases y with
        | error e => exact ⟨(fun h => hu.2 (by cases h; rfl)), (fun n h => by cases h)⟩
        | ok u =>
          dsimp only at hu ⊢
          obtain ⟨b1, b2⟩ := load_ends c ids { content := bufs.flatten }
          refine ⟨b1, fun n hn => Nat.le_trans (b2 n hn) (Nat.mul_le_mul_left _ ?_)⟩
          have h1 : ({ content := bufs.flatten } : FileObj).rest.length = bufs.flatten.length := rfl
          rw [h1]
          have := Nat.mul_le_mul_left (Zlib.ratio + 1) hgr
          omega
  refine ⟨a1, hd.1, ?_, ?_⟩
  · intro n hn
    unfold recompress at hn
    split at hn
    · rename_i m _ h
      cases hn
      exact Nat.le_trans (a2 n (by rw [h])) (Nat.mul_le_mul_left _ hr)
    · split at hn <;> cases hn
  · intro n hn
    unfold recompress at hn
    split at hn
    · cases hn
    · split at hn
      · rename_i h
        cases hn
        exact hd.2 n (by rw [h])
      · cases hn

/-- C79 for `index`: for any list of files, whatever they hold, it comes to an end. -/
theorem C79_index [TameZlib] (fields : List Str) (v : Bool) (ids : Nat → Str) (files : List (Str × FileObj)) : (Indexer.index fields v ids files).1 ≠ .error .outOfFuel := by
  induction files with
  | nil => exact (fun h => by cases h)
  | cons x t ih =>
    obtain ⟨name, f⟩ := x
    unfold Indexer.index
    have h1 : (Indexer.indexFile fields v ids name f).1 ≠ .error .outOfFuel := by
      unfold Indexer.indexFile
      split
      · rename_i h; exact (fun h' => by cases h'; exact open_calm h)
      · rename_i it h; exact (indexLoop_uses name fields _ it (openArchive_left h).1 (open_fuel h)).1
    generalize Indexer.indexFile fields v ids name f = y at *
    obtain ⟨y, es⟩ := y
    cases y with
    | error e => exact (fun h => h1 (by cases h; rfl))
    | ok u => exact ih

/-- C79 for `index`: the number of lines for a file is bounded by its size. -/
theorem C79_lines [TameZlib] (fields : List Str) (v : Bool) (ids : Nat → Str) (name : Str) (f : FileObj) :
    (Indexer.indexFile fields v ids name f).2.length ≤ (Zlib.ratio + 1) * f.rest.length := by
  unfold Indexer.indexFile
  split
  · exact Nat.zero_le _
  · rename_i it h
    have := (indexLoop_uses name fields _ it (openArchive_left h).1 (open_fuel h)).2
    rw [(openArchive_left h).2] at this
    exact this

/-- C79 for `check`. -/
theorem C79_check [TameZlib] (verbose : Bool) (files : List (Str × FileObj)) (exit : Nat) : (Checker.processAll verbose files exit).1 ≠ .error .outOfFuel := by
  induction files generalizing exit with
  | nil => exact (fun h => by cases h)
  | cons x t ih =>
    obtain ⟨name, f⟩ := x
    unfold Checker.processAll
    have h1 : (Checker.processOne verbose name f).1 ≠ .error .outOfFuel := by
      unfold Checker.processOne
      split
      · rename_i h; exact (fun h' => by cases h'; exact open_calm h)
      · rename_i it h; exact checkLoop_uses verbose name _ it false (openArchive_left h).1 (open_fuel h)
    generalize Checker.processOne verbose name f = y at *
    obtain ⟨y, bad, out⟩ := y
    cases y with
    | error e =>
      dsimp only
      split
      · exact ih 1
      · exact (fun h => h1 (by cases h; rfl))
    | ok u => exact ih _

/-- C79 for `extract`. -/
theorem C79_extract [TameZlib] (f : FileObj) (offset : Str) (payloadOnly headersOnly : Bool) : (Extractor.extractAt f offset payloadOnly headersOnly).1 ≠ .error .outOfFuel := by
  unfold Extractor.extractAt
  split
  · exact (fun h => by cases h)
  · unfold Extractor.extract
    split
    · exact (fun h => by cases h)
    · split
      · rename_i h
        intro h'
        cases h'
        unfold FileObj.seek at h
        split at h <;> cases h
      · rename_i g _
        split
        · rename_i h; exact (fun h' => by cases h'; exact open_calm h)
        · rename_i it h
          obtain ⟨n1, n2, -⟩ := next_uses it (openArchive_left h).1
          generalize it.next = y at *
          obtain ⟨y, it1⟩ := y
          cases y with
          | error e => exact (fun h => n1 (by cases h; rfl))
          | ok u =>
            dsimp only
            split
            · exact (fun h => by cases h)
            · exact output_uses _ _ _

/-! ## C80 -/

variable [Deflater] {IsMember : Bytes → Bytes → Prop}

theorem load_any (D : LawfulDeflater IsMember) {c : BuilderCfg} (hc : c.gzip = true) (ids : Nat → Str) (f : FileObj) {n : Nat} {out : OutFile} (h : loadAndWrite c ids f = (.ok n, out)) :
    OutputOf IsMember n out := by
  unfold loadAndWrite at h
  split at h
  · cases h
  · rename_i it _
    obtain ⟨ms, m1, m2, m3⟩ := copyLoop_any D hc _ it {} 0 rfl n (by rw [h])
    rw [h] at m3
    exact ⟨ms, by omega, m2, m3⟩

/-- C80: whatever file `recompress` is given, if it reports `n` records, then the output is `n` gzip
members with one record in each: a version line, headers with a length, a block, two empty lines.  In
part: a record may lack the version line (`C80_headless`), and its length may be wrong. -/
theorem C80_report_partial (D : LawfulDeflater IsMember) {c : BuilderCfg} (hc : c.gzip = true) (ids : Nat → Str) (f : FileObj) (again : List Nat) {n : Nat}
    (h : (recompress c ids f again).1 = .noErrors n ∨ (recompress c ids f again).1 = .fixed n) : OutputOf IsMember n (recompress c ids f again).2 := by
  unfold recompress at h ⊢
  split at h
  · rename_i m out hl
    rcases h with h | h
    · cases h; exact load_any D hc ids f hl
    · cases h
  · split at h
    · rename_i m out hl
      rcases h with h | h
      · cases h
      · cases h
        unfold decompressAndRecompress at hl
        split at hl
        · cases hl
        · split at hl
          · cases hl
          · split at hl
            · cases hl
            · exact load_any D hc ids _ hl
    · rcases h with h | h <;> cases h

/-- C80: "No Errors Found!" exactly if the file could be read record by record; "Errors Found and Fixed"
exactly if that failed, and its decompressed contents could be read; exit code 1 if both failed. -/
theorem C80_outcome (c : BuilderCfg) (ids : Nat → Str) (f : FileObj) (again : List Nat) :
    (∀ n, (recompress c ids f again).1 = .noErrors n ↔ (loadAndWrite c ids f).1 = .ok n) ∧
    (∀ n, (recompress c ids f again).1 = .fixed n ↔ (∃ e, (loadAndWrite c ids f).1 = .error e) ∧ (decompressAndRecompress c ids f again).1 = .ok n) ∧
    ((recompress c ids f again).1 = .failed ↔ (∃ e, (loadAndWrite c ids f).1 = .error e) ∧ ∃ e, (decompressAndRecompress c ids f again).1 = .error e) := by
  unfold recompress
  generalize loadAndWrite c ids f = x
  generalize decompressAndRecompress c ids f again = y
  obtain ⟨x, o1⟩ := x
  obtain ⟨y, o2⟩ := y
  cases x with
  | ok a => simp
  | error e =>
    cases y with
    | ok b => simp
    | error e' => simp

end

section
open Toy

/-- A file that begins with an empty line. -/
def exBlank : Bytes := utf8Encode (lit "\r\nWARC/1.0\r\nWARC-Type: resource\r\nContent-Length: 1\r\n\r\nx\r\n\r\n")

/-- C80 fails: of a WARC file that begins with an empty line, `recompress` reports one record and no
errors, and writes one that begins with a header; its block is all the file. -/
theorem C80_headless : (loadAndWrite { gzip := false } (fun _ => []) { content := exBlank }) =
    (.ok 1, ({} : OutFile).extended (utf8Encode (lit "WARC-Payload-Digest: sha1:HGQKBIFAUCQKBIFAUCQKBIFAUCQKBIFA\r\nWARC-Block-Digest: sha1:HGQKBIFAUCQKBIFAUCQKBIFAUCQKBIFA\r\nContent-Length: 57\r\n\r\nWARC/1.0\r\nWARC-Type: resource\r\nContent-Length: 1\r\n\r\nx\r\n\r\n\r\n\r\n"))) ∧
    (recompress { gzip := true } (fun _ => []) { content := exBlank } []).1 = .noErrors 1 := by
  decide +kernel

/-- The output for such a file can then not be read by warcio. -/
theorem C80_unreadable : (Checker.processAll false [(lit "a", { content := (recompress { gzip := true } (fun _ => []) { content := exBlank } []).2.content })] 0) =
    (.ok 1, [.failure (lit "a")]) := by
  decide +kernel

/-- The three outcomes occur. -/
example : (recompress { gzip := true } (fun _ => []) exFile []).1 = .noErrors 2 ∧
    (recompress { gzip := true } (fun _ => []) { content := compress (exNumbered "1" ++ exNumbered "2") } []).1 = .fixed 2 ∧
    (recompress { gzip := true } (fun _ => []) { content := utf8Encode (lit "what is this?") } []).1 = .failed := by
  decide +kernel

/-- C80 for a file of two records and a third one that is cut off in its block. -/
example : ∃ n, (recompress { gzip := true } (fun _ => []) { content := exFile.content ++ exFile.content.take 100 } []).1 = .noErrors n := ⟨3, by decide +kernel⟩

example : OutputOf IsMember 3 (recompress { gzip := true } (fun _ => []) { content := exFile.content ++ exFile.content.take 100 } []).2 :=
  C80_report_partial lawfulDeflater rfl _ _ _ (.inl (by decide +kernel))

/-- C79: index, check and extract of a file that is no archive. -/
example : (Indexer.indexFile [lit "offset"] false (fun _ => []) (lit "a") { content := utf8Encode (lit "what is this?\r\n\r\n") }) = (.error .unknownFormat, []) ∧
    (Checker.processAll false [(lit "a", { content := utf8Encode (lit "what is this?\r\n\r\n") })] 0) = (.ok 1, [.failure (lit "a")]) ∧
    (Extractor.extractAt { content := utf8Encode (lit "what is this?\r\n\r\n") } (lit "0") false false) = (.error .unknownFormat, []) := by
  decide +kernel

end
end Warcio.Props
